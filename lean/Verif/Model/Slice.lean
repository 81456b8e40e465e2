import Verif.Model.Basic
/-
Go slices: views of shared backing arrays.
-/
set_option autoImplicit false

namespace Anansi

/-- A slice: array number, offset, length and capacity. -/
structure Slice where
  arr : Nat := 0
  off : Nat := 0
  len : Nat := 0
  cap : Nat := 0
deriving DecidableEq, Repr

/-- Backing arrays. -/
abbrev Arrays := List Bytes

namespace Slice

/-- The elements. -/
def content (h : Arrays) (s : Slice) : Bytes := ((h.getD s.arr []).drop s.off).take s.len

/-- Go's `append`: in place when there is room, else into a new array, whose capacity is
up to the runtime (`grow`, given the old capacity and the length needed). -/
def append (grow : Nat → Nat → Nat) (h : Arrays) (s : Slice) (xs : Bytes) : Arrays × Slice :=
  if s.len + xs.length ≤ s.cap then
    (h.set s.arr ((h.getD s.arr []).take (s.off + s.len) ++ xs ++ (h.getD s.arr []).drop (s.off + s.len + xs.length)),
      { s with len := s.len + xs.length })
  else
    let need := s.len + xs.length
    let c := max need (grow s.cap need)
    (h ++ [s.content h ++ xs ++ List.replicate (c - need) 0], ⟨h.length, 0, need, c⟩)

/-- Several appends in turn. -/
def appends (grow : Nat → Nat → Nat) : Arrays → Slice → List Bytes → Arrays × Slice
  | h, s, [] => (h, s)
  | h, s, xs :: l => let r := append grow h s xs; appends grow r.1 r.2 l

end Slice
end Anansi
