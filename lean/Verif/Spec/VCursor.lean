import Verif.Spec.Render
/-
Specification vocabulary for the virtual cursor: the calls in terms of a terminal, and
which of them a tracker without knowledge of the terminal's size can follow.
-/
set_option autoImplicit false

namespace Anansi
open Vt Geom

/-- A piece of output written as bytes: a terminal operation, or a style. -/
inductive Bit
  | op (o : Vt.Op)
  | style (s : Sgr.Style)

namespace Bit

/-- Its bytes. -/
def bytes : Bit → Bytes
  | .op o => o.bytes
  | .style s => Sgr.append s.build

/-- Its effect on a terminal. -/
def after (t : Term) : Bit → Term
  | .op o => t.step o
  | .style s => { t with style := s.over t.style }

/-- Whether the cursor's position is known afterwards. -/
def known (k : Bool) : Bit → Bool
  | .op (.cup _ _) => true
  | _ => k

/-- What can be followed, `k` telling whether the position is known.  Text must not wrap;
motions, given in full or with their default of one, must stay inside the terminal and
must not follow a write into the last column; styles that conceal are not decoded (C01). -/
def Ok (gr : Nat → Bool) (t : Term) (k : Bool) : Bit → Prop
  | .op (.put r) => Printable gr r ∧ (k = true → t.pend = false)
  | .op .cr => True
  | .op .lf => k = true ∧ t.pend = false ∧ t.y + 1 < t.h
  | .op (.up n) => k = true ∧ t.pend = false ∧ n ≠ some 0 ∧ count n ≤ t.y
  | .op (.down n) => k = true ∧ t.pend = false ∧ n ≠ some 0 ∧ t.y + count n < t.h
  | .op (.forward n) => k = true ∧ t.pend = false ∧ n ≠ some 0 ∧ t.x + count n < t.w
  | .op (.back n) => k = true ∧ t.pend = false ∧ n ≠ some 0 ∧ count n ≤ t.x
  | .op (.cup r c) => (1 ≤ r ∧ r ≤ t.h) ∧ (1 ≤ c ∧ c ≤ t.w)
  | .op .eraseAll => True
  | .op (.sgr _) => False
  | .op .show_ => True
  | .op .hide => True
  | .style s => s ≠ {} ∧ s.conceal = false

/-- A sequence of bits that can be followed. -/
def Flow (gr : Nat → Bool) : Term → Bool → List Bit → Prop
  | _, _, [] => True
  | t, k, b :: l => b.Ok gr t k ∧ Flow gr (b.after t) (b.known k) l

/-- Where a terminal's cursor is, seen by a tracker that counts columns. -/
def place (t : Term) : Pt := ⟨if t.pend then t.w + 1 else t.x + 1, t.y + 1⟩

end Bit

/-- A call on a virtual cursor. -/
inductive CurCall
  | bits (l : List Bit)
  | style (l : List Sgr.Style)
  | move (x y : Nat)
  | show_
  | hide

namespace CurCall

/-- The intended effect on a terminal. -/
def after (t : Term) : CurCall → Term
  | .bits l => l.foldl Bit.after t
  | .style l => l.foldl (fun t s => { t with style := s }) t
  | .move x y => { t with x := x, y := y, pend := false }
  | .show_ => { t with vis := true }
  | .hide => { t with vis := false }

/-- Whether the cursor's position is known afterwards. -/
def known (k : Bool) : CurCall → Bool
  | .bits l => l.foldl Bit.known k
  | .move _ _ => true
  | _ => k

/-- What can be followed. -/
def Ok (gr : Nat → Bool) (t : Term) (k : Bool) : CurCall → Prop
  | .bits l => Bit.Flow gr t k l
  | .style l => ∀ s ∈ l, s.clear = false
  | .move x y => x < t.w ∧ y < t.h ∧ (k = true → ¬ Awkward t.w (Bit.place t) ⟨x + 1, y + 1⟩)
  | _ => True

/-- A session that can be followed. -/
def Session (gr : Nat → Bool) : Term → Bool → List CurCall → Prop
  | _, _, [] => True
  | t, k, c :: l => c.Ok gr t k ∧ Session gr (c.after t) (c.known k) l

end CurCall
end Anansi
