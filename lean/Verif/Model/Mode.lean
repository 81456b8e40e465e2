import Verif.Model.Slice
import Verif.Model.Seq
/-
`mode.go`: mode set and reset strings.
-/
set_option autoImplicit false

namespace Anansi

/-- `mode.go:11-15` `Mode`, with the arrays its slices live in.  Array 0 stands for the
empty array of nil slices. -/
structure ModeBuf where
  arrays : Arrays := [[]]
  set : Slice := {}
  reset : Slice := {}
deriving DecidableEq, Repr

namespace ModeBuf

/-- A call: with the bytes of each sequence cut in any way into the pieces that
`Seq.AppendTo` appends one by one (`ansi/control.go:155-182`). -/
inductive Op
  | pair (set reset : List Bytes)
  | seq (b : List Bytes)

/-- `mode.go:46-50` `AddModePair` and one round of `mode.go:54-61` `AddModeSeq`. -/
def op (grow : Nat → Nat → Nat) (m : ModeBuf) : Op → ModeBuf
  | .pair set reset =>
    let s := m.set.appends grow m.arrays set
    let b : Slice := ⟨s.1.length, 0, 0, 128⟩
    let r := b.appends grow (s.1 ++ [List.replicate 128 0]) reset
    let q := r.2.append grow r.1 (m.reset.content r.1)
    ⟨q.1, s.2, q.2⟩
  | .seq b =>
    let n := m.set.len
    let s := m.set.appends grow m.arrays b
    let k := s.2.len
    let new : Slice := ⟨s.2.arr, s.2.off + n, k - n, k - n⟩
    let q := new.append grow s.1 (m.reset.content s.1)
    ⟨q.1, s.2, q.2⟩

/-- `mode.go:38-42` `AddMode`, `mode.go:46-50` `AddModePair` and `mode.go:54-61`
`AddModeSeq`: any sequence of calls. -/
def ops (grow : Nat → Nat → Nat) : ModeBuf → List Op → ModeBuf
  | m, [] => m
  | m, o :: l => (m.op grow o).ops grow l

/-- `mode.go:18-25` `Enter`: the bytes written to the output file, if there is one. -/
def enter (m : ModeBuf) (file : Bool) : Bytes := if file then m.set.content m.arrays else []

/-- `mode.go:28-35` `Exit`. -/
def exit (m : ModeBuf) (file : Bool) : Bytes := if file then m.reset.content m.arrays else []

end ModeBuf
end Anansi
