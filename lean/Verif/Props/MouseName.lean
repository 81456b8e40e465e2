import Verif.Model.MouseName
import Verif.Props.Mouse
/-
C107: the names of mouse states.
-/
set_option autoImplicit false

namespace Anansi
open Anansi.Spec

namespace Spec

/-- What a button is called. -/
def MouseButton.called : MouseButton → Bytes
  | .left => ascii "left"
  | .middle => ascii "middle"
  | .right => ascii "right"
  | .none => []
  | .wheelUp => ascii "wheelUp"
  | .wheelDown => ascii "wheelDown"
  | .wheelLeft => ascii "thirdWheel"
  | .wheelRight => ascii "fourthWheel"

/-- What is done with a button. -/
def mouseDone (b : Bytes) (moved released : Bool) : Bytes :=
  match moved, released with
  | false, false => b
  | true, false => if b = [] then ascii "motion" else b ++ ascii "-drag"
  | false, true => if b = [] then ascii "??? release" else b ++ ascii "-release"
  | true, true => ascii "??? " ++ (if b = [] then [] else b ++ ascii "-") ++ ascii "motion+release"

/-- The name of a report: the modifiers held, each followed by a plus, and what was done. -/
def mouseName (b : MouseButton) (shift meta' control moved released : Bool) : Bytes :=
  (if control then ascii "ctrl+" else []) ++ (if shift then ascii "shift+" else []) ++
    (if meta' then ascii "meta+" else []) ++ mouseDone b.called moved released

end Spec

namespace Mouse

/-- Every state has a name: none of the panics is reached. -/
theorem name_total (ms : MState) : buttonName ms ≠ none ∧ modifierName ms ≠ none ∧ mouseString ms ≠ none := by
  revert ms
  decide +kernel

/-- **C107**: the name of the state decoded from any report says the modifiers, the button and
what was done.  Missing: the fourth direction of the wheel, where it is false
(`wheel_right_named_right`). -/
theorem report_name_partial (r : MouseReport) (hx : r.x ≤ 2 ^ 32 - 1) (hy : r.y ≤ 2 ^ 32 - 1) (hb : r.button ≠ .wheelRight) :
    mouseString (decodeMouse (reportId r.released) (reportArg r.code r.x r.y)).1 =
      some (mouseName r.button r.shift r.meta' r.control r.moved r.released) := by
  rw [decode_report r.code r.x r.y r.released (by have := code_lt r; omega) hx hy]
  have key : ∀ b s m c mv rel, b ≠ MouseButton.wheelRight →
      mouseString (if rel = true then BitVec.ofNat 8 (mouseCode b s m c mv) ||| release
        else BitVec.ofNat 8 (mouseCode b s m c mv)) = some (mouseName b s m c mv rel) := by
    intro b s m c mv rel hb
    cases b <;> cases s <;> cases m <;> cases c <;> cases mv <;> cases rel <;>
      first
      | exact absurd rfl hb
      | decide +kernel
  exact key _ _ _ _ _ _ hb

/-- The state without the fourth direction of the wheel. -/
def Plain (ms : MState) : Prop := ¬ (ms &&& wheel ≠ 0 ∧ ms &&& 3 = 3)

instance (ms : MState) : Decidable (Plain ms) := by unfold Plain; infer_instance

/-- The state that a name belongs to, by going through all of them. -/
def named (s : Bytes) : Option MState :=
  ((List.range 256).map (BitVec.ofNat 8)).find? fun ms => Plain ms ∧ mouseString ms = some s

theorem named_name : ∀ ms : MState, Plain ms → (mouseString ms).bind named = some ms := by
  decide +kernel

/-- **C107**: two states, neither of the fourth direction of the wheel, have the same name only
if they are the same. -/
theorem name_tells_partial (m m' : MState) (h : Plain m) (h' : Plain m') (he : mouseString m = mouseString m') : m = m' := by
  have h1 := named_name m h
  rw [he, named_name m' h'] at h1
  exact (Option.some.inj h1).symm

example : Plain 0x51 ∧ mouseString 0x51 = some (ascii "ctrl+wheelDown") := by decide +kernel

/-- **C107 fails**: turning the wheel in its fourth direction has the name of the right button. -/
theorem wheel_right_named_right (s m c mv rel : Bool) :
    mouseString (stateOf ⟨.wheelRight, s, m, c, mv, rel, 1, 1⟩) = mouseString (stateOf ⟨.right, s, m, c, mv, rel, 1, 1⟩) ∧
    stateOf ⟨.wheelRight, s, m, c, mv, rel, 1, 1⟩ ≠ stateOf ⟨.right, s, m, c, mv, rel, 1, 1⟩ := by
  revert s m c mv rel
  decide +kernel

end Mouse
end Anansi
