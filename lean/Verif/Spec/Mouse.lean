import Verif.Spec.Num
/-
Mouse reports as xterm documents them ("Extended coordinates", mode 1006), independent of
the model.
-/
set_option autoImplicit false

namespace Anansi.Spec

/-- What a report is about: one of three buttons, no button, or one of four wheel
directions. -/
inductive MouseButton
  | left | middle | right | none
  | wheelUp | wheelDown | wheelLeft | wheelRight
deriving DecidableEq, Repr

/-- The button's part of the code `Cb`. -/
def MouseButton.code : MouseButton → Nat
  | .left => 0
  | .middle => 1
  | .right => 2
  | .none => 3
  | .wheelUp => 64
  | .wheelDown => 65
  | .wheelLeft => 66
  | .wheelRight => 67

/-- The numbers `ButtonID` documents; those of the two sideways directions are not. -/
def MouseButton.number : MouseButton → Nat
  | .none => 0
  | .left => 1
  | .middle => 2
  | .right => 3
  | .wheelUp => 4
  | .wheelDown => 5
  | .wheelLeft => 6
  | .wheelRight => 7

/-- A report. -/
structure MouseReport where
  button : MouseButton
  shift : Bool
  meta' : Bool
  control : Bool
  moved : Bool
  released : Bool
  x : Nat
  y : Nat
deriving DecidableEq, Repr

/-- The code `Cb` of a button with modifiers and motion. -/
def mouseCode (b : MouseButton) (shift meta' control moved : Bool) : Nat :=
  b.code + (if shift then 4 else 0) + (if meta' then 8 else 0) + (if control then 16 else 0) +
    (if moved then 32 else 0)

/-- The code `Cb`. -/
def MouseReport.code (r : MouseReport) : Nat := mouseCode r.button r.shift r.meta' r.control r.moved

end Anansi.Spec
