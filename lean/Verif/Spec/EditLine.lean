import Verif.Model.Basic
/-
What it means to edit a text with a cursor, apart from the code.
-/
set_option autoImplicit false

namespace Anansi
namespace Spec

/-- A text, and the number of characters before the cursor. -/
structure Line where
  text : List Nat
  cur : Nat
deriving DecidableEq, Repr

/-- What a user does to the text. -/
inductive Key
  /-- type a character -/
  | type (r : Nat)
  /-- remove the character before the cursor -/
  | back
  /-- move by some columns -/
  | move (d : Int)
  /-- something with no effect on the text -/
  | other
deriving DecidableEq, Repr

/-- The effect of one key. -/
def Line.press (l : Line) : Key → Line
  | .type r => ⟨l.text.take l.cur ++ r :: l.text.drop l.cur, l.cur + 1⟩
  | .back => ⟨l.text.take (l.cur - 1) ++ l.text.drop l.cur, l.cur - 1⟩
  | .move d => ⟨l.text, min (l.cur + d).toNat l.text.length⟩
  | .other => l

/-- The cursor is within the text. -/
def Line.Ok (l : Line) : Prop := l.cur ≤ l.text.length

/-- The key is not a backspace in the middle of the text. -/
def Line.Simple (l : Line) : Key → Prop
  | .back => l.cur = 0 ∨ l.cur = l.text.length
  | _ => True

/-- The same for each key of a session. -/
def Line.SimpleAll : Line → List Key → Prop
  | _, [] => True
  | l, k :: ks => l.Simple k ∧ (l.press k).SimpleAll ks

end Spec
end Anansi
