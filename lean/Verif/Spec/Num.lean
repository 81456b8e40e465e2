import Verif.Model.Basic
/-
Independent specification of decimal number text.
-/
set_option autoImplicit false

namespace Anansi.Spec

/-- A byte is an ASCII digit. -/
def IsDigit (b : UInt8) : Prop := 0x30 ≤ b.toNat ∧ b.toNat ≤ 0x39

/-- Value of a string of decimal digits, most significant first. -/
def digitsVal (ds : List UInt8) : Nat := ds.foldl (fun v d => 10 * v + (d.toNat - 0x30)) 0

/-- An optional sign as written and the factor it stands for. -/
inductive Sign
  | none | plus | minus
deriving DecidableEq, Repr

def Sign.text : Sign → List UInt8
  | .none => []
  | .plus => [0x2B]
  | .minus => [0x2D]

def Sign.apply : Sign → Nat → Int
  | .minus, n => -(n : Int)
  | _, n => n

/-- An optional leading separator. -/
def sepText (sep : Bool) : List UInt8 := if sep then [0x3B] else []

/-- The text does not begin with a digit. -/
def NoDigitHead (rest : List UInt8) : Prop := ∀ d, rest.head? = some d → ¬ IsDigit d

end Anansi.Spec
