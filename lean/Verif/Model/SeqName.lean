import Verif.Model.Seq
import Verif.Model.EscName
/-
`ansi/control.go:241-250`: how sequences are printed.
-/
set_option autoImplicit false

namespace Anansi

/-- `control.go:241-250` `Seq.String`; `none` is a panic.  `quote` and `quoteRune` are what `fmt.Sprintf("%q", …)` gives for
a byte string and for a rune. -/
def Seq.string (quote : Bytes → Bytes) (quoteRune : Nat → Bytes) (s : Seq) : Option Bytes :=
  if s.id = 0 ∧ s.numBytes = 0 ∧ s.numInts = 0 then some []
  else s.argNums.bind fun nums => (escString quoteRune s.id).map fun n => n ++ quote (s.argByteList ++ nums)

end Anansi
