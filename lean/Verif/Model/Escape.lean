import Verif.Model.Basic
/-
`ansi/escape.go`: escape identifiers.  An `Escape` is a Go `rune`; here `Nat`.
-/
set_option autoImplicit false

namespace Anansi

/-- `ansi/escape.go:46` `ESC(b)`: `0xEF00 | 0x7F&b`. -/
def escId (b : UInt8) : Nat := 0xEF00 + b.toNat % 128

/-- `ansi/escape.go:49` `CSI(b)`: `0xEF80 | 0x7F&b`. -/
def csiId (b : UInt8) : Nat := 0xEF80 + b.toNat % 128

/-- `ansi/escape.go:53` `Escape.IsEscape`. -/
def isEscape (id : Nat) : Bool := 0xEF00 ≤ id && id ≤ 0xEFFF

/-- `ansi/escape.go:57-62` `Escape.ESC`. -/
def escName (id : Nat) : Option UInt8 :=
  if 0xEF00 < id && id < 0xEF7F then some (UInt8.ofNat (id % 128)) else none

/-- `ansi/escape.go:66-71` `Escape.CSI`. -/
def csiName (id : Nat) : Option UInt8 :=
  if 0xEF80 < id && id < 0xEFFF then some (UInt8.ofNat (id % 128)) else none

/-- `ansi/escape.go:140-166` `Escape.IsCharacterSetControl`. -/
def isCharacterSetControl (id : Nat) : Bool :=
  id == 0x0E || id == 0x0F || id == 0x8E || id == 0x8F ||
  (0xEF28 ≤ id && id ≤ 0xEF2F) || (0xEF6B ≤ id && id ≤ 0xEF6F) ||
  (0xEF7C ≤ id && id ≤ 0xEF7E)

end Anansi
