/-
Shared conventions of the model.

* Go `byte`  : `UInt8`
* Go `[]byte`: `List UInt8` (`Bytes`)
* Go `rune`  : `Nat` (negative runes are not modelled)
* Go `int`   : `Int` (unbounded unless a definition says otherwise), `Nat` for
  lengths and indices that the code keeps non-negative.
-/
set_option autoImplicit false

namespace Anansi

abbrev Bytes := List UInt8

/-- Go's `int(x)` conversion of a `uint64` value on a 64-bit platform: two's
complement reinterpretation. -/
def toInt64 (u : Nat) : Int :=
  let v : Nat := u % 2 ^ 64
  if v < 2 ^ 63 then (v : Int) else (v : Int) - 2 ^ 64

/-- Go's wrap-around of an `int` result into the 64-bit range. -/
def wrap64 (i : Int) : Int := toInt64 (i % 2 ^ 64).toNat

/-- ASCII digit byte of a number below ten. -/
def digitByte (d : Nat) : UInt8 := UInt8.ofNat (0x30 + d)

/-- `strconv.AppendInt(nil, n, 10)` / `strconv.Itoa(n)` for non-negative `n`
(Go standard library, modelled by its documentation). -/
def itoaNat (n : Nat) : Bytes :=
  if n < 10 then [digitByte n] else itoaNat (n / 10) ++ [digitByte (n % 10)]

/-- `strconv.AppendInt(nil, i, 10)`. -/
def itoa (i : Int) : Bytes :=
  if i < 0 then 0x2D :: itoaNat i.natAbs else itoaNat i.natAbs

end Anansi
