import Verif.Model.Basic
/-
Go's `unicode/utf8` (standard library, go1.11 `utf8.go`), modelled by its
documentation and acceptance tables.
-/
set_option autoImplicit false

namespace Anansi

/-- `utf8.RuneError`. -/
def runeError : Nat := 0xFFFD

/-- A UTF-8 continuation byte (`locb`..`hicb`). -/
def isCont (c : UInt8) : Bool := 0x80 ≤ c.toNat && c.toNat ≤ 0xBF

/-- `utf8.DecodeRune`: the first rune of `p` and its width in bytes;
`(RuneError, 0)` for an empty slice, `(RuneError, 1)` for an invalid encoding.
The bit masks and shifts of the Go code are written as arithmetic. -/
def decodeRune : Bytes → Nat × Nat
  | [] => (runeError, 0)
  | b0 :: t =>
    if b0.toNat < 0x80 then (b0.toNat, 1)
    else if b0.toNat < 0xC2 then (runeError, 1)
    else if b0.toNat < 0xE0 then
      match t with
      | b1 :: _ =>
        if isCont b1 then ((b0.toNat - 0xC0) * 64 + (b1.toNat - 0x80), 2) else (runeError, 1)
      | _ => (runeError, 1)
    else if b0.toNat < 0xF0 then
      match t with
      | b1 :: b2 :: _ =>
        let lo := if b0.toNat = 0xE0 then 0xA0 else 0x80
        let hi := if b0.toNat = 0xED then 0x9F else 0xBF
        if lo ≤ b1.toNat && b1.toNat ≤ hi && isCont b2 then
          ((b0.toNat - 0xE0) * 4096 + (b1.toNat - 0x80) * 64 + (b2.toNat - 0x80), 3)
        else (runeError, 1)
      | _ => (runeError, 1)
    else if b0.toNat < 0xF5 then
      match t with
      | b1 :: b2 :: b3 :: _ =>
        let lo := if b0.toNat = 0xF0 then 0x90 else 0x80
        let hi := if b0.toNat = 0xF4 then 0x8F else 0xBF
        if lo ≤ b1.toNat && b1.toNat ≤ hi && isCont b2 && isCont b3 then
          ((b0.toNat - 0xF0) * 262144 + (b1.toNat - 0x80) * 4096 + (b2.toNat - 0x80) * 64
            + (b3.toNat - 0x80), 4)
        else (runeError, 1)
      | _ => (runeError, 1)
    else (runeError, 1)

/-- `utf8.ValidRune`. -/
def validRune (r : Nat) : Bool := r < 0xD800 || (0xDFFF < r && r ≤ 0x10FFFF)

/-- `utf8.EncodeRune` (and `bytes.Buffer.WriteRune`): the UTF-8 encoding of `r`;
invalid runes are encoded as `RuneError`. -/
def encodeRune (r : Nat) : Bytes :=
  if r ≤ 0x7F then [UInt8.ofNat r]
  else if r ≤ 0x7FF then [UInt8.ofNat (0xC0 + r / 64), UInt8.ofNat (0x80 + r % 64)]
  else if !validRune r then [0xEF, 0xBF, 0xBD]
  else if r ≤ 0xFFFF then
    [UInt8.ofNat (0xE0 + r / 4096), UInt8.ofNat (0x80 + r / 64 % 64), UInt8.ofNat (0x80 + r % 64)]
  else
    [UInt8.ofNat (0xF0 + r / 262144), UInt8.ofNat (0x80 + r / 4096 % 64),
     UInt8.ofNat (0x80 + r / 64 % 64), UInt8.ofNat (0x80 + r % 64)]

/-- UTF-8 encoding of a string of runes (`bytes.Buffer.WriteString` of a Go
string holding these runes). -/
def encodeRunes (rs : List Nat) : Bytes := rs.flatMap encodeRune

end Anansi
