import Verif.Model.Escape
/-
`ansi/escape.go:73-135`: how escape identifiers are printed.  Strings are lists of
bytes.  Identifiers are natural numbers; the Go type also has negative values, which no
function of the library makes.
-/
set_option autoImplicit false

namespace Anansi

/-- ASCII text as bytes. -/
def ascii (s : String) : Bytes := s.toList.map fun c => UInt8.ofNat c.toNat

/-- `escape.go:75-108` `C1Names`. -/
def c1Names : List Bytes := (["<RES@>", "<RESA>", "<RESB>", "<RESC>", "<IND>", "<NEL>", "<SSA>",
  "<ESA>", "<HTS>", "<HTJ>", "<VTS>", "<PLD>", "<PLU>", "<RI>", "<SS2>", "<SS3>", "<DCS>", "<PU1>",
  "<PU2>", "<STS>", "<CCH>", "<MW>", "<SPA>", "<EPA>", "<RESX>", "<RESY>", "<RESZ>", "<CSI>",
  "<ST>", "<OSC>", "<PM>", "<APC>"] : List String).map ascii

/-- `escape.go:116-135` `Escape.String`.  `quote` is what `fmt.Sprintf("%q", r)` gives
for a rune.  Indexing past the end of the names would be a panic (`none`). -/
def escString (quote : Nat → Bytes) (id : Nat) : Option Bytes :=
  if id ≤ 0x1F then some (0x5E :: [UInt8.ofNat (0x40 ^^^ id)])
  else if id = 0x7F then some (ascii "^?")
  else if 0x80 ≤ id ∧ id ≤ 0x9F then c1Names[id - 0x80]?
  else if 0xEF20 ≤ id ∧ id ≤ 0xEF7E then some (ascii "ESC+" ++ [UInt8.ofNat (id % 256)])
  else if 0xEFC0 ≤ id ∧ id ≤ 0xEFFE then some (ascii "CSI+" ++ [UInt8.ofNat (id % 128)])
  else if id = 0xEF7F then some (ascii "ESC+INVALID")
  else if id = 0xEFFF then some (ascii "CSI+INVALID")
  else some (quote id)

end Anansi
