import Verif.Model.Sgr
import Verif.Model.EscName
/-
`ansi/sgr.go`: how colours and attributes are printed.  Strings are lists of bytes.
-/
set_option autoImplicit false

namespace Anansi.Sgr

/-- `sgr.go:515-533` `colorNames`. -/
def colorNames : List Bytes := (["black", "red", "green", "yellow", "blue", "magenta", "cyan", "white",
  "bright-black", "bright-red", "bright-green", "bright-yellow", "bright-blue", "bright-magenta",
  "bright-cyan", "bright-white"] : List String).map ascii

/-- `sgr.go:391-407` `SGRColor.String`; a 24-bit colour's components are those of its code, with
commas. -/
def colorString_ (c : Color) : Bytes :=
  if c &&& color24 ≠ 0 then
    ascii "rgb(" ++ ((appendRGB c).drop 1).map (fun b => if b = 0x3B then 0x2C else b) ++ ascii ")"
  else if c.toNat < colorNames.length then colorNames[c.toNat]?.getD []
  else ascii "color" ++ itoaNat c.toNat

/-- `strings.Join(parts, " ")`. -/
def joinSpace : List Bytes → Bytes
  | [] => []
  | [x] => x
  | x :: t => x ++ 0x20 :: joinSpace t

/-- `sgr.go:724-752`: the parts. -/
def attrParts (a : Attr) : List Bytes :=
  (if a &&& clear ≠ 0 then [ascii "clear"] else []) ++
  (if a &&& bold ≠ 0 then [ascii "bold"] else []) ++
  (if a &&& dim ≠ 0 then [ascii "dim"] else []) ++
  (if a &&& italic ≠ 0 then [ascii "italic"] else []) ++
  (if a &&& underscore ≠ 0 then [ascii "underscore"] else []) ++
  (if a &&& negative ≠ 0 then [ascii "negative"] else []) ++
  (if a &&& conceal ≠ 0 then [ascii "conceal"] else []) ++
  (match fg a with | some c => [ascii "fg:" ++ colorString_ c] | none => []) ++
  (match bg a with | some c => [ascii "bg:" ++ colorString_ c] | none => [])

/-- `sgr.go:723-755` `SGRAttr.String`. -/
def attrString (a : Attr) : Bytes := joinSpace (attrParts a)

end Anansi.Sgr
