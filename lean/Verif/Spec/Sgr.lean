import Verif.Model.Sgr
/-
Specification vocabulary for SGR attributes: a record of independent choices,
and the attribute value a program writes down for it, e.g.
`SGRAttrBold | SGRRed.FG() | RGB(1,2,3).BG()`.
-/
set_option autoImplicit false

namespace Anansi.Sgr

/-- A colour as a user names it. -/
inductive Colour where
  /-- One of the 256 indexed colours. -/
  | indexed (i : UInt8)
  /-- A 24-bit colour. -/
  | direct (r g b : UInt8)
deriving DecidableEq, Repr

/-- The `SGRColor` value: `SGRColor(i)` or `RGB(r,g,b)`. -/
def Colour.value : Colour → Color
  | .indexed i => i.toBitVec.setWidth 32
  | .direct r g b => rgb r g b

/-- A display style, field by field. -/
structure Style where
  clear : Bool := false
  bold : Bool := false
  dim : Bool := false
  italic : Bool := false
  underscore : Bool := false
  negative : Bool := false
  conceal : Bool := false
  fg : Option Colour := none
  bg : Option Colour := none
deriving DecidableEq, Repr

/-- `if b then x`, as a bit set. -/
def flagIf (b : Bool) (x : Attr) : Attr := if b then x else 0

/-- The attribute value that a program writes for a style: the `|` of its flag
constants and of its colours' `FG()` and `BG()`. -/
def Style.build (s : Style) : Attr :=
  flagIf s.clear Sgr.clear ||| flagIf s.bold Sgr.bold ||| flagIf s.dim Sgr.dim |||
  flagIf s.italic Sgr.italic ||| flagIf s.underscore Sgr.underscore |||
  flagIf s.negative Sgr.negative ||| flagIf s.conceal Sgr.conceal |||
  (match s.fg with | some c => colorFG c.value | none => 0) |||
  (match s.bg with | some c => colorBG c.value | none => 0)

end Anansi.Sgr
