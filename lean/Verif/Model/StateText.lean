import Verif.Model.State
import Verif.Model.GeomText
import Verif.Model.MouseName
import Verif.Model.SgrName
/-
`state.go:67-73`, `x/platform/event.go:167-168`, `x/platform/hud.go:122-124`: how cursors, screens,
events and three of the header's segments are printed.  `%v` of a value with a `String` method is
what that returns, of a boolean `true` or `false`; `%s` of bytes is the bytes; `% 5v` of a number
that is not negative is a blank and its digits, with blanks before them up to five characters (Go
standard library, modelled by its documentation).
-/
set_option autoImplicit false

namespace Anansi

/-- `%v` of a boolean. -/
def boolString (b : Bool) : Bytes := if b then ascii "true" else ascii "false"

/-- `state.go:67-69` `Cursor.String`. -/
def Cursor.string (c : Cursor) : Bytes :=
  ascii "@" ++ Geom.ptString c.pt ++ ascii " a:" ++ Sgr.attrString c.attr ++ ascii " v:" ++ boolString c.visible

/-- `state.go:71-73` `Screen.String`; `grid.go:79-81` `Bounds`. -/
def Screen.string (sc : Screen) : Bytes := sc.cur.string ++ ascii " gridBounds:" ++ Geom.rectString sc.grid.rect

namespace Evq

/-- `event.go:167` `Escape.String`; `none` would be a panic. -/
def escapeString (quote : Nat → Bytes) (id : Nat) (arg : Bytes) : Option Bytes :=
  (escString quote id).map fun s => s ++ ascii " " ++ arg

/-- `event.go:168` `Mouse.String`; `none` would be a panic. -/
def mouseString (ms : Mouse.MState) (p : Pt) : Option Bytes := (Mouse.mouseString ms).map fun s => s ++ ascii "@" ++ Geom.ptString p

end Evq

namespace Hud

/-- `hud.go:123`: `W:% 5v` of the number of bytes flushed. -/
def flushedString (n : Nat) : Bytes :=
  ascii "W:" ++ List.replicate (5 - (1 + (itoaNat n).length)) 0x20 ++ 0x20 :: itoaNat n

/-- `hud.go:122`: the size of the output. -/
def sizeString (r : Rect) : Bytes := Geom.ptString (Geom.size r)

end Hud
end Anansi
