import Verif.Model.Demo
import Verif.Model.Line
/-
`cmd/lolwut/main.go:74-176` and `cmd/lolwut/interact.go`: the squares of the picture and the
interactive mode.

The parts computed in floating point are given from outside, and are arbitrary: for each square
the shift of its centre and its five turned corners (`rotPt` with the angles of lines 167-171).
Logging is left out, and so is the slow change of the angle, which only the given part depends on.
-/
set_option autoImplicit false

namespace Anansi.Lol
open Geom Evq

/-- What is computed in floating point for a square: `int(r2 * side / 3)`, `int(r3 * side / 3)`
(lines 131-132), and the corners around its centre (lines 168, 171). -/
structure Turn where
  shift : Pt
  corner : Nat → Pt

/-- `main.go:74-88` `schotterDemo`, without the source of random numbers. -/
structure Demo where
  perRow : Int := 0
  perCol : Int := 0
  side : Int := 0
  padding : Int := 0
  canvas : Bitmap := {}

/-- `main.go:111-112`, `131-132`: the centre of a square. -/
def Demo.centre (d : Demo) (t : Turn) (x y : Nat) : Pt :=
  let sx := x * d.side + d.side.tdiv 2 + d.padding
  let sy := y * d.side + d.side.tdiv 2 + d.padding
  if y > 0 then ⟨sx + t.shift.x, sy + t.shift.y⟩ else ⟨sx, sy⟩

/-- A line of `drawLine`, with as many rounds as it has points to go (`points_line`: it ends
within them). -/
def line (b : Bitmap) (fr dst : Pt) : Option Bitmap :=
  Line.drawLine (max (dst.x - fr.x).natAbs (dst.y - fr.y).natAbs) b fr dst true

/-- `main.go:169-174`: the rest of the sides of a square, from the `i`th on. -/
def sides (at_ : Pt) (t : Turn) : Nat → Nat → Bitmap → Option Bitmap
  | 0, _, b => some b
  | k + 1, i, b => (line b (ptAdd (t.corner i) at_) (ptAdd (t.corner (i + 1)) at_)).bind (sides at_ t k (i + 1))

/-- `main.go:110-136`: the rest of the squares of row `y`, from column `x` on. -/
def rowFrom (d : Demo) (art : Nat → Nat → Turn) (y : Nat) : Nat → Nat → Bitmap → Option Bitmap
  | 0, _, b => some b
  | k + 1, x, b => (sides (d.centre (art x y) x y) (art x y) 4 0 b).bind (rowFrom d art y k (x + 1))

/-- `main.go:109-137`: the rest of the rows, from `y` on. -/
def rowsFrom (d : Demo) (art : Nat → Nat → Turn) : Nat → Nat → Bitmap → Option Bitmap
  | 0, _, b => some b
  | k + 1, y, b => (rowFrom d art y d.perRow.toNat 0 b).bind (rowsFrom d art k (y + 1))

/-- `main.go:107-138` `draw`. -/
def Demo.draw (d : Demo) (art : Nat → Nat → Turn) : Option Demo :=
  (rowsFrom d art d.perCol.toNat 0 d.canvas).map fun b => { d with canvas := b }

/-- `main.go:92-103` `setup`.  The side is computed in floating point there, which gives the
quotient rounded down for all numbers below 2^53. -/
def setup (cols perRow perCol : Nat) : Demo :=
  let padding := if cols * 2 > 4 then 2 else 0
  let side := (cols * 2 - padding * 2) / perRow
  { perRow, perCol, side, padding, canvas := Bitmap.resize (cols * 2) (side * perCol + padding * 2) }

/-- `interact.go:44-51`: turning the wheel changes the size of the squares. -/
def Demo.zoom (d : Demo) (n : Int) : Demo :=
  if n ≠ 0 then { d with side := if d.side + n < 1 then 1 else d.side + n } else d

/-- `interact.go:53-70`: fit the canvas and the numbers of squares to the screen; `none` is a
division by zero. -/
def Demo.fit (d : Demo) (zoomed : Bool) (sz : Nat × Nat) : Option Demo :=
  if (sz.1 : Int) ≠ (dx d.canvas.rect).tdiv 2 ∨ zoomed then
    let padding : Int := if sz.1 > 2 then 2 else 0
    if d.side = 0 then none
    else
      some { d with
        padding
        perRow := (((sz.1 : Int) - padding) * 2 + (d.side - 1)).tdiv d.side
        perCol := (((sz.2 : Int) - padding) * 4 + (d.side - 1)).tdiv d.side
        canvas := Bitmap.resize (sz.1 * 2) (sz.2 * 4) }
  else some d

/-- `interact.go:72-74`: unset all bits. -/
def Demo.wipe (d : Demo) : Demo := { d with canvas := { d.canvas with bit := d.canvas.bit.map fun _ => false } }

/-- `interact.go:72-78`: draw a frame. -/
def Demo.show (d : Demo) (art : Nat → Nat → Turn) (sc : Screen) : Option (Demo × Screen) :=
  (d.wipe.draw art).bind fun d =>
  (match sc.clear with | .ok sc => some sc | .error _ => none).bind fun sc =>
  (sc.grid.drawBitmap d.canvas []).bind fun cs => some (d, { sc with grid := { sc.grid with cells := cs } })

/-- What a frame leaves. -/
structure Out (ε : Type) where
  demo : Demo
  sc : Screen
  es : Events
  res : Dem.Res ε
  suspended : Bool

/-- `interact.go:26-86` `Update`.  The floating point parts depend on the size of the
squares and on their numbers in a row and in a column. -/
def Demo.update {ε : Type} (d : Demo) (art : Int → Int → Int → Nat → Nat → Turn) (suspend : Option ε) (es : Events) (sc : Screen) :
    Option (Out ε) :=
  let t := hasTerminal 0x03 es
  let c := countRune [0x1A] 0 t.1
  let n := totalScrollIn sc.grid.rect 0 c.1
  ((d.zoom n.2).fit (decide (n.2 ≠ 0)) (Dem.dims sc.grid.rect)).bind fun d =>
  (d.show (art d.side d.perRow d.perCol) sc).bind fun q =>
  let susp := c.2 > 0 ∧ t.2 = false
  some { demo := q.1, sc := q.2, es := n.1,
         res := if t.2 then .interrupt
                else if susp then (match suspend with | some e => .failed e | none => .ok) else .ok
         suspended := decide susp }

end Anansi.Lol
