import Verif.Model.Events
import Verif.Model.State
/-
`cmd/demo/main.go:36-115`: the client of the demo command.

The output is a `Screen`: the differ's buffer and user cursor, which `Clear` resets too and
nothing else here uses, are left out.  `ctx.Suspend` is given by the error it returns, and
the log by the entries it is written for.  `none` is a panic.
-/
set_option autoImplicit false

namespace Anansi.Dem
open Geom Evq

/-- What `Update` returns: nothing, `errInt`, or the error of `Suspend`. -/
inductive Res (ε : Type)
  | ok
  | interrupt
  | failed (e : ε)
deriving DecidableEq, Repr

/-- `main.go:74`: from the seconds and the nanoseconds of the time. -/
def sweepOf (sec ns : Nat) : Nat := 10 * sec + ns / 1000000 / 100

/-- `main.go:117-119` `runeSweep`. -/
def runeSweep : List Nat := [0x30, 0x31, 0x32, 0x33, 0x34, 0x35, 0x36, 0x37, 0x38, 0x39]

/-- `main.go:81-89`: the cell for a point. -/
def cellAt (line : Bool) (sweep : Nat) (x y : Int) : Cell :=
  let a := Sgr.colorBG (Sgr.rgb 0 (UInt8.ofInt x) (UInt8.ofInt y))
  if line then
    { rune := runeSweep.getD (sweep % runeSweep.length) 0
      attr := a ||| Sgr.colorBG (Sgr.rgb (UInt8.ofNat sweep) 0 0) }
  else { rune := 0, attr := a }

/-- `main.go:80-92`: the rest of a row, `k` cells from column `x` on, at offset `i`. -/
def fillRow (len : Nat) (y : Int) (line : Bool) : Nat → Int → Nat → Nat → List Cell → Option (Nat × List Cell)
  | 0, _, _, sweep, cs => some (sweep, cs)
  | k + 1, x, i, sweep, cs =>
    if i < len then
      fillRow len y line k (x + 1) (i + 1) (if line then sweep + 1 else sweep) (cs.set i (cellAt line sweep x y))
    else none

/-- `main.go:76-93`: the rest of the rows, from the point `p` on, whose column is what the row
before has left. -/
def fillRows (g : Grid) (r : Rect) : Nat → Pt → Nat → List Cell → Option (List Cell)
  | 0, _, _, cs => some cs
  | n + 1, p, sweep, cs =>
    (g.offset0? p).bind fun i =>
    (fillRow g.len p.y (p.y % 16 = 0) (r.max.x - r.min.x).toNat r.min.x i sweep cs).bind fun q =>
    fillRows g r n ⟨max r.min.x r.max.x, p.y + 1⟩ q.1 q.2

/-- `main.go:98-112`: copy the cells to the output, from the point `p` on. -/
def copyOut (r : Rect) : List Cell → Pt → Grid → Option Grid
  | [], _, o => some o
  | c :: l, p, o =>
    (o.cellOffset? p).bind fun j =>
    (match j with
      | none => some o
      | some j =>
        if j < o.len then
          some { o with cells := o.cells.set j { rune := if c.rune = 0 then 0x20 else c.rune, attr := c.attr } }
        else none).bind fun o =>
    copyOut r l (if p.x + 1 ≥ r.max.x then ⟨r.min.x, p.y + 1⟩ else ⟨p.x + 1, p.y⟩) o

/-- The size of a rectangle as `Resize` takes it. -/
def dims (r : Rect) : Nat × Nat := ((size r).x.toNat, (size r).y.toNat)

/-- `main.go:68-112`: draw a frame: the demo's grid and the output. -/
def draw (sweep : Nat) (d : Grid) (sc : Screen) : Option (Grid × Screen) :=
  (match sc.clear with | .ok sc => some sc | .error _ => none).bind fun sc =>
  let d := (d.resize (dims sc.grid.rect)).1
  let r := sc.grid.rect
  (fillRows d r (r.max.y - r.min.y).toNat r.min sweep d.cells).bind fun cs =>
  let d := { d with cells := cs }
  (copyOut d.rect d.data d.rect.min sc.grid).bind fun o => some (d, { sc with grid := o })

/-- What a frame leaves: the demo's grid, the output, the events, what is returned, whether
`Suspend` was called, and the events logged. -/
structure Out (ε : Type) where
  grid : Grid
  sc : Screen
  es : Events
  res : Res ε
  suspended : Bool
  logged : Events

/-- `main.go:40-115` `Update`. -/
def update {ε : Type} (sec ns : Nat) (suspend : Option ε) (d : Grid) (es : Events) (sc : Screen) : Option (Out ε) :=
  let t := hasTerminal 0x03 es
  let c := countRune [0x1A] 0 t.1
  (draw (sweepOf sec ns) d sc).bind fun q =>
  let susp := c.2 > 0 ∧ t.2 = false
  some { grid := q.1, sc := q.2, es := c.1,
         res := if t.2 then .interrupt
                else if susp then (match suspend with | some e => .failed e | none => .ok) else .ok
         suspended := decide susp
         logged := if t.2 then [] else c.1.filter fun e => e.kind = .escape }

end Anansi.Dem
