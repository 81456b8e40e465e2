import Verif.Model.Grid
import Verif.Model.Decode
/-
`test/grid.go`: grids written as lines of text with SGR sequences, and read back.
Strings are byte strings.  A panic is `none`.  `fmt` messages of panics are left out.
-/
set_option autoImplicit false

namespace Anansi.Gln
open Sgr Geom

/-- `unicode.IsControl`: category Cc. -/
def isControl (r : Nat) : Bool := r < 0x20 || (0x7F ≤ r && r < 0xA0)

/-- The loop `grid.go:39-62`, at most `fuel` iterations: the cells read and the attribute
afterwards.  The position and the width of the error in `DecodeSGR`'s result are not used. -/
def parseAux : Nat → Attr → Bytes → Option (List Cell × Attr)
  | 0, at_, _ => some ([], at_)
  | fuel + 1, at_, b =>
    if b = [] then some ([], at_)
    else
      let d := decodeEscape b
      let q := d.buf.drop d.n
      if d.e = SGR then
        let v := decode d.arg
        if v.err = none then parseAux fuel (merge at_ v.val) q else none
      else if d.e = 0 then
        let r := decodeRune q
        if r.1 ≠ 0 ∧ isControl r.1 then none
        else (parseAux fuel at_ (q.drop r.2)).map fun t => (⟨r.1, at_⟩ :: t.1, t.2)
      else none

/-- `grid.go:37-64` `parseGridLine`: every iteration uses up a byte (`parse_eq`). -/
def parseLine (at_ : Attr) (line : Bytes) : Option (List Cell × Attr) := parseAux line.length at_ line

/-- The loop `grid.go:23-32`; `stride` is `g.Stride` and `cs` are `g.Rune` and `g.Attr` so far. -/
def parseLines : Attr → Int → List Cell → List Bytes → Option (Int × List Cell)
  | _, stride, cs, [] => some (stride, cs)
  | at_, stride, cs, line :: t =>
    (parseLine at_ line).bind fun p =>
    if stride < 0 then parseLines p.2 p.1.length (cs ++ p.1) t
    else if (p.1.length : Int) ≠ stride then none
    else parseLines p.2 stride (cs ++ p.1) t

/-- `grid.go:16-35` `ParseGridLines`; the division by a zero stride panics. -/
def parseGrid (lines : List Bytes) : Option Grid :=
  (parseLines 0 (-1) [] lines).bind fun s =>
  if s.1 = 0 then none
  else (rect 1 1 (1 + s.1) (1 + (s.2.length : Int).tdiv s.1)).map fun r =>
    { rect := r, stride := s.1.toNat, len := s.2.length, cells := s.2 }

/-- The loop `grid.go:74-87` over `k` cells from index `i`: the bytes and the attribute `ca`
afterwards. -/
def lineLoop (g : Grid) (fill : Nat) : Nat → Nat → Attr → Option (Bytes × Attr)
  | 0, _, ca => some ([], ca)
  | k + 1, i, ca =>
    if i < g.len then
      (g.cells[i]?).bind fun c =>
      let s := if c.attr ≠ ca then (append (diff ca c.attr), merge ca (diff ca c.attr)) else ([], ca)
      (lineLoop g fill k (i + 1) s.2).map fun t =>
        (s.1 ++ encodeRune (if c.rune = 0 then fill else c.rune) ++ t.1, t.2)
    else none

/-- The loop `grid.go:71-89` over `k` rows from row `y`. -/
def linesLoop (g : Grid) (fill : Nat) : Nat → Int → Attr → Option (List Bytes)
  | 0, _, _ => some []
  | k + 1, y, ca =>
    (g.offset0? ⟨g.rect.min.x, y⟩).bind fun i =>
    (lineLoop g fill (dx g.rect).toNat i ca).bind fun s =>
    (linesLoop g fill k (y + 1) s.2).map fun t => s.1 :: t

/-- `grid.go:67-91` `GridLines`. -/
def gridLines (g : Grid) (fill : Nat) : Option (List Bytes) :=
  linesLoop g fill (dy g.rect).toNat g.rect.min.y 0

/-- The loop `grid.go:98-102`: the slices `[i:i+g.Stride]` of `k` rows, which may reach up to the
capacity. -/
def rowsLoop (g : Grid) : Nat → Nat → Option (List (List Cell))
  | 0, _ => some []
  | k + 1, i =>
    if i + g.stride ≤ g.cells.length then
      (rowsLoop g k (i + g.stride)).map fun t => (g.cells.drop i).take g.stride :: t
    else none

/-- `grid.go:94-104` `GridRowData`: the rows, with runes and attributes together. -/
def gridRows (g : Grid) : Option (List (List Cell)) :=
  (g.offset0? g.rect.min).bind fun i => rowsLoop g (dy g.rect).toNat i

/-- `grid.go:107-118` `RunesToLines`: the lines, and the rows afterwards, which are changed in
place (and so is the grid they are slices of). -/
def runesToLines (rows : List (List Nat)) (zero : Nat) : List Bytes × List (List Nat) :=
  let rows := rows.map fun row => row.map fun r => if r = 0 then zero else r
  (rows.map encodeRunes, rows)

/-- `grid.go:128-134`: one row of attributes. -/
def ctlsRow : Attr → List Attr → Bytes × Attr
  | last, [] => ([], last)
  | last, a :: t =>
    let d := diff last a
    let r := ctlsRow (if d ≠ 0 then merge last d else last) t
    ((if d ≠ 0 then append d else []) ++ 0x20 :: r.1, r.2)

/-- The loop `grid.go:127-137`; `pre` is what the buffer holds before the row. -/
def ctlsRows : Bytes → Attr → List (List Attr) → List Bytes
  | _, _, [] => []
  | pre, last, row :: t =>
    (pre ++ (ctlsRow last row).1) :: ctlsRows [] (ctlsRow last row).2 t

/-- `grid.go:121-139` `AttrsToCtls` (`ControlString`, `ansi/sgr.go:624-629`, is `AppendTo`). -/
def attrsToCtls (rows : List (List Attr)) : List Bytes := ctlsRows (append 0) 0 rows

end Anansi.Gln
