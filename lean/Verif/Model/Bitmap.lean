import Verif.Model.Draw
/-
`bitmap.go`: bitmaps and their rendering as braille runes; `draw.go:80-98`.
Bitmap points are `image.Point`s (zero based).
-/
set_option autoImplicit false

namespace Anansi

/-- `bitmap.go:10-14` `Bitmap`. -/
structure Bitmap where
  bit : List Bool := []
  stride : Nat := 0
  rect : Rect := ⟨⟨0, 0⟩, ⟨0, 0⟩⟩
deriving DecidableEq, Repr

namespace Bitmap
open Geom

/-- `bitmap.go:17-25` `Load`; `none` is a division by zero (a zero stride, or less
data than one row). -/
def load (stride : Nat) (data : List Bool) : Option Bitmap :=
  if stride = 0 then none
  else
    let h := data.length / stride
    if h = 0 then none
    else some ⟨data ++ List.replicate (data.length % h) false, stride, ⟨⟨0, 0⟩, ⟨stride, h⟩⟩⟩

/-- `bitmap.go:28-32` `Resize` (non-negative sizes only). -/
def resize (w h : Nat) : Bitmap := ⟨List.replicate (w * h) false, w, ⟨⟨0, 0⟩, ⟨w, h⟩⟩⟩

/-- `bitmap.go:102-106` `RuneSize` (Go's division truncates towards zero). -/
def runeSize (b : Bitmap) : Pt := ⟨(dx b.rect + 1).tdiv 2, (dy b.rect + 3).tdiv 4⟩

/-- `bitmap.go:121-126` `index`. -/
def index (b : Bitmap) (p : Pt) : Option Int :=
  if ptIn p b.rect then some (p.y * b.stride + p.x) else none

/-- `bi.Bit[i]`; `none` is an index panic. -/
def bitAt (b : Bitmap) (i : Int) : Option Bool := if 0 ≤ i then b.bit[i.toNat]? else none

/-- `bitmap.go:109-112` `Get`. -/
def get (b : Bitmap) (p : Pt) : Option Bool :=
  match b.index p with
  | none => some false
  | some i => b.bitAt i

/-- `bitmap.go:115-119` `Set`: the new bit store. -/
def set (b : Bitmap) (p : Pt) (v : Bool) : Option (List Bool) :=
  match b.index p with
  | none => some b.bit
  | some i => if 0 ≤ i ∧ i < b.bit.length then some (b.bit.set i.toNat v) else none

/-- The two dots of one row, `bitmap.go:150-155` and so on: `l` for the left one,
`r` for the right one. -/
def dots (b : Bitmap) (i : Int) (col2 : Bool) (l r : Nat) : Option Nat :=
  (b.bitAt i).bind fun v1 =>
  if col2 then (b.bitAt (i + 1)).map fun v2 => (if v1 then l else 0) ||| (if v2 then r else 0)
  else some (if v1 then l else 0)

/-- `bitmap.go:130-195` `Rune`; `none` is an index panic. -/
def rune (b : Bitmap) (p : Pt) : Option Nat :=
  match b.index p with
  | none => some 0x2800
  | some i =>
    let col2 : Bool := p.x + 1 < b.rect.max.x
    (b.dots i col2 0x01 0x08).bind fun c1 =>
    if ¬ p.y + 1 < b.rect.max.y then some (0x2800 ||| c1)
    else (b.dots (i + b.stride) col2 0x02 0x10).bind fun c2 =>
    if ¬ p.y + 2 < b.rect.max.y then some (0x2800 ||| (c1 ||| c2))
    else (b.dots (i + b.stride + b.stride) col2 0x04 0x20).bind fun c3 =>
    if ¬ p.y + 3 < b.rect.max.y then some (0x2800 ||| (c1 ||| c2 ||| c3))
    else (b.dots (i + b.stride + b.stride + b.stride) col2 0x40 0x80).bind fun c4 =>
    some (0x2800 ||| (c1 ||| c2 ||| c3 ||| c4))

/-- `bitmap.go:213-228` `SubRect`. -/
def subRect (b : Bitmap) (r : Rect) : Bitmap :=
  if ¬ ptIn r.min b.rect then {}
  else
    { b with rect := ⟨r.min, ⟨if r.max.x > b.rect.max.x then b.rect.max.x else r.max.x,
                              if r.max.y > b.rect.max.y then b.rect.max.y else r.max.y⟩⟩ }

/-! ### `ParseBitmap`; a Go string is given by the runes decoding yields for it -/

/-- `bitmap.go:56-70`: the stride of all lines, or an error. -/
def parseStride (k : Nat) : Nat → List (List Nat) → Option Nat
  | stride, [] => some stride
  | stride, line :: lines =>
    if k = 2 ∧ line.length % 2 = 1 then none
    else
      let m := if k = 2 then line.length / 2 else line.length
      if stride = 0 then parseStride k m lines
      else if m ≠ stride then none
      else parseStride k stride lines

/-- `bitmap.go:74-86`: the bits of one line. -/
def parseLine (pat : List Nat) : List Nat → List Bool
  | [] => []
  | r :: rs =>
    match pat with
    | [p] => (r == p) :: parseLine pat rs
    | [p, q] =>
      match rs with
      | [] => [r == p && 0xFFFD == q]
      | r2 :: rs' => (r == p && r2 == q) :: parseLine pat rs'
    | _ => []

/-- `bitmap.go:39-89` `ParseBitmap`; `none` is an error. -/
def parse (pat : List Nat) (lines : List (List Nat)) : Option (Nat × List Bool) :=
  if pat.length = 1 ∨ pat.length = 2 then
    (parseStride pat.length 0 lines).map fun s => (s, lines.flatMap (parseLine pat))
  else none

end Bitmap

namespace Grid
open Geom

/-- `draw.go:85-92`: one cell; `none` is a panic. -/
def drawBitmapCell (st : StyleFn) (dst : Grid) (src : Bitmap) (gp bp : Pt) (cs : List Cell) :
    Option (List Cell) :=
  match dst.cellOffset? gp with
  | none => none
  | some none => some cs
  | some (some i) =>
    (src.rune bp).bind fun r =>
    (ptFromImage bp).bind fun sp =>
    if i < dst.len then
      let d := cs[i]?.getD {}
      let ra := st sp d.rune r d.attr d.attr
      some (if ra.1 ≠ 0 then cs.set i ⟨ra.1, ra.2⟩ else cs)
    else none

/-- `draw.go:84-95`: `k` cells of a row. -/
def drawBitmapRow (st : StyleFn) (dst : Grid) (src : Bitmap) :
    Nat → Pt → Pt → List Cell → Option (List Cell)
  | 0, _, _, cs => some cs
  | k + 1, gp, bp, cs =>
    (drawBitmapCell st dst src gp bp cs).bind
      (drawBitmapRow st dst src k ⟨gp.x + 1, gp.y⟩ ⟨bp.x + 2, bp.y⟩)

/-- `draw.go:82-97`: `n` rows. -/
def drawBitmapRows (st : StyleFn) (dst : Grid) (src : Bitmap) (k : Nat) :
    Nat → Pt → Pt → List Cell → Option (List Cell)
  | 0, _, _, cs => some cs
  | n + 1, gp, bp, cs =>
    (drawBitmapRow st dst src k gp bp cs).bind
      (drawBitmapRows st dst src k n ⟨gp.x, gp.y + 1⟩ ⟨bp.x, bp.y + 4⟩)

/-- `draw.go:80-98` `DrawBitmap`: rows while `bp.Y < Max.Y` in steps of 4, columns
while both the cell is in the destination's columns and `bp.X < Max.X` in steps of 2. -/
def drawBitmap (dst : Grid) (src : Bitmap) (ss : List StyleV) : Option (List Cell) :=
  drawBitmapRows (StyleV.styles ss).apply dst src
    (min (dx dst.rect) ((dx src.rect + 1) / 2)).toNat ((dy src.rect + 3) / 4).toNat
    dst.rect.min src.rect.min dst.cells

end Grid
end Anansi
