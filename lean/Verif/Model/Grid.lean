import Verif.Model.Geom
import Verif.Model.Sgr
/-
`grid.go`: the cell grid.

A grid's two parallel slices `Attr` and `Rune` are one list of cells: `cells` is
the whole backing store up to the capacity and `len` the length of the slices
(both are always allocated together with the same length and capacity, lines
40-44).  Sub-grids share the store of their parent: a write through a sub-grid is
modelled by a new store, which is then also the parent's.
Sizes are natural numbers: `Resize` with a negative size is not modelled.
-/
set_option autoImplicit false

namespace Anansi

/-- One screen cell; rune `0` is "nothing drawn here". -/
structure Cell where
  rune : Nat := 0
  attr : Attr := 0
deriving DecidableEq, Repr

/-- `grid.go:10-16` `Grid`. -/
structure Grid where
  rect : Rect := Geom.zr
  stride : Nat := 0
  len : Nat := 0
  cells : List Cell := []
deriving DecidableEq, Repr

namespace Grid
open Geom

/-- `grid.go:99-104` `fullSize`. -/
def fullSize (g : Grid) : Nat × Nat := if g.stride = 0 then (0, 0) else (g.stride, g.len / g.stride)

/-- An `image.Point` from a size. -/
def sz (s : Nat × Nat) : Pt := ⟨s.1, s.2⟩

/-- `grid.go:95-97` `IsSub`. -/
def isSub (g : Grid) : Bool := size g.rect ≠ sz g.fullSize

/-- `grid.go:20-52` `Resize`: the new grid and whether it changed.  The shared
branch (sub-grid) keeps the store; the other one reuses the store's capacity, or
allocates and copies the old `len` cells. -/
def resize (g : Grid) (s : Nat × Nat) : Grid × Bool :=
  if sz s = size g.rect then (g, false)
  else if g.isSub then
    let sx := if s.1 > g.stride then g.stride else s.1
    let sy := if g.stride * s.2 > g.len then g.len / g.stride else s.2
    ({ g with rect := ⟨g.rect.min, ptAdd g.rect.min (sz (sx, sy))⟩ }, true)
  else
    let min := if g.rect.min = zp then ⟨1, 1⟩ else g.rect.min
    let rect : Rect := ⟨min, ptAdd min (sz s)⟩
    let n := s.1 * s.2
    if n > g.cells.length then
      ({ rect, stride := s.1, len := n,
         cells := g.cells.take g.len ++ List.replicate (n - g.len) {} }, true)
    else ({ rect, stride := s.1, len := n, cells := g.cells }, true)

/-- `grid.go:85-91` `CellOffset`: outer `none` is the panic of `ToImage`, inner
`none` the result `(0, false)`. -/
def cellOffset? (g : Grid) (p : Pt) : Option (Option Nat) :=
  if ¬ ptIn p g.rect then some none
  else if p.x < 1 ∨ p.y < 1 then none
  else some (some ((p.y - 1).toNat * g.stride + (p.x - 1).toNat))

/-- `i, _ := g.CellOffset(p)`: the offset is `0` when the point is outside. -/
def offset0? (g : Grid) (p : Pt) : Option Nat := (g.cellOffset? p).map (·.getD 0)

/-- `grid.go:68-72`: clear `k` cells from index `i`; `none` is an index panic. -/
def clearRow (len : Nat) : Nat → Nat → List Cell → Option (List Cell)
  | 0, _, cs => some cs
  | k + 1, i, cs => if i < len then clearRow len k (i + 1) (cs.set i {}) else none

/-- `grid.go:67-75`: clear `rows` rows of `w` cells; after a row the index has
advanced by the stride (`w` cells forward, `Dx` back, `Stride` forward). -/
def clearRows (len stride w : Nat) : Nat → Nat → List Cell → Option (List Cell)
  | 0, _, cs => some cs
  | rows + 1, i, cs => (clearRow len w i cs).bind (clearRows len stride w rows (i + stride))

/-- `grid.go:55-76` `Clear`: the new store, `none` is a panic. -/
def clear (g : Grid) : Option (List Cell) :=
  if ¬ g.isSub then some (List.replicate g.len ({} : Cell) ++ g.cells.drop g.len)
  else (g.offset0? g.rect.min).bind fun i =>
    clearRows g.len g.stride (dx g.rect).toNat (dy g.rect).toNat i g.cells

/-- `grid.go:108-112` `Full`. -/
def full (g : Grid) : Grid := { g with rect := ⟨⟨1, 1⟩, ptAdd ⟨1, 1⟩ (sz g.fullSize)⟩ }

/-- `grid.go:129-145` `SubRect`. -/
def subRect (g : Grid) (r : Rect) : Grid :=
  if ¬ ptIn r.min g.rect then {}
  else
    { g with rect := ⟨r.min, ⟨if r.max.x > g.rect.max.x then g.rect.max.x else r.max.x,
                              if r.max.y > g.rect.max.y then g.rect.max.y else r.max.y⟩⟩ }

/-- `grid.go:116-118` `SubAt`. -/
def subAt (g : Grid) (at_ : Pt) : Grid := g.subRect ⟨at_, g.rect.max⟩

/-- `grid.go:122-124` `SubSize`. -/
def subSize (g : Grid) (s : Pt) : Grid := g.subRect ⟨g.rect.min, ptAdd g.rect.min s⟩

/-- The cells behind the slices. -/
def data (g : Grid) : List Cell := g.cells.take g.len

/-- `grid.go:149-171` `Eq`: compare two cells, with zero runes read as `zero`. -/
def cellEq (z : Nat) (a b : Cell) : Bool :=
  a.attr == b.attr && (if a.rune = 0 then z else a.rune) == (if b.rune = 0 then z else b.rune)

/-- `grid.go:149-171` `Eq`. -/
def eq (g other : Grid) (z : Nat) : Bool :=
  g.len == other.len && (g.data.zip other.data).all (fun p => cellEq z p.1 p.2)

end Grid
end Anansi
