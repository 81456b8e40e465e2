import Verif.Model.Draw
import Verif.Spec.Geom
/-
Specification vocabulary for grids: which grids the API can produce, and what a
grid shows at a point.
-/
set_option autoImplicit false

namespace Anansi.Grid
open Geom

/-- Point `p` of the grid shows the cell `c`: the offset the API gives for `p` is a
valid index of the slices, and holds `c`. -/
def Shows (g : Grid) (p : Pt) (c : Cell) : Prop :=
  ∃ i, g.cellOffset? p = some (some i) ∧ i < g.len ∧ g.cells[i]? = some c

/-- The grids obtainable from the zero grid by resizing, taking sub-grids, going
back to the full grid and writing cells (through any view of the store).  A grid is
only resized when it is a whole grid or starts at the store's first cell. -/
inductive Made : Grid → Prop
  | zero : Made {}
  | resize {g : Grid} (s : Nat × Nat) :
      Made g → g.isSub = false ∨ g.rect.min = ⟨1, 1⟩ → Made (g.resize s).1
  | sub {g : Grid} (r : Rect) : Made g → Made (g.subRect r)
  | full {g : Grid} : Made g → Made g.full
  | write {g : Grid} (cs : List Cell) :
      Made g → cs.length = g.cells.length → Made { g with cells := cs }

/-- Corners in order. -/
def WF (r : Rect) : Prop := r.min.x ≤ r.max.x ∧ r.min.y ≤ r.max.y

/-- A sequence of resizes. -/
def resizes (g : Grid) (l : List (Nat × Nat)) : Grid := l.foldl (fun g s => (g.resize s).1) g

/-- What drawing source cell `s` over `d` at point `p` through a style should leave:
the style's result, or the old cell if the style yields the zero rune. -/
def styleCell (style : StyleFn) (p : Pt) (d s : Cell) : Cell :=
  if (style p d.rune s.rune d.attr s.attr).1 ≠ 0 then
    ⟨(style p d.rune s.rune d.attr s.attr).1, (style p d.rune s.rune d.attr s.attr).2⟩
  else d

/-- The point at column `a`, row `b` of a grid, counted from its upper left corner. -/
def at_ (g : Grid) (a b : Nat) : Pt := ptAdd g.rect.min ⟨a, b⟩

end Anansi.Grid
