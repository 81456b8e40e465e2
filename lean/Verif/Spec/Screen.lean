import Verif.Model.VScreen
import Verif.Spec.Geom
/-
Specification vocabulary for screens.
-/
set_option autoImplicit false

namespace Anansi.Screen
open Geom

/-- A whole screen of `w` columns and `h` rows, both at least one. -/
structure Whole (sc : Screen) (w h : Nat) : Prop where
  hw : 1 ≤ w
  hh : 1 ≤ h
  rect : sc.grid.rect = ⟨⟨1, 1⟩, ⟨w + 1, h + 1⟩⟩
  stride : sc.grid.stride = w
  len : sc.grid.len = w * h
  cap : w * h ≤ sc.grid.cells.length

/-- What a screen of width `w` holds in column `x` of row `y`, counted from zero:
rows are stored one after the other. -/
def look (w : Nat) (sc : Screen) (x y : Nat) : Option Cell := sc.grid.cells[y * w + x]?

/-- The cursor is in column `x` of row `y`, counted from zero. -/
def CurAt (sc : Screen) (x y : Nat) : Prop := sc.cur.pt = ⟨x + 1, y + 1⟩

/-- The cursor is on the screen. -/
def OnScreen (sc : Screen) (w h : Nat) : Prop := ∃ x y, x < w ∧ y < h ∧ sc.CurAt x y

/-- Reading order: `(a,b)` comes before `(x,y)` or is the same. -/
def Upto (a b x y : Nat) : Prop := b < y ∨ (b = y ∧ a ≤ x)

instance (a b x y : Nat) : Decidable (Upto a b x y) := by unfold Upto; infer_instance

end Anansi.Screen
