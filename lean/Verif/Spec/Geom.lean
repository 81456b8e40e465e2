import Verif.Model.Geom
/-
Specification of rectangles as sets of points.
-/
set_option autoImplicit false

namespace Anansi.Geom

/-- The points of a rectangle: left and top edge included, right and bottom not. -/
def Mem (p : Pt) (r : Rect) : Prop :=
  (r.min.x ≤ p.x ∧ p.x < r.max.x) ∧ (r.min.y ≤ p.y ∧ p.y < r.max.y)

instance (p : Pt) (r : Rect) : Decidable (Mem p r) := by unfold Mem; infer_instance

/-- Every point of `r` is one of `s`. -/
def Subset (r s : Rect) : Prop := ∀ p, Mem p r → Mem p s

end Anansi.Geom
