import Verif.Spec.Geom
import Mathlib.Tactic.ByContra
/-
C55 Rectangle algebra.
C56 Image and terminal coordinates convert both ways.
-/
set_option autoImplicit false

namespace Anansi.Geom

theorem ptIn_iff (p : Pt) (r : Rect) : ptIn p r = true ↔ Mem p r := by
  simp [ptIn, Mem, and_assoc]

theorem not_empty_iff (r : Rect) : empty r = false ↔ r.min.x < r.max.x ∧ r.min.y < r.max.y := by
  simp [empty]

theorem empty_true_iff (r : Rect) : empty r = true ↔ (r.max.x ≤ r.min.x ∨ r.max.y ≤ r.min.y) := by
  simp [empty]

/-- **C55**: `Empty` holds exactly for rectangles without points. -/
theorem empty_iff (r : Rect) : empty r = true ↔ ¬ ∃ p, Mem p r := by
  rw [empty_true_iff]
  constructor
  · rintro h ⟨p, hp⟩; unfold Mem at hp; omega
  · intro h
    by_contra hc
    exact h ⟨r.min, by unfold Mem; omega⟩

/-- **C55**: the intersection contains exactly the common points. -/
theorem mem_intersect (p : Pt) (r s : Rect) : Mem p (intersect r s) ↔ Mem p r ∧ Mem p s := by
  have e1 : ∀ a b : Int, (if a < b then b else a) = max a b := by intros; omega
  have e2 : ∀ a b : Int, (if a > b then b else a) = min a b := by intros; omega
  unfold intersect
  simp only [e1, e2]
  by_cases h : empty ⟨⟨max r.min.x s.min.x, max r.min.y s.min.y⟩, ⟨min r.max.x s.max.x, min r.max.y s.max.y⟩⟩ = true
  · rw [if_pos h]
    rw [empty_true_iff] at h
    unfold Mem; simp only at *
    omega
  · rw [if_neg h]
    unfold Mem; simp only; omega

/-- **C55**: the union contains both operands. -/
theorem subset_union (r s : Rect) : Subset r (union r s) ∧ Subset s (union r s) := by
  unfold union Subset
  split
  · rename_i h; rw [empty_true_iff] at h
    refine ⟨fun p hp => ?_, fun p hp => hp⟩
    unfold Mem at hp; omega
  · split
    · rename_i h; rw [empty_true_iff] at h
      refine ⟨fun p hp => hp, fun p hp => ?_⟩
      unfold Mem at hp; omega
    · unfold Mem; simp only
      refine ⟨fun p hp => ?_, fun p hp => ?_⟩ <;> split <;> split <;> split <;> split <;> omega

/-- A non-empty rectangle inside another one has its corners inside. -/
theorem subset_bounds {r t : Rect} (h : Subset r t) (hr : ∃ p, Mem p r) :
    t.min.x ≤ r.min.x ∧ r.max.x ≤ t.max.x ∧ t.min.y ≤ r.min.y ∧ r.max.y ≤ t.max.y := by
  obtain ⟨p, hp⟩ := hr
  have h1 := h r.min (by unfold Mem at *; omega)
  have h2 := h ⟨r.max.x - 1, r.max.y - 1⟩ (by unfold Mem at *; simp only; omega)
  unfold Mem at h1 h2; simp only at h2; omega

/-- **C55**: the union is the smallest rectangle that contains both. -/
theorem union_smallest (r s t : Rect) (hr : Subset r t) (hs : Subset s t) : Subset (union r s) t := by
  unfold union
  split
  · exact hs
  · split
    · exact hr
    · rename_i h1 h2
      have e1 := subset_bounds hr (by by_contra h; exact h1 ((empty_iff r).mpr h))
      have e2 := subset_bounds hs (by by_contra h; exact h2 ((empty_iff s).mpr h))
      intro p hp
      unfold Mem at *; simp only at hp
      split at hp <;> split at hp <;> split at hp <;> split at hp <;> omega

/-- **C55**: `In` is inclusion of the sets of points. -/
theorem rectIn_iff (r s : Rect) : rectIn r s = true ↔ Subset r s := by
  unfold rectIn
  split
  · rename_i h
    simp only [true_iff]
    exact fun p hp => absurd ⟨p, hp⟩ ((empty_iff r).mp h)
  · rename_i h
    have hne : ∃ p, Mem p r := by by_contra hc; exact h ((empty_iff r).mpr hc)
    constructor
    · intro hb p hp
      simp only [Bool.and_eq_true, decide_eq_true_eq] at hb
      unfold Mem at *; omega
    · intro hsub
      have := subset_bounds hsub hne
      simp only [Bool.and_eq_true, decide_eq_true_eq]; omega

/-- **C55**: `Eq` is equality of the sets of points. -/
theorem rectEq_iff (r s : Rect) : rectEq r s = true ↔ ∀ p, Mem p r ↔ Mem p s := by
  unfold rectEq
  constructor
  · intro h
    simp only [Bool.or_eq_true, beq_iff_eq, Bool.and_eq_true] at h
    rcases h with rfl | ⟨h1, h2⟩
    · exact fun p => Iff.rfl
    · intro p
      exact ⟨fun hp => absurd ⟨p, hp⟩ ((empty_iff r).mp h1), fun hp => absurd ⟨p, hp⟩ ((empty_iff s).mp h2)⟩
  · intro h
    simp only [Bool.or_eq_true, beq_iff_eq, Bool.and_eq_true]
    by_cases hr : ∃ p, Mem p r
    · left
      have hs : ∃ p, Mem p s := by obtain ⟨p, hp⟩ := hr; exact ⟨p, (h p).mp hp⟩
      have a := subset_bounds (fun p hp => (h p).mp hp) hr
      have b := subset_bounds (fun p hp => (h p).mpr hp) hs
      obtain ⟨⟨a1, a2⟩, ⟨a3, a4⟩⟩ := r
      obtain ⟨⟨b1, b2⟩, ⟨b3, b4⟩⟩ := s
      simp only at a b
      simp only [Rect.mk.injEq, Pt.mk.injEq]; omega
    · right
      refine ⟨(empty_iff r).mpr hr, (empty_iff s).mpr ?_⟩
      rintro ⟨p, hp⟩; exact hr ⟨p, (h p).mpr hp⟩

/-- **C55**: `Overlaps` holds exactly when there is a common point. -/
theorem overlaps_iff (r s : Rect) : overlaps r s = true ↔ ∃ p, Mem p r ∧ Mem p s := by
  unfold overlaps
  simp only [Bool.and_eq_true, Bool.not_eq_true', not_empty_iff, decide_eq_true_eq]
  constructor
  · intro h
    refine ⟨⟨max r.min.x s.min.x, max r.min.y s.min.y⟩, ?_⟩
    unfold Mem; simp only; omega
  · rintro ⟨p, h1, h2⟩; unfold Mem at *; omega

/-- **C55**: insetting keeps exactly the points at distance `n` from all edges
(for negative `n`, grows the rectangle). -/
theorem mem_inset (p : Pt) (r : Rect) (n : Int) : Mem p (inset r n) ↔
    (r.min.x + n ≤ p.x ∧ p.x < r.max.x - n) ∧ (r.min.y + n ≤ p.y ∧ p.y < r.max.y - n) := by
  unfold inset dx dy Mem
  simp only; omega

/-- **C55**: translation moves every point. -/
theorem mem_rectAdd (p q : Pt) (r : Rect) : Mem p (rectAdd r q) ↔ Mem ⟨p.x - q.x, p.y - q.y⟩ r := by
  unfold rectAdd ptAdd Mem; simp only; omega

/-- **C55**: a rectangle moved back has the points that are moved into it. -/
theorem mem_rectSub (p q : Pt) (r : Rect) : Mem p (rectSub r q) ↔ Mem ⟨p.x + q.x, p.y + q.y⟩ r := by
  unfold rectSub ptSub Mem; simp only; omega

/-- **C55**: the canonical version is well formed, has the same corners up to
order, and a well-formed rectangle is its own canonical version. -/
theorem canon_wf (r : Rect) :
    (canon r).min.x ≤ (canon r).max.x ∧ (canon r).min.y ≤ (canon r).max.y ∧
    ((canon r).min.x = min r.min.x r.max.x ∧ (canon r).max.x = max r.min.x r.max.x) ∧
    ((canon r).min.y = min r.min.y r.max.y ∧ (canon r).max.y = max r.min.y r.max.y) := by
  unfold canon
  simp only; omega

/-- **C55**: a well-formed rectangle is its own canonical version. -/
theorem canon_of_wf (r : Rect) (h1 : r.min.x ≤ r.max.x) (h2 : r.min.y ≤ r.max.y) : canon r = r := by
  unfold canon
  rw [if_neg (by omega), if_neg (by omega), if_neg (by omega), if_neg (by omega)]

/-- Constructed rectangles are well formed and valid; the constructor rejects
exactly the invalid coordinates. -/
theorem rect_wf (x0 y0 x1 y1 : Int) :
    (rect x0 y0 x1 y1 = none ↔ ¬ (1 ≤ x0 ∧ 1 ≤ y0 ∧ 1 ≤ x1 ∧ 1 ≤ y1)) ∧
    ∀ r, rect x0 y0 x1 y1 = some r → 1 ≤ r.min.x ∧ 1 ≤ r.min.y ∧ r = canon ⟨⟨x0, y0⟩, ⟨x1, y1⟩⟩ := by
  constructor
  · unfold rect; split <;> simp <;> omega
  · intro r h
    unfold rect at h
    split at h
    · simp at h
    · simp only [Option.some.injEq] at h
      subst h
      unfold canon
      simp only [gt_iff_lt, and_true]
      omega

/-- Overlapping and disjoint rectangles, an inset that collapses. -/
example : intersect ⟨⟨1, 1⟩, ⟨5, 5⟩⟩ ⟨⟨3, 2⟩, ⟨9, 4⟩⟩ = ⟨⟨3, 2⟩, ⟨5, 4⟩⟩ := by decide
example : union ⟨⟨1, 1⟩, ⟨5, 5⟩⟩ ⟨⟨3, 2⟩, ⟨9, 4⟩⟩ = ⟨⟨1, 1⟩, ⟨9, 5⟩⟩ := by decide
example : intersect ⟨⟨1, 1⟩, ⟨3, 3⟩⟩ ⟨⟨5, 5⟩, ⟨6, 6⟩⟩ = ⟨⟨5, 5⟩, ⟨5, 5⟩⟩ := by decide
example : inset ⟨⟨1, 1⟩, ⟨4, 9⟩⟩ 2 = ⟨⟨2, 3⟩, ⟨2, 7⟩⟩ := by decide

/-! ### C56 -/

/-- **C56** for points: image points with non-negative coordinates are exactly
the convertible ones, the result is valid, and converting back is the identity. -/
theorem point_to_ansi_and_back (p : Pt) :
    (ptFromImage p = none ↔ p.x < 0 ∨ p.y < 0) ∧
    ∀ q, ptFromImage p = some q → valid q = true ∧ ptToImage q = some p := by
  obtain ⟨x, y⟩ := p
  unfold ptFromImage ptToImage valid
  constructor
  · simp; omega
  · intro q h
    split at h
    · simp at h
    · simp at h; subst h; simp at *; omega

/-- **C56** for points, the other way round. -/
theorem point_to_image_and_back (q : Pt) :
    (ptToImage q = none ↔ valid q = false) ∧
    ∀ p, ptToImage q = some p → ptFromImage p = some q := by
  obtain ⟨x, y⟩ := q
  unfold ptFromImage ptToImage valid
  constructor
  · simp
  · intro q h
    split at h
    · simp at h
    · simp at h; subst h; simp at *; omega

/-- **C56** for rectangles (part proved): converting a well-formed terminal
rectangle to image space keeps exactly its points, converted.
Missing: the way back, see `rectFromImage_always_zero`. -/
theorem rect_to_image_mem_partial (r : Rect) (hv : 1 ≤ r.min.x ∧ 1 ≤ r.min.y)
    (hwf : r.min.x ≤ r.max.x ∧ r.min.y ≤ r.max.y) :
    ∃ ir, rectToImage r = some ir ∧
      ∀ p q, ptToImage p = some q → (Mem p r ↔ Mem q ir) := by
  refine ⟨⟨⟨r.min.x - 1, r.min.y - 1⟩, ⟨r.max.x - 1, r.max.y - 1⟩⟩, ?_, ?_⟩
  · unfold rectToImage imageRect
    rw [if_neg (by omega), if_neg (by omega), if_neg (by omega), if_neg (by omega), if_neg (by omega)]
  · intro p q h
    unfold ptToImage at h
    split at h
    · simp at h
    · simp at h; subst h
      unfold Mem; simp only; omega

example : rectToImage ⟨⟨1, 1⟩, ⟨11, 6⟩⟩ = some ⟨⟨0, 0⟩, ⟨10, 5⟩⟩ := by decide

/-- Negation for **C56**: converting any image rectangle gives the zero
rectangle, which is not even valid, so no terminal rectangle ever comes back. -/
theorem rectFromImage_always_zero (ir : Rect) (h : 0 ≤ ir.min.x ∧ 0 ≤ ir.min.y ∧ 0 ≤ ir.max.x ∧ 0 ≤ ir.max.y) :
    rectFromImage ir = some zr ∧ rectToImage zr = none := by
  refine ⟨?_, by decide⟩
  unfold rectFromImage; rw [if_neg (by omega)]

/-- Negation: converting a rectangle to an image rectangle and back can change it. -/
theorem rect_image_not_roundtrip :
    ∃ r ir, rectToImage r = some ir ∧ rectFromImage ir ≠ some r :=
  ⟨⟨⟨1, 1⟩, ⟨11, 6⟩⟩, ⟨⟨0, 0⟩, ⟨10, 5⟩⟩, by decide, by decide⟩

end Anansi.Geom
