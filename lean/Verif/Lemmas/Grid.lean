import Verif.Spec.Grid
import Verif.Props.Geom
import Mathlib.Tactic.Ring
import Mathlib.Tactic.Linarith
/-
The representation invariant of grids.
-/
set_option autoImplicit false

namespace Anansi.Grid
open Geom

structure Inv (g : Grid) : Prop where
  cap : g.len ≤ g.cells.length
  rows : ∃ h, g.len = g.stride * h
  mem : ∀ p, Mem p g.rect → ∃ x y : Nat, p = ⟨x + 1, y + 1⟩ ∧ x < g.stride ∧ (y + 1) * g.stride ≤ g.len
  dy : (dy g.rect).toNat * g.stride ≤ g.len
  whole : g.isSub = false → g.rect.min = ⟨1, 1⟩ ∨ g.rect = zr

theorem isSub_false (g : Grid) : g.isSub = false ↔ size g.rect = sz g.fullSize := by
  simp [isSub]

theorem pt_eq {p : Pt} {x y : Int} (h1 : p.x = x) (h2 : p.y = y) : p = ⟨x, y⟩ := by
  cases p; simp_all

theorem fullSize_rows {g : Grid} {h : Nat} (hs : g.stride ≠ 0) (e : g.len = g.stride * h) :
    g.fullSize = (g.stride, h) := by
  simp only [fullSize, hs, if_false, e]
  rw [Nat.mul_div_cancel_left _ (by omega)]

theorem inv_zero : Inv {} := by
  refine ⟨by simp, ⟨0, rfl⟩, ?_, by decide, by decide⟩
  intro p hp; unfold Mem zr zp at hp; simp at hp; omega

theorem mem_origin {w h : Nat} {p : Pt} (hp : Mem p ⟨⟨1, 1⟩, ptAdd ⟨1, 1⟩ (sz (w, h))⟩) :
    ∃ x y : Nat, p = ⟨x + 1, y + 1⟩ ∧ x < w ∧ y < h := by
  simp only [Mem, ptAdd, sz] at hp
  exact ⟨(p.x - 1).toNat, (p.y - 1).toNat, pt_eq (by omega) (by omega), by omega, by omega⟩

theorem inv_origin {g : Grid} {w h : Nat} (hr : g.rect = ⟨⟨1, 1⟩, ptAdd ⟨1, 1⟩ (sz (w, h))⟩)
    (cap : g.len ≤ g.cells.length) (rows : ∃ h, g.len = g.stride * h)
    (hw : w ≤ g.stride) (hh : h * g.stride ≤ g.len) : Inv g := by
  refine ⟨cap, rows, ?_, ?_, fun _ => Or.inl (by rw [hr])⟩
  · intro p hp
    rw [hr] at hp
    obtain ⟨x, y, e, hx, hy⟩ := mem_origin hp
    exact ⟨x, y, e, by omega, le_trans (Nat.mul_le_mul_right _ hy) hh⟩
  · rw [hr]
    have : (Geom.dy ⟨⟨1, 1⟩, ptAdd ⟨1, 1⟩ (sz (w, h))⟩).toNat = h := by
      simp only [Geom.dy, ptAdd, sz]; omega
    rw [this]; exact hh

theorem inv_resize {g : Grid} (s : Nat × Nat) (i : Inv g)
    (h : g.isSub = false ∨ g.rect.min = ⟨1, 1⟩) : Inv (g.resize s).1 := by
  unfold resize
  split
  · exact i
  · split
    · rename_i hsub
      have hm : g.rect.min = ⟨1, 1⟩ := by
        rcases h with h | h
        · simp [h] at hsub
        · exact h
      simp only [hm]
      refine inv_origin rfl i.cap i.rows ?_ ?_
      · simp only; split <;> omega
      · simp only
        split
        · exact Nat.div_mul_le_self _ _
        · rw [Nat.mul_comm]; omega
    · rename_i hsub
      have hm : (if g.rect.min = zp then (⟨1, 1⟩ : Pt) else g.rect.min) = ⟨1, 1⟩ := by
        rcases i.whole (by simpa using hsub) with h | h
        · rw [h]; decide
        · rw [h]; rfl
      simp only [hm]
      have hc := i.cap
      split
      · refine inv_origin rfl ?_ ⟨s.2, rfl⟩ (Nat.le_refl _) (by simp [Nat.mul_comm])
        simp only [List.length_append, List.length_take, List.length_replicate]
        omega
      · exact inv_origin rfl (by simp only; omega) ⟨s.2, rfl⟩ (Nat.le_refl _) (by simp [Nat.mul_comm])

theorem inv_subRect {g : Grid} (r : Rect) (i : Inv g) : Inv (g.subRect r) := by
  unfold subRect
  split
  · exact inv_zero
  · rename_i hin
    have hin : Mem r.min g.rect := (ptIn_iff _ _).1 (by simpa using hin)
    obtain ⟨x, y, e, hx, hy⟩ := i.mem _ hin
    refine ⟨i.cap, i.rows, ?_, ?_, ?_⟩
    · intro p hp
      refine i.mem p ?_
      simp only [Mem] at hp hin ⊢
      split at hp <;> split at hp <;> omega
    · refine le_trans (Nat.mul_le_mul_right _ ?_) i.dy
      simp only [Geom.dy, Mem] at hin ⊢
      split <;> omega
    · intro hs
      rw [isSub_false] at hs
      obtain ⟨h, hh⟩ := i.rows
      have hst : g.stride ≠ 0 := by omega
      simp only [fullSize, hst, if_false] at hs
      have hdiv : g.len / g.stride = h := by rw [hh, Nat.mul_div_cancel_left _ (by omega)]
      rw [hdiv] at hs
      -- the last point of the parent
      have hy2 : ∀ q : Pt, Mem q g.rect → q.x ≤ g.stride ∧ q.y ≤ h := by
        intro q hq
        obtain ⟨a, b, e, ha, hb⟩ := i.mem _ hq
        subst e
        rw [hh, Nat.mul_comm g.stride] at hb
        have := Nat.le_of_mul_le_mul_right hb (by omega)
        simp only; omega
      have hl := hy2 ⟨g.rect.max.x - 1, g.rect.max.y - 1⟩ (by simp only [Mem] at hin ⊢; omega)
      simp only [size, sz] at hs
      rw [e] at hs
      simp only [Pt.mk.injEq] at hs
      left
      simp only [e, Pt.mk.injEq]
      have h1 := hs.1; have h2 := hs.2
      simp only at hl
      split at h1 <;> split at h2 <;> omega

theorem inv_full {g : Grid} (i : Inv g) : Inv g.full := by
  obtain ⟨h, hh⟩ := i.rows
  by_cases hs : g.stride = 0
  · have : g.fullSize = (0, 0) := by simp [fullSize, hs]
    refine inv_origin (w := 0) (h := 0) (by simp [full, this]) i.cap i.rows (by omega) (by simp)
  · refine inv_origin (w := g.stride) (h := h) (by simp [full, fullSize_rows hs hh]) i.cap i.rows
      (Nat.le_refl _) ?_
    simp only [full]
    rw [hh, Nat.mul_comm]

theorem inv_write {g : Grid} (cs : List Cell) (i : Inv g) (h : cs.length = g.cells.length) :
    Inv { g with cells := cs } :=
  ⟨by simpa [h] using i.cap, i.rows, i.mem, i.dy, i.whole⟩

theorem Made.inv {g : Grid} (m : Made g) : Inv g := by
  induction m with
  | zero => exact inv_zero
  | resize s _ h ih => exact inv_resize s ih h
  | sub r _ ih => exact inv_subRect r ih
  | full _ ih => exact inv_full ih
  | write cs _ h ih => exact inv_write cs ih h

/-- Offsets in terms of zero-based coordinates. -/
theorem cellOffset_mk {g : Grid} {x y : Nat} (h : Mem ⟨x + 1, y + 1⟩ g.rect) :
    g.cellOffset? ⟨x + 1, y + 1⟩ = some (some (y * g.stride + x)) := by
  have h1 : ptIn ⟨(x : Int) + 1, (y : Int) + 1⟩ g.rect = true := (ptIn_iff _ _).2 h
  unfold cellOffset?
  rw [if_neg (by simp [h1]), if_neg (by simp only; omega)]
  simp

theorem cellOffset_some {g : Grid} {p : Pt} {i : Nat} (h : g.cellOffset? p = some (some i)) :
    Mem p g.rect := by
  unfold cellOffset? at h
  split at h
  · simp at h
  · rename_i hc; exact (ptIn_iff _ _).1 (by simpa using hc)

theorem cellOffset_not_mem {g : Grid} {p : Pt} (h : ¬ Mem p g.rect) :
    g.cellOffset? p = some none := by
  unfold cellOffset?
  rw [if_pos]
  rw [ptIn_iff]; exact h

/-- The offset of a grid's first cell; `0` for an empty grid. -/
theorem offset0_min {g : Grid} (i : Inv g) :
    (Mem g.rect.min g.rect ∧ ∃ x y : Nat, g.rect.min = ⟨x + 1, y + 1⟩ ∧
        g.offset0? g.rect.min = some (y * g.stride + x)) ∨
      (¬ Mem g.rect.min g.rect ∧ g.offset0? g.rect.min = some 0) := by
  by_cases h : Mem g.rect.min g.rect
  · left
    obtain ⟨x, y, e, _, _⟩ := i.mem _ h
    refine ⟨h, x, y, e, ?_⟩
    unfold offset0?
    rw [e] at h ⊢
    rw [cellOffset_mk h]; rfl
  · right
    exact ⟨h, by unfold offset0?; rw [cellOffset_not_mem h]; rfl⟩

theorem offset_lt {x y s len : Nat} (hx : x < s) (hy : (y + 1) * s ≤ len) : y * s + x < len := by
  have : (y + 1) * s = y * s + s := by ring
  omega

theorem offset_inj {x y x' y' s : Nat} (hx : x < s) (hx' : x' < s)
    (h : y * s + x = y' * s + x') : x = x' ∧ y = y' := by
  have h1 : (y * s + x) / s = y := by
    rw [Nat.add_comm, Nat.add_mul_div_right _ _ (by omega), Nat.div_eq_of_lt hx]; omega
  have h2 : (y' * s + x') / s = y' := by
    rw [Nat.add_comm, Nat.add_mul_div_right _ _ (by omega), Nat.div_eq_of_lt hx']; omega
  have : y = y' := by rw [← h1, ← h2, h]
  subst this
  exact ⟨by omega, rfl⟩

end Anansi.Grid
