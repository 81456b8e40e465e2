import Verif.Spec.Screen
import Verif.Lemmas.GridClear
/-
Helper lemmas about the screen emulator.
-/
set_option autoImplicit false

namespace Anansi.Screen
open Geom Grid

theorem Whole.mem {sc : Screen} {w h : Nat} (W : sc.Whole w h) (p : Pt) :
    Mem p sc.grid.rect ↔ ∃ x y : Nat, p = ⟨x + 1, y + 1⟩ ∧ x < w ∧ y < h := by
  rw [W.rect]; unfold Mem
  constructor
  · intro hp
    simp only at hp
    exact ⟨(p.x - 1).toNat, (p.y - 1).toNat, pt_eq (by omega) (by omega), by omega, by omega⟩
  · rintro ⟨x, y, rfl, hx, hy⟩
    simp only; omega

/-- Replacing the cursor keeps the screen whole. -/
theorem Whole.cur {sc : Screen} {w h : Nat} (W : sc.Whole w h) (c : Cursor) :
    ({ sc with cur := c } : Screen).Whole w h := ⟨W.hw, W.hh, W.rect, W.stride, W.len, W.cap⟩

/-- Replacing cells keeps the screen whole. -/
theorem Whole.cells {sc : Screen} {w h : Nat} (W : sc.Whole w h) {cs : List Cell}
    (hc : cs.length = sc.grid.cells.length) :
    ({ sc with grid := { sc.grid with cells := cs } } : Screen).Whole w h :=
  ⟨W.hw, W.hh, W.rect, W.stride, W.len, by simpa [hc] using W.cap⟩

theorem Whole.offset_in {sc : Screen} {w h x y : Nat} (W : sc.Whole w h) (hx : x < w) (hy : y < h) :
    sc.offset ⟨x + 1, y + 1⟩ = .ok (some (y * w + x)) := by
  unfold Screen.offset
  rw [cellOffset_mk ((W.mem _).2 ⟨x, y, rfl, hx, hy⟩), W.stride]

theorem Whole.offset_out {sc : Screen} {w h : Nat} {p : Pt} (W : sc.Whole w h)
    (hp : ¬ ∃ x y : Nat, p = ⟨x + 1, y + 1⟩ ∧ x < w ∧ y < h) :
    sc.offset p = .ok none := by
  unfold Screen.offset
  rw [cellOffset_not_mem (fun m => hp ((W.mem _).1 m))]

theorem idx_lt {x y w h : Nat} (hx : x < w) (hy : y < h) : y * w + x < w * h := by
  have : (y + 1) * w ≤ h * w := Nat.mul_le_mul_right w hy
  have e : (y + 1) * w = y * w + w := by ring
  have e2 : h * w = w * h := Nat.mul_comm _ _
  omega

theorem idx_le {x y a b w : Nat} (hx : x < w) (ha : a < w) :
    b * w + a ≤ y * w + x ↔ Upto a b x y := by
  unfold Upto
  rcases Nat.lt_trichotomy b y with h | h | h
  · have : (b + 1) * w ≤ y * w := Nat.mul_le_mul_right w h
    have e : (b + 1) * w = b * w + w := by ring
    constructor
    · intro; left; exact h
    · intro; omega
  · subst h; constructor
    · intro; right; exact ⟨rfl, by omega⟩
    · rintro (h | ⟨_, h⟩) <;> omega
  · have : (y + 1) * w ≤ b * w := Nat.mul_le_mul_right w h
    have e : (y + 1) * w = y * w + w := by ring
    constructor
    · intro; omega
    · rintro (h | ⟨_, h⟩) <;> omega

/-- Clearing `[i, max)` within the screen. -/
theorem Whole.clearRegion {sc : Screen} {w h : Nat} (W : sc.Whole w h) (i m : Nat)
    (hm : m ≤ w * h) :
    ∃ cs, sc.clearRegion i m = .ok { sc with grid := { sc.grid with cells := cs } } ∧
      cs.length = sc.grid.cells.length ∧
      ∀ j, cs[j]? = if i ≤ j ∧ j < m then some {} else sc.grid.cells[j]? := by
  unfold Screen.clearRegion
  by_cases hi : i ≤ m
  · obtain ⟨cs, e, l, f⟩ := clearRow_spec sc.grid.len (m - i) i sc.grid.cells
      (by rw [W.len]; omega) (by rw [W.len]; exact W.cap)
    refine ⟨cs, by rw [e], l, ?_⟩
    intro j
    rw [f]
    have : (i ≤ j ∧ j < i + (m - i)) ↔ (i ≤ j ∧ j < m) := by omega
    simp only [this]
  · have : m - i = 0 := by omega
    rw [this]
    refine ⟨sc.grid.cells, rfl, rfl, ?_⟩
    intro j
    rw [if_neg (by omega)]

end Anansi.Screen
