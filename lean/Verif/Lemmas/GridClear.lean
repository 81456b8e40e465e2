import Verif.Lemmas.Grid
/-
The row loops of `Clear`.
-/
set_option autoImplicit false

namespace Anansi.Grid
open Geom

theorem clearRow_spec (len : Nat) : ∀ (k i : Nat) (cs : List Cell), i + k ≤ len → len ≤ cs.length →
    ∃ cs', clearRow len k i cs = some cs' ∧ cs'.length = cs.length ∧
      ∀ j, cs'[j]? = if i ≤ j ∧ j < i + k then some {} else cs[j]?
  | 0, i, cs, _, _ => ⟨cs, rfl, rfl, fun j => by rw [if_neg]; omega⟩
  | k + 1, i, cs, h, hl => by
    obtain ⟨cs', e, l, f⟩ := clearRow_spec len k (i + 1) (cs.set i {}) (by omega) (by simpa using hl)
    refine ⟨cs', ?_, by simpa using l, ?_⟩
    · rw [clearRow, if_pos (by omega)]; exact e
    · intro j
      rw [f j, List.getElem?_set]
      by_cases hij : i = j
      · subst hij
        rw [if_neg (by omega), if_pos rfl, if_pos (by omega), if_pos (by omega)]
      · rw [if_neg hij]
        by_cases hj : i + 1 ≤ j ∧ j < i + 1 + k
        · rw [if_pos hj, if_pos (by omega)]
        · rw [if_neg hj, if_neg (by omega)]

theorem clearRows_zero (len stride : Nat) : ∀ (rows i : Nat) (cs : List Cell),
    clearRows len stride 0 rows i cs = some cs
  | 0, _, _ => rfl
  | rows + 1, i, cs => by
    rw [clearRows, clearRow]; exact clearRows_zero len stride rows (i + stride) cs

theorem clearRows_spec (len stride w : Nat) : ∀ (rows i : Nat) (cs : List Cell),
    (∀ b, b < rows → i + b * stride + w ≤ len) → len ≤ cs.length →
    ∃ cs', clearRows len stride w rows i cs = some cs' ∧ cs'.length = cs.length ∧
      (∀ j, (∃ b a, b < rows ∧ a < w ∧ j = i + b * stride + a) → cs'[j]? = some {}) ∧
      (∀ j, (¬ ∃ b a, b < rows ∧ a < w ∧ j = i + b * stride + a) → cs'[j]? = cs[j]?)
  | 0, i, cs, _, _ => ⟨cs, rfl, rfl, fun j ⟨b, a, h, _⟩ => by omega, fun _ _ => rfl⟩
  | rows + 1, i, cs, h, hl => by
    obtain ⟨c1, e1, l1, f1⟩ := clearRow_spec len w i cs (by have := h 0 (by omega); omega) hl
    obtain ⟨c2, e2, l2, f2, g2⟩ := clearRows_spec len stride w rows (i + stride) c1
      (fun b hb => by
        have := h (b + 1) (by omega)
        rw [Nat.add_mul] at this; omega)
      (by omega)
    refine ⟨c2, ?_, by omega, ?_, ?_⟩
    · rw [clearRows, e1]; exact e2
    · rintro j ⟨b, a, hb, ha, rfl⟩
      by_cases hlater : ∃ b' a', b' < rows ∧ a' < w ∧ i + b * stride + a = i + stride + b' * stride + a'
      · exact f2 _ hlater
      · rw [g2 _ hlater, f1]
        rcases b with _ | b
        · rw [if_pos (by omega)]
        · exact absurd ⟨b, a, by omega, ha, by rw [Nat.add_mul]; omega⟩ hlater
    · intro j hj
      rw [g2, f1, if_neg]
      · rintro ⟨h1, h2⟩
        exact hj ⟨0, j - i, by omega, by omega, by omega⟩
      · rintro ⟨b, a, hb, ha, e⟩
        exact hj ⟨b + 1, a, by omega, ha, by rw [Nat.add_mul]; omega⟩

end Anansi.Grid
