import Verif.Lemmas.Grid
/-
The row loops of `DrawGrid`.
-/
set_option autoImplicit false

namespace Anansi.Grid
open Geom

theorem copyCells_length {dst src : List Cell} {di si w : Nat} (h1 : di + w ≤ dst.length)
    (h2 : si + w ≤ src.length) : (copyCells dst di src si w).length = dst.length := by
  simp only [copyCells, List.length_append, List.length_take, List.length_drop]; omega

theorem copyCells_get {dst src : List Cell} {di si w : Nat} (h1 : di + w ≤ dst.length)
    (h2 : si + w ≤ src.length) (j : Nat) :
    (copyCells dst di src si w)[j]? =
      if di ≤ j ∧ j < di + w then src[si + (j - di)]? else dst[j]? := by
  have l1 : (dst.take di).length = di := by simp; omega
  have l2 : (dst.take di ++ (src.drop si).take w).length = di + w := by
    simp only [List.length_append, List.length_take, List.length_drop]; omega
  unfold copyCells
  by_cases h : j < di + w
  · rw [List.getElem?_append_left (by omega)]
    by_cases hj : j < di
    · rw [List.getElem?_append_left (by omega), if_neg (by omega), List.getElem?_take, if_pos hj]
    · rw [List.getElem?_append_right (by omega), l1, if_pos (by omega), List.getElem?_take,
        if_pos (by omega), List.getElem?_drop]
  · rw [List.getElem?_append_right (by omega), l2, if_neg (by omega), List.getElem?_drop]
    congr 1; omega

theorem copyRows_spec (src : List Cell) (D S w : Nat) (hD : w ≤ D) :
    ∀ (rows di si : Nat) (dst : List Cell),
    (∀ b, b < rows → di + b * D + w ≤ dst.length ∧ si + b * S + w ≤ src.length) →
    ∃ cs, copyRows src D S (w : Int) rows di si dst = some cs ∧ cs.length = dst.length ∧
      (∀ b a, b < rows → a < w → cs[di + b * D + a]? = src[si + b * S + a]?) ∧
      (∀ j, (∀ b a, b < rows → a < w → j ≠ di + b * D + a) → cs[j]? = dst[j]?)
  | 0, di, si, dst, _ => ⟨dst, rfl, rfl, fun b a h => by omega, fun _ _ => rfl⟩
  | rows + 1, di, si, dst, h => by
    have h0 := h 0 (by omega)
    simp only [Nat.zero_mul, Nat.add_zero] at h0
    have hl := copyCells_length h0.1 h0.2
    have step : ∀ (k b X : Nat), k + (b + 1) * X = k + X + b * X := by intros; ring
    obtain ⟨cs, e, l, f, g⟩ := copyRows_spec src D S w hD rows (di + D) (si + S)
      (copyCells dst di src si w) (fun b hb => by
        have := h (b + 1) (by omega)
        rw [hl, ← step, ← step]; exact this)
    refine ⟨cs, ?_, by omega, ?_, ?_⟩
    · rw [copyRows, if_pos ⟨by omega, by simpa using h0⟩]; exact e
    · intro b a hb ha
      rcases b with _ | b
      · rw [g, copyCells_get h0.1 h0.2, if_pos (by omega)]
        · congr 1; omega
        · intro b' a' hb' ha'; omega
      · rw [step, step]; exact f b a (by omega) ha
    · intro j hj
      rw [g j, copyCells_get h0.1 h0.2, if_neg]
      · rintro ⟨h1, h2⟩
        exact hj 0 (j - di) (by omega) (by omega) (by omega)
      · intro b a hb ha
        have := hj (b + 1) a (by omega) ha
        rw [step] at this; exact this

theorem styleRow_spec (style : StyleFn) (slen dlen : Nat) (src : List Cell) (dp : Pt)
    (hs : slen ≤ src.length) : ∀ (k di si : Nat) (dst : List Cell),
    dlen ≤ dst.length → di + k ≤ dlen → si + k ≤ slen →
    ∃ cs, styleRow style slen dlen src dp k di si dst = some cs ∧ cs.length = dst.length ∧
      ∀ j, cs[j]? = if di ≤ j ∧ j < di + k then
        some (styleCell style dp (dst[j]?.getD {}) (src[si + (j - di)]?.getD {})) else dst[j]?
  | 0, di, si, dst, _, _, _ => ⟨dst, rfl, rfl, fun j => by rw [if_neg]; omega⟩
  | k + 1, di, si, dst, hl, h1, h2 => by
    have hw : (if (style dp (dst[di]?.getD {}).rune (src[si]?.getD {}).rune (dst[di]?.getD {}).attr
          (src[si]?.getD {}).attr).1 ≠ 0 then
        dst.set di ⟨(style dp (dst[di]?.getD {}).rune (src[si]?.getD {}).rune (dst[di]?.getD {}).attr
          (src[si]?.getD {}).attr).1, (style dp (dst[di]?.getD {}).rune (src[si]?.getD {}).rune
            (dst[di]?.getD {}).attr (src[si]?.getD {}).attr).2⟩ else dst)
        = dst.set di (styleCell style dp (dst[di]?.getD {}) (src[si]?.getD {})) := by
      unfold styleCell
      split
      · rfl
      · rw [List.getElem?_eq_getElem (by omega)]
        simp
    obtain ⟨cs, e, l, f⟩ := styleRow_spec style slen dlen src dp hs k (di + 1) (si + 1)
      (dst.set di (styleCell style dp (dst[di]?.getD {}) (src[si]?.getD {})))
      (by simpa using hl) (by omega) (by omega)
    refine ⟨cs, ?_, by simpa using l, ?_⟩
    · rw [styleRow, if_pos (by omega)]
      simp only
      rw [hw]; exact e
    · intro j
      rw [f j]
      by_cases hj : di = j
      · subst hj
        rw [if_neg (by omega), if_pos (by omega), List.getElem?_set, if_pos rfl, if_pos (by omega)]
        simp
      · by_cases hin : di + 1 ≤ j ∧ j < di + 1 + k
        · rw [if_pos hin, if_pos (by omega), List.getElem?_set, if_neg hj]
          rw [show si + 1 + (j - (di + 1)) = si + (j - di) by omega]
        · rw [if_neg hin, if_neg (by omega), List.getElem?_set, if_neg hj]

theorem styleRows_spec (style : StyleFn) (slen dlen : Nat) (src : List Cell) (D S w : Nat)
    (hs : slen ≤ src.length) (hD : w ≤ D) : ∀ (rows : Nat) (dp : Pt) (di si : Nat) (dst : List Cell),
    dlen ≤ dst.length →
    (∀ b, b < rows → di + b * D + w ≤ dlen ∧ si + b * S + w ≤ slen) →
    ∃ cs, styleRows style slen dlen src D S w rows dp di si dst = some cs ∧ cs.length = dst.length ∧
      (∀ b a, b < rows → a < w → cs[di + b * D + a]? =
        some (styleCell style ⟨dp.x, dp.y + b⟩ (dst[di + b * D + a]?.getD {}) (src[si + b * S + a]?.getD {}))) ∧
      (∀ j, (∀ b a, b < rows → a < w → j ≠ di + b * D + a) → cs[j]? = dst[j]?)
  | 0, dp, di, si, dst, _, _ => ⟨dst, rfl, rfl, fun b a h => by omega, fun _ _ => rfl⟩
  | rows + 1, dp, di, si, dst, hl, h => by
    have h0 := h 0 (by omega)
    simp only [Nat.zero_mul, Nat.add_zero] at h0
    have step : ∀ (k b X : Nat), k + (b + 1) * X = k + X + b * X := by intros; ring
    obtain ⟨c1, e1, l1, f1⟩ := styleRow_spec style slen dlen src dp hs w di si dst hl h0.1 h0.2
    obtain ⟨cs, e, l, f, g⟩ := styleRows_spec style slen dlen src D S w hs hD rows ⟨dp.x, dp.y + 1⟩
      (di + D) (si + S) c1 (by omega) (fun b hb => by
        have := h (b + 1) (by omega)
        rw [← step, ← step]; exact this)
    refine ⟨cs, ?_, by omega, ?_, ?_⟩
    · rw [styleRows, e1]; exact e
    · intro b a hb ha
      rcases b with _ | b
      · rw [g, f1, if_pos (by omega)]
        · simp only [Nat.zero_mul, Nat.add_zero, Nat.cast_zero, Int.add_zero]
          rw [show di + a - di = a by omega]
        · intro b' a' hb' ha'; omega
      · rw [step, step, f b a (by omega) ha, f1, if_neg (by omega)]
        congr 3
        push_cast; ring
    · intro j hj
      rw [g j, f1, if_neg]
      · rintro ⟨h1, h2⟩
        exact hj 0 (j - di) (by omega) (by omega) (by omega)
      · intro b a hb ha
        have := hj (b + 1) a (by omega) ha
        rw [step] at this; exact this

end Anansi.Grid

namespace Anansi.Grid
open Geom

/-- Offsets of a block of cells from a grid's upper left corner. -/
theorem block_offset {g : Grid} (I : Inv g) : ∃ o, g.offset0? g.rect.min = some o ∧
    (∀ a b : Nat, (a : Int) < dx g.rect → (b : Int) < Geom.dy g.rect →
      g.cellOffset? (g.at_ a b) = some (some (o + b * g.stride + a)) ∧ o + b * g.stride + a < g.len) ∧
    (∀ b : Nat, (b : Int) < Geom.dy g.rect → 0 ≤ dx g.rect →
      o + b * g.stride + (dx g.rect).toNat ≤ g.len) ∧
    (0 < Geom.dy g.rect → dx g.rect ≤ g.stride) := by
  rcases offset0_min I with ⟨hm, x, y, e, ho⟩ | ⟨hm, ho⟩
  · refine ⟨_, ho, ?_⟩
    have key : ∀ a b : Nat, (a : Int) < dx g.rect → (b : Int) < Geom.dy g.rect →
        g.cellOffset? (g.at_ a b) = some (some (y * g.stride + x + b * g.stride + a)) ∧
          y * g.stride + x + b * g.stride + a < g.len ∧ x + a < g.stride := by
      intro a b ha hb
      have hp : g.at_ a b = ⟨((x + a : Nat) : Int) + 1, ((y + b : Nat) : Int) + 1⟩ := by
        unfold at_ ptAdd; rw [e]; simp only [Pt.mk.injEq]; push_cast; constructor <;> ring
      have hmem : Mem ⟨((x + a : Nat) : Int) + 1, ((y + b : Nat) : Int) + 1⟩ g.rect := by
        simp only [dx, Geom.dy, e] at ha hb
        simp only [Mem, e]; push_cast; omega
      obtain ⟨x1, y1, e1, hx1, hy1⟩ := I.mem _ hmem
      simp only [Pt.mk.injEq] at e1
      have ex : x1 = x + a := by omega
      have ey : y1 = y + b := by omega
      subst ex ey
      have hlt := offset_lt hx1 hy1
      have e2 : (y + b) * g.stride + (x + a) = y * g.stride + x + b * g.stride + a := by ring
      rw [hp, cellOffset_mk hmem, e2]
      exact ⟨rfl, by omega, hx1⟩
    have hpos : 0 < dx g.rect ∧ 0 < Geom.dy g.rect := by
      simp only [Mem, dx, Geom.dy] at hm ⊢; omega
    refine ⟨fun a b ha hb => ⟨(key a b ha hb).1, (key a b ha hb).2.1⟩, ?_, ?_⟩
    · intro b hb _
      have := (key ((dx g.rect).toNat - 1) b (by omega) hb).2.1
      omega
    · intro _
      have := (key ((dx g.rect).toNat - 1) 0 (by omega) (by omega)).2.2
      omega
  · refine ⟨0, ho, ?_, ?_, ?_⟩
    · intro a b ha hb
      simp only [Mem, dx, Geom.dy] at hm ha hb; omega
    · intro b hb h0
      have hd : dx g.rect = 0 := by simp only [Mem, dx, Geom.dy] at hm h0 hb ⊢; omega
      rw [hd]
      have := I.dy
      have h2 : b ≤ (Geom.dy g.rect).toNat := by omega
      have := Nat.mul_le_mul_right g.stride h2
      simp only [Int.toNat_zero]
      omega
    · intro h
      simp only [Mem, dx, Geom.dy] at hm h ⊢
      omega

end Anansi.Grid
