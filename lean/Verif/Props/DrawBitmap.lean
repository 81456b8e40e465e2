import Verif.Props.Bitmap
import Verif.Props.Draw
/-
C62: drawing bitmaps onto grids.
-/
set_option autoImplicit false

namespace Anansi.Grid
open Geom

/-- The top left bit of the block at column `a`, row `b` of a bitmap. -/
def blockAt (src : Bitmap) (a b : Nat) : Pt := ⟨src.rect.min.x + 2 * a, src.rect.min.y + 4 * b⟩

/-- What drawing the braille rune of block `bp` through a style should leave in a
cell that held `d`: the style gets the block's point and the cell's prior rune and
attribute. -/
def bitmapCell (st : StyleFn) (src : Bitmap) (bp : Pt) (d : Cell) : Cell :=
  styleCell st ⟨bp.x + 1, bp.y + 1⟩ d ⟨Bitmap.braille fun i j => src.bitIn ⟨bp.x + i, bp.y + j⟩, d.attr⟩

theorem drawBitmapCell_spec (st : StyleFn) {dst : Grid} {src : Bitmap} (md : Made dst) (ms : Bitmap.Made src)
    (gp bp : Pt) (hb : Mem bp src.rect) (cs : List Cell) (hl : cs.length = dst.cells.length) :
    ∃ cs', drawBitmapCell st dst src gp bp cs = some cs' ∧ cs'.length = cs.length ∧
      ∀ j, cs'[j]? = if dst.cellOffset? gp = some (some j)
        then some (bitmapCell st src bp (cs[j]?.getD {})) else cs[j]? := by
  unfold drawBitmapCell
  by_cases hg : Mem gp dst.rect
  · obtain ⟨i, hi, hlt, hcap⟩ := cellOffset_inside_partial md hg
    obtain ⟨x, y, rfl, _, _⟩ := ms.inv.mem bp hb
    rw [hi, Bitmap.rune_exact_partial ms hb]
    have hpt : ptFromImage (⟨x, y⟩ : Pt) = some ⟨(x : Int) + 1, (y : Int) + 1⟩ := by
      unfold ptFromImage; rw [if_neg (by simp only; omega)]
    simp only [Option.bind_some, hpt, hlt, if_true]
    refine ⟨_, rfl, by split <;> simp, ?_⟩
    intro j
    by_cases hj : i = j
    · subst hj
      rw [if_pos rfl]
      unfold bitmapCell styleCell
      split
      · rw [List.getElem?_set_self (by omega)]
      · rw [List.getElem?_eq_getElem (by omega)]; simp
    · have hne : ¬ some (some i) = some (some j) := by simpa using hj
      simp only [hne, if_false]
      split
      · rw [List.getElem?_set_ne hj]
      · rfl
  · rw [cellOffset_not_mem hg]
    exact ⟨cs, rfl, rfl, fun j => by rw [if_neg (by simp)]⟩

theorem drawBitmapRow_spec (st : StyleFn) {dst : Grid} {src : Bitmap} (md : Made dst) (ms : Bitmap.Made src) :
    ∀ (k : Nat) (gp bp : Pt) (cs : List Cell), cs.length = dst.cells.length →
    (∀ a : Nat, a < k → Mem ⟨bp.x + 2 * a, bp.y⟩ src.rect) →
    ∃ cs', drawBitmapRow st dst src k gp bp cs = some cs' ∧ cs'.length = cs.length ∧
      (∀ (a : Nat) j, a < k → dst.cellOffset? ⟨gp.x + a, gp.y⟩ = some (some j) →
        cs'[j]? = some (bitmapCell st src ⟨bp.x + 2 * a, bp.y⟩ (cs[j]?.getD {}))) ∧
      (∀ j, (∀ a : Nat, a < k → dst.cellOffset? ⟨gp.x + a, gp.y⟩ ≠ some (some j)) → cs'[j]? = cs[j]?)
  | 0, gp, bp, cs, _, _ => ⟨cs, rfl, rfl, fun a j h => by omega, fun _ _ => rfl⟩
  | k + 1, gp, bp, cs, hl, hb => by
    have hb0 : Mem bp src.rect := by have := hb 0 (by omega); simpa using this
    obtain ⟨c1, e1, l1, f1⟩ := drawBitmapCell_spec st md ms gp bp hb0 cs hl
    have sh : ∀ a : Nat, (⟨gp.x + ((a + 1 : Nat) : Int), gp.y⟩ : Pt) = ⟨gp.x + 1 + a, gp.y⟩ := by
      intro a; simp only [Pt.mk.injEq, and_true]; push_cast; ring
    have shb : ∀ a : Nat, (⟨bp.x + 2 * ((a + 1 : Nat) : Int), bp.y⟩ : Pt) = ⟨bp.x + 2 + 2 * a, bp.y⟩ := by
      intro a; simp only [Pt.mk.injEq, and_true]; push_cast; ring
    have sh0 : (⟨gp.x + ((0 : Nat) : Int), gp.y⟩ : Pt) = gp := by simp
    have shb0 : (⟨bp.x + 2 * ((0 : Nat) : Int), bp.y⟩ : Pt) = bp := by simp
    obtain ⟨c2, e2, l2, f2, g2⟩ := drawBitmapRow_spec st md ms k ⟨gp.x + 1, gp.y⟩ ⟨bp.x + 2, bp.y⟩ c1
      (by omega) (fun a ha => by have := hb (a + 1) (by omega); rw [shb] at this; exact this)
    refine ⟨c2, by rw [drawBitmapRow, e1]; exact e2, by omega, ?_, ?_⟩
    · intro a j ha hj
      rcases a with _ | a
      · rw [sh0] at hj
        rw [g2 j, f1, if_pos hj, shb0]
        intro a' _ hc
        have := cellOffset_injective_partial md hj hc
        rcases gp with ⟨gx, gy⟩
        simp only [Pt.mk.injEq] at this; omega
      · rw [sh] at hj
        rw [f2 a j (by omega) hj, f1, if_neg, shb]
        intro hc
        have := cellOffset_injective_partial md hj hc
        rcases gp with ⟨gx, gy⟩
        simp only [Pt.mk.injEq] at this; omega
    · intro j hj
      rw [g2 j, f1, if_neg]
      · have := hj 0 (by omega); rw [sh0] at this; exact this
      · intro a ha
        have := hj (a + 1) (by omega)
        rw [sh] at this; exact this

theorem drawBitmapRows_spec (st : StyleFn) {dst : Grid} {src : Bitmap} (md : Made dst) (ms : Bitmap.Made src)
    (k : Nat) : ∀ (n : Nat) (gp bp : Pt) (cs : List Cell), cs.length = dst.cells.length →
    (∀ a b : Nat, a < k → b < n → Mem ⟨bp.x + 2 * a, bp.y + 4 * b⟩ src.rect) →
    ∃ cs', drawBitmapRows st dst src k n gp bp cs = some cs' ∧ cs'.length = cs.length ∧
      (∀ (a b : Nat) j, a < k → b < n → dst.cellOffset? ⟨gp.x + a, gp.y + b⟩ = some (some j) →
        cs'[j]? = some (bitmapCell st src ⟨bp.x + 2 * a, bp.y + 4 * b⟩ (cs[j]?.getD {}))) ∧
      (∀ j, (∀ a b : Nat, a < k → b < n → dst.cellOffset? ⟨gp.x + a, gp.y + b⟩ ≠ some (some j)) →
        cs'[j]? = cs[j]?)
  | 0, gp, bp, cs, _, _ => ⟨cs, rfl, rfl, fun a b j _ h => by omega, fun _ _ => rfl⟩
  | n + 1, gp, bp, cs, hl, hb => by
    obtain ⟨c1, e1, l1, f1, g1⟩ := drawBitmapRow_spec st md ms k gp bp cs hl
      (fun a ha => by have := hb a 0 ha (by omega); simpa using this)
    have sh : ∀ a b : Nat, (⟨gp.x + a, gp.y + ((b + 1 : Nat) : Int)⟩ : Pt) = ⟨gp.x + a, gp.y + 1 + b⟩ := by
      intro a b; simp only [Pt.mk.injEq, true_and]; push_cast; ring
    have shb : ∀ a b : Nat, (⟨bp.x + 2 * a, bp.y + 4 * ((b + 1 : Nat) : Int)⟩ : Pt) =
        ⟨bp.x + 2 * a, bp.y + 4 + 4 * b⟩ := by
      intro a b; simp only [Pt.mk.injEq, true_and]; push_cast; ring
    have sh0 : ∀ a : Nat, (⟨gp.x + a, gp.y + ((0 : Nat) : Int)⟩ : Pt) = ⟨gp.x + a, gp.y⟩ := by simp
    have shb0 : ∀ a : Nat, (⟨bp.x + 2 * a, bp.y + 4 * ((0 : Nat) : Int)⟩ : Pt) = ⟨bp.x + 2 * a, bp.y⟩ := by simp
    obtain ⟨c2, e2, l2, f2, g2⟩ := drawBitmapRows_spec st md ms k n ⟨gp.x, gp.y + 1⟩ ⟨bp.x, bp.y + 4⟩ c1
      (by omega) (fun a b ha hb' => by have := hb a (b + 1) ha (by omega); rw [shb] at this; exact this)
    refine ⟨c2, by rw [drawBitmapRows, e1]; exact e2, by omega, ?_, ?_⟩
    · intro a b j ha hb' hj
      rcases b with _ | b
      · rw [sh0] at hj
        rw [g2 j, f1 a j ha hj, shb0]
        intro a' b' _ _ hc
        have := cellOffset_injective_partial md hj hc
        simp only [Pt.mk.injEq] at this; omega
      · rw [sh] at hj
        rw [f2 a b j ha (by omega) hj, g1 j, shb]
        intro a' _ hc
        have := cellOffset_injective_partial md hj hc
        simp only [Pt.mk.injEq] at this; omega
    · intro j hj
      rw [g2 j, g1 j]
      · intro a ha
        have := hj a 0 ha (by omega); rw [sh0] at this; exact this
      · intro a b ha hb'
        have := hj a (b + 1) ha (by omega); rw [sh] at this; exact this

/-- **C62** Drawing a bitmap draws, in each destination cell of the common block of
`RuneSize` cells, the braille rune of the corresponding 2 x 4 bits through the styles;
every other cell is unchanged, and it never panics. -/
theorem draw_bitmap {dst : Grid} {src : Bitmap} (md : Made dst) (ms : Bitmap.Made src)
    (ws : WF src.rect) (ss : List StyleV) :
    ∃ cs, drawBitmap dst src ss = some cs ∧ cs.length = dst.cells.length ∧
      (∀ a b : Nat, (a : Int) < src.runeSize.x → (b : Int) < src.runeSize.y →
        Mem (dst.at_ a b) dst.rect →
        Shows { dst with cells := cs } (dst.at_ a b)
          (bitmapCell (StyleV.styles ss).apply src (blockAt src a b) (dst.cellAt (dst.at_ a b)))) ∧
      (∀ j, (∀ a b : Nat, (a : Int) < src.runeSize.x → (b : Int) < src.runeSize.y →
        dst.cellOffset? (dst.at_ a b) ≠ some (some j)) → cs[j]? = dst.cells[j]?) := by
  have hx : src.runeSize.x = (dx src.rect + 1) / 2 := by
    unfold Bitmap.runeSize; simp only; rw [Int.tdiv_eq_ediv_of_nonneg]
    simp only [WF, dx] at ws ⊢; omega
  have hy : src.runeSize.y = (Geom.dy src.rect + 3) / 4 := by
    unfold Bitmap.runeSize; simp only; rw [Int.tdiv_eq_ediv_of_nonneg]
    simp only [WF, Geom.dy] at ws ⊢; omega
  obtain ⟨cs, e, l, f, g⟩ := drawBitmapRows_spec (StyleV.styles ss).apply md ms
    (min (dx dst.rect) ((dx src.rect + 1) / 2)).toNat ((Geom.dy src.rect + 3) / 4).toNat
    dst.rect.min src.rect.min dst.cells rfl (fun a b ha hb => by
      simp only [Mem, dx, Geom.dy] at ha hb ⊢; omega)
  refine ⟨cs, e, l, ?_, ?_⟩
  · intro a b ha hb hm
    obtain ⟨j, hj, hlt, _⟩ := cellOffset_inside_partial md hm
    refine ⟨j, hj, hlt, ?_⟩
    have := f a b j (by
      rw [hx] at ha
      simp only [Mem, at_, ptAdd, dx] at hm ha ⊢
      omega) (by omega) (by simpa [at_, ptAdd] using hj)
    refine this.trans ?_
    simp only [blockAt, cellAt, hj, Option.join_some, Option.bind_some]
  · intro j hj
    refine g j ?_
    intro a b ha hb
    have := hj a b (by omega) (by omega)
    simpa [at_, ptAdd] using this

example : WF Bitmap.sample.rect ∧ Mem (tenByTen.at_ 1 1) tenByTen.rect ∧
    (1 : Int) < Bitmap.sample.runeSize.x ∧ (1 : Int) < Bitmap.sample.runeSize.y := by
  unfold WF; decide +kernel

/-- **C62** Without styles every drawn cell shows exactly its braille rune. -/
theorem draw_bitmap_plain {src : Bitmap} (bp : Pt) (d : Cell) :
    (bitmapCell (StyleV.styles []).apply src bp d).rune =
      Bitmap.braille fun i j => src.bitIn ⟨bp.x + i, bp.y + j⟩ := by
  have hne : (Bitmap.braille fun i j => src.bitIn ⟨bp.x + i, bp.y + j⟩) ≠ 0 := by
    unfold Bitmap.braille; dsimp only; omega
  have hc : ∀ p (d s : Cell), s.rune ≠ 0 → (styleCell (StyleV.styles []).apply p d s).rune = s.rune := by
    intro p d s h
    have : styleCell (StyleV.styles []).apply p d s = if s.rune ≠ 0 then ⟨s.rune, 0⟩ else d := rfl
    rw [this, if_pos h]
  exact hc _ _ _ hne

end Anansi.Grid
