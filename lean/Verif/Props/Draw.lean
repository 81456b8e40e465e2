import Verif.Lemmas.Draw
import Verif.Props.Grid
import Verif.Props.Style
/-
C21, C22: drawing grids onto grids.
-/
set_option autoImplicit false

namespace Anansi.Grid
open Geom

/-- **C21** Drawing without (effective) styles copies the common upper left block
cell by cell, changes no other destination cell, and never panics. -/
theorem draw_plain {dst src : Grid} (md : Made dst) (ms : Made src) (wd : WF dst.rect) (ws : WF src.rect)
    (ss : List StyleV) (hss : ∀ s ∈ ss, s = .noop) :
    ∃ cs, drawGrid dst src ss = some cs ∧ cs.length = dst.cells.length ∧
      (∀ a b : Nat, (a : Int) < min (dx dst.rect) (dx src.rect) →
        (b : Int) < min (Geom.dy dst.rect) (Geom.dy src.rect) →
        ∀ c, Shows { dst with cells := cs } (dst.at_ a b) c ↔ Shows src (src.at_ a b) c) ∧
      (∀ j, (∀ a b : Nat, (a : Int) < min (dx dst.rect) (dx src.rect) →
        (b : Int) < min (Geom.dy dst.rect) (Geom.dy src.rect) →
        dst.cellOffset? (dst.at_ a b) ≠ some (some j)) → cs[j]? = dst.cells[j]?) := by
  have hst : StyleV.styles ss = .noop := StyleV.styles_all_noop ss hss
  obtain ⟨di, hdi, fd, rd, sd⟩ := block_offset md.inv
  obtain ⟨si, hsi, fs, rs, _⟩ := block_offset ms.inv
  have cd := md.inv.cap
  have cs' := ms.inv.cap
  have w0 : 0 ≤ dx dst.rect ∧ 0 ≤ dx src.rect := by
    simp only [WF, dx] at wd ws ⊢; omega
  have hw : (if dx src.rect > dx dst.rect then dx dst.rect else dx src.rect) =
      ((min (dx dst.rect) (dx src.rect)).toNat : Int) := by split <;> omega
  by_cases hrows : 0 < min (Geom.dy src.rect) (Geom.dy dst.rect)
  · obtain ⟨cs, e, l, f, g⟩ := copyRows_spec src.cells dst.stride src.stride
      (min (dx dst.rect) (dx src.rect)).toNat (by have := sd (by omega); omega)
      (min (Geom.dy src.rect) (Geom.dy dst.rect)).toNat di si dst.cells (fun b hb => by
        have h1 := rd b (by omega) w0.1
        have h2 := rs b (by omega) w0.2
        omega)
    refine ⟨cs, ?_, l, ?_, ?_⟩
    · unfold drawGrid; rw [hst]; simp only [copyGrid, hdi, hsi, Option.bind_some, hw]; exact e
    · intro a b ha hb c
      obtain ⟨o1, l1⟩ := fd a b (by omega) (by omega)
      obtain ⟨o2, l2⟩ := fs a b (by omega) (by omega)
      have hv := f b a (by omega) (by omega)
      constructor
      · rintro ⟨i, hi, hl, hc⟩
        have hi' : dst.cellOffset? (dst.at_ a b) = some (some i) := hi
        rw [o1] at hi'
        simp only [Option.some.injEq] at hi'
        subst hi'
        exact ⟨_, o2, l2, hv ▸ hc⟩
      · rintro ⟨i, hi, hl, hc⟩
        rw [o2] at hi
        simp only [Option.some.injEq] at hi
        subst hi
        exact ⟨_, o1, l1, hv.trans hc⟩
    · intro j hj
      refine g j ?_
      intro b a hb ha hja
      exact hj a b (by omega) (by omega) (hja ▸ (fd a b (by omega) (by omega)).1)
  · refine ⟨dst.cells, ?_, rfl, ?_, fun _ _ => rfl⟩
    · unfold drawGrid; rw [hst]; simp only [copyGrid, hdi, hsi, Option.bind_some]
      rw [show (min (Geom.dy src.rect) (Geom.dy dst.rect)).toNat = 0 by omega]; rfl
    · intro a b _ hb; omega

example : WF lower.rect ∧ WF tenByTen.rect ∧ ∀ s ∈ [StyleV.noop, .noop], s = StyleV.noop := by
  refine ⟨?_, ?_, ?_⟩
  · unfold WF; decide +kernel
  · unfold WF; decide +kernel
  · intro s hs; simpa using hs

/-- A source cell drawn at a destination point. -/
def cellAt (g : Grid) (p : Pt) : Cell := ((g.cellOffset? p).join.bind (g.cells[·]?)).getD {}

/-- **C22**, when the source is no wider and no shorter than the destination: the
styled path touches exactly the overlap, stays inside both arrays, and gives the
style the two cells being drawn, though always with the point of the row's first
column.  Missing: other size combinations and the column of the point, for which it
is false (`draw_styled_overruns`, `draw_styled_panics`, `draw_styled_wrong_point`). -/
theorem draw_styled_partial {dst src : Grid} (md : Made dst) (ms : Made src) (wd : WF dst.rect)
    (ws : WF src.rect) (ss : List StyleV) (hss : StyleV.flatten ss ≠ [])
    (hx : dx src.rect ≤ dx dst.rect) (hy : Geom.dy dst.rect ≤ Geom.dy src.rect) :
    ∃ cs, drawGrid dst src ss = some cs ∧ cs.length = dst.cells.length ∧
      (∀ a b : Nat, (a : Int) < dx src.rect → (b : Int) < Geom.dy dst.rect →
        Shows { dst with cells := cs } (dst.at_ a b)
          (styleCell (StyleV.manyFn (StyleV.flatten ss)) (dst.at_ 0 b)
            (dst.cellAt (dst.at_ a b)) (src.cellAt (src.at_ a b)))) ∧
      (∀ j, (∀ a b : Nat, (a : Int) < dx src.rect → (b : Int) < Geom.dy dst.rect →
        dst.cellOffset? (dst.at_ a b) ≠ some (some j)) → cs[j]? = dst.cells[j]?) := by
  have hdraw : drawGrid dst src ss = drawStyled (StyleV.manyFn (StyleV.flatten ss)) dst src := by
    have h := StyleV.apply_styles ss hss
    have hn := StyleV.styles_ne_noop ss hss
    unfold drawGrid
    split
    · rename_i h'; exact absurd h' hn
    · rw [h]
  obtain ⟨di, hdi, fd, rd, sd⟩ := block_offset md.inv
  obtain ⟨si, hsi, fs, rs, _⟩ := block_offset ms.inv
  have w0 : 0 ≤ dx dst.rect ∧ 0 ≤ dx src.rect := by
    simp only [WF, dx] at wd ws ⊢; omega
  rw [hdraw]
  unfold drawStyled
  simp only [hdi, hsi, Option.bind_some]
  by_cases hd : 0 < dx src.rect ∧ 0 < Geom.dy dst.rect
  · have c1 : src.rect.min.y < src.rect.max.y := by simp only [Geom.dy] at hd hy ⊢; omega
    have c2 : dst.rect.min.x < dst.rect.max.x := by simp only [dx] at hd hx ⊢; omega
    rw [if_pos c1, if_pos c2]
    have hD : (dx src.rect).toNat ≤ dst.stride := by have := sd (by omega); omega
    obtain ⟨cs, e, l, f, g⟩ := styleRows_spec (StyleV.manyFn (StyleV.flatten ss)) src.len dst.len
      src.cells dst.stride src.stride
      (dx src.rect).toNat ms.inv.cap hD
      (Geom.dy dst.rect).toNat dst.rect.min di si dst.cells md.inv.cap (fun b hb => by
        have h1 := rd b (by omega) w0.1
        have h2 := rs b (by omega) w0.2
        omega)
    refine ⟨cs, e, l, ?_, ?_⟩
    · intro a b ha hb
      obtain ⟨o1, l1⟩ := fd a b (by omega) (by omega)
      obtain ⟨o2, l2⟩ := fs a b (by omega) (by omega)
      refine ⟨_, o1, l1, ?_⟩
      have hv := f b a (by omega) (by omega)
      refine hv.trans ?_
      have hp : dst.at_ 0 b = ⟨dst.rect.min.x, dst.rect.min.y + b⟩ := by simp [at_, ptAdd]
      simp only [cellAt, o1, o2, Option.join_some, Option.bind_some, hp]
    · intro j hj
      refine g j ?_
      intro b a hb ha hja
      exact hj a b (by omega) (by omega) (hja ▸ (fd a b (by omega) (by omega)).1)
  · refine ⟨dst.cells, ?_, rfl, ?_, fun _ _ => rfl⟩
    · have none_w : ∀ rows (p : Pt) (d s : Nat) (c : List Cell),
          styleRows (StyleV.manyFn (StyleV.flatten ss)) src.len dst.len src.cells dst.stride src.stride
            0 rows p d s c = some c := by
        intro rows
        induction rows with
        | zero => intros; rfl
        | succ n ih => intro p d s c; rw [styleRows]; exact ih _ _ _ _
      by_cases h1 : 0 < dx src.rect
      · have h2 : Geom.dy dst.rect ≤ 0 := by omega
        rw [show (Geom.dy dst.rect).toNat = 0 by omega]
        simp only [ite_self]; rfl
      · rw [show (dx src.rect).toNat = 0 by omega]
        simp only [ite_self]
        exact none_w _ _ _ _ _
    · intro a b _ hb; omega

/-- A source of three columns and two rows, and a destination view of two columns and
one row in a grid of four columns and two rows, all cells blank. -/
def src32 : Grid := { (resize {} (3, 2)).1 with cells := List.replicate 6 ⟨65, 0⟩ }
def dst42 : Grid := (resize {} (4, 2)).1

example : dx src32.rect ≤ dx dst42.rect ∧ Geom.dy dst42.rect ≤ Geom.dy src32.rect ∧
    StyleV.flatten [.noop, .fn (Style.fillRune 32)] ≠ [] := by
  refine ⟨by decide +kernel, by decide +kernel, by simp [StyleV.flatten]⟩

/-- **C22 fails** for a source wider than the destination: cells beside the
destination's bounds are overwritten. -/
theorem draw_styled_overruns :
    let d := dst42.subRect ⟨⟨1, 1⟩, ⟨3, 3⟩⟩
    dst42.cellAt ⟨3, 1⟩ = {} ∧ ¬ Mem ⟨3, 1⟩ d.rect ∧
      ((drawGrid d src32 [.fn (Style.fillRune 32)]).map fun cs =>
        cellAt { dst42 with cells := cs } ⟨3, 1⟩) = some ⟨65, 0⟩ := by
  unfold Mem; decide +kernel

/-- **C22 fails** for a source shorter than the destination: the loop reads on beyond
the source and panics. -/
theorem draw_styled_panics :
    Made src32 ∧ Made (resize {} (3, 3)).1 ∧
      drawGrid (resize {} (3, 3)).1 src32 [.fn (Style.fillRune 32)] = none := by
  refine ⟨?_, .resize _ .zero (Or.inl (by decide)), by decide +kernel⟩
  exact .write _ (.resize _ .zero (Or.inl (by decide))) (by decide +kernel)

/-- **C22 fails**: the style does not get the point being drawn, but the row's first
one (this style marks the cell in column 2). -/
theorem draw_styled_wrong_point :
    let mark : StyleFn := fun p _ r _ a => (if p.x = 2 then 88 else r, a)
    ((drawGrid dst42 src32 [.fn mark]).map fun cs => cellAt { dst42 with cells := cs } ⟨2, 1⟩) = some ⟨65, 0⟩ ∧
      styleCell mark ⟨2, 1⟩ (dst42.cellAt ⟨2, 1⟩) (src32.cellAt ⟨2, 1⟩) = ⟨88, 0⟩ := by
  decide +kernel

end Anansi.Grid
