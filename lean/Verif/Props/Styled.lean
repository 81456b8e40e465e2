import Verif.Model.Through
import Verif.Props.RenderMore
import Verif.Props.Style
/-
C110: grids written with styles.
-/
set_option autoImplicit false

namespace Anansi.Styled
open Anansi.Vt Anansi.Geom Anansi.Render

/-- What the styles make of a cell at a point: each is given what the one before it made of it,
and the rune and attribute `fr` and `fa` that are there already. -/
def Spec.styled (fs : List StyleFn) (p : Pt) (fr : Nat) (fa : Attr) (c : Cell) : Cell :=
  let ra := fs.foldl (fun ra f => f p fr ra.1 fa ra.2) (c.rune, c.attr)
  ⟨ra.1, ra.2⟩

/-- What the styles make of nothing. -/
def Spec.fill (fs : List StyleFn) : Cell := Spec.styled fs zp 0 0 {}

theorem apply_zero (ss : List StyleV) :
    (StyleV.styles ss).apply zp 0 0 0 0 = ((Spec.fill (ss.flatMap StyleV.parts)).rune, (Spec.fill (ss.flatMap StyleV.parts)).attr) := by
  by_cases h : StyleV.flatten ss = []
  · have h2 : ss.flatMap StyleV.parts = [] := by rw [← StyleV.flatten_eq]; exact h
    rw [h2]
    unfold StyleV.styles
    rw [h]
    rfl
  · rw [StyleV.apply_styles ss h, StyleV.flatten_eq]
    rfl

theorem apply_then (s : StyleV) (g : StyleFn) (p : Pt) (pr : Nat) (pa : Attr) (c : Cell) :
    (StyleV.styles [s, .fn g]).apply p pr c.rune pa c.attr =
      g p pr (Spec.styled s.parts p pr pa c).rune pa (Spec.styled s.parts p pr pa c).attr := by
  have hf : StyleV.flatten [s, .fn g] = s.parts ++ [g] := by rw [StyleV.flatten_eq]; simp [StyleV.parts]
  rw [StyleV.apply_styles _ (by rw [hf]; simp), hf]
  unfold StyleV.manyFn Spec.styled
  rw [List.foldl_append]
  rfl

theorem styled_then (fs : List StyleFn) (g : StyleFn) (p : Pt) (pr : Nat) (pa : Attr) (c : Cell) :
    Spec.styled (fs ++ [g]) p pr pa c =
      ⟨(g p pr (Spec.styled fs p pr pa c).rune pa (Spec.styled fs p pr pa c).attr).1,
       (g p pr (Spec.styled fs p pr pa c).rune pa (Spec.styled fs p pr pa c).attr).2⟩ := by
  unfold Spec.styled
  rw [List.foldl_append]
  rfl

/-- What a full redraw writes. -/
def fullOne (f : StyleFn) (w i : Nat) (c : Cell) : Option (Nat × Attr) :=
  let ra := f (ptOf w i) 0 c.rune 0 c.attr
  if ra.1 ≠ 0 then some ra else none

theorem fullLoop_draw (gr : Nat → Bool) (f : StyleFn) (w h : Nat) (hw : 1 ≤ w) : ∀ (l : List Cell) (i : Nat) (cur : Cursor),
    fullLoop gr f ⟨⟨1, 1⟩, ⟨(w : Int) + 1, (h : Int) + 1⟩⟩ l (ptOf w i) cur =
      drawLoop gr w (l.mapIdx fun k c => fullOne f w (i + k) c) i cur
  | [], _, _ => rfl
  | c :: l, i, cur => by
    have e : (fun k c => fullOne f w (i + (k + 1)) c) = fun k c => fullOne f w (i + 1 + k) c := by
      funext k c; rw [show i + (k + 1) = i + 1 + k by omega]
    simp only [fullLoop, next_pt w h i hw, List.mapIdx_cons, e, Nat.add_zero]
    unfold fullOne
    by_cases hz : (f (ptOf w i) 0 c.rune 0 c.attr).1 = 0
    · simp only [hz, ne_eq, not_true, if_false, drawLoop]
      exact fullLoop_draw gr f w h hw l (i + 1) cur
    · simp only [hz, ne_eq, not_false_eq_true, if_true, drawLoop]
      congr 1
      funext v
      rw [fullLoop_draw gr f w h hw l (i + 1) v.1]
      rfl

/-- What stands for a cell where nothing is replaced by `fr` and `fa`. -/
def Spec.filled (fr : Nat) (fa : Attr) (d : Cell) : Nat × Attr :=
  (if d.rune = 0 then fr else d.rune, if d.attr = 0 then fa else d.attr)

/-- What a differential update writes. -/
def diffOne (f : StyleFn) (fr : Nat) (fa : Attr) (prior : Screen) (w i : Nat) (c : Cell) : Option (Nat × Attr) :=
  let ra := f (ptOf w i) fr c.rune fa c.attr
  if ra = Spec.filled fr fa (prior.grid.cells[i]?.getD {}) then none else if ra.1 ≠ 0 then some ra else none

theorem diffLoop_draw (gr : Nat → Bool) (f : StyleFn) (fr : Nat) (fa : Attr) (w h : Nat) (hw : 1 ≤ w) (prior : Screen)
    (P : prior.Whole w h) : ∀ (l : List Cell) (i : Nat) (cur : Cursor), i + l.length = w * h →
    diffLoop gr f fr fa ⟨⟨1, 1⟩, ⟨(w : Int) + 1, (h : Int) + 1⟩⟩ prior.grid l (ptOf w i) true cur =
      drawLoop gr w (l.mapIdx fun k c => diffOne f fr fa prior w (i + k) c) i cur
  | [], _, _, _ => by simp [diffLoop, drawLoop]
  | c :: l, i, cur, hl => by
    simp only [List.length_cons] at hl
    have hi : i < w * h := by omega
    have hoff : prior.grid.cellOffset? (ptOf w i) = some (some i) := by
      rw [ptOf, Grid.cellOffset_mk ((P.mem _).2 ⟨i % w, i / w, rfl, Nat.mod_lt _ hw,
        Nat.div_lt_of_lt_mul hi⟩), P.stride, Nat.mul_comm, Nat.div_add_mod]
    have e : (fun k c => diffOne f fr fa prior w (i + (k + 1)) c) = fun k c => diffOne f fr fa prior w (i + 1 + k) c := by
      funext k c; rw [show i + (k + 1) = i + 1 + k by omega]
    simp only [diffLoop, hoff, P.len, if_pos hi, if_true, next_pt w h i hw, List.mapIdx_cons, e, Nat.add_zero]
    unfold diffOne
    generalize f (ptOf w i) fr c.rune fa c.attr = ra
    have hc : (ra.1 = (if (prior.grid.cells[i]?.getD {}).rune = 0 then fr else (prior.grid.cells[i]?.getD {}).rune) ∧
        ra.2 = (if (prior.grid.cells[i]?.getD {}).attr = 0 then fa else (prior.grid.cells[i]?.getD {}).attr)) ↔
        ra = Spec.filled fr fa (prior.grid.cells[i]?.getD {}) := by
      unfold Spec.filled; rw [Prod.ext_iff]
    simp only [hc]
    by_cases he : ra = Spec.filled fr fa (prior.grid.cells[i]?.getD {})
    · simp only [if_pos he, drawLoop]
      exact diffLoop_draw gr f fr fa w h hw prior P l (i + 1) cur (by omega)
    · simp only [if_neg he]
      by_cases hz : ra.1 = 0
      · simp only [hz, ne_eq, not_true, if_false, drawLoop]
        exact diffLoop_draw gr f fr fa w h hw prior P l (i + 1) cur (by omega)
      · simp only [hz, ne_eq, not_false_eq_true, if_true, drawLoop]
        congr 1
        funext v
        rw [diffLoop_draw gr f fr fa w h hw prior P l (i + 1) v.1 (by omega)]
        rfl

theorem ptOf_xy (w x y : Nat) (hx : x < w) : ptOf w (y * w + x) = ⟨x + 1, y + 1⟩ := by
  unfold ptOf
  rw [Nat.mul_comm, Nat.mul_add_mod, Nat.mod_eq_of_lt hx, Nat.mul_add_div (by omega), Nat.div_eq_of_lt hx]
  rfl

/-- The drawing of a list of cells, where each cell's ink depends on its number. -/
theorem draw_cells {gr : Nat → Bool} {t : Term} {sc : Screen} {w h : Nat} {cur : Cursor}
    (W : sc.Whole w h) (tw : t.w = w) (th : t.h = h) (A : Agree cur t) (g : Nat → Cell → Option (Nat × Attr))
    (hg : ∀ i c ra, sc.grid.cells[i]? = some c → i < w * h → g i c = some ra →
      Printable gr ra.1 ∧ ∃ s : Sgr.Style, s.clear = false ∧ ra.2 = s.build)
    (J : Smooth w cur.pt (points w h fun i => ((sc.grid.cells[i]?).bind (g i)).isSome)) :
    ∃ c' ops, drawLoop gr w (sc.grid.data.mapIdx fun k c => g (0 + k) c) 0 cur = some (c', text ops) ∧ Agree c' (t.run ops) ∧
      (t.run ops).w = w ∧ (t.run ops).h = h ∧
      ∀ x y, x < w → y < h → ∃ c, sc.look w x y = some c ∧
        match g (y * w + x) c with
        | some ra => Inked ra ((t.run ops).cell x y)
        | none => (t.run ops).cell x y = t.cell x y := by
  have hl := data_length W
  have hget : ∀ i, i < w * h → ∃ c, sc.grid.cells[i]? = some c ∧ (sc.grid.data.mapIdx fun k c => g (0 + k) c)[i]? = some (g i c) := by
    intro i hi
    obtain ⟨hc, hd⟩ := data_get W hi
    refine ⟨_, List.getElem?_eq_getElem hc, ?_⟩
    rw [List.getElem?_mapIdx, hd, Option.map_some, Nat.zero_add]
  obtain ⟨c', ops, e1, e2, e3, e4, _, _, _, _, _, e10⟩ :=
    draw_ok (gr := gr) (h := h) W.hw (sc.grid.data.mapIdx fun k c => g (0 + k) c) 0 t cur tw th (by simp [hl]) A (by
      intro ra hra
      obtain ⟨i, hi, hra⟩ := List.mem_iff_getElem.1 hra
      have hi' : i < w * h := by rw [List.length_mapIdx, hl] at hi; exact hi
      obtain ⟨c, h1, h2⟩ := hget i hi'
      rw [List.getElem?_eq_getElem hi, hra] at h2
      exact hg i c ra h1 hi' (Option.some.inj h2).symm) [] (by
      rw [List.append_nil, spots_points w h _ (by rw [List.length_mapIdx, hl]) _ (fun i hi => ?_)]
      · exact J
      · obtain ⟨c, h1, h2⟩ := hget i hi
        rw [h2, h1]; rfl)
  refine ⟨c', ops, e1, e2, e3, e4, fun x y hx hy => ?_⟩
  obtain ⟨c, h1, h2⟩ := hget (y * w + x) (Screen.idx_lt hx hy)
  refine ⟨c, h1, ?_⟩
  have := e10 x y hx hy
  rw [Nat.sub_zero, h2] at this
  cases hgc : g (y * w + x) c with
  | none => rw [hgc] at this; exact this
  | some ra => rw [hgc] at this; simpa using this

/-- What a full redraw takes for nothing: what the styles make nothing of, and, if they make blanks
of nothing, blanks. -/
def Spec.kept (fs : List StyleFn) (q : Cell) : Cell := if (Spec.fill fs).rune = 0x20 ∧ q.rune = 0x20 then {} else q

/-- The style of `writeGridFull`. -/
def fullStyle (s : StyleV) : StyleV :=
  StyleV.styles [if (s.apply zp 0 0 0 0).1 = 0x20 then StyleV.styles [s, .fn (Style.zeroRune 0x20)] else s,
    .fn (Style.defaultRune 0x20)]

theorem default_ink (q : Cell) : (if (if q.rune = 0 ∧ q.attr ≠ 0 then 0x20 else q.rune) ≠ 0 then
    some (if q.rune = 0 ∧ q.attr ≠ 0 then 0x20 else q.rune, q.attr) else none) = if q = {} then none else some (ink q) := by
  obtain ⟨r, a⟩ := q
  simp only [Cell.mk.injEq, ink]
  by_cases hr : r = 0
  · by_cases ha : a = 0
    · simp [hr, ha]
    · have ha' : ¬ a = 0#64 := ha
      simp [hr, ha']
  · simp [hr]

theorem fullOne_eq (ss : List StyleV) (w i : Nat) (c : Cell) :
    let fs := ss.flatMap StyleV.parts
    let q := Spec.kept fs (Spec.styled fs (ptOf w i) 0 0 c)
    fullOne (fullStyle (StyleV.styles ss)).apply w i c = if q = {} then none else some (ink q) := by
  intro fs q
  have key : (fullStyle (StyleV.styles ss)).apply (ptOf w i) 0 c.rune 0 c.attr = Style.defaultRune 0x20 (ptOf w i) 0 q.rune 0 q.attr := by
    unfold fullStyle
    rw [apply_then, apply_zero]
    by_cases hf : (Spec.fill fs).rune = 0x20
    · have hp : (StyleV.styles [StyleV.styles ss, .fn (Style.zeroRune 0x20)]).parts = fs ++ [Style.zeroRune 0x20] := by
        rw [StyleV.parts_styles]
        show (StyleV.styles ss).parts ++ [Style.zeroRune 0x20] = _
        rw [StyleV.parts_styles]
      simp only [fs] at hf
      rw [if_pos hf, hp, styled_then]
      simp only [q, Spec.kept, fs, hf, true_and]
      by_cases hq : (Spec.styled fs (ptOf w i) 0 0 c).rune = 0x20
      · simp only [fs] at hq
        simp only [Style.zeroRune, hq, if_true, if_false]
      · simp only [fs] at hq
        simp only [Style.zeroRune, hq, if_true, if_false]
    · simp only [fs] at hf
      rw [if_neg hf, StyleV.parts_styles]
      simp only [q, Spec.kept, fs, hf, false_and, if_false]
  unfold fullOne
  rw [key]
  exact default_ink q

/-- **C110**, full redraws: a terminal of the grid's size that gets what `WriteGrid` writes, with
styles and a prior screen of another size or none, shows each cell as the styles make it; except
for coloured blanks, if the styles make blanks of nothing (see `coloured_blank_lost`). -/
theorem styled_full_partial (gr : Nat → Bool) (t : Term) (sc prior : Screen) (w h : Nat) (ss : List StyleV)
    (W : sc.Whole w h) (tw : t.w = w) (th : t.h = h) (A : Agree prior.cur t)
    (s : Nat × Nat) (P : Grid.Whole prior.grid s) (hne : s ≠ (w, h)) (B : t.bce = true → t.style.bg = none)
    (hg : ∀ i c, sc.grid.cells[i]? = some c → i < w * h → Drawable gr (Spec.styled (ss.flatMap StyleV.parts) (ptOf w i) 0 0 c))
    (hsp : Printable gr 0x20)
    (hk : (Spec.fill (ss.flatMap StyleV.parts)).rune ≠ 0x20 ∨ ∀ i c, sc.grid.cells[i]? = some c → i < w * h →
      (Spec.styled (ss.flatMap StyleV.parts) (ptOf w i) 0 0 c).rune = 0x20 →
      (Spec.styled (ss.flatMap StyleV.parts) (ptOf w i) 0 0 c).attr = 0)
    (J : Smooth w prior.cur.pt (points w h fun i => (sc.grid.cells[i]?).any fun c =>
      Spec.kept (ss.flatMap StyleV.parts) (Spec.styled (ss.flatMap StyleV.parts) (ptOf w i) 0 0 c) ≠ {})) :
    ∃ c' ops, writeGridTop gr sc.grid prior ss = some ({ prior with cur := c' }, text ops) ∧ Agree c' (t.run ops) ∧
      (t.run ops).w = w ∧ (t.run ops).h = h ∧
      ∀ x y, x < w → y < h → ∃ c, sc.look w x y = some c ∧
        Inked (ink (Spec.styled (ss.flatMap StyleV.parts) ⟨x + 1, y + 1⟩ 0 0 c)) ((t.run ops).cell x y) := by
  have hpos := Nat.mul_pos W.hw W.hh
  generalize hfs : ss.flatMap StyleV.parts = fs at *
  have hone : ∀ i c, fullOne (fullStyle (StyleV.styles ss)).apply w i c =
      if Spec.kept fs (Spec.styled fs (ptOf w i) 0 0 c) = {} then none
      else some (ink (Spec.kept fs (Spec.styled fs (ptOf w i) 0 0 c))) := by
    intro i c
    have := fullOne_eq ss w i c
    rw [hfs] at this
    exact this
  have hkd : ∀ i c, sc.grid.cells[i]? = some c → i < w * h → Drawable gr (Spec.kept fs (Spec.styled fs (ptOf w i) 0 0 c)) := by
    intro i c h1 h2
    unfold Spec.kept
    split
    · exact ⟨Or.inl rfl, {}, rfl, by decide⟩
    · exact hg i c h1 h2
  have A' : Agree prior.cur (t.run [.eraseAll]) := ⟨fun hv => A.pos hv, A.attr, A.vis⟩
  obtain ⟨c', ops, e1, e2, e3, e4, e5⟩ := draw_cells (gr := gr) (t := t.run [.eraseAll]) (cur := prior.cur) W tw th A'
    (fullOne (fullStyle (StyleV.styles ss)).apply w) (by
      intro i c ra h1 h2 h3
      rw [hone] at h3
      split at h3
      · cases h3
      · cases h3
        exact (hkd i c h1 h2).ink hsp) (by
      have : (fun i => ((sc.grid.cells[i]?).bind (fullOne (fullStyle (StyleV.styles ss)).apply w i)).isSome) =
          fun i => (sc.grid.cells[i]?).any fun c => Spec.kept fs (Spec.styled fs (ptOf w i) 0 0 c) ≠ {} := by
        funext i
        cases sc.grid.cells[i]? with
        | none => rfl
        | some c =>
          rw [Option.bind_some, hone]
          by_cases hz : Spec.kept fs (Spec.styled fs (ptOf w i) 0 0 c) = {}
          · rw [if_pos hz]; exact (decide_eq_false (fun h => h hz)).symm
          · rw [if_neg hz]; exact (decide_eq_true hz).symm
      rw [this]
      exact J)
  refine ⟨c', [.eraseAll] ++ ops, ?_, by rw [run_append]; exact e2, by rw [run_append]; exact e3,
    by rw [run_append]; exact e4, fun x y hx hy => ?_⟩
  · unfold writeGridTop
    rw [if_neg (by rw [W.stride, W.rect]; simp [dx]), if_neg (by rw [W.rect]; simp)]
    unfold writeGrid
    rw [if_neg (by rw [W.len]; omega), if_pos (whole_rect_ne W P hne)]
    unfold writeGridFull
    have hed : ∃ s0, escSeq ED = some s0 ∧ (s0.with [0x32]).append = some (text [.eraseAll]) :=
      ⟨{ id := ED }, by decide, by decide +kernel⟩
    obtain ⟨s0, h0, h1⟩ := hed
    have hl : fullLoop gr (fullStyle (StyleV.styles ss)).apply sc.grid.rect sc.grid.data ⟨1, 1⟩ prior.cur = some (c', text ops) := by
      have p11 : (⟨1, 1⟩ : Pt) = ptOf w 0 := by simp [ptOf]
      rw [p11, W.rect, fullLoop_draw gr _ w h W.hw]
      exact e1
    unfold fullStyle at hl
    simp only [h0, Option.bind_some, h1, hl, Option.map_some, text_append]
  · obtain ⟨c, h1, h2⟩ := e5 x y hx hy
    refine ⟨c, h1, ?_⟩
    rw [run_append, ← ptOf_xy w x y hx]
    rw [hone] at h2
    have hbl : t.erased = blank := by
      unfold Term.erased; split
      · rename_i hb; rw [B hb]; rfl
      · rfl
    by_cases hz : Spec.kept fs (Spec.styled fs (ptOf w (y * w + x)) 0 0 c) = {}
    · rw [if_pos hz] at h2
      simp only at h2
      rw [h2]
      show Inked _ t.erased
      rw [hbl]
      have : ink (Spec.styled fs (ptOf w (y * w + x)) 0 0 c) = (0x20, 0) := by
        unfold Spec.kept at hz
        split at hz
        · rename_i hb
          rcases hk with hk | hk
          · exact absurd hb.1 hk
          · have := hk (y * w + x) c h1 (Screen.idx_lt hx hy) hb.2
            unfold ink
            rw [hb.2, this]; rfl
        · rw [hz]; rfl
      rw [this]
      exact ⟨rfl, rfl, (by decide : (0 : Attr) = ({} : Sgr.Style).build)⟩
    · rw [if_neg hz] at h2
      simp only at h2
      have : Spec.kept fs (Spec.styled fs (ptOf w (y * w + x)) 0 0 c) = Spec.styled fs (ptOf w (y * w + x)) 0 0 c := by
        unfold Spec.kept at hz ⊢
        split
        · rename_i hb; rw [if_pos hb] at hz; exact absurd rfl hz
        · rfl
      rw [this] at h2
      exact h2

/-- The rune that stands for nothing in a differential update. -/
def Spec.fillRune (fs : List StyleFn) : Nat := if (Spec.fill fs).rune = 0 then 0x20 else (Spec.fill fs).rune

/-- The style of `writeGridDiff`. -/
def diffStyle (s : StyleV) : StyleV :=
  let fill := s.apply zp 0 0 0 0
  let fr := if fill.1 = 0 then 0x20 else fill.1
  StyleV.styles [if fill.1 = 0 then StyleV.styles [s, .fn (Style.fillRune fr)] else s, .fn (Style.defaultRune 0x20)]

theorem diffStyle_eq (ss : List StyleV) (p : Pt) (c : Cell) :
    let fs := ss.flatMap StyleV.parts
    let q := Spec.styled fs p (Spec.fillRune fs) (Spec.fill fs).attr c
    (diffStyle (StyleV.styles ss)).apply p (Spec.fillRune fs) c.rune (Spec.fill fs).attr c.attr =
      if (Spec.fill fs).rune ≠ 0 ∧ q = {} then (0, 0) else ink q := by
  intro fs q
  unfold diffStyle
  simp only
  rw [apply_then, apply_zero]
  simp only
  by_cases hf : (Spec.fill fs).rune = 0
  · have hp : (StyleV.styles [StyleV.styles ss, .fn (Style.fillRune 0x20)]).parts = fs ++ [Style.fillRune 0x20] := by
      rw [StyleV.parts_styles]
      show (StyleV.styles ss).parts ++ [Style.fillRune 0x20] = _
      rw [StyleV.parts_styles]
    have hf' : (Spec.fill (ss.flatMap StyleV.parts)).rune = 0 := hf
    simp only [hf', if_true, hp, styled_then, hf, ne_eq, not_true, false_and, if_false]
    show Style.defaultRune 0x20 p _ (Style.fillRune 0x20 p _ q.rune _ q.attr).1 _ (Style.fillRune 0x20 p _ q.rune _ q.attr).2 = _
    simp only [Style.fillRune, Style.defaultRune, ink]
    by_cases hq : q.rune = 0 <;> simp [hq]
  · have hf' : ¬ (Spec.fill (ss.flatMap StyleV.parts)).rune = 0 := hf
    simp only [hf', if_false, StyleV.parts_styles, hf, ne_eq, not_false_eq_true, true_and]
    show Style.defaultRune 0x20 p _ q.rune _ q.attr = _
    obtain ⟨r, a⟩ := q
    simp only [Style.defaultRune, ink, Cell.mk.injEq]
    by_cases hr : r = 0
    · by_cases ha : a = 0
      · simp [hr, ha]
      · have ha' : ¬ a = 0#64 := ha
        simp [hr, ha']
    · simp [hr]

/-- **C110**, differential updates: with a prior screen of the same size which the terminal shows,
what is nothing there being shown as the styles make it, each cell is shown as the styles make it,
unless they make something of nothing and nothing of a cell (see `styled_away_stale`). -/
theorem styled_diff_partial (gr : Nat → Bool) (t : Term) (sc prior : Screen) (w h : Nat) (ss : List StyleV)
    (W : sc.Whole w h) (tw : t.w = w) (th : t.h = h) (A : Agree prior.cur t) (P : prior.Whole w h) (fr : Nat) (fa : Attr)
    (hfr : fr = Spec.fillRune (ss.flatMap StyleV.parts)) (hfa : fa = (Spec.fill (ss.flatMap StyleV.parts)).attr)
    (S : ∀ x y, x < w → y < h → ∃ d, prior.look w x y = some d ∧ Inked (Spec.filled fr fa d) (t.cell x y))
    (hg : ∀ i c, sc.grid.cells[i]? = some c → i < w * h → Drawable gr (Spec.styled (ss.flatMap StyleV.parts) (ptOf w i) fr fa c))
    (hsp : Printable gr 0x20)
    (hk : (Spec.fill (ss.flatMap StyleV.parts)).rune = 0 ∨ ∀ i c, sc.grid.cells[i]? = some c → i < w * h →
      Spec.styled (ss.flatMap StyleV.parts) (ptOf w i) fr fa c ≠ {})
    (J : Smooth w prior.cur.pt (points w h fun i => (sc.grid.cells[i]?).any fun c =>
      ink (Spec.styled (ss.flatMap StyleV.parts) (ptOf w i) fr fa c) ≠ Spec.filled fr fa (prior.grid.cells[i]?.getD {}))) :
    ∃ c' ops, writeGridTop gr sc.grid prior ss = some ({ prior with cur := c' }, text ops) ∧ Agree c' (t.run ops) ∧
      (t.run ops).w = w ∧ (t.run ops).h = h ∧
      ∀ x y, x < w → y < h → ∃ c, sc.look w x y = some c ∧
        Inked (ink (Spec.styled (ss.flatMap StyleV.parts) ⟨x + 1, y + 1⟩ fr fa c)) ((t.run ops).cell x y) := by
  have hpos := Nat.mul_pos W.hw W.hh
  have hst : ∀ p c, (diffStyle (StyleV.styles ss)).apply p fr c.rune fa c.attr =
      if (Spec.fill (ss.flatMap StyleV.parts)).rune ≠ 0 ∧ Spec.styled (ss.flatMap StyleV.parts) p fr fa c = {} then (0, 0)
      else ink (Spec.styled (ss.flatMap StyleV.parts) p fr fa c) := by
    intro p c
    have := diffStyle_eq ss p c
    dsimp only at this
    rw [← hfr, ← hfa] at this
    exact this
  have hz := apply_zero ss
  generalize hfs : ss.flatMap StyleV.parts = fs at *
  have hne : ∀ q : Cell, (ink q).1 ≠ 0 := by
    intro q; unfold ink; dsimp only; split <;> omega
  have hone : ∀ i c, sc.grid.cells[i]? = some c → i < w * h →
      diffOne (diffStyle (StyleV.styles ss)).apply fr fa prior w i c =
      if ink (Spec.styled fs (ptOf w i) fr fa c) = Spec.filled fr fa (prior.grid.cells[i]?.getD {}) then none
      else some (ink (Spec.styled fs (ptOf w i) fr fa c)) := by
    intro i c h1 h2
    unfold diffOne
    have hcond : ¬ ((Spec.fill fs).rune ≠ 0 ∧ Spec.styled fs (ptOf w i) fr fa c = {}) := by
      rintro ⟨k1, k2⟩
      rcases hk with hk | hk
      · exact k1 hk
      · exact hk i c h1 h2 k2
    dsimp only
    rw [hst, if_neg hcond]
    simp only [hne, ne_eq, not_false_eq_true, if_true]
  obtain ⟨c', ops, e1, e2, e3, e4, e5⟩ := draw_cells (gr := gr) (t := t) (cur := prior.cur) W tw th A
    (diffOne (diffStyle (StyleV.styles ss)).apply fr fa prior w) (by
      intro i c ra h1 h2 h3
      rw [hone i c h1 h2] at h3
      split at h3
      · cases h3
      · cases h3
        exact (hg i c h1 h2).ink hsp) (by
      have : points w h (fun i => ((sc.grid.cells[i]?).bind (diffOne (diffStyle (StyleV.styles ss)).apply fr fa prior w i)).isSome) =
          points w h fun i => (sc.grid.cells[i]?).any fun c =>
            ink (Spec.styled fs (ptOf w i) fr fa c) ≠ Spec.filled fr fa (prior.grid.cells[i]?.getD {}) := by
        unfold points
        congr 1
        apply List.filter_congr
        intro i hi
        rw [List.mem_range] at hi
        cases hc : sc.grid.cells[i]? with
        | none => rfl
        | some c =>
          rw [Option.bind_some, hone i c hc hi]
          by_cases he : ink (Spec.styled fs (ptOf w i) fr fa c) = Spec.filled fr fa (prior.grid.cells[i]?.getD {})
          · rw [if_pos he]; exact (decide_eq_false (fun h => h he)).symm
          · rw [if_neg he]; exact (decide_eq_true he).symm
      rw [this]
      exact J)
  refine ⟨c', ops, ?_, e2, e3, e4, fun x y hx hy => ?_⟩
  · unfold writeGridTop
    rw [if_neg (by rw [W.stride, W.rect]; simp [dx]), if_neg (by rw [W.rect]; simp)]
    unfold writeGrid
    rw [if_neg (by rw [W.len]; omega), if_neg (whole_rect_eq W P)]
    unfold writeGridDiff
    have hl : diffLoop gr (diffStyle (StyleV.styles ss)).apply fr fa sc.grid.rect prior.grid sc.grid.data ⟨1, 1⟩ true prior.cur =
        some (c', text ops) := by
      have p11 : (⟨1, 1⟩ : Pt) = ptOf w 0 := by simp [ptOf]
      rw [p11, W.rect, diffLoop_draw gr _ fr fa w h W.hw prior P _ _ _ (by rw [data_length W]; omega)]
      exact e1
    unfold diffStyle at hl
    unfold Spec.fillRune at hfr
    simp only [hz] at hl ⊢
    rw [← hfr] at hl ⊢
    rw [← hfa]
    simp only [hl, Option.map_some]
  · obtain ⟨c, h1, h2⟩ := e5 x y hx hy
    refine ⟨c, h1, ?_⟩
    rw [← ptOf_xy w x y hx]
    rw [hone _ c h1 (Screen.idx_lt hx hy)] at h2
    obtain ⟨d, k1, k2⟩ := S x y hx hy
    have k1' : prior.grid.cells[y * w + x]? = some d := k1
    rw [k1', Option.getD_some] at h2
    by_cases he : ink (Spec.styled fs (ptOf w (y * w + x)) fr fa c) = Spec.filled fr fa d
    · rw [if_pos he] at h2
      simp only at h2
      rw [h2, he]; exact k2
    · rw [if_neg he] at h2
      exact h2

/-- **C110** for any destination (see C108): when there is no error, it got all bytes of
`styled_full_partial` or `styled_diff_partial`, and the cursor that agrees with the terminal is
returned. -/
theorem written_whole (gr : Nat → Bool) (g : Grid) (prior p : Screen) (ss : List StyleV) (b : Bytes) (o : Thru.Took)
    (hw : writeGridTop gr g prior ss = some (p, b)) (ho : o.n ≤ b.length) :
    ∃ out, Thru.writeGrid gr g prior ss o = some out ∧ out.state = p ∧ out.got <+: b ∧ (out.err = none → out.got = b) := by
  unfold Thru.writeGrid Thru.through
  rw [hw]
  unfold Thru.flush
  by_cases hb : b = []
  · simp [hb]
  · simp only [Option.bind_some, if_neg hb, if_neg (show ¬ b.length < o.n by omega), Option.map_some]
    refine ⟨_, rfl, rfl, List.take_prefix _ _, fun he => ?_⟩
    simp only at he ⊢
    split at he
    · cases he
    · split at he
      · cases he
      · rename_i hn
        have : o.n = b.length := by simpa using hn
        simp [this]

/-- A screen of one cell. -/
def one (c : Cell) : Screen := { grid := { rect := ⟨⟨1, 1⟩, ⟨2, 2⟩⟩, stride := 1, len := 1, cells := [c] } }

theorem one_whole (c : Cell) : (one c).Whole 1 1 := ⟨by decide, by decide, rfl, rfl, rfl, Nat.le.refl⟩

/-- Negation for **C110**: with the style that makes blanks of nothing, a blank with a red background
is not written in a full redraw, and the terminal shows a blank without it. -/
theorem coloured_blank_lost (t : Term) (hw : t.w = 1) (hh : t.h = 1) (hb : t.bce = false) :
    let red : Sgr.Style := { bg := some (.indexed 1) }
    let ss : List StyleV := [.fn (Style.fillRune 0x20)]
    Spec.styled (ss.flatMap StyleV.parts) ⟨1, 1⟩ 0 0 ⟨0x20, red.build⟩ = ⟨0x20, red.build⟩ ∧
    ∃ p ops, writeGridTop Screen.ascii (one ⟨0x20, red.build⟩).grid {} ss = some (p, text ops) ∧
      (t.run ops).cell 0 0 = ⟨0x20, {}⟩ ∧ ¬ Inked (0x20, red.build) ((t.run ops).cell 0 0) := by
  intro red ss
  refine ⟨rfl, ?_⟩
  have hu : (writeGridTop Screen.ascii (one ⟨0x20, red.build⟩).grid {} ss).map (·.2) = some (text [.eraseAll]) := by
    decide +kernel
  obtain ⟨p, hp, hb'⟩ := Option.map_eq_some_iff.mp hu
  have h1 : (t.run [.eraseAll]).cell 0 0 = ⟨0x20, {}⟩ := by
    simp [Term.run, Term.step, Term.erased, hb]; rfl
  refine ⟨p.1, _, by rw [← hb']; exact hp, h1, fun hi => ?_⟩
  rw [h1] at hi
  exact absurd hi.2.2 (by decide)

/-- Negation for **C110**: with styles that make a dot of nothing and nothing of an `a`, a
differential update from `b` to `a` writes nothing, and the `b` stays; a full redraw would leave
the cell blank. -/
theorem styled_away_stale (t : Term) (hc : t.cell 0 0 = ⟨98, {}⟩) :
    let ss : List StyleV := [.fn (Style.fillRune 46), .fn (Style.zeroRune 97)]
    Spec.styled (ss.flatMap StyleV.parts) ⟨1, 1⟩ 46 0 ⟨97, 0⟩ = {} ∧
    (∃ p, writeGridTop Screen.ascii (one ⟨97, 0⟩).grid (one ⟨98, 0⟩) ss = some (p, [])) ∧
    (∃ p, writeGridTop Screen.ascii (one ⟨97, 0⟩).grid {} ss = some (p, text [.eraseAll])) ∧
    ¬ Inked (ink {}) (t.cell 0 0) := by
  intro ss
  refine ⟨rfl, ?_, ?_, fun hi => ?_⟩
  · have hu : (writeGridTop Screen.ascii (one ⟨97, 0⟩).grid (one ⟨98, 0⟩) ss).map (·.2) = some [] := by decide +kernel
    obtain ⟨p, hp, hb'⟩ := Option.map_eq_some_iff.mp hu
    exact ⟨p.1, by rw [← hb']; exact hp⟩
  · have hu : (writeGridTop Screen.ascii (one ⟨97, 0⟩).grid {} ss).map (·.2) = some (text [.eraseAll]) := by decide +kernel
    obtain ⟨p, hp, hb'⟩ := Option.map_eq_some_iff.mp hu
    exact ⟨p.1, by rw [← hb']; exact hp⟩
  · rw [hc] at hi
    exact absurd hi.1 (by decide)

/-- The hypotheses can be met: a fresh full redraw of `a`, bold red and a blank with bold style. -/
example (t : Term) (hw : t.w = 2) (hh : t.h = 2) (hb : t.bce = false) :
    ∃ c' ops, writeGridTop Screen.ascii demo1.grid {} [.fn (Style.attr boldRed.build)] = some ({ cur := c' }, text ops) ∧
      Inked (98, boldRed.build) ((t.run ops).cell 1 0) := by
  obtain ⟨c', ops, h1, _, _, _, h5⟩ := styled_full_partial Screen.ascii t demo1 {} 2 2 [.fn (Style.attr boldRed.build)]
    (demo_whole _ rfl) hw hh (agree_fresh t) (0, 0) ⟨by decide, by decide, by decide, Or.inr rfl, by decide⟩ (by decide)
    (fun h => by simp [hb] at h)
    (by
      intro i c hc hi
      have : c ∈ demo1.grid.data := by
        have hd : demo1.grid.data = demo1.grid.cells := by decide
        rw [hd]; exact List.mem_of_getElem? hc
      have hd := demo_drawable.1 c this
      refine ⟨hd.1, ?_⟩
      simp only [Spec.styled, Style.attr, List.flatMap_cons, List.flatMap_nil, StyleV.parts, List.append_nil, List.foldl_cons,
        List.foldl_nil]
      split
      · exact ⟨boldRed, rfl, rfl⟩
      · exact hd.2)
    (ascii_printable _ (by decide)) (Or.inl (by decide)) (by decide +kernel)
  obtain ⟨c, hc, hi⟩ := h5 1 0 (by decide) (by decide)
  have : c = ⟨98, 0⟩ := by
    have : (some ⟨98, 0⟩ : Option Cell) = some c := hc
    exact (Option.some.inj this).symm
  subst this
  exact ⟨c', ops, h1, hi⟩

/-- And those of a differential update: from one cell with a `b` to one with an `a`. -/
example (t : Term) (hw : t.w = 1) (hh : t.h = 1) (hx : t.cell 0 0 = ⟨98, {}⟩) :
    ∃ p ops, writeGridTop Screen.ascii (one ⟨97, 0⟩).grid (one ⟨98, 0⟩) [.fn (Style.attr boldRed.build)] = some (p, text ops) ∧
      Inked (97, boldRed.build) ((t.run ops).cell 0 0) := by
  obtain ⟨c', ops, h1, _, _, _, h5⟩ := styled_diff_partial Screen.ascii t (one ⟨97, 0⟩) (one ⟨98, 0⟩) 1 1
    [.fn (Style.attr boldRed.build)] (one_whole _) hw hh ⟨fun h => by simp [one, valid] at h, fun h => by simp [one] at h,
      fun h => by simp [one] at h⟩ (one_whole _) 0x20 0 (by decide) (by decide)
    (by
      intro x y h1 h2
      obtain ⟨rfl, rfl⟩ : x = 0 ∧ y = 0 := by omega
      exact ⟨⟨98, 0⟩, rfl, by rw [hx]; exact ⟨rfl, rfl, by decide⟩⟩)
    (by
      intro i c hc hi
      obtain rfl : i = 0 := by omega
      have : (some ⟨97, 0⟩ : Option Cell) = some c := hc
      cases this
      exact ⟨Or.inr (ascii_printable _ (by decide)), boldRed, rfl, rfl⟩)
    (ascii_printable _ (by decide)) (Or.inl (by decide)) (by decide +kernel)
  obtain ⟨c, hc, hi⟩ := h5 0 0 (by decide) (by decide)
  have : (some ⟨97, 0⟩ : Option Cell) = some c := hc
  cases this
  exact ⟨_, ops, h1, hi⟩

end Anansi.Styled
