import Verif.Lemmas.RenderGrid
/-
C32 Screen updates display the new contents.
C33 After an update the recorded state equals the screen.
-/
set_option autoImplicit false

namespace Anansi
open Vt Geom Render

theorem data_get {sc : Screen} {w h : Nat} (W : sc.Whole w h) {i : Nat} (hi : i < w * h) :
    ∃ hc : i < sc.grid.cells.length, sc.grid.data[i]? = some sc.grid.cells[i] := by
  have hc : i < sc.grid.cells.length := by have := W.cap; omega
  refine ⟨hc, ?_⟩
  unfold Grid.data
  rw [List.getElem?_take_of_lt (by rw [W.len]; exact hi), List.getElem?_eq_getElem hc]

theorem data_length {sc : Screen} {w h : Nat} (W : sc.Whole w h) : sc.grid.data.length = w * h := by
  unfold Grid.data; rw [List.length_take, W.len]; have := W.cap; omega

theorem Drawable.ink {gr : Nat → Bool} {c : Cell} (h : Drawable gr c) (hsp : Printable gr 0x20) :
    Printable gr (ink c).1 ∧ ∃ s : Sgr.Style, s.clear = false ∧ (ink c).2 = s.build := by
  refine ⟨?_, h.2⟩
  unfold Anansi.ink
  by_cases hz : c.rune = 0
  · simpa [hz] using hsp
  · simpa [hz] using h.1.resolve_left hz

/-- How the recorded prior state relates to the terminal before an update: it is a
screen of the same size which the terminal shows and only cells that look different
will be written; or it has another size, in particular none (fresh, or invalidated), and
everything will be erased and written.  In both cases the cells to be written, in
reading order and followed by the points `q`, take no awkward jump. -/
inductive Ready (t : Term) (sc prior : Screen) (w h : Nat) (q : List Pt) : Prop
  | diff (P : prior.Whole w h) (S : Shows t prior w h)
      (J : Smooth w prior.cur.pt (points w h (altered prior sc) ++ q))
  | full (s : Nat × Nat) (P : Grid.Whole prior.grid s) (hs : s.1 = 0 → s.2 = 0) (hne : s ≠ (w, h))
      (B : t.bce = true → t.style.bg = none)
      (J : Smooth w prior.cur.pt (points w h (drawn sc) ++ q))

theorem whole_rect_ne {sc : Screen} {w h : Nat} (W : sc.Whole w h) {g : Grid} {s : Nat × Nat}
    (P : Grid.Whole g s) (hne : s ≠ (w, h)) :
    g.len = 0 ∨ empty g.rect = true ∨ rectEq g.rect sc.grid.rect = false := by
  by_cases h0 : g.len = 0
  · exact Or.inl h0
  right
  by_cases he : empty g.rect = true
  · exact Or.inl he
  right
  unfold rectEq
  rw [Bool.or_eq_false_iff]
  refine ⟨?_, by simp [he]⟩
  rw [beq_eq_false_iff_ne]
  intro heq
  apply hne
  have hsz := P.size
  rw [heq, W.rect] at hsz
  simp only [Geom.size, Grid.sz, Pt.mk.injEq] at hsz
  rcases s with ⟨a, b⟩
  simp only [Prod.mk.injEq] at *
  omega

theorem whole_rect_eq {sc prior : Screen} {w h : Nat} (W : sc.Whole w h) (P : prior.Whole w h) :
    ¬ (prior.grid.len = 0 ∨ empty prior.grid.rect = true ∨ rectEq prior.grid.rect sc.grid.rect = false) := by
  have := Nat.mul_pos W.hw W.hh
  have hw := W.hw
  have hh := W.hh
  rintro (h1 | h1 | h1)
  · rw [P.len] at h1; omega
  · rw [P.rect, empty] at h1; simp at h1; omega
  · rw [P.rect, W.rect, rectEq] at h1; simp at h1

/-- The grid half of an update. -/
theorem grid_ok {gr : Nat → Bool} {t : Term} {sc prior : Screen} {w h : Nat} {q : List Pt}
    (W : sc.Whole w h) (tw : t.w = w) (th : t.h = h) (A : Agree prior.cur t)
    (hg : ∀ c ∈ sc.grid.data, Drawable gr c) (hsp : Printable gr 0x20)
    (R : Ready t sc prior w h q) :
    ∃ c' ops, writeGrid gr sc.grid prior .noop = some ({ prior with cur := c' }, text ops) ∧
      Agree c' (t.run ops) ∧ Shows (t.run ops) sc w h ∧ (t.run ops).vis = t.vis ∧
      c'.visible = prior.cur.visible ∧ c'.visKnown = prior.cur.visKnown ∧ Smooth w c'.pt q := by
  have hpos := Nat.mul_pos W.hw W.hh
  have hlen : ¬ sc.grid.len = 0 := by rw [W.len]; omega
  have hl := data_length W
  have p11 : (⟨1, 1⟩ : Pt) = ptOf w 0 := by simp [ptOf]
  unfold writeGrid
  rw [if_neg hlen]
  cases R with
  | full s P hs hne B J =>
    rw [if_pos (whole_rect_ne W P hne)]
    unfold writeGridFull
    have hst1 : ((StyleV.noop.apply zp 0 0 0 0).1 = 0x20) = False := by simp [StyleV.apply, StyleV.noopFn]
    have hst2 : (StyleV.styles [.noop, .fn (Style.defaultRune 0x20)]).apply = Style.defaultRune 0x20 := rfl
    simp only [hst1, if_false, hst2]
    have hed : ∃ s0, escSeq ED = some s0 ∧ (s0.with [0x32]).append = some (text [.eraseAll]) :=
      ⟨{ id := ED }, by decide, by decide +kernel⟩
    obtain ⟨s0, h0, h1⟩ := hed
    rw [h0, Option.bind_some, h1, Option.bind_some, p11, W.rect, full_draw gr w h W.hw]
    have hblank : (t.run [.eraseAll]).cell = fun _ _ => t.erased := rfl
    have hbl : t.erased = blank := by
      unfold Term.erased; split
      · rename_i hb; rw [B hb]; rfl
      · rfl
    have A' : Agree prior.cur (t.run [.eraseAll]) := by
      refine ⟨fun hv => ?_, A.attr, A.vis⟩
      exact A.pos hv
    obtain ⟨c', ops, e1, e2, e3, e4, e5, e6, e7, e8, _, e10⟩ :=
      draw_ok (gr := gr) (h := h) W.hw (sc.grid.data.map fullInk) 0 (t.run [.eraseAll]) prior.cur tw th
        (by simp [hl]) A' (by
          intro ra hra
          rw [List.mem_map] at hra
          obtain ⟨c, hc, e⟩ := hra
          unfold fullInk at e
          split at e
          · simp at e
          · simp only [Option.some.injEq] at e; subst e
            exact (hg c hc).ink hsp) q (by rw [full_spots W]; exact J)
    refine ⟨c', [.eraseAll] ++ ops, ?_, by rw [run_append]; exact e2, ?_, by rw [run_append, e5]; rfl, e6, e7, e8⟩
    · rw [e1, text_append]; rfl
    · rw [run_append]
      refine ⟨e3, e4, fun x y hx hy => ?_⟩
      obtain ⟨hc, hd⟩ := data_get W (Screen.idx_lt hx hy)
      refine ⟨sc.grid.cells[y * w + x], List.getElem?_eq_getElem hc, ?_⟩
      have := e10 x y hx hy
      rw [Nat.sub_zero, List.getElem?_map, hd, Option.map_some] at this
      unfold fullInk at this
      by_cases hz : sc.grid.cells[y * w + x] = {}
      · rw [if_pos hz] at this
        simp only at this
        rw [this, hblank, hz, hbl]
        exact ⟨rfl, rfl, (by decide : (0 : Attr) = ({} : Sgr.Style).build)⟩
      · rw [if_neg hz] at this
        simpa using this
  | diff P S J =>
    rw [if_neg (whole_rect_eq W P)]
    unfold writeGridDiff
    have hfill : StyleV.noop.apply zp 0 0 0 0 = (0, 0) := rfl
    have hst : ∀ p r a, (StyleV.styles [StyleV.styles [.noop, .fn (Style.fillRune 0x20)],
        .fn (Style.defaultRune 0x20)]).apply p 0x20 r 0 a = (if r = 0 then 0x20 else r, a) := by
      intro p r a
      have : (StyleV.styles [StyleV.styles [.noop, .fn (Style.fillRune 0x20)],
        .fn (Style.defaultRune 0x20)]) = .many [Style.fillRune 0x20, Style.defaultRune 0x20] := rfl
      rw [this]
      simp only [StyleV.apply, StyleV.manyFn, List.foldl_cons, List.foldl_nil, Style.fillRune, Style.defaultRune]
      rw [if_neg]
      rintro ⟨h, _⟩; split at h <;> omega
    simp only [hfill, if_true]
    rw [p11, W.rect, diff_draw gr w h W.hw prior P _ hst sc.grid.data 0 prior.cur (by omega)]
    have hpc := P.cap
    obtain ⟨c', ops, e1, e2, e3, e4, e5, e6, e7, e8, _, e10⟩ :=
      draw_ok (gr := gr) (h := h) W.hw (List.zipWith diffInk (prior.grid.cells.drop 0) sc.grid.data) 0 t
        prior.cur tw th (by simp [hl]; omega) A (by
          intro ra hra
          rw [← List.map_uncurry_zip_eq_zipWith, List.mem_map] at hra
          obtain ⟨⟨d, c⟩, hc, e⟩ := hra
          simp only [Function.uncurry, diffInk] at e
          split at e
          · simp at e
          · simp only [Option.some.injEq] at e; subst e
            exact (hg c (List.of_mem_zip hc).2).ink hsp) q (by rw [diff_spots W P]; exact J)
    refine ⟨c', ops, by rw [e1]; rfl, e2, ?_, e5, e6, e7, e8⟩
    refine ⟨e3, e4, fun x y hx hy => ?_⟩
    obtain ⟨hc, hd⟩ := data_get W (Screen.idx_lt hx hy)
    refine ⟨sc.grid.cells[y * w + x], List.getElem?_eq_getElem hc, ?_⟩
    have := e10 x y hx hy
    obtain ⟨c0, hc0, hin⟩ := S.2.2 x y hx hy
    have hc0' : prior.grid.cells[y * w + x]? = some c0 := hc0
    rw [Nat.sub_zero, List.drop_zero, List.getElem?_zipWith, hd, hc0'] at this
    simp only [diffInk] at this
    by_cases hz : ink sc.grid.cells[y * w + x] = ink c0
    · rw [if_pos hz] at this
      simp only at this
      rw [this, hz]; exact hin
    · rw [if_neg hz] at this
      simpa using this

/-- A cursor move on the terminal changes nothing but the cursor's place. -/
theorem to_frame (t : Term) (c : Cursor) (x y : Nat) (hx : x < t.w) (hy : y < t.h)
    (h : valid c.pt = true → t.At c.pt ∨ t.Past c.pt) :
    ∃ s ops x' y' b, c.to ⟨x + 1, y + 1⟩ = some ({ c with pt := ⟨x + 1, y + 1⟩ }, s) ∧
      s.append = some (text ops) ∧ t.run ops = { t with x := x', y := y', pend := b } := by
  by_cases hv : valid c.pt = true ∧ c.Vertical ⟨x + 1, y + 1⟩
  · refine ⟨.zero, [], t.x, t.y, t.pend, stay_text c _ hv.1 ?_ hv.2.1, rfl, rfl⟩
    intro hh; exact hv.2.2.2 ⟨hh.2, hh.1⟩
  · by_cases hp : valid c.pt = true ∧ t.Past c.pt ∧ c.pt.y = y + 1 ∧ x ≠ 0
    · obtain ⟨hval, ⟨hok, hpe, hw, e⟩, hrow, h0⟩ := hp
      have hlt : (x : Int) + 1 < c.pt.x := by rw [e]; dsimp only; omega
      obtain ⟨s, k, e1, e2, e3⟩ := back_text c (c.pt.x - (x + 1)).toNat (by omega) ⟨x + 1, y + 1⟩
        (by dsimp only; omega) hrow.symm hval
      exact ⟨s, [.back k], t.x - count k, t.y, false, e1, by rw [e2, text_one], rfl⟩
    · obtain ⟨s, ops, e1, e2, e3⟩ := cursor_to t c x y hx hy (fun hval => by
        rcases h hval with h | h
        · exact Or.inl h
        · refine Or.inr ⟨h, fun hr => ?_⟩
          by_contra h0; exact hp ⟨hval, h, hr, h0⟩) (fun hval hver => hv ⟨hval, hver⟩)
      exact ⟨s, ops, x, y, false, e1, e2, e3⟩

/-- The cursor of the screen is to be shown. -/
def Screen.shown (sc : Screen) : Bool := sc.cur.visible && valid sc.cur.pt

/-- The cursor half of an update. -/
theorem apply_ok {t : Term} {sc : Screen} {w h : Nat} {c : Cursor} {q : List Pt}
    (tw : t.w = w) (th : t.h = h) (A : Agree c t) (J : Smooth w c.pt q)
    (hf : sc.shown = true → sc.OnScreen w h ∧ ∃ s : Sgr.Style, s.clear = false ∧ sc.cur.attr = s.build) :
    ∃ c' ops, sc.cur.applyTo c = some (c', text ops) ∧ (t.run ops).cell = t.cell ∧
      (t.run ops).w = t.w ∧ (t.run ops).h = t.h ∧ (t.run ops).vis = sc.shown ∧
      ((sc.shown = true → q = [sc.cur.pt]) → Agree c' (t.run ops) ∧
        (sc.shown = true → (t.run ops).At sc.cur.pt ∧ sc.cur.attr = (t.run ops).style.build ∧
          c'.pt = sc.cur.pt)) := by
  unfold Cursor.applyTo
  by_cases hs : sc.shown = true
  · obtain ⟨⟨x, y, hx, hy, hcur⟩, s, hs1, hs2⟩ := hf hs
    have hs' : (sc.cur.visible && valid sc.cur.pt) = true := hs
    rw [if_pos hs', hs2]
    unfold Screen.CurAt at hcur
    rw [hcur]
    by_cases hq : q = [sc.cur.pt]
    · subst hq
      rw [hcur] at J
      simp only [Smooth, and_true] at J
      obtain ⟨m, o1, e1, e2, e3⟩ := cursor_to t c x y (tw ▸ hx) (th ▸ hy) (by
          intro hv
          rcases A.pos hv with h | h
          · exact Or.inl h
          · refine Or.inr ⟨h, fun hrow => ?_⟩
            by_contra hne
            exact J hv (Or.inr ⟨by rw [h.2.2.2, tw], hrow.symm, by dsimp only; omega⟩))
        (fun hv hver => J hv (Or.inl hver))
      obtain ⟨o2, f1, f2, f3⟩ := merge_sgr_shows { c with pt := ⟨x + 1, y + 1⟩ } s hs1
        { t with x := x, y := y, pend := false } A.attr
      obtain ⟨c3, sq, b, g1, g2, g3⟩ := show_text
        { c with pt := ⟨x + 1, y + 1⟩, attr := s.build, attrKnown := true }
      have hrun : t.run (o1 ++ o2 ++ [.show_]) =
          { t with x := x, y := y, pend := false, style := s, vis := true } := by
        rw [run_append, run_append, e3, f2]; rfl
      have fin : ∀ (ops : List Op) (c' : Cursor), t.run ops =
          { t with x := x, y := y, pend := false, style := s, vis := true } →
          c'.pt = ⟨x + 1, y + 1⟩ → c'.attr = s.build → c'.visible = true →
          (t.run ops).cell = t.cell ∧
            (t.run ops).w = t.w ∧ (t.run ops).h = t.h ∧ (t.run ops).vis = sc.shown ∧
            ((sc.shown = true → [sc.cur.pt] = [sc.cur.pt]) → Agree c' (t.run ops) ∧
              (sc.shown = true → (t.run ops).At sc.cur.pt ∧ s.build = (t.run ops).style.build ∧
                c'.pt = sc.cur.pt)) := by
        intro ops c' hr h1 h2 h3
        rw [hr]
        have hat : Term.At { t with x := x, y := y, pend := false, style := s, vis := true } ⟨x + 1, y + 1⟩ :=
          ⟨⟨tw ▸ hx, th ▸ hy⟩, rfl, rfl⟩
        refine ⟨rfl, rfl, rfl, hs.symm, fun _ => ⟨⟨fun _ => ?_, fun _ => ⟨hs1, h2⟩, fun _ => h3.symm⟩,
          fun _ => ⟨hcur ▸ hat, rfl, by rw [h1, hcur]⟩⟩⟩
        rw [h1]; exact Or.inl hat
      rcases g3 with ⟨k1, k2, k3, k4⟩ | ⟨k3, k4⟩
      · have hvis : t.vis = true := by rw [A.vis k1]; exact k2
        have hrun' : t.run (o1 ++ o2) =
            { t with x := x, y := y, pend := false, style := s, vis := true } := by
          rw [run_append, e3, f2, ← hvis]
        refine ⟨c3, o1 ++ o2, ?_, ?_⟩
        · rw [e1, Option.bind_some]
          simp only [e2, Option.bind_some, f1, f3, g1, g2, k4, Option.map_some, text_append, List.append_nil]
        · have := fin _ c3 hrun' (by rw [k3]) (by rw [k3]) (by rw [k3]; exact k2)
          simpa only [hcur] using this
      · refine ⟨c3, o1 ++ o2 ++ [.show_], ?_, ?_⟩
        · rw [e1, Option.bind_some]
          simp only [e2, Option.bind_some, f1, f3, g1, g2, k4, Option.map_some, text_append]
        · have := fin _ c3 hrun (by rw [k3]) (by rw [k3]) (by rw [k3])
          simpa only [hcur] using this
    · obtain ⟨m, o1, x', y', b', e1, e2, e3⟩ := to_frame t c x y (tw ▸ hx) (th ▸ hy) A.pos
      obtain ⟨o2, f1, f2, f3⟩ := merge_sgr_shows { c with pt := ⟨x + 1, y + 1⟩ } s hs1
        { t with x := x', y := y', pend := b' } A.attr
      obtain ⟨c3, sq, b, g1, g2, g3⟩ := show_text
        { c with pt := ⟨x + 1, y + 1⟩, attr := s.build, attrKnown := true }
      rcases g3 with ⟨k1, k2, k3, k4⟩ | ⟨k3, k4⟩
      · have hvis : t.vis = true := by rw [A.vis k1]; exact k2
        have hrun' : t.run (o1 ++ o2) = { t with x := x', y := y', pend := b', style := s } := by
          rw [run_append, e3, f2]
        refine ⟨c3, o1 ++ o2, ?_, ?_⟩
        · rw [e1, Option.bind_some]
          simp only [e2, Option.bind_some, f1, f3, g1, g2, k4, Option.map_some, text_append, List.append_nil]
        · rw [hrun', hs]
          exact ⟨rfl, rfl, rfl, hvis, fun hh => absurd (hh rfl) (by rw [← hcur]; exact hq)⟩
      · have hrun' : t.run (o1 ++ o2 ++ [.show_]) =
            { t with x := x', y := y', pend := b', style := s, vis := true } := by
          rw [run_append, run_append, e3, f2]; rfl
        refine ⟨c3, o1 ++ o2 ++ [.show_], ?_, ?_⟩
        · rw [e1, Option.bind_some]
          simp only [e2, Option.bind_some, f1, f3, g1, g2, k4, Option.map_some, text_append]
        · rw [hrun', hs]
          exact ⟨rfl, rfl, rfl, rfl, fun hh => absurd (hh rfl) (by rw [← hcur]; exact hq)⟩
  · have hs' : ¬ (sc.cur.visible && valid sc.cur.pt) = true := hs
    rw [if_neg hs']
    rw [Bool.not_eq_true] at hs
    obtain ⟨c3, sq, b, g1, g2, g3⟩ := hide_text c
    rw [hs]
    rcases g3 with ⟨k1, k2, k3, k4⟩ | ⟨k3, k4⟩
    · refine ⟨c, [], ?_, rfl, rfl, rfl, ?_, fun _ => ⟨A, by simp⟩⟩
      · rw [g1, Option.bind_some]; simp only [g2, k3, k4, Option.map_some]; rfl
      · show t.vis = false
        rw [A.vis k1, k2]
    · refine ⟨c3, [.hide], ?_, rfl, rfl, rfl, rfl, fun _ => ⟨⟨?_, ?_, ?_⟩, by simp⟩⟩
      · rw [g1, Option.bind_some]; simp only [g2, k4, Option.map_some]
      · rw [k3]; intro hv; exact A.pos hv
      · rw [k3]; intro hv; exact A.attr hv
      · rw [k3]; intro _; rfl

theorem Screen.Whole.toGrid {sc : Screen} {w h : Nat} (W : sc.Whole w h) : Grid.Whole sc.grid (w, h) := by
  refine ⟨?_, W.len, W.stride, Or.inl (by rw [W.rect]), by rw [W.len]; exact W.cap⟩
  rw [W.rect]
  simp only [Geom.size, Grid.sz, Pt.mk.injEq]; omega

theorem Grid.Whole.toScreen {g : Grid} {w h : Nat} (W : Grid.Whole g (w, h)) (hw : 1 ≤ w) (hh : 1 ≤ h)
    (c : Cursor) : Screen.Whole ⟨c, g⟩ w h := by
  have hpos := Nat.mul_pos hw hh
  have hl := W.len
  have hm : g.rect.min = ⟨1, 1⟩ := by
    rcases W.min with h | h
    · exact h
    · rw [h] at hl; simp at hl; omega
  have hsz := W.size
  refine ⟨hw, hh, ?_, W.stride, W.len, by rw [← hl]; exact W.cap⟩
  simp only [Geom.size, Grid.sz, Pt.mk.injEq, hm] at hsz
  show g.rect = _
  have hr : g.rect = ⟨g.rect.min, ⟨g.rect.max.x, g.rect.max.y⟩⟩ := rfl
  rw [hr, hm]
  simp only [Rect.mk.injEq, Pt.mk.injEq, true_and]; omega

/-- Recording the new contents. -/
theorem record_ok {sc p : Screen} {w h : Nat} {s : Nat × Nat} (W : sc.Whole w h)
    (P : Grid.Whole p.grid s) (hs : s.1 = 0 → s.2 = 0) :
    let p1 := (p.resize ((dx sc.grid.rect).toNat, (dy sc.grid.rect).toNat)).1
    let p2 : Screen := { p1 with grid := Screen.copyIn p1.grid sc.grid }
    p2.Whole w h ∧ (∀ i, i < w * h → p2.grid.cells[i]? = sc.grid.cells[i]?) ∧
      (p2.cur = p.cur ∨ (¬ p.OnScreen w h ∧ p2.cur = { p.cur with pt := zp })) := by
  have hd : ((dx sc.grid.rect).toNat, (dy sc.grid.rect).toNat) = (w, h) := by
    rw [W.rect, dx, dy]; simp
  rw [hd]
  dsimp only
  obtain ⟨R, hb⟩ := Grid.whole_resize (t := (w, h)) P hs
  have RS : Screen.Whole (p.resize (w, h)).1 w h ∧ ((p.resize (w, h)).1.cur = p.cur ∨
      (¬ p.OnScreen w h ∧ (p.resize (w, h)).1.cur = { p.cur with pt := zp })) := by
    unfold Screen.resize
    split
    · dsimp only
      refine ⟨R.toScreen W.hw W.hh _, ?_⟩
      split
      · exact Or.inl rfl
      · rename_i hin
        refine Or.inr ⟨?_, rfl⟩
        rintro ⟨x, y, hx, hy, hc⟩
        apply hin
        rw [ptIn_iff, (R.toScreen W.hw W.hh p.cur).rect]
        unfold Screen.CurAt at hc
        rw [hc, Mem]; dsimp only; omega
    · exact ⟨R.toScreen W.hw W.hh p.cur, Or.inl rfl⟩
  obtain ⟨RW, hcur⟩ := RS
  generalize (p.resize (w, h)).1 = p1 at *
  have hl := data_length W
  have hcap := RW.cap
  have htake : sc.grid.data.take p1.grid.len = sc.grid.data := by
    rw [List.take_of_length_le]; rw [hl, RW.len]
  refine ⟨⟨W.hw, W.hh, RW.rect, RW.stride, RW.len, ?_⟩, ?_, hcur⟩
  · simp only [Screen.copyIn, htake, List.length_append, hl]; omega
  · intro i hi
    obtain ⟨hc, hd⟩ := data_get W hi
    simp only [Screen.copyIn, htake]
    rw [List.getElem?_append_left (by rw [hl]; exact hi), hd, List.getElem?_eq_getElem hc]

/-- **C32**, **C33**, the common argument. -/
theorem update_core {gr : Nat → Bool} {t : Term} {sc prior : Screen} {w h : Nat} {q : List Pt}
    (W : sc.Whole w h) (tw : t.w = w) (th : t.h = h) (A : Agree prior.cur t)
    (hg : ∀ c ∈ sc.grid.data, Drawable gr c) (hsp : Printable gr 0x20)
    (hf : sc.shown = true → sc.OnScreen w h ∧ ∃ s : Sgr.Style, s.clear = false ∧ sc.cur.attr = s.build)
    (R : Ready t sc prior w h q) :
    ∃ prior' ops, sc.update gr prior = some (prior', text ops) ∧ Shows (t.run ops) sc w h ∧
      (t.run ops).vis = sc.shown ∧ prior'.Whole w h ∧
      (∀ i, i < w * h → prior'.grid.cells[i]? = sc.grid.cells[i]?) ∧
      ((sc.shown = true → q = [sc.cur.pt]) → Agree prior'.cur (t.run ops) ∧
        (sc.shown = true → (t.run ops).At sc.cur.pt ∧ sc.cur.attr = (t.run ops).style.build ∧
          prior'.cur.pt = sc.cur.pt)) := by
  unfold Screen.update
  -- hide
  obtain ⟨c1, s1, b1, g1, g2, g3⟩ := hide_text prior.cur
  have hhide : ∃ o1, b1 = text o1 ∧ Agree c1 (t.run o1) ∧ c1.pt = prior.cur.pt ∧
      (t.run o1).cell = t.cell ∧ (t.run o1).w = t.w ∧ (t.run o1).h = t.h ∧ (t.run o1).bce = t.bce ∧
      (t.run o1).style = t.style := by
    rcases g3 with ⟨k1, k2, k3, k4⟩ | ⟨k3, k4⟩
    · exact ⟨[], by rw [k4]; rfl, by rw [k3]; exact A, by rw [k3], rfl, rfl, rfl, rfl, rfl⟩
    · refine ⟨[.hide], k4, ?_, by rw [k3], rfl, rfl, rfl, rfl, rfl⟩
      rw [k3]; exact ⟨fun hv => A.pos hv, fun hv => A.attr hv, fun _ => rfl⟩
  obtain ⟨o1, hb1, A1, hpt1, hcell1, hw1, hh1, hbce1, hst1⟩ := hhide
  -- the grid
  have R1 : Ready (t.run o1) sc { prior with cur := c1 } w h q := by
    cases R with
    | diff P S J =>
      refine .diff (P.cur c1) ⟨hw1.trans S.1, hh1.trans S.2.1, ?_⟩ (by rw [hpt1]; exact J)
      intro x y hx hy; rw [hcell1]; exact S.2.2 x y hx hy
    | full s P hs hne B J =>
      exact .full s P hs hne (by rw [hbce1, hst1]; exact B) (by rw [hpt1]; exact J)
  obtain ⟨c2, o2, e1, A2, S2, _, _, _, J2⟩ :=
    grid_ok W (hw1.trans tw) (hh1.trans th) A1 hg hsp R1
  -- the cursor
  obtain ⟨c3, o3, f1, f2, f3, f4, f5, f6⟩ := apply_ok S2.1 S2.2.1 A2 J2 hf
  -- the record
  have hP : ∃ s, Grid.Whole prior.grid s ∧ (s.1 = 0 → s.2 = 0) := by
    cases R with
    | diff P S J => exact ⟨_, P.toGrid, fun h0 => absurd h0 (by have := W.hw; dsimp only; omega)⟩
    | full s P hs hne B J => exact ⟨s, P, hs⟩
  obtain ⟨s, P, hs⟩ := hP
  obtain ⟨r1, r2, r3⟩ := record_ok (p := { prior with cur := c3 }) W P hs
  refine ⟨_, o1 ++ o2 ++ o3, ?_, ?_, ?_, r1, r2, ?_⟩
  · rw [g1, Option.bind_some]
    simp only [g2, Option.bind_some, hb1, e1, f1, Option.map_some, text_append]
  · rw [run_append, run_append]
    refine ⟨f3.trans S2.1, f4.trans S2.2.1, fun x y hx hy => ?_⟩
    rw [f2]; exact S2.2.2 x y hx hy
  · rw [run_append, run_append]; exact f5
  · intro hh
    obtain ⟨A3, at3⟩ := f6 hh
    rw [run_append, run_append]
    rcases r3 with r3 | ⟨r4, r3⟩
    · rw [r3]; exact ⟨A3, at3⟩
    · rw [r3]
      refine ⟨⟨fun hv => by simp [valid, zp] at hv, A3.attr, A3.vis⟩, fun hsh => ?_⟩
      exfalso; apply r4
      obtain ⟨⟨x, y, hx, hy, hc⟩, _⟩ := hf hsh
      exact ⟨x, y, hx, hy, by unfold Screen.CurAt at *; rw [← hc]; exact (at3 hsh).2.2⟩

/-- **C32** (part proved): a terminal that shows the recorded prior screen and whose
cursor agrees with the recorded one, or any terminal whatsoever if no screen of this
size is recorded, shows exactly the new screen, cell for cell, after receiving the bytes
of an update; its cursor is visible exactly if the new screen's is.
Missing: updates in which the written cells take an awkward jump (part of `Ready`),
which come out wrong (`update_wrong_cell`, `update_wrong_margin`); full redraws with a
background colour set on terminals that erase with it (`update_wrong_background`).
Runes are taken to be one column wide. -/
theorem update_shows_partial (gr : Nat → Bool) (t : Term) (sc prior : Screen) (w h : Nat)
    (W : sc.Whole w h) (tw : t.w = w) (th : t.h = h) (A : Agree prior.cur t)
    (hg : ∀ c ∈ sc.grid.data, Drawable gr c) (hsp : Printable gr 0x20)
    (hf : sc.shown = true → sc.OnScreen w h ∧ ∃ s : Sgr.Style, s.clear = false ∧ sc.cur.attr = s.build)
    (R : Ready t sc prior w h []) :
    ∃ prior' ops, sc.update gr prior = some (prior', text ops) ∧ Shows (t.run ops) sc w h ∧
      (t.run ops).vis = sc.shown := by
  obtain ⟨p, ops, h1, h2, h3, _⟩ := update_core W tw th A hg hsp hf R
  exact ⟨p, ops, h1, h2, h3⟩

/-- **C32**, the state for the next update: if the move to the final cursor position is
not awkward either, then the terminal's cursor ends at the new screen's cursor, with its
attributes, and the recorded state describes the terminal completely, so that the next
update can rely on it. -/
theorem update_again_partial (gr : Nat → Bool) (t : Term) (sc prior : Screen) (w h : Nat)
    (W : sc.Whole w h) (tw : t.w = w) (th : t.h = h) (A : Agree prior.cur t)
    (hg : ∀ c ∈ sc.grid.data, Drawable gr c) (hsp : Printable gr 0x20)
    (hf : sc.shown = true → sc.OnScreen w h ∧ ∃ s : Sgr.Style, s.clear = false ∧ sc.cur.attr = s.build)
    (R : Ready t sc prior w h (if sc.shown then [sc.cur.pt] else [])) :
    ∃ prior' ops, sc.update gr prior = some (prior', text ops) ∧
      prior'.Whole w h ∧ Shows (t.run ops) prior' w h ∧ Agree prior'.cur (t.run ops) ∧
      Shows (t.run ops) sc w h ∧ (t.run ops).vis = sc.shown ∧
      (sc.shown = true → (t.run ops).At sc.cur.pt ∧ sc.cur.attr = (t.run ops).style.build) := by
  obtain ⟨p, ops, h1, h2, h3, h4, h5, h6⟩ := update_core W tw th A hg hsp hf R
  obtain ⟨h7, h8⟩ := h6 (fun hs => by rw [if_pos hs])
  refine ⟨p, ops, h1, h4, ⟨h2.1, h2.2.1, fun x y hx hy => ?_⟩, h7, h2, h3, fun hs => ⟨(h8 hs).1, (h8 hs).2.1⟩⟩
  obtain ⟨c, hc, hi⟩ := h2.2.2 x y hx hy
  exact ⟨c, by unfold Screen.look at *; rw [h5 _ (Screen.idx_lt hx hy)]; exact hc, hi⟩

end Anansi
