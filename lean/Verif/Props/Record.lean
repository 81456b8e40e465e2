import Verif.Props.Render
/-
C33: after an update the recorded state equals the screen, and updating again writes
no cells.
-/
set_option autoImplicit false

namespace Anansi
open Vt Geom Render Spec

/-! ### Nothing in an update can fail -/

theorem ints_total (id : Nat) (hid : 0xEF80 < id ∧ id < 0xEFFF) (is : List Int) :
    ∃ s b, (escSeq id).bind (·.withInts is) = some s ∧ s.append = some b := by
  have h := seq_build_csi hid [.ints is]
  have he : build id [.ints is] = (escSeq id).bind (·.withInts is) := rfl
  rw [he] at h
  obtain ⟨s, h1, h2⟩ := Option.bind_eq_some_iff.mp h
  exact ⟨s, _, h1, h2⟩

theorem bytes_total (id : Nat) (hid : 0xEF80 < id ∧ id < 0xEFFF) (bs : Bytes) :
    ∃ s b, (escSeq id).map (·.with bs) = some s ∧ s.append = some b := by
  have h := seq_build_csi hid [.bytes bs]
  have he : build id [.bytes bs] = (escSeq id).map (·.with bs) := by
    unfold build; cases escSeq id <;> rfl
  rw [he] at h
  obtain ⟨s, h1, h2⟩ := Option.bind_eq_some_iff.mp h
  exact ⟨s, _, h1, h2⟩

theorem to_total (c : Cursor) (p : Pt) : ∃ s b,
    c.to p = some ({ c with pt := p }, s) ∧ s.append = some b := by
  have abs : ∃ s b, (escSeq CUP).bind (·.withPoint p) = some s ∧ s.append = some b :=
    ints_total CUP (by decide) [p.y, p.x]
  obtain ⟨sa, ba, ha, hb⟩ := abs
  obtain ⟨s0, e0, e3⟩ := Option.bind_eq_some_iff.mp ha
  have habs : (escSeq CUP).bind (fun s => (s.withPoint p).map (({ c with pt := p } : Cursor), ·)) =
      some ({ c with pt := p }, sa) := by rw [e0, Option.bind_some, e3]; rfl
  by_cases hv : valid c.pt = true
  · by_cases h1 : p.y = c.pt.y + 1 ∧ p.x = 1
    · obtain ⟨s, e1, e2⟩ := newline_text c p hv h1
      exact ⟨s, _, e1, e2⟩
    · by_cases h2 : p.x ≠ c.pt.x ∧ p.y ≠ c.pt.y
      · refine ⟨sa, ba, ?_, hb⟩
        unfold Cursor.to
        rw [hv]; simp only [Bool.not_true, Bool.false_eq_true, if_false]
        rw [if_neg h1, if_pos h2]; exact habs
      · rcases Int.lt_trichotomy p.x c.pt.x with hlt | heq | hgt
        · have hy : p.y = c.pt.y := by omega
          obtain ⟨s, k, e1, e2, _⟩ := back_text c (c.pt.x - p.x).toNat (by omega) p (by omega) hy hv
          exact ⟨s, _, e1, e2⟩
        · exact ⟨_, _, stay_text c p hv h1 heq, rfl⟩
        · have hy : p.y = c.pt.y := by omega
          obtain ⟨s, k, e1, e2, _⟩ := forward_text c (p.x - c.pt.x).toNat (by omega) p (by omega) hy hv
          exact ⟨s, _, e1, e2⟩
  · refine ⟨sa, ba, ?_, hb⟩
    rw [Bool.not_eq_true] at hv
    unfold Cursor.to
    rw [hv]; simp only [Bool.not_false, if_true]; exact habs

theorem process_total (gr : Nat → Bool) (c : Cursor) (r : Nat) :
    ∃ c', c.processANSI gr (r, []) = some c' ∧ c'.visible = c.visible ∧ c'.visKnown = c.visKnown := by
  unfold Cursor.processANSI Cursor.processEscape Cursor.modes
  simp only [List.length_nil]
  repeat' split
  all_goals first | exact ⟨_, rfl, rfl, rfl⟩ | omega

theorem write_total (gr : Nat → Bool) (c : Cursor) (p : Pt) (r : Nat) (a : Attr) :
    ∃ c' b, writeCell gr c p r a = some (c', b) ∧ c'.visible = c.visible ∧ c'.visKnown = c.visKnown := by
  obtain ⟨s, b, e1, e2⟩ := to_total c p
  have hm : ∀ c : Cursor, (c.mergeSGR a).1.visible = c.visible ∧ (c.mergeSGR a).1.visKnown = c.visKnown := by
    intro c; unfold Cursor.mergeSGR; split <;> exact ⟨rfl, rfl⟩
  obtain ⟨c', e3, e4, e5⟩ := process_total gr (({ c with pt := p } : Cursor).mergeSGR a).1 r
  refine ⟨c', b ++ sgrText (({ c with pt := p } : Cursor).mergeSGR a).2 ++ encodeRune r, ?_, e4.trans (hm _).1, e5.trans (hm _).2⟩
  unfold writeCell
  rw [e1, Option.bind_some]
  dsimp only
  rw [e2, Option.bind_some, e3]; rfl

theorem draw_total (gr : Nat → Bool) (w : Nat) : ∀ (l : List (Option (Nat × Attr))) (i : Nat) (c : Cursor),
    ∃ c' b, drawLoop gr w l i c = some (c', b)
  | [], _, c => ⟨c, [], rfl⟩
  | none :: l, i, c => draw_total gr w l (i + 1) c
  | some ra :: l, i, c => by
    obtain ⟨c1, b1, e1, _⟩ := write_total gr c (ptOf w i) ra.1 ra.2
    obtain ⟨c2, b2, e2⟩ := draw_total gr w l (i + 1) c1
    exact ⟨c2, _, by simp only [drawLoop]; rw [e1, Option.bind_some, e2]; rfl⟩

theorem apply_total (cs c : Cursor) : ∃ c' b, cs.applyTo c = some (c', b) := by
  unfold Cursor.applyTo
  split
  · obtain ⟨s, b, e1, e2⟩ := to_total c cs.pt
    obtain ⟨c3, sq, b3, g1, g2, _⟩ := show_text (({ c with pt := cs.pt } : Cursor).mergeSGR cs.attr).1
    rw [e1, Option.bind_some]; dsimp only
    rw [e2, Option.bind_some, g1, Option.bind_some, g2]
    exact ⟨_, _, rfl⟩
  · obtain ⟨c3, sq, b3, g1, g2, _⟩ := hide_text c
    rw [g1, Option.bind_some, g2]; exact ⟨_, _, rfl⟩

/-- Same size and the same cells. -/
def SameGrid (a b : Grid) : Prop := size a.rect = size b.rect ∧ a.len = b.len ∧ a.data = b.data

theorem style_diff (p : Pt) (r : Nat) (a : Attr) :
    (StyleV.styles [StyleV.styles [.noop, .fn (Style.fillRune 0x20)],
        .fn (Style.defaultRune 0x20)]).apply p 0x20 r 0 a = (if r = 0 then 0x20 else r, a) := by
  have : (StyleV.styles [StyleV.styles [.noop, .fn (Style.fillRune 0x20)],
    .fn (Style.defaultRune 0x20)]) = .many [Style.fillRune 0x20, Style.defaultRune 0x20] := rfl
  rw [this]
  simp only [StyleV.apply, StyleV.manyFn, List.foldl_cons, List.foldl_nil, Style.fillRune, Style.defaultRune]
  rw [if_neg]
  rintro ⟨h, _⟩; split at h <;> omega

theorem writeGrid_diff (gr : Nat → Bool) {sc prior : Screen} {w h : Nat} (W : sc.Whole w h)
    (P : prior.Whole w h) : writeGrid gr sc.grid prior .noop =
    (drawLoop gr w (List.zipWith diffInk (prior.grid.cells.drop 0) sc.grid.data) 0 prior.cur).map
      fun r => ({ prior with cur := r.1 }, r.2) := by
  have hpos := Nat.mul_pos W.hw W.hh
  have hlen : ¬ sc.grid.len = 0 := by rw [W.len]; omega
  have hl := data_length W
  have p11 : (⟨1, 1⟩ : Pt) = ptOf w 0 := by simp [ptOf]
  unfold writeGrid
  rw [if_neg hlen, if_neg (whole_rect_eq W P)]
  unfold writeGridDiff
  have hfill : StyleV.noop.apply zp 0 0 0 0 = (0, 0) := rfl
  simp only [hfill, if_true]
  rw [p11, W.rect, diff_draw gr w h W.hw prior P _ style_diff sc.grid.data 0 prior.cur (by omega)]

theorem writeGrid_total (gr : Nat → Bool) {sc prior : Screen} {s t : Nat × Nat} (W : Grid.Whole sc.grid t)
    (ht : t.1 = 0 → t.2 = 0) (P : Grid.Whole prior.grid s) :
    ∃ c b, writeGrid gr sc.grid prior .noop = some ({ prior with cur := c }, b) := by
  by_cases h0 : sc.grid.len = 0
  · unfold writeGrid; rw [if_pos h0]; exact ⟨prior.cur, [], rfl⟩
  obtain ⟨w, h⟩ := t
  have hl : sc.grid.len = w * h := W.len
  have hw : 1 ≤ w := by rcases Nat.eq_zero_or_pos w with e | e; · subst e; simp at hl; omega
                        · exact e
  have hh : 1 ≤ h := by rcases Nat.eq_zero_or_pos h with e | e; · subst e; simp at hl; omega
                        · exact e
  have WS : sc.Whole w h := W.toScreen hw hh sc.cur
  by_cases he : s = (w, h)
  · subst he
    have PS : prior.Whole w h := P.toScreen hw hh prior.cur
    rw [writeGrid_diff gr WS PS]
    obtain ⟨c', b, e⟩ := draw_total gr w (List.zipWith diffInk (prior.grid.cells.drop 0) sc.grid.data) 0 prior.cur
    rw [e]; exact ⟨c', b, rfl⟩
  · have p11 : (⟨1, 1⟩ : Pt) = ptOf w 0 := by simp [ptOf]
    unfold writeGrid
    rw [if_neg h0, if_pos (whole_rect_ne WS P he)]
    unfold writeGridFull
    have hst1 : ((StyleV.noop.apply zp 0 0 0 0).1 = 0x20) = False := by simp [StyleV.apply, StyleV.noopFn]
    have hst2 : (StyleV.styles [.noop, .fn (Style.defaultRune 0x20)]).apply = Style.defaultRune 0x20 := rfl
    simp only [hst1, if_false, hst2]
    have hed : ∃ s0, escSeq ED = some s0 ∧ (s0.with [0x32]).append = some (text [.eraseAll]) :=
      ⟨{ id := ED }, by decide, by decide +kernel⟩
    obtain ⟨s0, e0, e1⟩ := hed
    rw [e0, Option.bind_some, e1, Option.bind_some, p11, WS.rect, full_draw gr w h hw]
    obtain ⟨c', b, e⟩ := draw_total gr w (sc.grid.data.map fullInk) 0 prior.cur
    rw [e]; exact ⟨c', _, rfl⟩

theorem record_grid {sc p : Screen} {s t : Nat × Nat} (W : Grid.Whole sc.grid t)
    (ht : t.1 = 0 → t.2 = 0) (P : Grid.Whole p.grid s) (hs : s.1 = 0 → s.2 = 0) :
    let p1 := (p.resize ((dx sc.grid.rect).toNat, (dy sc.grid.rect).toNat)).1
    Grid.Whole (Screen.copyIn p1.grid sc.grid) t ∧ SameGrid (Screen.copyIn p1.grid sc.grid) sc.grid := by
  have hd : ((dx sc.grid.rect).toNat, (dy sc.grid.rect).toNat) = t := by
    have := W.size
    obtain ⟨a, b⟩ := t
    simp only [Geom.size, Grid.sz, Pt.mk.injEq] at this
    simp only [dx, dy, this]; simp
  rw [hd]
  obtain ⟨R, _⟩ := Grid.whole_resize (t := t) P hs
  have hgrid : (p.resize t).1.grid = (p.grid.resize t).1 := by unfold Screen.resize; split <;> rfl
  dsimp only
  rw [hgrid]
  generalize (p.grid.resize t).1 = g at *
  have hl : sc.grid.data.length = t.1 * t.2 := by
    unfold Grid.data; rw [List.length_take, ← W.len]; have := W.cap; omega
  have htake : sc.grid.data.take g.len = sc.grid.data := by
    rw [List.take_of_length_le]; rw [hl, R.len]
  have hcap := R.cap
  have hgl := R.len
  have hsl := W.len
  refine ⟨⟨R.size, R.len, R.stride, ?_, ?_⟩, ⟨R.size.trans W.size.symm, R.len.trans W.len.symm, ?_⟩⟩
  · rcases R.min with h | h
    · exact Or.inl h
    · right
      rw [h] at hgl
      simp only [Screen.copyIn, h]
      have : sc.grid.data = [] := by
        apply List.eq_nil_of_length_eq_zero; rw [hl, ← hgl]
      simp [this]
  · simp only [Screen.copyIn, htake, List.length_append, List.length_drop, hl]; omega
  · simp only [Screen.copyIn, htake]
    unfold Grid.data
    dsimp only
    rw [List.take_append_of_le_length]
    · have : sc.grid.data = sc.grid.cells.take sc.grid.len := rfl
      rw [List.take_of_length_le (by rw [← this, hl, hgl])]
    · have : sc.grid.data = sc.grid.cells.take sc.grid.len := rfl
      rw [← this, hl, hgl]

/-- **C33** (part proved): an update never fails, and afterwards the recorded grid has the size and
the contents of the screen, whatever was recorded before and whatever runes and
attributes the cells hold; updating again then writes no cell at all: the output is just
that of hiding the cursor and applying the wanted cursor state.
Missing: screens or recorded states that had zero width and non-zero height, see
`update_forgets_zero_width`. -/
theorem update_records_partial (gr : Nat → Bool) (sc prior : Screen) (s t : Nat × Nat)
    (W : Grid.Whole sc.grid t) (ht : t.1 = 0 → t.2 = 0)
    (P : Grid.Whole prior.grid s) (hs : s.1 = 0 → s.2 = 0) :
    ∃ prior' b, sc.update gr prior = some (prior', b) ∧ SameGrid prior'.grid sc.grid ∧
      ∃ c s2 b2 a prior'' , prior'.cur.hide = some (c, s2) ∧ s2.append = some b2 ∧
        sc.cur.applyTo c = some a ∧ sc.update gr prior' = some (prior'', b2 ++ a.2) := by
  have step : ∀ (prior : Screen) (s : Nat × Nat), Grid.Whole prior.grid s → (s.1 = 0 → s.2 = 0) →
      ∃ prior' b, sc.update gr prior = some (prior', b) ∧ Grid.Whole prior'.grid t ∧
        SameGrid prior'.grid sc.grid := by
    intro prior s P hs
    obtain ⟨c1, s1, b1, g1, g2, _⟩ := hide_text prior.cur
    obtain ⟨c2, b2, e2⟩ := writeGrid_total gr (prior := { prior with cur := c1 }) W ht P
    obtain ⟨c3, b3, e3⟩ := apply_total sc.cur c2
    obtain ⟨r1, r2⟩ := record_grid (p := { prior with cur := c3 }) W ht P hs
    refine ⟨{ (({ prior with cur := c3 } : Screen).resize
        ((dx sc.grid.rect).toNat, (dy sc.grid.rect).toNat)).1 with
      grid := Screen.copyIn (({ prior with cur := c3 } : Screen).resize
        ((dx sc.grid.rect).toNat, (dy sc.grid.rect).toNat)).1.grid sc.grid }, b1 ++ b2 ++ b3, ?_, r1, r2⟩
    unfold Screen.update
    rw [g1, Option.bind_some]
    simp only [g2, Option.bind_some, e2, e3, Option.map_some]
  obtain ⟨p, b, h1, h2, h3⟩ := step prior s P hs
  refine ⟨p, b, h1, h3, ?_⟩
  obtain ⟨c1, s1, b1, g1, g2, _⟩ := hide_text p.cur
  obtain ⟨c3, b3, e3⟩ := apply_total sc.cur c1
  have hgrid : writeGrid gr sc.grid { p with cur := c1 } .noop = some ({ p with cur := c1 }, []) := by
    by_cases h0 : sc.grid.len = 0
    · unfold writeGrid; rw [if_pos h0]
    obtain ⟨w, h⟩ := t
    have hl : sc.grid.len = w * h := W.len
    have hw : 1 ≤ w := by rcases Nat.eq_zero_or_pos w with e | e; · subst e; simp at hl; omega
                          · exact e
    have hh : 1 ≤ h := by rcases Nat.eq_zero_or_pos h with e | e; · subst e; simp at hl; omega
                          · exact e
    have WS : sc.Whole w h := W.toScreen hw hh sc.cur
    have PS : ({ p with cur := c1 } : Screen).Whole w h := h2.toScreen hw hh c1
    rw [writeGrid_diff gr WS PS]
    have hnone : ∀ (a b : List Cell) (i : Nat), b <+: a →
        drawLoop gr w (List.zipWith diffInk a b) i c1 = some (c1, []) := by
      intro a b
      induction b generalizing a with
      | nil => intro i _; simp [drawLoop]
      | cons x b ih =>
        intro i hab
        obtain ⟨r, rfl⟩ := hab
        simp only [List.cons_append, List.zipWith_cons_cons, diffInk, if_true, drawLoop]
        exact ih (b ++ r) (i + 1) ⟨r, rfl⟩
    rw [hnone _ _ 0 ?_]
    · rfl
    · rw [List.drop_zero]
      have : sc.grid.data = p.grid.cells.take p.grid.len := h3.2.2.symm
      rw [this]
      exact List.take_prefix _ _
  exact ⟨c1, s1, b1, (c3, b3), _, g1, g2, e3, by
    unfold Screen.update
    rw [g1, Option.bind_some]
    simp only [g2, Option.bind_some, hgrid, e3, Option.map_some, List.append_nil]; rfl⟩

/-- A three by two screen, after the recorded state had been five by five. -/
example : Grid.Whole (({} : Screen).resize (3, 2)).1.grid (3, 2) ∧
    Grid.Whole ((({} : Screen).resize (5, 5)).1.resize (2, 2)).1.grid (2, 2) := by
  refine ⟨⟨?_, ?_, ?_, Or.inl ?_, ?_⟩, ⟨?_, ?_, ?_, Or.inl ?_, ?_⟩⟩ <;> decide +kernel

/-- Negation for **C33**: once a screen of zero columns and two rows was recorded, an
update with a two by one screen records nothing: the recorded grid stays without cells,
so that every further update draws everything again. -/
theorem update_forgets_zero_width :
    let p1 := (({ grid := (({} : Grid).resize (0, 2)).1 } : Screen).update (fun _ => true) {}).map (·.1)
    let sc : Screen := { grid := { rect := ⟨⟨1, 1⟩, ⟨3, 2⟩⟩, stride := 2, len := 2, cells := [⟨97, 0⟩, ⟨98, 0⟩] } }
    let p2 := p1.bind fun p => (sc.update (fun _ => true) p).map (·.1)
    p2.map (fun p => (p.grid.len, size p.grid.rect)) = some (0, ⟨0, 1⟩) ∧
    (p2.bind fun p => (sc.update (fun _ => true) p).map (·.2)) =
      some (text [.eraseAll, .cup 1 1, .put 97, .put 98]) := by decide +kernel

end Anansi
