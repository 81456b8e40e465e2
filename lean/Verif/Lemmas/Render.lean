import Verif.Spec.Render
import Verif.Props.CursorTo
/-
Writing cells on the terminal.
-/
set_option autoImplicit false

namespace Anansi
open Vt Geom Render

theorem Printable.process {gr : Nat → Bool} {r : Nat} (h : Printable gr r) (c : Cursor) :
    c.processANSI gr (r, []) = some { c with pt := ⟨c.pt.x + 1, c.pt.y⟩ } := by
  have := h.c0
  unfold Cursor.processANSI
  simp only [h.noEscape, h.graphic]
  rw [if_neg (by simp), if_neg (by omega), if_neg (by omega), if_pos trivial]

/-- The terminal after printing at a place. -/
def Vt.Term.printed (t : Term) (x y : Nat) (g : Glyph) : Term :=
  { t with
    cell := fun a b => if a = x ∧ b = y then g else t.cell a b
    x := if x + 1 < t.w then x + 1 else x
    y := y
    pend := !decide (x + 1 < t.w)
    style := g.style }

theorem write_ok {gr : Nat → Bool} {t : Term} {c : Cursor} (A : Agree c t) {x y : Nat}
    (hx : x < t.w) (hy : y < t.h)
    (hs : valid c.pt = true → ¬ Awkward t.w c.pt ⟨x + 1, y + 1⟩)
    {r : Nat} (hr : Printable gr r) (s : Sgr.Style) (hc : s.clear = false) :
    ∃ c' ops, writeCell gr c ⟨x + 1, y + 1⟩ r s.build = some (c', text ops) ∧
      t.run ops = t.printed x y ⟨r, s⟩ ∧
      c' = { c with pt := ⟨x + 2, y + 1⟩, attr := s.build, attrKnown := true } ∧
      Agree c' (t.run ops) := by
  obtain ⟨q, o1, e1, e2, e3⟩ := cursor_to t c x y hx hy (by
      intro hv
      rcases A.pos hv with h | h
      · exact Or.inl h
      · refine Or.inr ⟨h, fun hrow => ?_⟩
        by_contra hne
        exact hs hv (Or.inr ⟨by rw [h.2.2.2], hrow.symm, by dsimp only; omega⟩))
    (fun hv hver => hs hv (Or.inl hver))
  obtain ⟨o2, f1, f2, f3⟩ := merge_sgr_shows { c with pt := ⟨x + 1, y + 1⟩ } s hc
    { t with x := x, y := y, pend := false } A.attr
  have hop : t.run (o1 ++ o2 ++ [.put r]) = t.printed x y ⟨r, s⟩ := by
    rw [run_append, run_append, e3, f2]
    simp [Term.run, Term.step, Term.printed]
  refine ⟨{ c with pt := ⟨x + 2, y + 1⟩, attr := s.build, attrKnown := true },
    o1 ++ o2 ++ [.put r], ?_, hop, rfl, ?_⟩
  · unfold writeCell
    rw [e1, Option.bind_some]
    simp only [f1, f3]
    rw [e2, Option.bind_some, hr.process]
    simp only [Option.map_some, text_append, text_one]
    rfl
  · rw [hop]
    refine ⟨fun _ => ?_, fun _ => ⟨hc, rfl⟩, fun h => A.vis h⟩
    by_cases hw : x + 1 < t.w
    · left
      refine ⟨?_, ?_, ?_⟩
      · simp only [Term.Ok, Term.printed, if_pos hw]; exact ⟨hw, hy⟩
      · simp [Term.printed, hw]
      · simp only [Term.printed, if_pos hw, Pt.mk.injEq, and_true]; push_cast; omega
    · right
      refine ⟨?_, ?_, ?_, ?_⟩
      · simp only [Term.Ok, Term.printed, if_neg hw]; exact ⟨hx, hy⟩
      · simp [Term.printed, hw]
      · simp only [Term.printed, if_neg hw]; omega
      · simp only [Term.printed, Pt.mk.injEq, and_true]; omega

/-- The common shape of both loops: write the given cells in reading order. -/
def drawLoop (gr : Nat → Bool) (w : Nat) : List (Option (Nat × Attr)) → Nat → Cursor →
    Option (Cursor × Bytes)
  | [], _, cur => some (cur, [])
  | none :: l, i, cur => drawLoop gr w l (i + 1) cur
  | some ra :: l, i, cur =>
    (writeCell gr cur (ptOf w i) ra.1 ra.2).bind fun v =>
      (drawLoop gr w l (i + 1) v.1).map fun r => (r.1, v.2 ++ r.2)

/-- The points written by `drawLoop`. -/
def spots (w : Nat) : List (Option (Nat × Attr)) → Nat → List Pt
  | [], _ => []
  | none :: l, i => spots w l (i + 1)
  | some _ :: l, i => ptOf w i :: spots w l (i + 1)

theorem draw_ok {gr : Nat → Bool} {w h : Nat} (hw : 1 ≤ w) : ∀ (l : List (Option (Nat × Attr))) (i : Nat)
    (t : Term) (c : Cursor) (_ : t.w = w) (_ : t.h = h) (_ : i + l.length = w * h) (_ : Agree c t)
    (_ : ∀ ra, some ra ∈ l → Printable gr ra.1 ∧ ∃ s : Sgr.Style, s.clear = false ∧ ra.2 = s.build)
    (q : List Pt) (_ : Smooth w c.pt (spots w l i ++ q)),
    ∃ c' ops, drawLoop gr w l i c = some (c', text ops) ∧ Agree c' (t.run ops) ∧
      (t.run ops).w = w ∧ (t.run ops).h = h ∧ (t.run ops).vis = t.vis ∧
      c'.visible = c.visible ∧ c'.visKnown = c.visKnown ∧ Smooth w c'.pt q ∧
      (valid c'.pt = true ∨ c' = c ∧ t.run ops = t) ∧
      ∀ x y, x < w → y < h → match l[y * w + x - i]? with
        | some (some ra) => if i ≤ y * w + x then Inked ra ((t.run ops).cell x y)
            else (t.run ops).cell x y = t.cell x y
        | _ => (t.run ops).cell x y = t.cell x y
  | [], i, t, c, hw', hh', _, A, _, q, hq =>
    ⟨c, [], rfl, A, hw', hh', rfl, rfl, rfl, by simpa [spots] using hq, Or.inr ⟨rfl, rfl⟩,
      fun x y _ _ => by simp [Term.run]⟩
  | none :: l, i, t, c, hw', hh', hl, A, hg, q, hq => by
    obtain ⟨c', ops, h1, h2, h3, h4, h5, h6, h7, h8, h9, h10⟩ :=
      draw_ok (h := h) hw l (i + 1) t c hw' hh' (by simp at hl; omega) A (fun ra hra => hg ra (by simp [hra])) q
        (by simpa [spots] using hq)
    refine ⟨c', ops, h1, h2, h3, h4, h5, h6, h7, h8, h9, fun x y hx hy => ?_⟩
    have := h10 x y hx hy
    rcases Nat.lt_trichotomy (y * w + x) i with hlt | heq | hgt
    · have e : y * w + x - i = 0 := by omega
      have e' : y * w + x - (i + 1) = 0 := by omega
      rw [e]
      simp only [List.getElem?_cons_zero]
      rw [e'] at this
      cases hz : l[0]? with
      | none => rw [hz] at this; exact this
      | some o =>
        rw [hz] at this
        cases o with
        | none => exact this
        | some ra => simp only at this; rw [if_neg (by omega)] at this; exact this
    · have e : y * w + x - i = 0 := by omega
      have e' : y * w + x - (i + 1) = 0 := by omega
      rw [e]
      simp only [List.getElem?_cons_zero]
      rw [e'] at this
      cases hz : l[0]? with
      | none => rw [hz] at this; exact this
      | some o =>
        rw [hz] at this
        cases o with
        | none => exact this
        | some ra => simp only at this; rw [if_neg (by omega)] at this; exact this
    · have e : y * w + x - i = (y * w + x - (i + 1)) + 1 := by omega
      rw [e, List.getElem?_cons_succ]
      cases hz : l[y * w + x - (i + 1)]? with
      | none => rw [hz] at this; exact this
      | some o =>
        rw [hz] at this
        cases o with
        | none => exact this
        | some ra =>
          simp only at this ⊢
          rw [if_pos (by omega)] at this ⊢; exact this
  | some ra :: l, i, t, c, hw', hh', hl, A, hg, q, hq => by
    obtain ⟨hp, s, hs1, hs2⟩ := hg ra (by simp)
    simp only [List.length_cons] at hl
    have hx : i % w < t.w := by rw [hw']; exact Nat.mod_lt _ (by omega)
    have hy : i / w < t.h := by
      rw [hh']; exact Nat.div_lt_of_lt_mul (by omega)
    simp only [spots, List.cons_append, Smooth] at hq
    obtain ⟨c1, o1, e1, e2, e3, e4⟩ := write_ok (gr := gr) A hx hy (by rw [hw']; exact hq.1) hp s hs1
    have hpt : c1.pt = ⟨(ptOf w i).x + 1, (ptOf w i).y⟩ := by
      rw [e3]; simp only [ptOf, Pt.mk.injEq, and_true]; omega
    have hv1 : valid c1.pt = true := by
      have := Int.natCast_nonneg (i / w); have := Int.natCast_nonneg (i % w)
      rw [hpt]; simp only [valid, ptOf, Bool.and_eq_true, decide_eq_true_eq, ge_iff_le]; omega
    obtain ⟨c', ops, h1, h2, h3, h4, h5, h6, h7, h8, h9, h10⟩ :=
      draw_ok (h := h) hw l (i + 1) (t.run o1) c1 (by rw [e2]; exact hw') (by rw [e2]; exact hh') (by omega) e4
        (fun ra hra => hg ra (by simp [hra])) q (by rw [hpt]; exact hq.2)
    refine ⟨c', o1 ++ ops, ?_, by rw [run_append]; exact h2, by rw [run_append]; exact h3,
      by rw [run_append]; exact h4, by rw [run_append, h5, e2]; rfl, by rw [h6, e3], by rw [h7, e3], h8, ?_, ?_⟩
    · simp only [drawLoop]
      have : ptOf w i = ⟨(i % w : Nat) + 1, (i / w : Nat) + 1⟩ := rfl
      rw [this, hs2, e1, Option.bind_some, h1]
      simp [text_append]
    · rcases h9 with h9 | ⟨h9, _⟩
      · exact Or.inl h9
      · rw [h9]; exact Or.inl hv1
    · intro x y hxw hyh
      have hthis := h10 x y hxw hyh
      rw [run_append]
      have hold : ∀ x y, (x ≠ i % w ∨ y ≠ i / w) → (t.run o1).cell x y = t.cell x y := by
        intro x y hne; rw [e2]; simp only [Term.printed]; rw [if_neg (by tauto)]
      have hnew : (t.run o1).cell (i % w) (i / w) = ⟨ra.1, s⟩ := by
        rw [e2]; simp [Term.printed]
      have hix : y * w + x = i ↔ x = i % w ∧ y = i / w := by
        constructor
        · intro h; subst h
          constructor
          · rw [Nat.mul_comm, Nat.mul_add_mod, Nat.mod_eq_of_lt hxw]
          · rw [Nat.mul_comm, Nat.mul_add_div (by omega), Nat.div_eq_of_lt hxw]; rfl
        · rintro ⟨h1, h2⟩
          rw [h1, h2, Nat.mul_comm]; exact Nat.div_add_mod i w
      rcases Nat.lt_trichotomy (y * w + x) i with hlt | heq | hgt
      · have e : y * w + x - i = 0 := by omega
        have e' : y * w + x - (i + 1) = 0 := by omega
        rw [e]
        simp only [List.getElem?_cons_zero]
        rw [if_neg (by omega)]
        rw [e'] at hthis
        have ho := hold x y (by by_contra hcon; push Not at hcon; exact absurd (hix.2 hcon) (by omega))
        cases hz : l[0]? with
        | none => rw [hz] at hthis; exact hthis.trans ho
        | some o =>
          rw [hz] at hthis
          cases o with
          | none => exact hthis.trans ho
          | some ra => simp only at hthis; rw [if_neg (by omega)] at hthis; exact hthis.trans ho
      · have e : y * w + x - i = 0 := by omega
        have e' : y * w + x - (i + 1) = 0 := by omega
        rw [e]
        simp only [List.getElem?_cons_zero]
        rw [if_pos (by omega)]
        rw [e'] at hthis
        obtain ⟨rfl, rfl⟩ := hix.1 heq
        have hin : Inked ra ((t.run o1).cell (i % w) (i / w)) := by
          rw [hnew]; exact ⟨rfl, hs1, hs2⟩
        cases hz : l[0]? with
        | none => rw [hz] at hthis; simp only at hthis; rw [hthis]; exact hin
        | some o =>
          rw [hz] at hthis
          cases o with
          | none => simp only at hthis; rw [hthis]; exact hin
          | some ra' =>
            simp only at hthis; rw [if_neg (by omega)] at hthis; rw [hthis]; exact hin
      · have e : y * w + x - i = (y * w + x - (i + 1)) + 1 := by omega
        rw [e, List.getElem?_cons_succ]
        have ho := hold x y (by by_contra hcon; push Not at hcon; exact absurd (hix.2 hcon) (by omega))
        cases hz : l[y * w + x - (i + 1)]? with
        | none => rw [hz] at hthis; exact hthis.trans ho
        | some o =>
          rw [hz] at hthis
          cases o with
          | none => exact hthis.trans ho
          | some ra =>
            simp only at hthis ⊢
            rw [if_pos (by omega)] at hthis ⊢; exact hthis

end Anansi
