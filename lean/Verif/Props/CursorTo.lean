import Verif.Lemmas.CursorSeq
/-
C31: cursor motion.
-/
set_option autoImplicit false

namespace Anansi
open Vt Geom

/-- A straight vertical move, other than to the start of the next row. -/
def Cursor.Vertical (c : Cursor) (p : Pt) : Prop :=
  p.x = c.pt.x ∧ p.y ≠ c.pt.y ∧ ¬(p.x = 1 ∧ p.y = c.pt.y + 1)

instance (c : Cursor) (p : Pt) : Decidable (c.Vertical p) := by unfold Cursor.Vertical; infer_instance

theorem near_valid {t : Term} {p : Pt} (h : t.At p ∨ t.Past p) : valid p = true := by
  rcases h with ⟨_, _, rfl⟩ | ⟨_, _, _, rfl⟩ <;> simp [valid] <;> omega

/-- The general form, which also covers a terminal that just wrote its last column. -/
theorem cursor_to (t : Term) (c : Cursor) (x y : Nat) (hx : x < t.w) (hy : y < t.h)
    (h : valid c.pt = true → t.At c.pt ∨ (t.Past c.pt ∧ (c.pt.y = y + 1 → x = 0)))
    (hv : valid c.pt = true → ¬ c.Vertical ⟨x + 1, y + 1⟩) :
    ∃ s ops, c.to ⟨x + 1, y + 1⟩ = some ({ c with pt := ⟨x + 1, y + 1⟩ }, s) ∧
      s.append = some (text ops) ∧ t.run ops = { t with x := x, y := y, pend := false } := by
  have cup : t.run [.cup (y + 1) (x + 1)] = { t with x := x, y := y, pend := false } := by
    have e1 : min (t.w - 1) x = x := by omega
    have e2 : min (t.h - 1) y = y := by omega
    simp [Term.run, Term.step, e1, e2]
  by_cases hval : valid c.pt = true
  · have h := h hval
    have hv := hv hval
    have hnear : t.At c.pt ∨ t.Past c.pt := h.imp id And.left
    have hok : t.Ok := by rcases hnear with ⟨a, _⟩ | ⟨a, _⟩ <;> exact a
    have hcy : c.pt.y = t.y + 1 := by rcases hnear with ⟨_, _, e⟩ | ⟨_, _, _, e⟩ <;> rw [e]
    unfold Term.Ok at hok
    by_cases hn : (y : Int) + 1 = c.pt.y + 1 ∧ (x : Int) + 1 = 1
    · obtain ⟨s, e1, e2⟩ := newline_text c ⟨x + 1, y + 1⟩ hval hn
      refine ⟨s, [.cr, .lf], e1, e2, ?_⟩
      have e3 : y = t.y + 1 := by omega
      have e4 : x = 0 := by omega
      subst e3; subst e4
      simp [Term.run, Term.step, Term.lineFeed, hy]
    · by_cases hb : (x : Int) + 1 ≠ c.pt.x ∧ (y : Int) + 1 ≠ c.pt.y
      · obtain ⟨s, e1, e2⟩ := absolute_text c (x + 1) (y + 1) (Or.inr (by push_cast; exact ⟨hn, hb⟩))
        push_cast at e1
        exact ⟨s, _, e1, by rw [e2, text_one], cup⟩
      · -- same row or same column
        have hy' : (y : Int) + 1 = c.pt.y := by
          by_contra hne
          have hxe : (x : Int) + 1 = c.pt.x := by omega
          exact hv ⟨hxe, hne, by simpa only [and_comm] using hn⟩
        have hyt : y = t.y := by omega
        subst hyt
        rcases Int.lt_trichotomy ((x : Int) + 1) c.pt.x with hlt | heq | hgt
        · obtain ⟨s, k, e1, e2, e3⟩ := back_text c (c.pt.x - (x + 1)).toNat (by omega) ⟨x + 1, t.y + 1⟩
            (by dsimp only; omega) hy' hval
          refine ⟨s, [.back k], e1, by rw [e2, text_one], ?_⟩
          have e4 : t.x - count k = x := by
            rcases h with ⟨_, _, e⟩ | ⟨⟨_, _, hw, e⟩, h0⟩
            · have : c.pt.x = t.x + 1 := by rw [e]
              rw [e3]; omega
            · have := h0 hy'.symm
              rw [e3, e]; dsimp only; omega
          simp [Term.run, Term.step, e4]
        · have hs := stay_text c ⟨x + 1, t.y + 1⟩ hval hn heq
          refine ⟨.zero, [], hs, rfl, ?_⟩
          rcases h with ⟨_, hp, e⟩ | ⟨⟨_, _, hw, e⟩, h0⟩
          · have : x = t.x := by rw [e] at heq; dsimp only at heq; omega
            subst this; rw [← hp]; rfl
          · rw [e] at heq; dsimp only at heq; omega
        · obtain ⟨s, k, e1, e2, e3⟩ := forward_text c (x + 1 - c.pt.x).toNat (by omega) ⟨x + 1, t.y + 1⟩
            (by dsimp only; omega) hy' hval
          refine ⟨s, [.forward k], e1, by rw [e2, text_one], ?_⟩
          have e4 : min (t.w - 1) (t.x + count k) = x := by
            rcases h with ⟨_, _, e⟩ | ⟨⟨_, _, hw, e⟩, h0⟩
            · have : c.pt.x = t.x + 1 := by rw [e]
              rw [e3]; omega
            · rw [e] at hgt; dsimp only at hgt; omega
          simp [Term.run, Term.step, e4]
  · obtain ⟨s, e1, e2⟩ := absolute_text c (x + 1) (y + 1) (Or.inl (by simpa using hval))
    push_cast at e1
    exact ⟨s, _, e1, by rw [e2, text_one], cup⟩

/-- **C31** (part proved): if the tracked position is unknown, or is where the
terminal's cursor is, then moving to any point on the terminal other than straight up
or down emits bytes that take the terminal's cursor to exactly that point and change
nothing else; the tracked position is that point.
Missing: straight vertical moves, see `cursor_to_vertical_lost`. -/
theorem cursor_to_partial (t : Term) (c : Cursor) (x y : Nat) (hx : x < t.w) (hy : y < t.h)
    (h : valid c.pt = true → t.At c.pt) (hv : valid c.pt = true → ¬ c.Vertical ⟨x + 1, y + 1⟩) :
    ∃ c' s ops, c.to ⟨x + 1, y + 1⟩ = some (c', s) ∧ s.append = some (text ops) ∧
      (t.run ops).At c'.pt ∧ c' = { c with pt := ⟨x + 1, y + 1⟩ } ∧
      t.run ops = { t with x := x, y := y, pend := false } := by
  obtain ⟨s, ops, h1, h2, h3⟩ := cursor_to t c x y hx hy (fun hval => Or.inl (h hval)) hv
  exact ⟨_, s, ops, h1, h2, by rw [h3]; exact ⟨⟨hx, hy⟩, rfl, rfl⟩, rfl, h3⟩

/-- An 80x24 terminal with its cursor in row 3, column 5, to row 3, column 2. -/
example : ∃ t : Term, 1 < t.w ∧ 2 < t.h ∧ t.At ⟨5, 3⟩ ∧
    ¬ ({ pt := ⟨5, 3⟩ } : Cursor).Vertical ⟨1 + 1, 2 + 1⟩ ∧
    (({ pt := ⟨5, 3⟩ } : Cursor).to ⟨2, 3⟩).bind (·.2.append) = some (text [.back (some 3)]) :=
  ⟨⟨80, 24, false, fun _ _ => blank, 4, 2, false, {}, true⟩, by decide, by decide,
    ⟨⟨by decide, by decide⟩, rfl, rfl⟩, by decide, by decide +kernel⟩

/-- Negation for **C31**: every straight vertical move emits nothing at all, yet the
cursor is recorded as having moved, so it no longer agrees with the terminal. -/
theorem cursor_to_vertical_lost (t : Term) (c : Cursor) (x y : Nat)
    (h : t.At c.pt) (hv : c.Vertical ⟨x + 1, y + 1⟩) :
    ∃ c' s, c.to ⟨x + 1, y + 1⟩ = some (c', s) ∧ s.append = some [] ∧
      c'.pt = ⟨x + 1, y + 1⟩ ∧ ¬ t.At c'.pt := by
  have hs := stay_text c ⟨x + 1, y + 1⟩ (near_valid (Or.inl h)) (by
    intro hh; exact hv.2.2 ⟨hh.2, hh.1⟩) hv.1
  refine ⟨_, _, hs, rfl, rfl, fun h' => ?_⟩
  have e1 : c.pt.y = t.y + 1 := by rw [h.2.2]
  have e2 : (y : Int) + 1 = t.y + 1 := congrArg Pt.y h'.2.2
  exact hv.2.1 (by dsimp only; omega)

example : ({ pt := ⟨5, 3⟩ } : Cursor).Vertical ⟨4 + 1, 9 + 1⟩ := by decide

/-- Negation for **C31** with text in between: after the last column was written the
tracked column is one past the margin while the terminal's cursor is still on it, so a
move back in the same row lands one column short (unless it is to the first column). -/
theorem cursor_to_past_margin_short (t : Term) (c : Cursor) (x : Nat) (hx0 : 0 < x) (hx : x < t.w)
    (h : t.Past c.pt) :
    ∃ c' s ops, c.to ⟨x + 1, t.y + 1⟩ = some (c', s) ∧ s.append = some (text ops) ∧
      c'.pt = ⟨x + 1, t.y + 1⟩ ∧ (t.run ops).x = x - 1 ∧ (t.run ops).y = t.y := by
  obtain ⟨hok, hp, hw, e⟩ := h
  have hlt : (x : Int) + 1 < c.pt.x := by rw [e]; dsimp only; omega
  have hey : c.pt.y = t.y + 1 := by rw [e]
  obtain ⟨s, k, e1, e2, e3⟩ := back_text c (c.pt.x - (x + 1)).toNat (by omega) ⟨x + 1, t.y + 1⟩
    (by dsimp only; omega) hey.symm (near_valid (Or.inr ⟨hok, hp, hw, e⟩))
  refine ⟨_, s, [.back k], e1, by rw [e2, text_one], rfl, ?_, rfl⟩
  have : (t.run [.back k]).x = t.x - count k := rfl
  rw [this, e3, e]; dsimp only; omega

example : (⟨80, 24, false, fun _ _ => blank, 79, 2, true, {}, true⟩ : Term).Past ⟨81, 3⟩ :=
  ⟨⟨by decide, by decide⟩, rfl, by decide, rfl⟩

end Anansi
