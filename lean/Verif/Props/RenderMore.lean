import Verif.Props.Render
import Verif.Props.Screen
/-
C32: satisfiable hypotheses and negations.  C33: recording.
-/
set_option autoImplicit false

namespace Anansi
open Vt Geom Render

/-! ### C32: the hypotheses can be met -/

/-- A two by two screen showing the given cells. -/
def demo (cells : List Cell) : Screen := { grid := { rect := ⟨⟨1, 1⟩, ⟨3, 3⟩⟩, stride := 2, len := 4, cells } }

theorem demo_whole (cells : List Cell) (h : cells.length = 4) : (demo cells).Whole 2 2 :=
  ⟨by decide, by decide, rfl, rfl, rfl, by rw [demo]; simp [h]⟩

theorem ascii_printable (r : Nat) (h : 0x20 ≤ r ∧ r < 0x7F) : Printable Screen.ascii r :=
  ⟨h.1, Or.inl h.2, Or.inl (by omega), by
    obtain ⟨h1, h2⟩ := h
    interval_cases r <;> decide, by
    obtain ⟨h1, h2⟩ := h
    interval_cases r <;> decide⟩

/-- The bold red style and its attribute. -/
def boldRed : Sgr.Style := { bold := true, fg := some (.indexed 1) }

/-- `a` bold red, `b`, nothing, `c`. -/
def demo1 : Screen := demo [⟨97, boldRed.build⟩, ⟨98, 0⟩, {}, ⟨99, 0⟩]
/-- `a` bold red, nothing, `d`, `c`. -/
def demo2 : Screen := demo [⟨97, boldRed.build⟩, {}, ⟨100, 0⟩, ⟨99, 0⟩]

theorem demo_drawable : (∀ c ∈ demo1.grid.data, Drawable Screen.ascii c) ∧
    (∀ c ∈ demo2.grid.data, Drawable Screen.ascii c) := by
  have z : ∃ s : Sgr.Style, s.clear = false ∧ (0 : Attr) = s.build := ⟨{}, rfl, by decide⟩
  constructor <;> intro c hc <;> simp only [Grid.data, demo1, demo2, demo, List.take_succ_cons, List.take_zero,
    List.mem_cons, List.not_mem_nil, or_false] at hc <;> rcases hc with rfl | rfl | rfl | rfl
  · exact ⟨Or.inr (ascii_printable _ (by decide)), boldRed, rfl, rfl⟩
  · exact ⟨Or.inr (ascii_printable _ (by decide)), z⟩
  · exact ⟨Or.inl rfl, z⟩
  · exact ⟨Or.inr (ascii_printable _ (by decide)), z⟩
  · exact ⟨Or.inr (ascii_printable _ (by decide)), boldRed, rfl, rfl⟩
  · exact ⟨Or.inl rfl, z⟩
  · exact ⟨Or.inr (ascii_printable _ (by decide)), z⟩
  · exact ⟨Or.inr (ascii_printable _ (by decide)), z⟩

/-- A fresh cursor agrees with every terminal. -/
theorem agree_fresh (t : Term) : Agree {} t :=
  ⟨fun h => by simp [valid] at h, fun h => by simp at h, fun h => by simp at h⟩

/-- A full redraw from a fresh start is covered by `update_shows_partial`. -/
example (t : Term) (h : t.bce = false) : Ready t demo1 {} 2 2 [] :=
  .full (0, 0) ⟨by decide, by decide, by decide, Or.inr rfl, by decide⟩ (fun _ => rfl) (by decide)
    (fun hb => by simp [h] at hb) (by decide +kernel)

/-- A differential update that writes two cells is covered too. -/
example (t : Term) (hw : t.w = 2) (hh : t.h = 2)
    (hc : t.cell = fun x y => if x = 0 ∧ y = 0 then ⟨97, boldRed⟩ else if x = 1 ∧ y = 0 then ⟨98, {}⟩
      else if x = 1 then ⟨99, {}⟩ else blank) : Ready t demo2 demo1 2 2 [] := by
  refine .diff (demo_whole _ rfl) ⟨hw, hh, fun x y hx hy => ?_⟩ (by decide +kernel)
  have hx' : x = 0 ∨ x = 1 := by omega
  have hy' : y = 0 ∨ y = 1 := by omega
  rw [hc]
  rcases hx' with rfl | rfl <;> rcases hy' with rfl | rfl
  · exact ⟨_, rfl, rfl, rfl, rfl⟩
  · exact ⟨{}, rfl, rfl, rfl, by show (0 : Attr) = Sgr.Style.build {}; decide⟩
  · exact ⟨⟨98, 0⟩, rfl, rfl, rfl, by show (0 : Attr) = Sgr.Style.build {}; decide⟩
  · exact ⟨⟨99, 0⟩, rfl, rfl, rfl, by show (0 : Attr) = Sgr.Style.build {}; decide⟩

/-! ### C32: negations -/

/-- Negation for **C32**: on a fresh start, a two by two screen with `a` in the first
column of the first row and `b` in the second column of the second row is displayed
with `b` in the first row, because the move straight down emits nothing. -/
theorem update_wrong_cell (t : Term) (hw : t.w = 2) (hh : t.h = 2) :
    let sc := demo [⟨97, 0⟩, {}, {}, ⟨98, 0⟩]
    ∃ prior' ops, sc.update Screen.ascii {} = some (prior', text ops) ∧
      ((t.run ops).cell 1 0).rune = 98 ∧ ¬ Shows (t.run ops) sc 2 2 := by
  have hu : ((demo [⟨97, 0⟩, {}, {}, ⟨98, 0⟩]).update Screen.ascii {}).map (·.2) =
      some (text [.hide, .eraseAll, .cup 1 1, .sgr [0], .put 97, .put 98]) := by decide +kernel
  obtain ⟨p, hp, hb⟩ := Option.map_eq_some_iff.mp hu
  have h1 : ((t.run [.hide, .eraseAll, .cup 1 1, .sgr [0], .put 97, .put 98]).cell 1 0).rune = 98 := by
    simp [Term.run, Term.step, hw]
  have h2 : ((t.run [.hide, .eraseAll, .cup 1 1, .sgr [0], .put 97, .put 98]).cell 1 1).rune = 32 := by
    simp only [Term.run, Term.step, hw, hh, List.foldl_cons, List.foldl_nil, Term.erased]
    simp only [Bool.false_eq_true, if_false, Nat.min_def]
    cases t.bce <;> simp [blank]
  refine ⟨p.1, _, by rw [hp, ← hb], h1, fun S => ?_⟩
  obtain ⟨c, hc, hi⟩ := S.2.2 1 1 (by decide) (by decide)
  have : c = ⟨98, 0⟩ := by
    have : (some ⟨98, 0⟩ : Option Cell) = some c := hc
    exact (Option.some.inj this).symm
  have := hi.1
  rw [h2] at this; subst c; simp [ink] at this

/-- A one-row screen of two cells. -/
def strip (a b : Nat) : Screen :=
  { grid := { rect := ⟨⟨1, 1⟩, ⟨3, 2⟩⟩, stride := 2, len := 2, cells := [⟨a, 0⟩, ⟨b, 0⟩] } }

/-- Negation for **C32**: from a fresh start the three frames `xy`, `xw`, `xz` leave the
terminal showing `zw`: once a frame ended by writing the last column, the next one
misses its column by one in that row. -/
theorem update_wrong_margin (t : Term) (hw : t.w = 2) (hh : t.h = 1) :
    ∃ p1 p2 p3 o1 o2 o3, (strip 120 121).update Screen.ascii {} = some (p1, text o1) ∧
      (strip 120 119).update Screen.ascii p1 = some (p2, text o2) ∧
      (strip 120 122).update Screen.ascii p2 = some (p3, text o3) ∧
      ((t.run (o1 ++ o2 ++ o3)).cell 0 0).rune = 122 ∧
      ((t.run (o1 ++ o2 ++ o3)).cell 1 0).rune = 119 := by
  have hu1 : ((strip 120 121).update Screen.ascii {}) =
      some ({ strip 120 121 with cur := { attrKnown := true, visKnown := true } },
        text [.hide, .eraseAll, .cup 1 1, .sgr [0], .put 120, .put 121]) := by decide +kernel
  have hu2 : ((strip 120 119).update Screen.ascii
      { strip 120 121 with cur := { attrKnown := true, visKnown := true } }) =
      some ({ strip 120 119 with cur := { pt := ⟨3, 1⟩, attrKnown := true, visKnown := true } },
        text [.cup 1 2, .put 119]) := by decide +kernel
  have hu3 : ((strip 120 122).update Screen.ascii
      { strip 120 119 with cur := { pt := ⟨3, 1⟩, attrKnown := true, visKnown := true } }) =
      some ({ strip 120 122 with cur := { pt := ⟨3, 1⟩, attrKnown := true, visKnown := true } },
        text [.back none, .put 122]) := by decide +kernel
  refine ⟨_, _, _, _, _, _, hu1, hu2, hu3, ?_, ?_⟩ <;>
    simp [Term.run, Term.step, hw, hh, count]

/-- Negation for **C32**: on a terminal that erases with the current background colour,
a full redraw (after a resize, say) while a background colour is in force leaves that
colour in cells that hold nothing, because the attributes are not reset before erasing. -/
theorem update_wrong_background (t : Term) (hw : t.w = 2) (hh : t.h = 1) (hb : t.bce = true)
    (hs : t.style = { bg := some (.indexed 4) }) (hv : t.vis = false) :
    let blue : Sgr.Style := { bg := some (.indexed 4) }
    let prior : Screen := { cur := { attr := blue.build, attrKnown := true, visKnown := true } }
    let sc := strip 97 0
    Agree prior.cur t ∧ ∃ prior' ops, sc.update Screen.ascii prior = some (prior', text ops) ∧
      ((t.run ops).cell 1 0).style.bg = some (.indexed 4) ∧ ¬ Shows (t.run ops) sc 2 1 := by
  intro blue prior sc
  refine ⟨⟨fun h => by simp [prior, valid] at h, fun _ => ⟨by rw [hs], by rw [hs]⟩, fun _ => hv⟩, ?_⟩
  have hu : ((strip 97 0).update Screen.ascii prior).map (·.2) =
      some (text [.eraseAll, .cup 1 1, .sgr [0], .put 97]) := by decide +kernel
  obtain ⟨p, hp, hb'⟩ := Option.map_eq_some_iff.mp hu
  have h1 : (t.run [.eraseAll, .cup 1 1, .sgr [0], .put 97]).cell 1 0 = ⟨0x20, blue⟩ := by
    simp [Term.run, Term.step, Term.erased, hw, hh, hb, hs, blue]
  refine ⟨p.1, _, by rw [← hb']; exact hp, by rw [h1], fun S => ?_⟩
  obtain ⟨c, hc, hi⟩ := S.2.2 1 0 (by decide) (by decide)
  have : c = ⟨0, 0⟩ := by
    have : (some ⟨0, 0⟩ : Option Cell) = some c := hc
    exact (Option.some.inj this).symm
  have := hi.2.2
  rw [h1] at this; subst c
  exact absurd this (by decide)

/-- Negation for **C32** about the final cursor: from a fresh start, drawing one `a` in
the first cell and asking for a visible cursor straight below the place after it leaves
the terminal's cursor in the first row, while the recorded one is in the second. -/
theorem update_wrong_cursor (t : Term) (hw : t.w = 2) (hh : t.h = 2) :
    let sc : Screen := { demo [⟨97, 0⟩, {}, {}, {}] with cur := { pt := ⟨2, 2⟩, visible := true } }
    ∃ prior' ops, sc.update Screen.ascii {} = some (prior', text ops) ∧ prior'.cur.pt = ⟨2, 2⟩ ∧
      (t.run ops).At ⟨2, 1⟩ ∧ ¬ Agree prior'.cur (t.run ops) := by
  have hu : ({ demo [⟨97, 0⟩, {}, {}, {}] with cur := { pt := ⟨2, 2⟩, visible := true } } : Screen).update
      Screen.ascii {} = some ({ demo [⟨97, 0⟩, {}, {}, {}] with
        cur := { pt := ⟨2, 2⟩, attrKnown := true, visible := true, visKnown := true } },
      text [.hide, .eraseAll, .cup 1 1, .sgr [0], .put 97, .show_]) := by decide +kernel
  have hat : (t.run [.hide, .eraseAll, .cup 1 1, .sgr [0], .put 97, .show_]).At ⟨2, 1⟩ := by
    refine ⟨⟨?_, ?_⟩, ?_, ?_⟩ <;> simp [Term.run, Term.step, hw, hh]
  refine ⟨_, _, hu, rfl, hat, fun A => ?_⟩
  have hy : (t.run [.hide, .eraseAll, .cup 1 1, .sgr [0], .put 97, .show_]).y = 0 := by
    simp [Term.run, Term.step, hw, hh]
  rcases A.pos (by decide) with h | h
  · have := congrArg Pt.y h.2.2
    rw [hy] at this; simp at this
  · have := congrArg Pt.y h.2.2.2
    rw [hy] at this; simp at this

end Anansi
