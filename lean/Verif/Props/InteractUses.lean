/-
Uses of the theorems about what `interact` shows: in each, all hypotheses of the theorem are met at once, by a command after its first
frame and any terminal of the size it was drawn for.
-/
import Verif.Props.InteractOverEdit
import Verif.Props.InteractAsideEnd

set_option autoImplicit false

namespace Anansi

open Vt Geom Render

namespace Direct
open Anansi.Spec

theorem printG : ∀ r, 0x20 ≤ r → r < 0x7F → Printable Itr.grX r := by
  intro r h1 h2
  refine ⟨h1, .inl h2, .inl (by omega), ?_, by simp [Itr.grX, h1, h2]⟩
  unfold isEscape; simp; omega

/-- Rows of plain text. -/
def plainRows (rows : List String) (a b : Nat) : Glyph :=
  (((rows.getD b "").toList.map Char.toNat).map fun r => (⟨r, {}⟩ : Glyph)).getD a blank

/-- An area has rows of plain text, as far as can be checked cell by cell. -/
theorem filled_rows {gr : Nat → Bool} (hgr : ∀ r, 0x20 ≤ r → r < 0x7F → Printable gr r) {out : VScreen} {w n : Nat} {rows : List String}
    (h : ∀ a < w, ∀ b < n, (out.sc.look w a b).map (fun c => (ink c)) = some ((plainRows rows a b).rune, 0) ∧
      (plainRows rows a b).style = {} ∧ 0x20 ≤ (plainRows rows a b).rune ∧ (plainRows rows a b).rune < 0x7F) :
    Filled gr out w n (plainRows rows) := by
  intro a b ha hb
  obtain ⟨h1, h2, h3, h4⟩ := h a ha b hb
  rw [Option.map_eq_some_iff] at h1
  obtain ⟨c, c1, c2⟩ := h1
  refine ⟨c, c1, ?_, hgr _ h3 h4⟩
  rw [c2]
  unfold Inked
  rw [h2]
  exact ⟨rfl, rfl, show (0 : Attr) = Sgr.Style.build {} by decide⟩

theorem filledX : Filled Itr.grX Itr.fX.out 12 3 (plainRows ["Define varia", "bles to run"]) := filled_rows printG (by decide +kernel)
theorem filledE : Filled Itr.grX fE.out 12 3 (plainRows ["Define varia", "bles to run"]) := filled_rows printG (by decide +kernel)
theorem filledA : Filled Itr.grX fA.out 14 3 (plainRows ["Define variabl", "es to run"]) := filled_rows printG (by decide +kernel)
theorem filledL : Filled Hud.gr0 fL.out 40 3 (plainRows ["status: ok", "ls"]) := filled_rows printL (by decide +kernel)

theorem plain_items {ts : List Itr.Spec.Item} {gr : Nat → Bool} (hgr : ∀ r, 0x20 ≤ r → r < 0x7F → Printable gr r)
    (h : ∀ t ∈ ts, (∀ r ∈ t.text, 0x20 ≤ r ∧ r < 0x7F) ∧ ∀ r ∈ t.val, 0x20 ≤ r ∧ r < 0x7F) :
    ∀ t ∈ ts, (∀ r ∈ t.text, Printable gr r) ∧ ∀ r ∈ t.val, Printable gr r :=
  fun t ht => ⟨fun r hr => hgr r ((h t ht).1 r hr).1 ((h t ht).1 r hr).2, fun r hr => hgr r ((h t ht).2 r hr).1 ((h t ht).2 r hr).2⟩

/-- `interact_shown`, for `interact rm '$x' y`: the words and the prompt come to be shown. -/
example {d : Differ} {t : Term} {old : Option Screen} {a : Pt} (Y : Synced d t old a) (hw : t.w = 12) (hh : t.h = 5) :
    ∃ (o : Itr.Out Unit) (d1 : Differ), itrFrame Itr.grX Itr.worldX none Itr.fX [] d none none = .ok (o, d1) ∧
      (Smooth t.w a (Spec.cells t.w t.h old d1.v.sc) → (old = none → t.bce = true → t.style.bg = none) →
        ∃ d' ops, d1.writeTo Itr.grX .ok = .ok (d', text ops, none) ∧
          Spec.Interact Itr.tsX (plainRows ["Define varia", "bles to run"]) (t.run ops) ∧ (t.run ops).vis = false) := by
  obtain ⟨o, d1, h1, -, h3⟩ := interact_shown (ε := Unit) (cmd := Itr.cmdX) (ts := Itr.tsX) (gr := Itr.grX) (printG _ (by omega) (by omega))
    (printG _ (by omega) (by omega)) Y false t.cell t.x t.y t.pend rfl (fun _ => rfl) Itr.worldX none Itr.fX (by rw [hw]; exact Itr.setupX)
    (plain_items printG (by decide)) [] (show 2 ≤ t.h by omega) (by decide +kernel) (by simp) (by intro i _; rfl) (by rw [hw, hh]; decide +kernel)
    (by rw [hw, hh]; exact ⟨by decide +kernel, by decide +kernel, by decide +kernel⟩) _ (by rw [hw, hh]; exact filledX) (by decide)
  refine ⟨o, d1, h1, fun k1 k2 => ?_⟩
  obtain ⟨d', ops, g1, -, -, g4, g5, -⟩ := h3 k1 k2
  exact ⟨d', ops, g1, g4, g5⟩

theorem pressesE {ts : List Itr.Spec.Item} (h : Geom.Mem (Itr.clickX 5 1).pt (Itr.Spec.place 0 ts 1)) :
    ∀ e ∈ keysE, Itr.Spec.press e → Geom.Mem e.pt (Itr.Spec.place 0 ts 1) := by
  intro e he hp
  simp only [keysE, List.mem_cons, List.not_mem_nil, or_false] at he
  rcases he with rfl | rfl
  · exact h
  · exact absurd hp.1 (by decide)

/-- `interact_edit_shown`, for a press on the last word, a variable, and "a" typed. -/
example {d : Differ} {t : Term} {old : Option Screen} {a : Pt} (Y : Synced d t old a) (hw : t.w = 12) (hh : t.h = 5) :
    ∃ (o : Itr.Out Unit) (d1 : Differ), itrFrame Itr.grX Itr.worldX none fE keysE d none none = .ok (o, d1) ∧ o.f.s.edid = 2 ∧
      (Spec.Easy t old a d1.v.sc d1.user → ∃ d' ops, d1.writeTo Itr.grX .ok = .ok (d', text ops, none) ∧
        Spec.Editing tsE 1 3 ⟨[0x61], 1⟩ (plainRows ["Define varia", "bles to run"]) (t.run ops)) := by
  obtain ⟨o, d1, h1, ⟨m, h2⟩, h3⟩ := interact_edit_shown (ε := Unit) (cmd := cmdE) (ts := tsE) (gr := Itr.grX) (printG _ (by omega) (by omega))
    (printG _ (by omega) (by omega)) (by decide) Y false t.cell t.x t.y t.pend rfl (fun _ => rfl) Itr.worldX none fE (by rw [hw]; exact setupE)
    (plain_items printG (by decide)) keysE (show 2 ≤ t.h by omega) 1 (by decide) rfl rfl (by decide)
    (pressesE (by unfold Geom.Mem; decide +kernel))
    (.inl ⟨by decide +kernel, by decide +kernel⟩) (lineE keysE) rfl (by decide +kernel)
    ⟨[0x61], 1⟩ ⟨by decide +kernel, by decide, by decide +kernel, Nat.le_refl 1⟩ (by decide)
    (by intro r hr; simp only [List.mem_singleton] at hr; exact printG r (by omega) (by omega))
    (by decide +kernel) (by decide) (by decide) (by rw [hw, hh]; decide +kernel)
    (by rw [hw, hh]; exact ⟨by decide +kernel, by decide +kernel, by decide +kernel⟩) _ (by rw [hw, hh]; exact filledE)
  refine ⟨o, d1, h1, by rw [h2], fun k => ?_⟩
  obtain ⟨d', ops, g1, -, -, g4, -⟩ := h3 k
  exact ⟨d', ops, g1, g4⟩

/-- `interact_aside_shown`, for a press on a variable before the last word and "a" typed. -/
example {d : Differ} {t : Term} {old : Option Screen} {a : Pt} (Y : Synced d t old a) (hw : t.w = 14) (hh : t.h = 5) :
    ∃ (o : Itr.Out Unit) (d1 : Differ), itrFrame Itr.grX Itr.worldX none fA keysE d none none = .ok (o, d1) ∧ o.f.s.edid = 2 ∧
      (Spec.Easy t old a d1.v.sc d1.user → ∃ d' ops, d1.writeTo Itr.grX .ok = .ok (d', text ops, none) ∧
        Spec.Aside tsA 1 3 ⟨[0x61], 1⟩ (plainRows ["Define variabl", "es to run"]) (t.run ops)) := by
  obtain ⟨o, d1, h1, ⟨m, h2⟩, h3⟩ := interact_aside_shown (ε := Unit) (cmd := cmdA) (ts := tsA) (gr := Itr.grX) (printG _ (by omega) (by omega))
    (printG _ (by omega) (by omega)) (by decide) Y false t.cell t.x t.y t.pend rfl (fun _ => rfl) Itr.worldX none fA (by rw [hw]; exact setupA)
    (by rw [hw]; decide +kernel)
    (plain_items printG (by decide)) keysE (show 2 ≤ t.h by omega) 1 (by decide) (by decide) rfl rfl (by decide)
    (pressesE (by unfold Geom.Mem; decide +kernel))
    (.inl ⟨by decide +kernel, by decide +kernel⟩) (lineA keysE) rfl (by decide +kernel)
    ⟨[0x61], 1⟩ ⟨by decide +kernel, by decide, by decide +kernel, Nat.le_refl 1⟩ (by decide)
    (by intro r hr; simp only [List.mem_singleton] at hr; exact printG r (by omega) (by omega))
    (by decide +kernel) (by decide) (by decide) (by rw [hw, hh]; decide +kernel)
    (by rw [hw, hh]; exact ⟨by decide +kernel, by decide +kernel, by decide +kernel⟩) _ (by rw [hw, hh]; exact filledA)
  refine ⟨o, d1, h1, by rw [h2], fun k => ?_⟩
  obtain ⟨d', ops, g1, -, -, g4, -⟩ := h3 k
  exact ⟨d', ops, g1, g4⟩

/-- `interact_over_shown`, for `interact ls` under the overlay: in the second row, where the overlay has nothing, is the "l"; the cursor is hidden. -/
example {d : Differ} {t : Term} {old : Option Screen} {a : Pt} (Y : Synced d t old a) (hw : t.w = 40) (hh : t.h = 6) :
    ∃ (v : VScreen) (o : Itr.Out Unit), fL.update Hud.gr0 Itr.worldX none true [] v = .ok o ∧ o.f = fL ∧ ∃ hud' d1 es',
      hudFrame (envL fL true) Hud.hud0 [] d none none {} = .ok (hud', es', d1, none) ∧ hud'.visible = true ∧
      (Spec.Easy t old a d1.v.sc {} → ∃ d' ops, d1.writeTo Hud.gr0 .ok = .ok (d', text ops, none) ∧ (t.run ops).vis = false ∧
        (∃ ov, (t.run ops).cell 0 1 = Spec.seenOver ov {} ((Spec.words 0 tsL).getD 0 blank))) := by
  obtain ⟨v, o, start, e, hud', d1, es1, h1, h2, h3, -, -, h6, h7⟩ := interact_over_shown (ε := Unit) (cmd := [ascii "ls"]) (ts := tsL) (envL fL true) printL
    ⟨by decide, by decide, by decide, by decide, by decide⟩ Y false t.cell t.x t.y t.pend rfl (fun _ => rfl) Itr.worldX none fL
    (by rw [hw]; exact setupL) (by decide) (plain_items printL (by decide)) Hud.hud0 [] (show 3 ≤ t.h by omega) (by decide +kernel) (by simp)
    (by intro i _; rfl) (by rw [hw, hh]; decide +kernel)
    (by rw [hw, hh]; exact ⟨by decide +kernel, by decide +kernel, by decide +kernel⟩) _ (by rw [hw, hh]; exact filledL) (fun _ => none)
    (by
      intro v o h
      show (match (fL.update Hud.gr0 Itr.worldX none true (Hud.Spec.shown []) v : Except Fault (Itr.Out Unit)) with
          | .ok o => (o.c.es, o.c.v, none)
          | .error _ => (_, v, none)) = _
      have h' : fL.update Hud.gr0 Itr.worldX none true (Hud.Spec.shown []) v = .ok o := h
      rw [h'])
    (by decide +kernel) texts1 (by decide +kernel)
    (by
      intro t ht
      refine ⟨fun h => by subst h; revert ht; decide, fun r hr => ?_⟩
      have : ∀ t ∈ texts1, ∀ r ∈ t, 0x20 ≤ r ∧ r < 0x7F := by decide
      exact printL r (this t ht r hr).1 (this t ht r hr).2)
    (by rw [hw]; decide) (by rw [hw]; decide +kernel) rfl (by unfold Lgv.View.Good Lgv.View.Within; decide +kernel) [[0x68, 0x69]] (by decide +kernel)
    (by
      intro t ht r hr
      simp only [List.mem_singleton] at ht
      subst ht
      simp only [List.mem_cons, List.not_mem_nil, or_false] at hr
      exact printL r (by omega) (by omega))
    (by decide) (by rw [hh]; decide)
    (by
      intro a b ha hb
      rw [hw]
      have : ∀ a ≤ 1, ∀ b ≤ 1, (Hud.Spec.title a b 1).length < 40 := by decide +kernel
      exact this a ha b hb)
  refine ⟨v, o, h1, h2, hud', d1, _, h3, h6.1, fun Z => ?_⟩
  obtain ⟨d', ops, k1, -, -, k4, k5, -⟩ := h7 Z
  exact ⟨d', ops, k1, k5, _, k4 0 1 (show 0 < t.w by omega) (show 1 < t.h by omega)⟩

end Direct
end Anansi
