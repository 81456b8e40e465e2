import Verif.Props.HudPanels
/-
C123, the list of profiles in the profiling panel.
-/
set_option autoImplicit false

namespace Anansi.Hud
open Geom Evq Screen

/-- Presses that are in none of the boxes stay. -/
theorem without_same {bs : List Rect} {es : Events} (h : ∀ e ∈ es, ∀ b ∈ bs, pressIn b 1 e = false) : Spec.without bs es = es := by
  unfold Spec.without
  apply strike_none
  intro e he
  rw [List.any_eq_false]
  intro b hb
  rw [h e he b hb]
  decide

/-- No press is an even number. -/
theorem odd_none {b : Rect} {es : Events} (h : ∀ e ∈ es, pressIn b 1 e = false) : Spec.odd b es = false := by
  unfold Spec.odd
  rw [List.countP_eq_zero.2 (fun e he => by rw [h e he]; decide)]
  decide

/-- **C123**, adding a profile: with the list of profiles open, a left press on a row of the list, the only left press
there is, adds the profile shown on that row to those of the program, closes the list and does nothing else: the panel
stays open, no profiler is started or stopped, and all other events are left as they were. -/
theorem profile_added_partial (gr : Nat → Bool) (hgr : ∀ r, 0x20 ≤ r → r < 0x7F → Screen.Printable gr r) (hel : Screen.Printable gr 0x2026)
    (hsign : ∀ r ∈ Spec.runes "⊙◴◷◶◵", Screen.Printable gr r) {w h c y : Nat} (s : St) (R : Ready s.v w h c y) (dw : Nat) (hdw : 5 ≤ dw)
    (hw : 21 + dw ≤ w) (gray : Attr) (t : Theme) (sep : List Nat) (hs : ∀ r ∈ sep, Screen.Printable gr r) (hl : sep.length = dw)
    (ns : Nat) (hns : ns < 1000000000) (xs : List Spec.ProfRow) (F : ∀ x ∈ xs, x.Fits gr w dw) (all have_ : List Bytes)
    (l : List (List Nat)) (ho : offered all have_ = l.map encodeRunes) (hn : ∀ n ∈ l, n.length < dw ∧ ∀ r ∈ n, Screen.Printable gr r)
    (hh : y + 1 + xs.length + l.length < h) (ha : s.ui.active = s.uicur + xs.length + 1)
    (es1 es2 : Events) (e : Ev) (hes : s.es = es1 ++ e :: es2) (h1 : ∀ e ∈ es1 ++ es2, ¬ Spec.leftPress e)
    (he : Spec.leftPress e) (k a : Nat) (hk : k < l.length) (hac : w - dw ≤ a ∧ a < w) (hat : Spec.atCell e a (y + 1 + xs.length + k)) :
    ∃ v', profDetail gr dw (encodeRunes sep) gray t ns (xs.map (·.p)) all have_ s =
        .ok { detail := true, calls := xs.map fun _ => none, have_ := have_ ++ [encodeRunes l[k]]
              s := { s with uicur := s.uicur + xs.length + 1, ui := { s.ui with active := 0 }, v := v', es := es1 ++ e.struck :: es2 } } ∧
      encodeRunes l[k] ∉ have_ ∧
      ∀ x, x < (l[k]).length → ∃ st, v'.sc.look w (w - dw + x) (y + 1 + xs.length + k) = some ⟨(l[k]).getD x 0, st⟩ := by
  have hsp : Screen.Printable gr 0x20 := hgr _ (by omega) (by omega)
  have t1 : ascii "# Profiling Control:" = encodeRunes (Spec.runes "# Profiling Control:") := by decide +kernel
  have p1 := ascii_printable hgr "# Profiling Control:" (by decide)
  have l1 : (Spec.runes "# Profiling Control:").length = 20 := by decide
  obtain ⟨v1, e1, A1⟩ := head_after gr hsp s.v R dw (by omega) t sep (Spec.runes "# Profiling Control:") hs hl p1 (by omega)
  rw [l1] at e1
  -- the press is in none of the boxes above the list
  have hno : ∀ b : Rect, (b.max.y ≤ y + 1 + xs.length + 1) → ∀ e' ∈ s.es, pressIn b 1 e' = false := by
    intro b hb e' he'
    rw [Bool.eq_false_iff]
    intro hp
    rw [hes] at he'
    have hL := pressIn_left hp
    have : e' = e := by
      by_contra hne
      simp only [List.mem_append, List.mem_cons] at he'
      exact h1 e' (by simp only [List.mem_append]; tauto) hL
    subst this
    unfold pressIn at hp
    simp only [Bool.and_eq_true] at hp
    have hp2 := (ptIn_iff _ _).1 hp.2
    rw [hat] at hp2
    unfold Geom.Mem at hp2
    simp only at hp2
    omega
  have hbar := hno (Spec.bar w dw 20 y) (by show ((y : Int) + 1 + 1) ≤ _; omega)
  have hrow : ∀ i, i < xs.length → (∀ e' ∈ s.es, pressIn (Spec.place w dw (y + 1 + i)) 1 e' = false) ∧
      (∀ e' ∈ s.es, pressIn (Spec.spot w dw (y + 1 + i)) 1 e' = false) := by
    intro i hi
    exact ⟨hno _ (by show (((y + 1 + i : Nat) : Int) + 1 + 1) ≤ _; omega), hno _ (by show (((y + 1 + i : Nat) : Int) + 1 + 1) ≤ _; omega)⟩
  have w1 : Spec.without [Spec.bar w dw 20 y] s.es = s.es :=
    without_same fun e' he' b hb => by rw [List.mem_singleton.1 hb]; exact hbar e' he'
  have w2 : Spec.without (Spec.rowBoxes w dw (y + 1) xs.length) s.es = s.es :=
    without_same fun e' he' b hb => by
      obtain ⟨i, hi, rfl | rfl⟩ := rowBoxes_mem w dw _ _ b hb
      · exact (hrow i hi).1 e' he'
      · exact (hrow i hi).2 e' he'
  have hc' : ¬ (s.es.countP (pressIn (Spec.bar w dw 20 y) 1) % 2 = 1) := by
    have := odd_none hbar
    unfold Spec.odd at this
    simpa using this
  unfold profDetail
  rw [t1, e1]
  simp only [Except.bind, countPressesIn_exact, Nat.zero_add, without_one]
  rw [if_neg hc', w1]
  have R1 : Ready v1 w h (w - 1) (y + 1) := A1.ready.at (by simp; omega)
  obtain ⟨v2, e2, A2⟩ := prof_rows gr hgr hel hsign dw hdw (by omega) gray t ns hns xs F (y + 1)
    { s with v := v1 } R1 (by omega) (fun i hi => by show s.ui.active ≠ s.uicur + 1 + i; omega) (fun i hi => odd_none (hrow i hi).1)
  have R2 : Ready v2 w h (w - 1) (y + 1 + xs.length) := A2.ready.at (by simp; omega)
  have e2' := e2
  rw [show ({ s with v := v1 } : St).es = s.es from rfl, w2] at e2'
  obtain ⟨v3, e3, g1, g2⟩ := picks_shown_partial gr hsp (ascii_printable hgr "PProf" (by decide)) dw (by omega) t all
    ⟨s.ui.active, have_, s.es, v2⟩ R2 l ho hn (by omega) es1 es2 e hes h1 he k a hk hac hat
  refine ⟨v3, ?_, g1, g2⟩
  rw [e2']
  simp only at e3 ⊢
  rw [← ha, e3]
  simp only
  have hm : (xs.mapIdx fun i x => Spec.profCall w dw (y + 1 + i) s.es x) = xs.map fun _ => none := by
    apply List.ext_getElem
    · simp
    · intro i hi _
      rw [List.length_mapIdx] at hi
      simp only [List.getElem_mapIdx, List.getElem_map]
      unfold Spec.profCall
      rw [odd_none (hrow i hi).2]
      rfl
  rw [hm]

/-- A press on the second row of the list adds the second profile. -/
example : ((profDetail gr0 16 (encodeRunes (List.replicate 16 0x2D)) 0 {} 0 [] [ascii "heap", ascii "block"] []
    { v := tall, es := [clickAt 25 4], ui := { active := 1 } }).toOption.map fun r => (r.detail, r.have_, r.s.ui.active)) =
    some (true, [ascii "block"], 0) := by
  decide +kernel

end Anansi.Hud
