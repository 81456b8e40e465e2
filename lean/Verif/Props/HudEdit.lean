import Verif.Model.HudEdit
import Verif.Props.EditLine
import Verif.Props.Events
import Mathlib.Tactic.SplitIfs
/-
C93 What is typed into the overlay goes to the control that was clicked.
-/
set_option autoImplicit false

namespace Anansi.Hud
open Geom Evq Edl

/-! ### Vocabulary -/

namespace Spec

/-- A press of any button. -/
def isPress (e : Ev) : Prop := e.kind = .mouse ∧ ∃ b, Mouse.isPress e.ms = some b

/-- Two boxes share no cell. -/
def Apart (a b : Rect) : Prop := ∀ p, ¬ (Geom.Mem p a ∧ Geom.Mem p b)

/-- Enter or Escape. -/
def ends (e : Ev) : Prop := e.kind = .rune ∧ (e.esc = 0x0D ∨ e.esc = 0x1B)

/-- The file that is asked for with a text and a default name: by the text, or if there is none
by the default name, or if there is none either, no file. -/
def chosen (name : Bytes) (dflt : Option Bytes) (text : List Nat) : List (Bytes × Bytes) :=
  if text ≠ [] then [(name, encodeRunes text)]
  else match dflt with
    | some (b :: d) => [(name, b :: d)]
    | _ => []

end Spec
open Spec (isPress Apart)

/-- The number of controls with an id. -/
def nfiles : List Ctl → Nat
  | [] => 0
  | .file _ _ :: cs => nfiles cs + 1
  | .press _ :: cs => nfiles cs

theorem strike_none (p : Ev → Bool) (es : Events) (h : ∀ e ∈ es, p e = false) : strikeIf p es = es := by
  unfold strikeIf
  conv_rhs => rw [← List.map_id es]
  apply List.map_congr_left
  intro e he
  simp [h e he]

theorem count_none (box : Rect) (es : Events) (h : ∀ e ∈ es, pressIn box 1 e = false) :
    countPressesIn box 1 0 es = (es, 0) := by
  have h0 : es.countP (pressIn box 1) = 0 := by
    rw [List.countP_eq_zero]
    intro e he
    rw [h e he]
    exact Bool.false_ne_true
  rw [countPressesIn_exact, strike_none _ _ h, Nat.zero_add, h0]

theorem pressIn_press {box : Rect} {b : BitVec 8} {e : Ev} (h : pressIn box b e = true) : isPress e ∧ Geom.Mem e.pt box := by
  unfold pressIn at h
  simp only [Bool.and_eq_true, decide_eq_true_eq] at h
  exact ⟨⟨h.1.1, b, h.1.2⟩, (Geom.ptIn_iff _ _).mp h.2⟩

theorem struck_not_in (box : Rect) (b : BitVec 8) (e : Ev) : pressIn box b e.struck = false := by
  unfold pressIn Ev.struck
  simp

/-! ### Controls that do nothing -/

/-- The active control, if it is one of the `n` ones after `cur`, is made inactive. -/
def off (cur n active : Nat) : Nat := if cur < active ∧ active ≤ cur + n then 0 else active

/-- `n` controls are passed. -/
def St.pass (s : St) (n : Nat) : St := ⟨⟨off s.uicur n s.ui.active, s.ui.edlin⟩, s.uicur + n, s.es, s.v, s.user, s.made⟩

theorem off_out {cur n active : Nat} (h : ¬ (cur < active ∧ active ≤ cur + n)) : off cur n active = active := if_neg h

theorem pass_out {s : St} {n : Nat} (h : ¬ (s.uicur < s.ui.active ∧ s.ui.active ≤ s.uicur + n)) :
    s.pass n = { s with uicur := s.uicur + n } := by
  unfold St.pass
  rw [off_out h]

/-- Controls which are not pressed, and of which an active one is made inactive by a press
outside its box. -/
theorem skip (gr : Nat → Bool) (gray : Attr) (cs : List Ctl) : ∀ (s : St),
    (∀ c ∈ cs, ∀ e ∈ s.es, pressIn c.box 1 e = false) →
    (s.uicur < s.ui.active ∧ s.ui.active ≤ s.uicur + nfiles cs → ∀ c ∈ cs, anyPressesOutside c.box s.es = true) →
    controls gr gray cs s = .ok (s.pass (nfiles cs)) := by
  induction cs with
  | nil =>
    intro s _ _
    rw [controls, nfiles, pass_out (by omega)]
    rfl
  | cons c cs ih =>
    intro s h1 h2
    rw [controls]
    cases c with
    | press box =>
      rw [Ctl.update, count_none box s.es (h1 _ (List.mem_cons_self ..))]
      simp only [Except.bind]
      rw [nfiles] at h2 ⊢
      exact ih s (fun c hc => h1 c (List.mem_cons_of_mem _ hc)) (fun hr c hc => h2 hr c (List.mem_cons_of_mem _ hc))
    | file box fil =>
      have hc0 := count_none box s.es (h1 _ (List.mem_cons_self ..))
      rw [nfiles] at h2 ⊢
      by_cases ha : s.ui.active = s.uicur + 1
      · have ho := h2 (by omega) _ (List.mem_cons_self ..)
        have e : Ctl.update gr gray s (.file box fil) = .ok { s with uicur := s.uicur + 1, ui := { s.ui with active := 0 } } := by
          unfold Ctl.update underActivation
          simp only [Ctl.box] at ho
          simp [ha, ho]
        rw [e]
        simp only [Except.bind]
        have := ih { s with uicur := s.uicur + 1, ui := { s.ui with active := 0 } }
          (fun c hc => h1 c (List.mem_cons_of_mem _ hc)) (fun hr => by simp only at hr; omega)
        rw [this]
        rw [pass_out (by simp)]
        unfold St.pass off
        simp only
        rw [if_pos (by omega), show s.uicur + 1 + nfiles cs = s.uicur + (nfiles cs + 1) from by omega]
      · have e : Ctl.update gr gray s (.file box fil) = .ok { s with uicur := s.uicur + 1 } := by
          unfold Ctl.update underActivation
          simp only [ne_eq, ha, not_false_eq_true, decide_true, if_true, hc0, Nat.zero_mod, Nat.zero_ne_one, if_false, false_and]
        rw [e]
        simp only [Except.bind]
        have := ih { s with uicur := s.uicur + 1 } (fun c hc => h1 c (List.mem_cons_of_mem _ hc))
          (fun hr c hc => h2 (by simp only at hr; omega) c (List.mem_cons_of_mem _ hc))
        rw [this]
        unfold St.pass off
        simp only
        rw [show s.uicur + 1 + nfiles cs = s.uicur + (nfiles cs + 1) from by omega]
        by_cases hr : s.uicur < s.ui.active ∧ s.ui.active ≤ s.uicur + (nfiles cs + 1)
        · rw [if_pos hr, if_pos (by omega)]
        · rw [if_neg hr, if_neg (by omega)]

theorem controls_append (gr : Nat → Bool) (gray : Attr) (a b : List Ctl) : ∀ s,
    controls gr gray (a ++ b) s = (controls gr gray a s).bind (controls gr gray b) := by
  induction a with
  | nil => intro s; rfl
  | cons c a ih =>
    intro s
    rw [List.cons_append, controls, controls]
    cases c.update gr gray s with
    | error e => rfl
    | ok s' => exact ih s'

/-! ### What editing does to the events -/

/-- Every event is one of the former ones, or such a one marked as handled. -/
def Sub (es' es : Events) : Prop := ∀ e' ∈ es', ∃ e ∈ es, e' = e ∨ e' = e.struck

theorem Sub.refl (es : Events) : Sub es es := fun e h => ⟨e, h, Or.inl rfl⟩

theorem Sub.trans {a b c : Events} (h1 : Sub a b) (h2 : Sub b c) : Sub a c := by
  intro e he
  obtain ⟨e1, m1, r1⟩ := h1 e he
  obtain ⟨e2, m2, r2⟩ := h2 e1 m1
  refine ⟨e2, m2, ?_⟩
  rcases r1 with rfl | rfl <;> rcases r2 with rfl | rfl <;> first | exact Or.inl rfl | exact Or.inr rfl

theorem Sub.strike (p : Ev → Bool) (es : Events) : Sub (strikeIf p es) es := by
  intro e he
  obtain ⟨e0, m, rfl⟩ := List.mem_map.mp he
  refine ⟨e0, m, ?_⟩
  split
  · exact Or.inr rfl
  · exact Or.inl rfl

theorem Sub.pressIn {es' es : Events} (h : Sub es' es) {box : Rect} {b : BitVec 8} (hp : ∀ e ∈ es, Evq.pressIn box b e = false) :
    ∀ e ∈ es', Evq.pressIn box b e = false := by
  intro e he
  obtain ⟨e0, m, rfl | rfl⟩ := h e he
  · exact hp _ m
  · exact struck_not_in box b e0

theorem handle_sub (gr : Nat → Bool) (l : EditLine) (e : Ev) : (l.handle gr e).2 = e ∨ (l.handle gr e).2 = e.struck := by
  have h1 : ∀ (l : EditLine) (e : Ev), (l.handleGraphicRune gr e).2 = e ∨ (l.handleGraphicRune gr e).2 = e.struck := by
    intro l e
    unfold EditLine.handleGraphicRune
    split
    · exact Or.inl rfl
    · exact Or.inr rfl
  have h2 : ∀ (l : EditLine) (e : Ev), (l.handleControlRune e).2 = e ∨ (l.handleControlRune e).2 = e.struck := by
    intro l e
    unfold EditLine.handleControlRune
    split_ifs <;> first | exact Or.inl rfl | exact Or.inr rfl
  have h3 : ∀ (l : EditLine) (e : Ev), (l.handleArrowKeys e).2 = e ∨ (l.handleArrowKeys e).2 = e.struck := by
    intro l e
    unfold EditLine.handleArrowKeys
    split
    · exact Or.inl rfl
    · split
      · exact Or.inr rfl
      · exact Or.inl rfl
  have join : ∀ a b : Ev, (a = e ∨ a = e.struck) → (b = a ∨ b = a.struck) → (b = e ∨ b = e.struck) := by
    rintro a b (rfl | rfl) (rfl | rfl) <;> first | exact Or.inl rfl | exact Or.inr rfl
  unfold EditLine.handle
  simp only
  split_ifs
  · exact Or.inl rfl
  · exact h1 l e
  · exact join _ _ (h1 l e) (h2 _ _)
  · exact join _ _ (join _ _ (h1 l e) (h2 _ _)) (h3 _ _)

theorem handleAll_sub (gr : Nat → Bool) (es : Events) : ∀ l : EditLine, Sub (l.handleAll gr es).2 es := by
  induction es with
  | nil => intro l e he; simp [EditLine.handleAll] at he
  | cons e es ih =>
    intro l x hx
    rw [EditLine.handleAll] at hx
    simp only [List.mem_cons] at hx
    rcases hx with rfl | hx
    · exact ⟨e, by simp, handle_sub gr l e⟩
    · obtain ⟨e0, m, r⟩ := ih _ x hx
      exact ⟨e0, List.mem_cons_of_mem _ m, r⟩

theorem update_sub (gr : Nat → Bool) (l : EditLine) (es : Events) (v : VScreen) (u : Cursor) (f : Edl.Frame)
    (h : l.update gr es v u = .ok f) : Sub f.input es := by
  unfold EditLine.update at h
  split at h
  · cases h; exact Sub.refl es
  · simp only at h
    split at h
    · cases h; exact handleAll_sub gr es l
    · rw [(draw_line gr _ _ v u f h).2]; exact handleAll_sub gr es l

theorem done_sub (s : St) (fil : Fil) : (s.done fil).uicur = s.uicur ∧ (s.done fil).ui.active = 0 ∧ (s.done fil).es = s.es :=
  ⟨rfl, rfl, rfl⟩

theorem fileEdit_sub (gr : Nat → Bool) (gray : Attr) (fil : Fil) (s s' : St) (box : Rect) (enter : Bool)
    (h : underFileEdit gr gray fil s box enter = .ok s') :
    s'.uicur = s.uicur ∧ (s'.ui.active = s.ui.active ∨ s'.ui.active = 0) ∧ Sub s'.es s.es := by
  unfold underFileEdit at h
  split at h
  · cases h; exact ⟨rfl, Or.inr rfl, Sub.refl _⟩
  · simp only at h
    generalize hup : EditLine.update gr _ s.es s.v s.user = r at h
    cases r with
    | error e => cases h
    | ok f =>
      have hs := update_sub gr _ _ _ _ f hup
      simp only [Except.bind] at h
      split at h
      · split at h
        · rw [countPressesIn_exact] at h
          split at h
          · cases h; exact ⟨rfl, Or.inr rfl, (Sub.strike _ _).trans hs⟩
          · generalize VScreen.write gr _ _ = w at h
            cases w with
            | error e => cases h
            | ok w => cases h; exact ⟨rfl, Or.inl rfl, (Sub.strike _ _).trans hs⟩
        · cases h; exact ⟨rfl, Or.inl rfl, hs⟩
      · cases h; exact ⟨rfl, Or.inr rfl, hs⟩
      · cases h; exact ⟨rfl, Or.inr rfl, hs⟩

/-! ### Which control is active -/

theorem map_bind_skip (gr : Nat → Bool) (gray : Attr) (post : List Ctl) (id : Nat) (x : Except Fault St)
    (h : ∀ s, x = .ok s → s.uicur = id ∧ (s.ui.active = id ∨ s.ui.active = 0) ∧ ∀ c ∈ post, ∀ e ∈ s.es, pressIn c.box 1 e = false) :
    (x.bind (controls gr gray post)).map (fun s => (s.ui, s.made)) = x.map fun s => (s.ui, s.made) := by
  cases x with
  | error e => rfl
  | ok s =>
    obtain ⟨h1, h2, h3⟩ := h s rfl
    simp only [Except.bind]
    rw [skip gr gray post s h3 (fun hr => by omega), pass_out (by omega)]
    rfl

/-- **C93**: a press in the box of a control, and none elsewhere, makes it the active one and
begins its editing, with the other keys of the frame; no other control is edited in that
frame, whichever was active before. -/
theorem press_activates (gr : Nat → Bool) (gray : Attr) (ui : Ui) (made : List (Bytes × Bytes)) (pre post : List Ctl)
    (box : Rect) (fil : Fil) (es : Events) (v : VScreen) (u : Cursor)
    (hd : ∀ c ∈ pre ++ post, Apart c.box box) (ha : ui.active ≠ nfiles pre + 1)
    (hin : ∀ e ∈ es, isPress e → Geom.Mem e.pt box) (hodd : es.countP (pressIn box 1) % 2 = 1) :
    frame gr gray ui made ⟨pre ++ .file box fil :: post, es, v, u⟩ =
      (underFileEdit gr gray fil ⟨{ ui with active := nfiles pre + 1 }, nfiles pre + 1, strikeIf (pressIn box 1) es, v, u, made⟩
        box true).map fun s => (s.ui, s.made) := by
  have hnot : ∀ c ∈ pre ++ post, ∀ e ∈ es, pressIn c.box 1 e = false := by
    intro c hc e he
    by_contra hp
    rw [Bool.not_eq_false] at hp
    obtain ⟨h1, h2⟩ := pressIn_press hp
    exact hd c hc e.pt ⟨h2, hin e he h1⟩
  obtain ⟨e0, he0, hp0⟩ : ∃ e ∈ es, pressIn box 1 e = true := by
    by_contra hc
    push Not at hc
    rw [List.countP_eq_zero.mpr (by intro e he; exact hc e he)] at hodd
    omega
  have hout : ∀ c ∈ pre, anyPressesOutside c.box es = true := by
    intro c hc
    rw [anyPressesOutside_iff]
    obtain ⟨⟨k, b⟩, m⟩ := pressIn_press hp0
    exact ⟨e0, he0, k, b, fun hm => hd c (by simp [hc]) e0.pt ⟨hm, m⟩⟩
  have hnone : anyPressesOutside box (strikeIf (pressIn box 1) es) = false := by
    by_contra hc
    rw [Bool.not_eq_false, anyPressesOutside_iff] at hc
    obtain ⟨e, he, hk, ⟨b, hb⟩, hm⟩ := hc
    obtain ⟨e1, m1, rfl⟩ := List.mem_map.mp he
    split at hk
    · simp [Ev.struck] at hk
    · rename_i hq
      rw [if_neg hq] at hb hm
      exact hm (hin e1 m1 ⟨hk, b, hb⟩)
  unfold frame
  simp only
  rw [controls_append, skip gr gray pre _ (fun c hc => hnot c (by simp [hc])) (fun _ c hc => hout c hc)]
  simp only [Except.bind, controls, St.pass]
  have hact : ∀ a, a ≠ nfiles pre + 1 →
      Ctl.update gr gray ⟨⟨a, ui.edlin⟩, 0 + nfiles pre, es, v, u, made⟩ (.file box fil) =
      underFileEdit gr gray fil ⟨{ ui with active := nfiles pre + 1 }, nfiles pre + 1, strikeIf (pressIn box 1) es, v, u, made⟩ box true := by
    intro a hne
    unfold Ctl.update underActivation
    simp only [Nat.zero_add, ne_eq, hne, not_false_eq_true, decide_true, if_true, countPressesIn_exact, hodd, hnone,
      Bool.false_eq_true, and_false, if_false]
  rw [hact _ (by unfold off; split <;> omega)]
  apply map_bind_skip gr gray post (nfiles pre + 1)
  intro s hs
  obtain ⟨h1, h2, h3⟩ := fileEdit_sub gr gray fil _ s box true hs
  exact ⟨h1, h2, fun c hc => (h3.trans (Sub.strike _ _)).pressIn (hnot c (by simp [hc]))⟩

/-- **C93**: without a press, the control that is active goes on being edited, and no other
is. -/
theorem no_press_goes_on (gr : Nat → Bool) (gray : Attr) (ui : Ui) (made : List (Bytes × Bytes)) (pre post : List Ctl)
    (box : Rect) (fil : Fil) (es : Events) (v : VScreen) (u : Cursor) (ha : ui.active = nfiles pre + 1)
    (hn : ∀ e ∈ es, ¬ isPress e) :
    frame gr gray ui made ⟨pre ++ .file box fil :: post, es, v, u⟩ =
      (underFileEdit gr gray fil ⟨ui, nfiles pre + 1, es, v, u, made⟩ box false).map fun s => (s.ui, s.made) := by
  have hnot : ∀ b : Rect, ∀ e ∈ es, pressIn b 1 e = false := by
    intro b e he
    by_contra hp
    rw [Bool.not_eq_false] at hp
    exact hn e he (pressIn_press hp).1
  have hnone : anyPressesOutside box es = false := by
    by_contra hc
    rw [Bool.not_eq_false, anyPressesOutside_iff] at hc
    obtain ⟨e, he, hk, hb, -⟩ := hc
    exact hn e he ⟨hk, hb⟩
  unfold frame
  simp only
  rw [controls_append, skip gr gray pre _ (fun c _ => hnot c.box) (fun hr => by simp only at hr; omega), pass_out (by simp only; omega)]
  simp only [Except.bind, controls]
  have hact : Ctl.update gr gray { ui := ui, uicur := 0 + nfiles pre, es := es, v := v, user := u, made := made } (.file box fil) =
      underFileEdit gr gray fil ⟨ui, nfiles pre + 1, es, v, u, made⟩ box false := by
    unfold Ctl.update underActivation
    simp [ha, hnone]
  rw [hact]
  apply map_bind_skip gr gray post (nfiles pre + 1)
  intro s hs
  obtain ⟨h1, h2, h3⟩ := fileEdit_sub gr gray fil _ s box false hs
  refine ⟨h1, ?_, fun c _ => h3.pressIn (hnot c.box)⟩
  rcases h2 with h2 | h2
  · left; rw [h2]; exact ha
  · exact Or.inr h2

/-- **C93**: without a press and with no control active, none is edited. -/
theorem no_press_none (gr : Nat → Bool) (gray : Attr) (ui : Ui) (made : List (Bytes × Bytes)) (cs : List Ctl)
    (es : Events) (v : VScreen) (u : Cursor) (ha : ui.active = 0) (hn : ∀ e ∈ es, ¬ isPress e) :
    frame gr gray ui made ⟨cs, es, v, u⟩ = .ok (ui, made) := by
  unfold frame
  simp only
  rw [skip gr gray cs _ (fun c _ e he => by
    by_contra hp
    rw [Bool.not_eq_false] at hp
    exact hn e he (pressIn_press hp).1) (fun hr => by simp only at hr; omega), pass_out (by simp only; omega)]
  rfl

/-- **C93**: a press outside all boxes ends the editing, whatever else is pressed: no control
is edited in that frame, and none of those drawn is active afterwards. -/
theorem press_elsewhere (gr : Nat → Bool) (gray : Attr) (ui : Ui) (made : List (Bytes × Bytes)) (cs : List Ctl)
    (es : Events) (v : VScreen) (u : Cursor) (e : Ev) (he : e ∈ es) (hp : isPress e) (ho : ∀ c ∈ cs, ¬ Geom.Mem e.pt c.box) :
    ∃ a, frame gr gray ui made ⟨cs, es, v, u⟩ = .ok ({ ui with active := a }, made) ∧ (a = 0 ∨ nfiles cs < a) := by
  have stays : ∀ (b : Rect) (es : Events), e ∈ es → ¬ Geom.Mem e.pt b → e ∈ strikeIf (pressIn b 1) es := by
    intro b es he hm
    refine List.mem_map.mpr ⟨e, he, ?_⟩
    rw [if_neg]
    intro hq
    exact hm (pressIn_press hq).2
  have key : ∀ (cs : List Ctl) (s : St), e ∈ s.es → (∀ c ∈ cs, ¬ Geom.Mem e.pt c.box) → ∃ s',
      controls gr gray cs s = .ok s' ∧ s'.ui.edlin = s.ui.edlin ∧ s'.made = s.made ∧
      (s'.ui.active = 0 ∨ s'.ui.active = s.ui.active ∧ ¬ (s.uicur < s.ui.active ∧ s.ui.active ≤ s.uicur + nfiles cs)) := by
    intro cs
    induction cs with
    | nil =>
      intro s _ _
      refine ⟨s, rfl, rfl, rfl, Or.inr ⟨rfl, ?_⟩⟩
      rw [nfiles]; omega
    | cons c cs ih =>
      intro s he ho
      rw [controls]
      cases c with
      | press box =>
        rw [Ctl.update, countPressesIn_exact]
        obtain ⟨s', h1, h2, h3, h4⟩ := ih { s with es := strikeIf (pressIn box 1) s.es }
          (stays box _ he (ho _ (List.mem_cons_self ..))) (fun c hc => ho c (List.mem_cons_of_mem _ hc))
        exact ⟨s', h1, h2, h3, h4⟩
      | file box fil =>
        have hm := ho _ (List.mem_cons_self ..)
        have hany : ∀ es : Events, e ∈ es → anyPressesOutside box es = true := fun es he =>
          (anyPressesOutside_iff box es).mpr ⟨e, he, hp.1, hp.2, hm⟩
        have hstep : ∃ es' a, e ∈ es' ∧ (a = 0 ∨ a = s.ui.active ∧ s.ui.active ≠ s.uicur + 1) ∧
            Ctl.update gr gray s (.file box fil) = .ok { s with uicur := s.uicur + 1, es := es', ui := { s.ui with active := a } } := by
          by_cases ha : s.ui.active = s.uicur + 1
          · refine ⟨s.es, 0, he, Or.inl rfl, ?_⟩
            unfold Ctl.update underActivation
            simp [ha, hany _ he]
          · have hs := stays box s.es he hm
            by_cases ho : s.es.countP (pressIn box 1) % 2 = 1
            · refine ⟨_, 0, hs, Or.inl rfl, ?_⟩
              unfold Ctl.update underActivation
              simp only [ne_eq, ha, not_false_eq_true, decide_true, if_true, countPressesIn_exact, Nat.zero_add, ho, hany _ hs,
                and_self, Nat.right_eq_add, if_false, Nat.add_eq_zero_iff]
              simp
            · refine ⟨_, s.ui.active, hs, Or.inr ⟨rfl, ha⟩, ?_⟩
              unfold Ctl.update underActivation
              simp only [ne_eq, ha, not_false_eq_true, decide_true, if_true, countPressesIn_exact, Nat.zero_add, ho, if_false,
                false_and]
        obtain ⟨es', a, h1, h2, h3⟩ := hstep
        rw [h3, nfiles]
        obtain ⟨s', g1, g2, g3, g4⟩ := ih { s with uicur := s.uicur + 1, es := es', ui := { s.ui with active := a } } h1
          (fun c hc => ho c (List.mem_cons_of_mem _ hc))
        refine ⟨s', g1, g2, g3, ?_⟩
        simp only at g4
        rcases g4 with g4 | ⟨g4, g5⟩
        · exact Or.inl g4
        · rcases h2 with h2 | ⟨h2, h6⟩
          · exact Or.inl (by omega)
          · right; constructor <;> omega
  obtain ⟨s', h1, h2, h3, h4⟩ := key cs { ui, es, v, user := u, made } he ho
  refine ⟨s'.ui.active, ?_, ?_⟩
  · unfold frame
    simp only at h1 h2 h3 ⊢
    rw [h1]
    simp only [Except.map, h3]
    congr 2
    cases h : s'.ui with
    | mk a l => rw [h] at h2; simp only at h2; rw [h2]
  · simp only at h4
    omega

/-! ### Editing -/

theorem keyOf_struck (gr : Nat → Bool) (p : Ev → Bool) (es : Events) (h : ∀ e ∈ es, p e = true → e.kind = .mouse) :
    (strikeIf p es).map (keyOf gr) = es.map (keyOf gr) := by
  unfold strikeIf
  rw [List.map_map]
  apply List.map_congr_left
  intro e he
  simp only [Function.comp]
  split
  · rename_i hp
    unfold keyOf Ev.struck
    rw [h e he hp]
  · rfl

/-- Without Enter or Escape, the line stays open. -/
theorem handleAll_ready (gr : Nat → Bool) (es : Events) (h : ∀ e ∈ es, ¬ Spec.ends e) : ∀ (l : EditLine), l.state = .ready →
    (l.handleAll gr es).1.state = .ready := by
  induction es with
  | nil => intro l hl; exact hl
  | cons e es ih =>
    intro l hl
    rw [EditLine.handleAll]
    apply ih (fun x hx => h x (List.mem_cons_of_mem _ hx))
    rw [handle_state]
    have := h e (List.mem_cons_self ..)
    unfold Spec.ends at this
    push Not at this
    rw [if_neg (fun hc => (this hc.1).1 hc.2.2), if_neg (fun hc => (this hc.1).2 hc.2.2)]
    exact hl

theorem update_ready (gr : Nat → Bool) (l : EditLine) (es : Events) (v : VScreen) (u : Cursor) (f : Edl.Frame)
    (hl : l.state = .ready) (h : ∀ e ∈ es, ¬ Spec.ends e) (hf : l.update gr es v u = .ok f) : f.line.state = .ready := by
  have := handleAll_ready gr es h l hl
  unfold EditLine.update at hf
  rw [if_neg (by simp [hl])] at hf
  simp only at hf
  rw [if_neg (by simp [this])] at hf
  rw [(draw_line gr _ _ v u f hf).1]
  exact this

/-- The state while a control is edited. -/
structure Editing (ui : Ui) (id : Nat) (s : Anansi.Spec.Line) : Prop where
  active : ui.active = id
  ready : ui.edlin.state = .ready
  holds : Holds ui.edlin s

theorem Holds_box {l : EditLine} {s : Anansi.Spec.Line} (h : Holds l s) (box : Rect) : Holds { l with box } s :=
  ⟨h.buf, h.valid, h.cur, h.ok⟩

/-- A frame of editing without Enter or Escape, and without a press in the box. -/
theorem fileEdit_more (gr : Nat → Bool) (hgr : ∀ r, gr r = true → validRune r = true) (gray : Attr) (fil : Fil) (s s' : St)
    (box : Rect) (enter : Bool) (hcr : fil.create = true) (t : Anansi.Spec.Line)
    (ht : Holds (if enter then { s.ui.edlin.reset with buf := fil.file.getD [] } else s.ui.edlin) t)
    (hr : (if enter then { s.ui.edlin.reset with buf := fil.file.getD [] } else s.ui.edlin).state = .ready)
    (hn : ∀ e ∈ s.es, pressIn box 1 e = false) (he : ∀ e ∈ s.es, ¬ Spec.ends e)
    (hs : t.SimpleAll (s.es.map (keyOf gr))) (h : underFileEdit gr gray fil s box enter = .ok s') :
    Editing s'.ui s.ui.active ((s.es.map (keyOf gr)).foldl Anansi.Spec.Line.press t) ∧ s'.made = s.made := by
  unfold underFileEdit at h
  rw [hcr] at h
  simp only [Bool.not_true, Bool.false_eq_true, if_false] at h
  generalize hl : (if enter then { s.ui.edlin.reset with buf := fil.file.getD [] } else s.ui.edlin) = l at *
  generalize hup : EditLine.update gr _ s.es s.v s.user = r at h
  cases r with
  | error e => cases h
  | ok f =>
    have h1 := update_holds_partial gr hgr _ t s.es s.v s.user f (Holds_box ht box) hr hs hup
    have h2 := update_ready gr { l with box } s.es s.v s.user f hr he hup
    have h3 := (update_sub gr _ _ _ _ f hup).pressIn hn
    simp only [Except.bind, h2] at h
    split at h
    · rw [count_none box f.input h3] at h
      simp only [Nat.zero_mod, Nat.zero_ne_one, if_false] at h
      generalize VScreen.write gr _ _ = w at h
      cases w with
      | error e => cases h
      | ok w => cases h; exact ⟨⟨rfl, h2, h1⟩, rfl⟩
    · cases h; exact ⟨⟨rfl, h2, h1⟩, rfl⟩

/-- A frame of editing that ends with Enter or Escape. -/
theorem fileEdit_end (gr : Nat → Bool) (hgr : ∀ r, gr r = true → validRune r = true) (hc : gr 0x0D = false ∧ gr 0x1B = false)
    (gray : Attr) (fil : Fil) (s : St) (box : Rect) (hcr : fil.create = true) (t : Anansi.Spec.Line) (es : Events) (last : Ev)
    (hes : s.es = es ++ [last]) (ht : Holds s.ui.edlin t) (hr : s.ui.edlin.state = .ready) (hlast : Spec.ends last)
    (hs : t.SimpleAll (es.map (keyOf gr))) :
    ∃ s', underFileEdit gr gray fil s box false = .ok s' ∧ s'.ui.active = 0 ∧ s'.made = s.made ++
      if last.esc = 0x0D then Spec.chosen fil.name fil.dflt ((es.map (keyOf gr)).foldl Anansi.Spec.Line.press t).text else [] := by
  obtain ⟨f, h1, h2, h3, -, -⟩ := enter_ends_partial gr hgr hc { s.ui.edlin with box } t es last s.v s.user (Holds_box ht box) hr
    hlast.1 hlast.2 hs
  unfold underFileEdit
  rw [hcr, hes]
  simp only [Bool.not_true, Bool.false_eq_true, if_false, h1, Except.bind]
  by_cases hd : last.esc = 0x0D
  · rw [if_pos hd] at h2
    rw [h2, if_pos hd]
    refine ⟨_, rfl, rfl, ?_⟩
    unfold St.done Spec.chosen
    simp only [h3.buf]
    generalize ((es.map (keyOf gr)).foldl Anansi.Spec.Line.press t).text = tx
    cases tx with
    | nil =>
      simp only [encodeRunes, List.flatMap_nil, List.length_nil, gt_iff_lt, Nat.lt_irrefl, if_false, ne_eq, not_true_eq_false]
      cases hdf : fil.dflt with
      | none => simp [St.exit]
      | some d => cases d <;> simp [St.exit]
    | cons r tx =>
      have : 0 < (encodeRunes (r :: tx)).length := by
        rw [encodeRunes_cons, List.length_append]
        have := encodeRune_length_pos r
        omega
      have hne : encodeRunes (r :: tx) ≠ [] := List.length_pos_iff.mp this
      simp [this, hne, St.exit]
  · rw [if_neg hd] at h2
    rw [h2, if_neg hd]
    exact ⟨_, rfl, rfl, by simp [St.exit]⟩

/-- **C93**: when editing ends the line is emptied: nothing typed for one file is left for
the next. -/
theorem ended_emptied (gr : Nat → Bool) (gray : Attr) (fil : Fil) (s s' : St) (box : Rect) (enter : Bool)
    (ha : s.ui.active ≠ 0) (h : underFileEdit gr gray fil s box enter = .ok s') (h0 : s'.ui.active = 0) :
    s'.ui.edlin.buf = [] ∧ s'.ui.edlin.state = .ready := by
  have hd : ∀ s : St, (s.done fil).ui.edlin.buf = [] ∧ (s.done fil).ui.edlin.state = .ready := fun _ => ⟨rfl, rfl⟩
  unfold underFileEdit at h
  split at h
  · cases h; exact ⟨rfl, rfl⟩
  simp only at h
  generalize EditLine.update gr _ s.es s.v s.user = r at h
  cases r with
  | error e => cases h
  | ok f =>
    simp only [Except.bind] at h
    split at h
    · split at h
      · split at h
        · cases h; exact hd _
        · generalize VScreen.write gr _ _ = w at h
          cases w with
          | error e => cases h
          | ok w => cases h; exact absurd h0 ha
      · cases h; exact absurd h0 ha
    · cases h; exact hd _
    · cases h; exact ⟨rfl, rfl⟩

/-- **C93**: while nothing is typed yet and the default name is shown, an odd number of left
presses on it takes that name; otherwise editing goes on. -/
theorem default_pressed (gr : Nat → Bool) (gray : Attr) (fil : Fil) (s s' : St) (box : Rect) (enter : Bool) (f : Edl.Frame)
    (name : Bytes) (hcr : fil.create = true) (hn : fil.dflt = some name) (hne : name ≠ [])
    (hf : EditLine.update gr { (if enter then { s.ui.edlin.reset with buf := fil.file.getD [] } else s.ui.edlin) with box }
      s.es s.v s.user = .ok f) (hr : f.line.state = .ready) (hb : f.line.buf = [])
    (h : underFileEdit gr gray fil s box enter = .ok s') :
    if f.input.countP (pressIn box 1) % 2 = 1 then s'.made = s.made ++ [(fil.name, name)] ∧ s'.ui.active = 0
    else s'.made = s.made ∧ s'.ui.active = s.ui.active := by
  unfold underFileEdit at h
  rw [hcr] at h
  simp only [Bool.not_true, Bool.false_eq_true, if_false] at h
  rw [hf] at h
  simp only [Except.bind, hr, hb, hn, Option.getD_some, List.length_nil, true_and, ne_eq, hne, not_false_eq_true, if_true,
    countPressesIn_exact, Nat.zero_add] at h
  split
  · rename_i ho
    rw [if_pos ho] at h
    cases h
    simp [St.done, St.exit, hb, hn, hne]
  · rename_i ho
    rw [if_neg ho] at h
    generalize VScreen.write gr _ _ = w at h
    cases w with
    | error e => cases h
    | ok w => cases h; exact ⟨rfl, rfl⟩

theorem simple_append (a b : List Anansi.Spec.Key) : ∀ l : Anansi.Spec.Line,
    l.SimpleAll (a ++ b) ↔ l.SimpleAll a ∧ (a.foldl Anansi.Spec.Line.press l).SimpleAll b := by
  induction a with
  | nil => intro l; simp [Anansi.Spec.Line.SimpleAll]
  | cons k a ih =>
    intro l
    simp only [List.cons_append, Anansi.Spec.Line.SimpleAll, List.foldl_cons, ih, and_assoc]

/-- What frames say to a line editor. -/
def keys (gr : Nat → Bool) (fs : List Frame) : List Anansi.Spec.Key := fs.flatMap fun f => f.es.map (keyOf gr)

/-- Frames of editing. -/
theorem frames_more (gr : Nat → Bool) (hgr : ∀ r, gr r = true → validRune r = true) (gray : Attr) (pre post : List Ctl)
    (box : Rect) (fil : Fil) (hcr : fil.create = true) (mid rest : List Frame) : ∀ (ui : Ui) (made : List (Bytes × Bytes))
    (t : Anansi.Spec.Line) (r : Ui × List (Bytes × Bytes)),
    (∀ f ∈ mid, f.cs = pre ++ .file box fil :: post ∧ ∀ e ∈ f.es, ¬ isPress e ∧ ¬ Spec.ends e) →
    Editing ui (nfiles pre + 1) t → t.SimpleAll (keys gr mid) → frames gr gray ui made (mid ++ rest) = .ok r →
    ∃ ui', Editing ui' (nfiles pre + 1) ((keys gr mid).foldl Anansi.Spec.Line.press t) ∧ frames gr gray ui' made rest = .ok r := by
  induction mid with
  | nil => intro ui made t r _ hE _ h; exact ⟨ui, hE, h⟩
  | cons f mid ih =>
    intro ui made t r hm hE hs h
    obtain ⟨hcs, hes⟩ := hm f (List.mem_cons_self ..)
    rw [keys, List.flatMap_cons, simple_append] at hs
    rw [List.cons_append, frames] at h
    obtain ⟨fcs, es, v, u⟩ := f
    simp only at hcs hes hs
    subst hcs
    rw [no_press_goes_on gr gray ui made pre post box fil es v u hE.active (fun e he => (hes e he).1)] at h
    generalize hx : underFileEdit gr gray fil _ box false = x at h
    cases x with
    | error e => cases h
    | ok s' =>
      have hnp : ∀ e ∈ es, pressIn box 1 e = false := by
        intro e he
        by_contra hp
        rw [Bool.not_eq_false] at hp
        exact (hes e he).1 (pressIn_press hp).1
      obtain ⟨h1, h2⟩ := fileEdit_more gr hgr gray fil ⟨ui, nfiles pre + 1, es, v, u, made⟩ s' box false hcr t hE.holds hE.ready hnp (fun e he => (hes e he).2) hs.1 hx
      simp only [Except.map, Except.bind] at h
      rw [h2] at h
      simp only [hE.active] at h1
      obtain ⟨ui', g1, g2⟩ := ih s'.ui made _ r (fun f hf => hm f (List.mem_cons_of_mem _ hf)) h1 hs.2 h
      refine ⟨ui', ?_, g2⟩
      rw [keys, List.flatMap_cons, List.foldl_append]
      exact g1

/-- **C93**, a whole session: a press in the box of a control with a `create` method, then
frames without a press, then Enter: exactly one file is asked for, for that control, and by
the name that the keys of all these frames give (beginning with the name of its file, if it has
one), or by its default name if that is empty; with Escape, none is.  Afterwards no control is
active.  All the frames draw the same controls, with boxes apart; missing, because it fails:
frames that do not (`typed_for_another`). -/
theorem edit_session_partial (gr : Nat → Bool) (hgr : ∀ r, gr r = true → validRune r = true) (hc : gr 0x0D = false ∧ gr 0x1B = false)
    (gray : Attr) (ui : Ui) (made : List (Bytes × Bytes)) (pre post : List Ctl) (box : Rect) (fil : Fil) (hcr : fil.create = true)
    (hd : ∀ c ∈ pre ++ post, Apart c.box box) (ha : ui.active ≠ nfiles pre + 1)
    (t0 : List Nat) (hv : ∀ r ∈ t0, validRune r = true) (hf : fil.file.getD [] = encodeRunes t0)
    (first : Frame) (hfc : first.cs = pre ++ .file box fil :: post) (hin : ∀ e ∈ first.es, isPress e → Geom.Mem e.pt box)
    (hodd : first.es.countP (pressIn box 1) % 2 = 1) (hfe : ∀ e ∈ first.es, ¬ Spec.ends e)
    (mid : List Frame) (hm : ∀ f ∈ mid, f.cs = pre ++ .file box fil :: post ∧ ∀ e ∈ f.es, ¬ isPress e ∧ ¬ Spec.ends e)
    (final : Frame) (hlc : final.cs = pre ++ .file box fil :: post) (es : Events) (last : Ev) (hle : final.es = es ++ [last])
    (hlp : ∀ e ∈ es, ¬ isPress e) (hlast : Spec.ends last)
    (hs : (⟨t0, 0⟩ : Anansi.Spec.Line).SimpleAll (keys gr (first :: mid) ++ es.map (keyOf gr)))
    (r : Ui × List (Bytes × Bytes)) (h : frames gr gray ui made (first :: mid ++ [final]) = .ok r) :
    r.1.active = 0 ∧ r.2 = made ++ if last.esc = 0x0D then Spec.chosen fil.name fil.dflt
      ((keys gr (first :: mid) ++ es.map (keyOf gr)).foldl Anansi.Spec.Line.press ⟨t0, 0⟩).text else [] := by
  obtain ⟨fcs, fes, fv, fu⟩ := first
  obtain ⟨lcs, les, lv, lu⟩ := final
  simp only at hfc hin hodd hfe hlc hle
  subst hfc hlc hle
  have hk : (strikeIf (pressIn box 1) fes).map (keyOf gr) = fes.map (keyOf gr) :=
    keyOf_struck gr _ fes (fun e _ hp => (pressIn_press hp).1.1)
  rw [keys, List.flatMap_cons, List.append_assoc, simple_append, simple_append] at hs
  rw [List.cons_append, frames, press_activates gr gray ui made pre post box fil fes fv fu hd ha hin hodd] at h
  generalize hx : underFileEdit gr gray fil _ box true = x at h
  cases x with
  | error e => cases h
  | ok s' =>
    have hh : Holds ({ ui.edlin.reset with buf := fil.file.getD [] } : EditLine) ⟨t0, 0⟩ :=
      ⟨hf, hv, rfl, Nat.zero_le _⟩
    have hnp : ∀ e ∈ strikeIf (pressIn box 1) fes, pressIn box 1 e = false := by
      intro e he
      obtain ⟨e0, -, rfl⟩ := List.mem_map.mp he
      split
      · exact struck_not_in box 1 e0
      · rename_i hp; exact Bool.not_eq_true _ ▸ hp
    have hne : ∀ e ∈ strikeIf (pressIn box 1) fes, ¬ Spec.ends e := by
      intro e he
      obtain ⟨e0, m, rfl⟩ := List.mem_map.mp he
      split
      · rintro ⟨hc, -⟩; simp [Ev.struck] at hc
      · exact hfe e0 m
    obtain ⟨h1, h2⟩ := fileEdit_more gr hgr gray fil _ s' box true hcr ⟨t0, 0⟩ hh rfl hnp hne (by rw [hk]; exact hs.1) hx
    simp only [Except.map, Except.bind] at h
    rw [h2] at h
    simp only [hk] at h1
    obtain ⟨ui', g1, g2⟩ := frames_more gr hgr gray pre post box fil hcr mid _ s'.ui made _ r hm h1 hs.2.1 h
    have hlp' : ∀ e ∈ es ++ [last], ¬ isPress e := by
      intro e he
      rcases List.mem_append.mp he with he | he
      · exact hlp e he
      · rw [List.mem_singleton] at he
        rintro ⟨hc, -⟩
        rw [he, hlast.1] at hc
        cases hc
    rw [frames, no_press_goes_on gr gray ui' made pre post box fil _ lv lu g1.active hlp'] at g2
    obtain ⟨s2, k1, k2, k3⟩ := fileEdit_end gr hgr hc gray fil ⟨ui', nfiles pre + 1, es ++ [last], lv, lu, made⟩ box hcr _ es last rfl
      g1.holds g1.ready hlast hs.2.2
    rw [k1] at g2
    simp only [Except.map, Except.bind, frames, Except.ok.injEq] at g2
    rw [← g2]
    refine ⟨k2, ?_⟩
    have hkk : keys gr (⟨pre ++ .file box fil :: post, fes, fv, fu⟩ :: mid) = fes.map (keyOf gr) ++ keys gr mid := by
      rw [keys, List.flatMap_cons]; rfl
    rw [k3, hkk, List.append_assoc, List.foldl_append, List.foldl_append]

/-! ### An example -/

/-- Graphic runes, for examples. -/
def gr1 (r : Nat) : Bool := decide (0x20 ≤ r ∧ r ≠ 0x7F ∧ r < 0xD800)

/-- A left press in a cell. -/
def click (x y : Nat) : Ev := entry (csiId 0x4D) (Mouse.reportArg 0 x y)

/-- The box of six cells in a row. -/
def six (y : Nat) : Rect := ⟨⟨15, y⟩, ⟨21, y + 1⟩⟩

/-- A blank screen of twenty columns and eight rows. -/
def paper : VScreen := { sc := (({} : Screen).resize (20, 8)).1 }

/-- The controls with only the profiling details shown: the header's time, then "All", "CPU"
and "Trace". -/
def few : List Ctl := [.press ⟨⟨10, 1⟩, ⟨16, 2⟩⟩, .file (six 3) { name := [0x41], create := false },
  .file (six 4) { name := [0x43], dflt := some [0x70] }, .file (six 5) { name := [0x54], dflt := some [0x71] }]

/-- With the timing details too: the telemetry's file row before these. -/
def many : List Ctl := [.press ⟨⟨10, 1⟩, ⟨16, 2⟩⟩, .file (six 3) { name := [0x47], dflt := some [0x74] },
  .file (six 5) { name := [0x41], create := false }, .file (six 6) { name := [0x43], dflt := some [0x70] },
  .file (six 7) { name := [0x54], dflt := some [0x71] }]

/-- A click on "CPU", "x" and Enter: a file "x" for it. -/
example : ((frames gr1 0 {} [] [⟨many, [click 16 6], paper, {}⟩, ⟨many, [entry 0x78 []], paper, {}⟩,
    ⟨many, [entry 0x0D []], paper, {}⟩]).toOption.map fun r => (r.1.active, r.2)) = some (0, [([0x43], [0x78])]) := by
  decide +kernel

/-- Without a text, the default name is used. -/
example : ((frames gr1 0 {} [] [⟨many, [click 16 6], paper, {}⟩,
    ⟨many, [entry 0x0D []], paper, {}⟩]).toOption.map fun r => (r.1.active, r.2)) = some (0, [([0x43], [0x70])]) := by
  decide +kernel

/-- Negation for **C93**: a click on "CPU", "x", a click on the time in the header, which hides
the timing details, and Enter: now the file "x" is for "Trace", because controls are known by
their number in the frame only. -/
theorem typed_for_another : ((frames gr1 0 {} [] [⟨many, [click 16 6], paper, {}⟩, ⟨many, [entry 0x78 []], paper, {}⟩,
    ⟨few, [click 11 1], paper, {}⟩, ⟨few, [entry 0x0D []], paper, {}⟩]).toOption.map fun r => (r.1.active, r.2)) =
    some (0, [([0x54], [0x78])]) := by
  decide +kernel

/-- Negation for **C93**: a press on another control does not end the editing if that one is
drawn before, but it does if it is drawn after. -/
theorem ends_by_order :
    ((frame gr1 0 ⟨1, ({} : EditLine).reset⟩ [] ⟨[.press (six 2), .file (six 3) { name := [0x43] }], [click 16 2], paper, {}⟩).toOption.map
      fun r => r.1.active) = some 1 ∧
    ((frame gr1 0 ⟨1, ({} : EditLine).reset⟩ [] ⟨[.file (six 3) { name := [0x43] }, .press (six 4)], [click 16 4], paper, {}⟩).toOption.map
      fun r => r.1.active) = some 0 := by
  decide +kernel

end Anansi.Hud
