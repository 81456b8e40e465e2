import Verif.Props.HudPanels
import Verif.Props.HudEdit
/-
C152: whatever is open or being edited in the overlay, it only takes events, and without a press it changes nothing.
-/
set_option autoImplicit false

namespace Anansi.Hud
open Geom Evq Edl

variable {α : Type}

namespace Spec

/-- Of some events, in their order, each is as it was or, being one of these, has been taken. -/
def Kept (R : Ev → Prop) (es es' : Events) : Prop := List.Forall₂ (fun e e' => e' = e ∨ (e' = e.struck ∧ R e)) es es'

/-- What the panels may take: what is not of the mouse, and presses of the left button. -/
def Own (e : Ev) : Prop := e.kind = .mouse → leftPress e

/-- What the overlay may take: turns of the wheel as well. -/
def OwnW (e : Ev) : Prop := Own e ∨ (e.kind = .mouse ∧ (Mouse.buttonID e.ms = 4 ∨ Mouse.buttonID e.ms = 5))

/-- There is no press of the left button. -/
def Quiet (es : Events) : Prop := ∀ e ∈ es, ¬ leftPress e

/-- All is as it was but for turns of the wheel in a box from the first column, as high as the log and its two borders. -/
def WheelTaken (log : Lgv.View) (es es' : Events) : Prop :=
  ∃ box : Rect, box.min.x = 1 ∧ box.max.y - box.min.y ≤ 2 + (if log.expanded then if log.viewLines = 0 then 10 else log.viewLines else 0) ∧
    es' = strikeIf (fun e => scrollIn box 4 e || scrollIn box 5 e) es

end Spec

theorem bound {α β : Type} {x : Except Fault α} {f : α → Except Fault β} {b : β} (h : x.bind f = .ok b) : ∃ a, x = .ok a ∧ f a = .ok b := by
  cases x with
  | error e => cases h
  | ok a => exact ⟨a, rfl, h⟩

theorem Spec.Kept.refl {R : Ev → Prop} : ∀ es : Events, Spec.Kept R es es
  | [] => .nil
  | _ :: es => .cons (.inl rfl) (Spec.Kept.refl es)

theorem Spec.Kept.trans {R : Ev → Prop} {a b c : Events} (h1 : Spec.Kept R a b) (h2 : Spec.Kept R b c) : Spec.Kept R a c := by
  induction h1 generalizing c with
  | nil => exact h2
  | cons h _ ih =>
    cases h2 with
    | cons k k2 =>
      refine .cons ?_ (ih k2)
      rcases h with rfl | ⟨rfl, hr⟩ <;> rcases k with rfl | ⟨rfl, kr⟩
      · exact .inl rfl
      · exact .inr ⟨rfl, kr⟩
      · exact .inr ⟨rfl, hr⟩
      · exact .inr ⟨rfl, hr⟩

theorem Spec.Kept.mono {R S : Ev → Prop} (hRS : ∀ e, R e → S e) {a b : Events} (h : Spec.Kept R a b) : Spec.Kept S a b :=
  List.Forall₂.imp (fun _ _ h => h.imp id (fun h => ⟨h.1, hRS _ h.2⟩)) h

theorem Spec.Kept.strike {R : Ev → Prop} (p : Ev → Bool) (hp : ∀ e, p e = true → R e) : ∀ es : Events, Spec.Kept R es (strikeIf p es)
  | [] => .nil
  | e :: es => by
    refine .cons ?_ (Spec.Kept.strike p hp es)
    by_cases h : p e = true
    · exact .inr ⟨if_pos h, hp e h⟩
    · exact .inl (if_neg h)

theorem Spec.Kept.count (box : Rect) (es : Events) : Spec.Kept Spec.Own es (countPressesIn box 1 0 es).1 := by
  rw [countPressesIn_exact]; exact Spec.Kept.strike (R := Spec.Own) (pressIn box 1) (fun e h _ => pressIn_left h) es

theorem Quiet.count {es : Events} (h : Spec.Quiet es) (box : Rect) : countPressesIn box 1 0 es = (es, 0) := by
  refine count_none box es fun e he => ?_
  have := h e he
  cases hp : pressIn box 1 e with
  | false => rfl
  | true => exact absurd (pressIn_left hp) this

theorem handleAll_kept (gr : Nat → Bool) : ∀ (es : Events) (l : EditLine), Spec.Kept Spec.Own es (l.handleAll gr es).2
  | [], _ => .nil
  | e :: es, l => by
    rw [EditLine.handleAll]
    refine .cons ?_ (handleAll_kept gr es _)
    by_cases hm : e.kind = .mouse
    · exact .inl (by simp [EditLine.handle, EditLine.handleGraphicRune, EditLine.handleControlRune, EditLine.handleArrowKeys, hm])
    · exact (handle_sub gr l e).imp id fun h => ⟨h, fun h => absurd h hm⟩

theorem update_kept (gr : Nat → Bool) (l : EditLine) (es : Events) (v : VScreen) (u : Cursor) (f : Edl.Frame)
    (h : l.update gr es v u = .ok f) : Spec.Kept Spec.Own es f.input := by
  unfold EditLine.update at h
  split at h
  · cases h; exact Spec.Kept.refl es
  · simp only at h
    split at h
    · cases h; exact handleAll_kept gr es l
    · rw [(draw_line gr _ _ v u f h).2]; exact handleAll_kept gr es l

theorem fileEdit_kept (gr : Nat → Bool) (gray : Attr) (fil : Fil) (s s' : St) (box : Rect) (enter : Bool)
    (h : underFileEdit gr gray fil s box enter = .ok s') : Spec.Kept Spec.Own s.es s'.es := by
  unfold underFileEdit at h
  split at h
  · cases h; exact Spec.Kept.refl _
  · simp only at h
    obtain ⟨f, hup, h⟩ := bound h
    have hs := update_kept gr _ _ _ _ f hup
    split at h
    · split at h
      · split at h
        · cases h; exact hs.trans (Spec.Kept.count _ _)
        · obtain ⟨w, -, h⟩ := bound h
          cases h; exact hs.trans (Spec.Kept.count _ _)
      · cases h; exact hs
    · cases h; exact hs
    · cases h; exact hs

theorem activation_kept (gr : Nat → Bool) (gray : Attr) (fil : Fil) (s s' : St) (box : Rect)
    (h : underActivation gr gray fil s box = .ok s') : Spec.Kept Spec.Own s.es s'.es := by
  have key : ∀ (s0 : St) (en : Bool), Spec.Kept Spec.Own s.es s0.es →
      (if s0.ui.active = s.uicur + 1 then underFileEdit gr gray fil s0 box en else .ok s0) = .ok s' → Spec.Kept Spec.Own s.es s'.es := by
    intro s0 en h0 h1
    split at h1
    · exact h0.trans (fileEdit_kept gr gray fil s0 s' box en h1)
    · cases h1; exact h0
  unfold underActivation at h
  simp only at h
  refine key _ _ ?_ h
  split_ifs <;> first | exact Spec.Kept.refl _ | exact Spec.Kept.count _ _

theorem activation_quiet (gr : Nat → Bool) (gray : Attr) (fil : Fil) (s s' : St) (box : Rect) (ha : s.ui.active = 0) (hq : Spec.Quiet s.es)
    (h : underActivation gr gray fil s box = .ok s') : s' = { s with uicur := s.uicur + 1 } := by
  unfold underActivation at h
  simp only [Quiet.count hq, ha] at h
  simp only [ne_eq, show ¬ (0 = s.uicur + 1) by omega, not_false_eq_true, if_true, false_and, if_false, Nat.zero_mod, Nat.zero_ne_one,
    ha] at h
  injection h with h
  exact h.symm

theorem fileRow_kept (gr : Nat → Bool) (dw : Int) (gray : Attr) (t : Theme) (fil : Fil) (after : Option Bytes) (label : Bytes) (s : St)
    (r : (Rect × Rect) × St) (h : fileRow gr dw gray t fil after label s = .ok r) :
    Spec.Kept Spec.Own s.es r.2.es ∧ (s.ui.active = 0 → Spec.Quiet s.es → r.2.es = s.es ∧ r.2.ui = s.ui ∧ r.2.made = s.made) := by
  unfold fileRow at h
  obtain ⟨b, -, h⟩ := bound h
  obtain ⟨v, -, h⟩ := bound h
  obtain ⟨s1, h1, h⟩ := bound h
  obtain ⟨v2, -, h⟩ := bound h
  injection h with h
  subst h
  have k := activation_kept _ _ _ _ _ _ h1
  refine ⟨k, fun ha hq => ?_⟩
  have := activation_quiet _ _ _ _ _ _ (by exact ha) (by exact hq) h1
  subst this
  exact ⟨rfl, rfl, rfl⟩

theorem toggle_kept (gr : Nat → Bool) (dw : Int) (t : Theme) (es : Events) (v : VScreen) (name : Bytes) (flag : Bool)
    (r : Bool × Events × (Rect × Rect) × VScreen) (h : drawToggleRow gr dw t es v name flag = .ok r) :
    Spec.Kept Spec.Own es r.2.1 ∧ (Spec.Quiet es → r.2.1 = es ∧ r.1 = flag) := by
  unfold drawToggleRow at h
  obtain ⟨b, -, h⟩ := bound h
  simp only at h
  obtain ⟨v1, -, h⟩ := bound h
  obtain ⟨v2, -, h⟩ := bound h
  injection h with h
  subst h
  refine ⟨Spec.Kept.count _ _, fun hq => ?_⟩
  simp only [Quiet.count hq]
  simp

theorem telemetry_kept (gr : Nat → Bool) (dw : Int) (sep : Bytes) (gray : Attr) (t : Theme) (file after : Option Bytes)
    (p : Tel.Tele α) (s : St) (r : Tel.Tele α × St) (h : telemetryPanel gr dw sep gray t file after p s = .ok r) :
    Spec.Kept Spec.Own s.es r.2.es ∧
      (s.ui.active = 0 → Spec.Quiet s.es → r.1 = p ∧ r.2.es = s.es ∧ r.2.ui = s.ui ∧ r.2.made = s.made) := by
  unfold telemetryPanel at h
  obtain ⟨b, -, h⟩ := bound h
  obtain ⟨r1, h1, h⟩ := bound h
  obtain ⟨r2, h2, h⟩ := bound h
  obtain ⟨r3, h3, h⟩ := bound h
  injection h with h
  subst h
  obtain ⟨a1, a2⟩ := fileRow_kept _ _ _ _ _ _ _ _ _ h1
  obtain ⟨b1, b2⟩ := toggle_kept _ _ _ _ _ _ _ _ h2
  obtain ⟨c1, c2⟩ := toggle_kept _ _ _ _ _ _ _ _ h3
  refine ⟨(a1.trans b1).trans c1, fun ha hq => ?_⟩
  obtain ⟨e1, e2, e3⟩ := a2 ha hq
  have e1 : r1.2.es = s.es := e1
  obtain ⟨e4, e5⟩ := b2 (by rw [e1]; exact hq)
  obtain ⟨e6, e7⟩ := c2 (by rw [e4, e1]; exact hq)
  refine ⟨?_, ?_, e2, e3⟩
  · show ({ p with cfgLog := r2.1, sw := { p.sw with logStalls := r3.1 } } : Tel.Tele α) = p
    rw [e5, e7]
  · show r3.2.1 = s.es
    rw [e6, e4, e1]

theorem spinner_kept (gr : Nat → Bool) (ns : Nat) (active : Bool) (box : Rect) (es : Events) (v : VScreen)
    (r : Option Bool × Events × VScreen) (h : drawSpinner gr ns active box es v = .ok r) :
    Spec.Kept Spec.Own es r.2.1 ∧ (Spec.Quiet es → r.2.1 = es ∧ r.1 = none) := by
  unfold drawSpinner at h
  split at h
  · cases h
  · obtain ⟨v1, -, h⟩ := bound h
    injection h with h
    subst h
    refine ⟨Spec.Kept.count _ _, fun hq => ?_⟩
    simp only [Quiet.count hq]
    simp

theorem profControl_kept (gr : Nat → Bool) (dw : Int) (gray : Attr) (t : Theme) (ns : Nat) (p : Prof) (s : St) (r : Option Bool × St)
    (h : profControl gr dw gray t ns p s = .ok r) :
    Spec.Kept Spec.Own s.es r.2.es ∧
      (s.ui.active = 0 → Spec.Quiet s.es → r.1 = none ∧ r.2.es = s.es ∧ r.2.ui = s.ui ∧ r.2.made = s.made) := by
  unfold profControl at h
  obtain ⟨r1, h1, h⟩ := bound h
  obtain ⟨b, -, h⟩ := bound h
  obtain ⟨q, h2, h⟩ := bound h
  injection h with h
  subst h
  obtain ⟨a1, a2⟩ := fileRow_kept _ _ _ _ _ _ _ _ _ h1
  obtain ⟨b1, b2⟩ := spinner_kept _ _ _ _ _ _ _ h2
  refine ⟨a1.trans b1, fun ha hq => ?_⟩
  obtain ⟨e1, e2, e3⟩ := a2 ha hq
  obtain ⟨e4, e5⟩ := b2 (by rw [e1]; exact hq)
  exact ⟨e5, e4.trans e1, e2, e3⟩

theorem profControls_kept (gr : Nat → Bool) (dw : Int) (gray : Attr) (t : Theme) (ns : Nat) : ∀ (l : List Prof) (s : St)
    (r : List (Option Bool) × St), profControls gr dw gray t ns l s = .ok r →
    Spec.Kept Spec.Own s.es r.2.es ∧
      (s.ui.active = 0 → Spec.Quiet s.es → (∀ c ∈ r.1, c = none) ∧ r.2.es = s.es ∧ r.2.ui = s.ui ∧ r.2.made = s.made)
  | [], s, r, h => by
    injection h with h
    subst h
    exact ⟨Spec.Kept.refl _, fun _ _ => ⟨by simp, rfl, rfl, rfl⟩⟩
  | p :: l, s, r, h => by
    unfold profControls at h
    obtain ⟨r1, h1, h⟩ := bound h
    obtain ⟨q, h2, h⟩ := bound h
    injection h with h
    subst h
    obtain ⟨a1, a2⟩ := profControl_kept _ _ _ _ _ _ _ _ h1
    obtain ⟨b1, b2⟩ := profControls_kept gr dw gray t ns l _ _ h2
    refine ⟨a1.trans b1, fun ha hq => ?_⟩
    obtain ⟨e0, e1, e2, e3⟩ := a2 ha hq
    obtain ⟨e4, e5, e6, e7⟩ := b2 (by rw [e2]; exact ha) (by rw [e1]; exact hq)
    refine ⟨fun c hc => ?_, e5.trans e1, e6.trans e2, e7.trans e3⟩
    rcases List.mem_cons.1 hc with rfl | hc
    · exact e0
    · exact e4 c hc

theorem pickClicks_kept (box : Rect) (l : List Bytes) : ∀ (es : Events) (r : Events × List Bytes × Bool), pickClicks box l es = .ok r → Spec.Kept Spec.Own es r.1
  | [], r, h => by injection h with h; subst h; exact .nil
  | e :: es, r, h => by
    unfold pickClicks at h
    split at h
    · rename_i hl
      split at h
      · split at h
        · cases h
        · obtain ⟨q, h1, h⟩ := bound h
          injection h with h; subst h
          exact .cons (.inr ⟨rfl, fun _ => hl⟩) (pickClicks_kept box l es q h1)
      · obtain ⟨q, h1, h⟩ := bound h
        injection h with h; subst h
        exact .cons (.inl rfl) (pickClicks_kept box l es q h1)
    · obtain ⟨q, h1, h⟩ := bound h
      injection h with h; subst h
      exact .cons (.inl rfl) (pickClicks_kept box l es q h1)

theorem selector_kept (gr : Nat → Bool) (dw : Int) (t : Theme) (id : Nat) (hid : 0 < id) (all : List Bytes) (s r : Pick)
    (h : drawSelector gr dw t id all s = .ok r) :
    Spec.Kept Spec.Own s.es r.es ∧ (s.active = 0 → Spec.Quiet s.es → r.es = s.es ∧ r.active = 0 ∧ r.have_ = s.have_) := by
  unfold drawSelector at h
  obtain ⟨b, -, h⟩ := bound h
  simp only at h
  obtain ⟨v, -, h⟩ := bound h
  generalize hs1 : (if s.active ≠ id then
      ({ s with es := (countPressesIn b.2 1 0 s.es).1, active := if (countPressesIn b.2 1 0 s.es).2 % 2 = 1 then id else s.active } : Pick)
    else s) = s1 at h
  have k1 : Spec.Kept Spec.Own s.es s1.es := by
    rw [← hs1]
    split_ifs
    · exact Spec.Kept.count _ _
    · exact Spec.Kept.count _ _
    · exact Spec.Kept.refl _
  have k2 : s.active = 0 → Spec.Quiet s.es → s1 = s := by
    intro ha hq
    rw [← hs1, if_pos (by omega)]
    simp only [Quiet.count hq]
    rfl
  split at h
  · rename_i hact
    constructor
    · split at h
      · injection h with h; subst h; exact k1
      · obtain ⟨q, -, h⟩ := bound h
        obtain ⟨c, h2, h⟩ := bound h
        injection h with h; subst h
        exact k1.trans (pickClicks_kept _ _ _ _ h2)
    · intro ha hq
      rw [k2 ha hq] at hact
      omega
  · obtain ⟨v2, -, h⟩ := bound h
    injection h with h; subst h
    refine ⟨k1, fun ha hq => ?_⟩
    rw [k2 ha hq]
    exact ⟨rfl, ha, rfl⟩

theorem profDetail_kept (gr : Nat → Bool) (dw : Int) (sep : Bytes) (gray : Attr) (t : Theme) (ns : Nat) (l : List Prof) (all have_ : List Bytes)
    (s : St) (r : Profs) (h : profDetail gr dw sep gray t ns l all have_ s = .ok r) :
    Spec.Kept Spec.Own s.es r.s.es ∧ (s.ui.active = 0 → Spec.Quiet s.es →
      r.detail = true ∧ (∀ c ∈ r.calls, c = none) ∧ r.have_ = have_ ∧ r.s.es = s.es ∧ r.s.ui = s.ui ∧ r.s.made = s.made) := by
  unfold profDetail at h
  obtain ⟨b, -, h⟩ := bound h
  simp only at h
  split at h
  · rename_i hc
    injection h with h; subst h
    refine ⟨Spec.Kept.count _ _, fun ha hq => ?_⟩
    rw [Quiet.count hq] at hc
    cases hc
  · obtain ⟨r1, h1, h⟩ := bound h
    obtain ⟨k, h2, h⟩ := bound h
    injection h with h; subst h
    obtain ⟨a1, a2⟩ := profControls_kept _ _ _ _ _ _ _ _ h1
    obtain ⟨b1, b2⟩ := selector_kept _ _ _ _ (by omega) _ _ _ h2
    refine ⟨((Spec.Kept.count _ _).trans a1).trans b1, fun ha hq => ?_⟩
    simp only [Quiet.count hq] at a2
    obtain ⟨e1, e2, e3, e4⟩ := a2 ha hq
    obtain ⟨e5, e6, e7⟩ := b2 (by show r1.2.ui.active = 0; rw [e3]; exact ha) (by show Spec.Quiet r1.2.es; rw [e2]; exact hq)
    refine ⟨rfl, e1, e7, e5.trans e2, ?_, e4⟩
    show ({ r1.2.ui with active := k.active } : Ui) = s.ui
    rw [e6, e3, ← ha]

theorem timing_kept (gr : Nat → Bool) (dw : Int) (t : Theme) (p : Timing) (es : Events) (v : VScreen) (r : Bool × Bool × Events × VScreen)
    (h : timingDetail gr dw t p es v = .ok r) :
    Spec.Kept Spec.Own es r.2.2.1 ∧ (Spec.Quiet es → r.1 = p.paused ∧ r.2.1 = false ∧ r.2.2.1 = es) := by
  unfold timingDetail at h
  obtain ⟨r1, -, h⟩ := bound h
  obtain ⟨r2, -, h⟩ := bound h
  obtain ⟨q, h1, h⟩ := bound h
  obtain ⟨u, h2, h⟩ := bound h
  injection h with h; subst h
  have a : Spec.Kept Spec.Own es q.2.1 ∧ (Spec.Quiet es → q.1 = p.paused ∧ q.2.1 = es) := by
    unfold drawPause at h1
    obtain ⟨b, -, h1⟩ := bound h1
    obtain ⟨v1, -, h1⟩ := bound h1
    obtain ⟨v2, -, h1⟩ := bound h1
    injection h1 with h1; subst h1
    refine ⟨Spec.Kept.count _ _, fun hq => ?_⟩
    simp only [Quiet.count hq]
    simp
  have b : Spec.Kept Spec.Own q.2.1 u.2.1 ∧ (Spec.Quiet q.2.1 → u.1 = false ∧ u.2.1 = q.2.1) := by
    unfold drawRecord at h2
    obtain ⟨b, -, h2⟩ := bound h2
    simp only at h2
    split at h2
    · obtain ⟨v1, -, h2⟩ := bound h2
      obtain ⟨v2, -, h2⟩ := bound h2
      injection h2 with h2; subst h2
      exact ⟨Spec.Kept.refl _, fun _ => ⟨rfl, rfl⟩⟩
    · obtain ⟨v1, -, h2⟩ := bound h2
      obtain ⟨v2, -, h2⟩ := bound h2
      injection h2 with h2; subst h2
      refine ⟨Spec.Kept.count _ _, fun hq => ?_⟩
      simp only [Quiet.count hq]
      simp
  refine ⟨a.1.trans b.1, fun hq => ?_⟩
  obtain ⟨e1, e2⟩ := a.2 hq
  obtain ⟨e3, e4⟩ := b.2 (by rw [e2]; exact hq)
  exact ⟨e1, e3, e4.trans e2⟩

theorem fps_kept (gr : Nat → Bool) (dw : Int) (sep : Bytes) (s : Says) (ctl : Bool) (p : Tel.Tele α) (es : Events) (v : VScreen)
    (r : Bool × Tel.Tele α × Events × VScreen) (h : fpsDetail gr dw sep s ctl p es v = .ok r) :
    Spec.Kept Spec.Own es r.2.2.1 ∧ (Spec.Quiet es → r.1 = ctl ∧ r.2.1 = p ∧ r.2.2.1 = es) := by
  unfold fpsDetail at h
  obtain ⟨q, h1, h⟩ := bound h
  obtain ⟨u, h2, h⟩ := bound h
  injection h with h; subst h
  have a : Spec.Kept Spec.Own es q.2.2.1 ∧ (Spec.Quiet es → q.1 = ctl ∧ q.2.1 = p ∧ q.2.2.1 = es) := by
    unfold frameTiming at h1
    obtain ⟨b, -, h1⟩ := bound h1
    simp only at h1
    obtain ⟨b2, -, h1⟩ := bound h1
    obtain ⟨v1, -, h1⟩ := bound h1
    injection h1 with h1; subst h1
    refine ⟨(Spec.Kept.count _ _).trans (Spec.Kept.count _ _), fun hq => ?_⟩
    simp only [Quiet.count hq]
    simp
  have b : Spec.Kept Spec.Own q.2.2.1 u.2.1 ∧ (Spec.Quiet q.2.2.1 → u.1 = q.2.1 ∧ u.2.1 = q.2.2.1) := by
    unfold stallsDetail at h2
    obtain ⟨b, -, h2⟩ := bound h2
    simp only at h2
    obtain ⟨v1, -, h2⟩ := bound h2
    injection h2 with h2; subst h2
    refine ⟨Spec.Kept.count _ _, fun hq => ?_⟩
    simp only [Quiet.count hq]
    simp
  refine ⟨a.1.trans b.1, fun hq => ?_⟩
  obtain ⟨e1, e2, e3⟩ := a.2 hq
  obtain ⟨e4, e5⟩ := b.2 (by rw [e3]; exact hq)
  exact ⟨e1, e4.trans e2, e5.trans e3⟩

/-- What a frame of the panels leaves of what they can change. -/
def Same (p q : Panel α) : Prop :=
  q.time = p.time ∧ q.prof = p.prof ∧ q.fps = p.fps ∧ q.ctl = p.ctl ∧ q.paused = p.paused ∧ (q.record = p.record ∨ q.record = false) ∧
    q.tele = p.tele ∧ (q.calls = p.calls ∨ ∀ c ∈ q.calls, c = none) ∧ q.have_ = p.have_ ∧ q.s.es = p.s.es ∧ q.s.ui = p.s.ui ∧ q.s.made = p.s.made

theorem Same.trans {a b c : Panel α} (h1 : Same a b) (h2 : Same b c) : Same a c := by
  obtain ⟨a1, a2, a3, a4, a5, a6, a7, a8, a9, a10, a11, a12⟩ := h1
  obtain ⟨b1, b2, b3, b4, b5, b6, b7, b8, b9, b10, b11, b12⟩ := h2
  refine ⟨b1.trans a1, b2.trans a2, b3.trans a3, b4.trans a4, b5.trans a5, ?_, b7.trans a7, ?_, b9.trans a9, b10.trans a10, b11.trans a11,
    b12.trans a12⟩
  · rcases b6 with h | h
    · rw [h]; exact a6
    · exact .inr h
  · rcases b8 with h | h
    · rw [h]; exact a8
    · exact .inr h

theorem panels_both (e : Panels) (p q : Panel α) (h : panels e p = .ok q) :
    Spec.Kept Spec.Own p.s.es q.s.es ∧ (p.s.ui.active = 0 → Spec.Quiet p.s.es → Same p q) := by
  have base : ∀ p : Panel α, Same p p := fun p => ⟨rfl, rfl, rfl, rfl, rfl, .inl rfl, rfl, .inl rfl, rfl, rfl, rfl, rfl⟩
  unfold panels at h
  obtain ⟨p1, h1, h⟩ := bound h
  obtain ⟨p2, h2, h⟩ := bound h
  obtain ⟨p3, h3, h4⟩ := bound h
  have s1 : Spec.Kept Spec.Own p.s.es p1.s.es ∧ (p.s.ui.active = 0 → Spec.Quiet p.s.es → Same p p1) := by
    unfold timePanel at h1
    split at h1
    · obtain ⟨r, k, h1⟩ := bound h1
      injection h1 with h1; subst h1
      obtain ⟨a, b⟩ := timing_kept _ _ _ _ _ _ _ k
      refine ⟨a, fun _ hq => ?_⟩
      obtain ⟨e1, e2, e3⟩ := b hq
      exact ⟨rfl, rfl, rfl, rfl, e1, .inr e2, rfl, .inl rfl, rfl, e3, rfl, rfl⟩
    · injection h1 with h1; subst h1; exact ⟨Spec.Kept.refl _, fun _ _ => base _⟩
  have s2 : Spec.Kept Spec.Own p1.s.es p2.s.es ∧ (p1.s.ui.active = 0 → Spec.Quiet p1.s.es → Same p1 p2) := by
    unfold telePanel at h2
    split at h2
    · obtain ⟨r, k, h2⟩ := bound h2
      injection h2 with h2; subst h2
      obtain ⟨a, b⟩ := telemetry_kept _ _ _ _ _ _ _ _ _ _ k
      refine ⟨a, fun ha hq => ?_⟩
      obtain ⟨e1, e2, e3, e4⟩ := b ha hq
      exact ⟨rfl, rfl, rfl, rfl, rfl, .inl rfl, e1, .inl rfl, rfl, e2, e3, e4⟩
    · injection h2 with h2; subst h2; exact ⟨Spec.Kept.refl _, fun _ _ => base _⟩
  have s3 : Spec.Kept Spec.Own p2.s.es p3.s.es ∧ (p2.s.ui.active = 0 → Spec.Quiet p2.s.es → Same p2 p3) := by
    unfold profPanel at h3
    split at h3
    · rename_i hp
      obtain ⟨r, k, h3⟩ := bound h3
      injection h3 with h3; subst h3
      obtain ⟨a, b⟩ := profDetail_kept _ _ _ _ _ _ _ _ _ _ _ k
      refine ⟨a, fun ha hq => ?_⟩
      obtain ⟨e1, e2, e3, e4, e5, e6⟩ := b ha hq
      exact ⟨rfl, e1.trans hp.symm, rfl, rfl, rfl, .inl rfl, rfl, .inr e2, e3, e4, e5, e6⟩
    · injection h3 with h3; subst h3; exact ⟨Spec.Kept.refl _, fun _ _ => base _⟩
  have s4 : Spec.Kept Spec.Own p3.s.es q.s.es ∧ (p3.s.ui.active = 0 → Spec.Quiet p3.s.es → Same p3 q) := by
    unfold fpsPanel at h4
    split at h4
    · obtain ⟨r, k, h4⟩ := bound h4
      injection h4 with h4; subst h4
      obtain ⟨a, b⟩ := fps_kept _ _ _ _ _ _ _ _ _ k
      refine ⟨a, fun _ hq => ?_⟩
      obtain ⟨e1, e2, e3⟩ := b hq
      exact ⟨rfl, rfl, rfl, e1, rfl, .inl rfl, e2, .inl rfl, rfl, e3, rfl, rfl⟩
    · injection h4 with h4; subst h4; exact ⟨Spec.Kept.refl _, fun _ _ => base _⟩
  refine ⟨((s1.1.trans s2.1).trans s3.1).trans s4.1, fun ha hq => ?_⟩
  have t1 := s1.2 ha hq
  have q1 : p1.s.es = p.s.es := t1.2.2.2.2.2.2.2.2.2.1
  have u1 : p1.s.ui = p.s.ui := t1.2.2.2.2.2.2.2.2.2.2.1
  have t2 := s2.2 (by rw [u1]; exact ha) (by rw [q1]; exact hq)
  have q2 : p2.s.es = p.s.es := (t1.trans t2).2.2.2.2.2.2.2.2.2.1
  have u2 : p2.s.ui = p.s.ui := (t1.trans t2).2.2.2.2.2.2.2.2.2.2.1
  have t3 := s3.2 (by rw [u2]; exact ha) (by rw [q2]; exact hq)
  have q3 : p3.s.es = p.s.es := ((t1.trans t2).trans t3).2.2.2.2.2.2.2.2.2.1
  have u3 : p3.s.ui = p.s.ui := ((t1.trans t2).trans t3).2.2.2.2.2.2.2.2.2.2.1
  exact ((t1.trans t2).trans t3).trans (s4.2 (by rw [u3]; exact ha) (by rw [q3]; exact hq))

/-- **C152**: whatever is open, active or being typed in the panels, a frame of them adds no event, leaves none out and changes none
other than by taking it, and keeps their order; of those of the mouse it takes only presses of the left button. -/
theorem panels_take (e : Panels) (p q : Panel α) (h : panels e p = .ok q) : Spec.Kept Spec.Own p.s.es q.s.es := (panels_both e p q h).1

/-- **C152**: without a press of the left button and with no control active, the panels change nothing: no event is taken, neither a
key nor a turn of the wheel, no panel opens or closes, nothing is switched, paused, started, stopped, added or created, and recording is not
asked for. -/
theorem panels_quiet (e : Panels) (p q : Panel α) (h : panels e p = .ok q) (ha : p.s.ui.active = 0) (hq : Spec.Quiet p.s.es)
    (hr : p.record = false) (hc : p.calls = []) :
    q.s.es = p.s.es ∧ q.s.ui = p.s.ui ∧ q.s.made = p.s.made ∧ q.have_ = p.have_ ∧ (∀ c ∈ q.calls, c = none) ∧ q.tele = p.tele ∧
      q.paused = p.paused ∧ q.record = false ∧ q.ctl = p.ctl ∧ (q.time = p.time ∧ q.prof = p.prof ∧ q.fps = p.fps) := by
  obtain ⟨a1, a2, a3, a4, a5, a6, a7, a8, a9, a10, a11, a12⟩ := (panels_both e p q h).2 ha hq
  refine ⟨a10, a11, a12, a9, ?_, a7, a5, ?_, a4, a1, a2, a3⟩
  · rcases a8 with h | h
    · rw [h, hc]; simp
    · exact h
  · rcases a6 with h | h
    · rw [h]; exact hr
    · exact h

theorem made_pt {x y : Int} {p : Pt} (h : mkPt x y = .ok p) : p = ⟨x, y⟩ := by
  unfold mkPt Geom.pt at h
  split at h
  · rename_i q hq
    injection h with h
    subst h
    split at hq
    · cases hq
    · injection hq with hq; exact hq.symm
  · cases h

theorem wheel_own (box : Rect) (e : Ev) (he : (scrollIn box 4 e || scrollIn box 5 e) = true) : Spec.OwnW e := by
  simp only [scrollIn, Bool.or_eq_true, Bool.and_eq_true, decide_eq_true_eq] at he
  rcases he with h | h
  · exact .inr ⟨h.1.1, .inl h.2⟩
  · exact .inr ⟨h.1.1, .inr h.2⟩

theorem log_kept (gr : Nat → Bool) (lv : Lgv.View) (s : Logs.Sink) (es : Events) (v : VScreen) (r : Lgv.View × Events × VScreen)
    (h : logUpdate gr lv s es v = .ok r) :
    Spec.Kept Spec.OwnW es r.2.1 ∧ (Spec.Quiet es → r.2.1 = es ∨ Spec.WheelTaken lv es r.2.1) := by
  unfold logUpdate at h
  simp only at h
  obtain ⟨tl, htl, h⟩ := bound h
  obtain ⟨box, -, h⟩ := bound h
  split at h
  · injection h with h; subst h
    refine ⟨(Spec.Kept.count _ _).mono (fun _ => .inl), fun hq => .inl ?_⟩
    simp only [Quiet.count hq]
  · obtain ⟨v1, -, h⟩ := bound h
    split at h
    · cases h
    · obtain ⟨v2, -, h⟩ := bound h
      injection h with h; subst h
      simp only [totalScrollIn_exact]
      refine ⟨((Spec.Kept.count _ _).mono (fun _ => .inl)).trans (Spec.Kept.strike _ (wheel_own _) _), fun hq => .inr ?_⟩
      simp only [Quiet.count hq]
      have htl := made_pt htl
      refine ⟨_, ?_, ?_, rfl⟩
      · rw [htl]
      · simp only [Lgv.View.begin, logTop, Nat.zero_mod, Nat.zero_ne_one, if_false]
        split_ifs <;> omega

theorem details_kept {ε : Type} (E : Env ε) (e : Panels) (p : Panel α) (recErr : Option ε) (hE : E.details = detailsOf e p recErr) (mx : Int)
    (hud : Hud) (es : Events) (v : VScreen) (d : Hud × Events × VScreen × Option ε)
    (h : (if hud.timeDetail ∨ hud.profDetail ∨ hud.fpsDetail then (mkPt mx 2).bind fun p => E.details hud es (goto v p)
      else .ok (hud, es, v, none)) = .ok d) : Spec.Kept Spec.Own es d.2.1 := by
  split at h
  · obtain ⟨pt2, -, h⟩ := bound h
    rw [hE] at h
    unfold detailsOf at h
    obtain ⟨q, hq, h⟩ := bound h
    injection h with h; subst h
    exact panels_take _ _ _ hq
  · injection h with h; subst h
    exact Spec.Kept.refl _

/-- **C152**: the whole overlay, visible or not, around any client, with the panels as its details: of the events the client leaves, in
their order, each is left as it is or taken, and of those of the mouse only presses of the left button and turns of the wheel are. -/
theorem overlay_takes {ε : Type} (E : Env ε) (e : Panels) (p : Panel α) (recErr : Option ε) (hE : E.details = detailsOf e p recErr)
    (hud hud' : Hud) (es es' : Events) (v v' : VScreen) (err : Option ε) (h : hud.update E es v = .ok (hud', es', v', err)) :
    Spec.Kept Spec.OwnW (E.client (Spec.shown es) v).1 es' := by
  rw [update_eq] at h
  simp only at h
  split at h
  · unfold overlay at h
    obtain ⟨v1, -, h⟩ := bound h
    obtain ⟨pt, -, h⟩ := bound h
    obtain ⟨s1, -, h⟩ := bound h
    simp only at h
    obtain ⟨s2, -, h⟩ := bound h
    obtain ⟨s3, -, h⟩ := bound h
    obtain ⟨s4, -, h⟩ := bound h
    obtain ⟨s5, -, h⟩ := bound h
    obtain ⟨s6, -, h⟩ := bound h
    obtain ⟨d, hd, h⟩ := bound h
    obtain ⟨l, hl, h⟩ := bound h
    obtain ⟨v2, -, h⟩ := bound h
    injection h with h
    have he : es' = l.2.1 := (congrArg (fun q => q.2.1) h).symm
    rw [he]
    have k := ((Spec.Kept.count s1.1 (E.client (Spec.shown es) v).1).trans (Spec.Kept.count s2.1 _)).trans (Spec.Kept.count s3.1 _)
    exact ((k.trans (details_kept E e p recErr hE _ _ _ _ _ hd)).mono (fun _ => .inl)).trans (log_kept _ _ _ _ _ _ hl).1
  · injection h with h
    have he : es' = (E.client (Spec.shown es) v).1 := (congrArg (fun q => q.2.1) h).symm
    rw [he]
    exact Spec.Kept.refl _

/-- **C152**: if no control is active and the client leaves no press of the left button, the overlay takes nothing but turns of the
wheel, over its log, opens and closes nothing, and makes no control active; its error is that of the client. -/
theorem overlay_quiet {ε : Type} (E : Env ε) (e : Panels) (p : Panel α) (hp : p.record = false) (recErr : Option ε)
    (hE : E.details = detailsOf e p recErr)
    (hud hud' : Hud) (es es' : Events) (v v' : VScreen) (err : Option ε) (h : hud.update E es v = .ok (hud', es', v', err))
    (ha : hud.active = 0) (hq : Spec.Quiet (E.client (Spec.shown es) v).1) :
    (es' = (E.client (Spec.shown es) v).1 ∨ Spec.WheelTaken hud.logs (E.client (Spec.shown es) v).1 es') ∧
    hud'.visible = Spec.visible hud es ∧ hud'.active = 0 ∧
    (hud'.timeDetail = hud.timeDetail ∧ hud'.fpsDetail = hud.fpsDetail ∧ hud'.profDetail = hud.profDetail) ∧
    err = (E.client (Spec.shown es) v).2.2 := by
  rw [update_eq] at h
  simp only at h
  split at h
  · rename_i hvis
    unfold overlay at h
    obtain ⟨v1, -, h⟩ := bound h
    obtain ⟨pt, -, h⟩ := bound h
    obtain ⟨s1, -, h⟩ := bound h
    simp only at h
    obtain ⟨s2, -, h⟩ := bound h
    obtain ⟨s3, -, h⟩ := bound h
    obtain ⟨s4, -, h⟩ := bound h
    obtain ⟨s5, -, h⟩ := bound h
    obtain ⟨s6, -, h⟩ := bound h
    simp only [Quiet.count hq, Nat.zero_mod, Nat.zero_ne_one, if_false] at h
    obtain ⟨d, hd, h⟩ := bound h
    obtain ⟨l, hl, h⟩ := bound h
    obtain ⟨v2, -, h⟩ := bound h
    injection h with h
    have he : es' = l.2.1 := (congrArg (fun q => q.2.1) h).symm
    have hh : hud' = { d.1 with logs := l.1 } := (congrArg (fun q => q.1) h).symm
    have hr : err = errFirst (E.client (Spec.shown es) v).2.2 d.2.2.2 := (congrArg (fun q => q.2.2.2) h).symm
    have key : d.2.1 = (E.client (Spec.shown es) v).1 ∧ d.1.visible = Spec.visible hud es ∧ d.1.active = 0 ∧
        (d.1.timeDetail = hud.timeDetail ∧ d.1.fpsDetail = hud.fpsDetail ∧ d.1.profDetail = hud.profDetail) ∧ d.2.2.2 = none ∧ d.1.logs = hud.logs := by
      split at hd
      · obtain ⟨pt2, -, hd⟩ := bound hd
        rw [hE] at hd
        unfold detailsOf at hd
        obtain ⟨q, hq1, hd⟩ := bound hd
        injection hd with hd; subst hd
        obtain ⟨a1, a2, a3, a4, a5, a6, a7, a8, a9, a10, a11, a12⟩ := (panels_both _ _ _ hq1).2 ha hq
        refine ⟨a10, rfl, ?_, ⟨rfl, rfl, a2⟩, ?_, rfl⟩
        · show q.s.ui.active = 0
          rw [a11]; exact ha
        · show (if q.record = true then recErr else none) = none
          have : q.record = false := by
            rcases a6 with h | h
            · rw [h]; exact hp
            · exact h
          rw [this]; rfl
      · injection hd with hd; subst hd
        exact ⟨rfl, rfl, ha, ⟨rfl, rfl, rfl⟩, rfl, rfl⟩
    obtain ⟨k1, k2, k3, k4, k5, k6⟩ := key
    have lk := (log_kept _ _ _ _ _ _ hl).2 (by rw [k1]; exact hq)
    rw [k1, k6] at lk
    rw [he, hh, hr, k5]
    refine ⟨lk, k2, k3, k4, ?_⟩
    unfold errFirst
    split
    · rename_i h; exact h.symm
    · rename_i h; exact h.symm
  · injection h with h
    have he : es' = (E.client (Spec.shown es) v).1 := (congrArg (fun q => q.2.1) h).symm
    have hr : err = (E.client (Spec.shown es) v).2.2 := (congrArg (fun q => q.2.2.2) h).symm
    have hh := (congrArg (fun q => q.1) h).symm
    simp only at hh
    rw [he, hr, hh]
    exact ⟨.inl rfl, rfl, rfl, ⟨rfl, rfl, rfl⟩, rfl⟩

/-- Any number of frames, each with its client, panels, events and screen, in which the client leaves no press of the left button; and
how often Ctrl-K was typed. -/
inductive Spec.Still (α ε : Type) : Hud → Nat → Hud → Prop
  | none (hud : Hud) : Still α ε hud 0 hud
  | next {hud hud' hud'' : Hud} {n : Nat} (E : Env ε) (e : Panels) (p : Panel α) (recErr : Option ε) (es es' : Events) (v v' : VScreen)
      (err : Option ε) (hE : E.details = detailsOf e p recErr) (hp : p.record = false)
      (h : hud.update E es v = .ok (hud', es', v', err)) (hq : Quiet (E.client (shown es) v).1) (rest : Still α ε hud' n hud'') :
      Still α ε hud (es.countP (isRune [0x0B]) + n) hud''

/-- **C152**: over any number of frames without a press of the left button, no control becomes active and no panel opens or closes,
and the overlay is shown or hidden by nothing but Ctrl-K. -/
theorem still_frames {ε : Type} {hud hud' : Hud} {n : Nat} (h : Spec.Still α ε hud n hud') (ha : hud.active = 0) :
    hud'.active = 0 ∧ (hud'.timeDetail = hud.timeDetail ∧ hud'.fpsDetail = hud.fpsDetail ∧ hud'.profDetail = hud.profDetail) ∧
    hud'.visible = xor hud.visible (n % 2 = 1) := by
  induction h with
  | none hud => exact ⟨ha, ⟨rfl, rfl, rfl⟩, by simp⟩
  | @next hud hud' hud'' n E e p recErr es es' v v' err hE hp h hq rest ih =>
    obtain ⟨-, a1, a2, ⟨a3, a4, a5⟩, -⟩ := overlay_quiet E e p hp recErr hE hud hud' es es' v v' err h ha hq
    obtain ⟨b1, ⟨b2, b3, b4⟩, b5⟩ := ih a2
    refine ⟨b1, ⟨b2.trans a3, b3.trans a4, b4.trans a5⟩, ?_⟩
    rw [b5, a1, Spec.visible, Bool.xor_assoc]
    congr 1
    generalize es.countP (isRune [0x0B]) = k
    rcases Nat.mod_two_eq_zero_or_one k with h1 | h1 <;> rcases Nat.mod_two_eq_zero_or_one n with h2 | h2 <;> simp [h1, h2, Nat.add_mod]

/-- A turn of the wheel. -/
def wheelAt (x y : Nat) : Ev := entry (csiId 0x4D) (Mouse.reportArg 64 x y)

/-- Timing, telemetry and profiling open; a key, and turns of the wheel over a button and over the log. -/
def tallStill : Panel Unit := { tallStart with s := { tallStart.s with es := [entry 0x61 [], wheelAt 25 4, wheelAt 3 16] } }

example : Spec.Quiet tallStill.s.es := by
  show ∀ e ∈ [entry 0x61 [], wheelAt 25 4, wheelAt 3 16], ¬ Spec.leftPress e
  decide +kernel

/-- The hypotheses of `panels_quiet`. -/
example : ∃ q, panels tallPanels tallStill = .ok q ∧ tallStill.s.ui.active = 0 ∧ tallStill.record = false ∧ tallStill.calls = [] := by
  have h : (panels tallPanels tallStill).toOption.isSome = true := by decide +kernel
  cases hp : panels tallPanels tallStill with
  | error e => rw [hp] at h; cases h
  | ok q => exact ⟨q, rfl, rfl, rfl, rfl⟩

/-- A press on "Add" is taken and makes the choice of a profile active; the key and the wheel are left. -/
example : ((panels tallPanels { tallStill with s := { tallStill.s with es := clickAt 25 13 :: tallStill.s.es } }).toOption.map fun q =>
    (q.s.es, q.s.ui.active)) = some ((clickAt 25 13).struck :: tallStill.s.es, 4) := by decide +kernel

/-- In the overlay with a log of twelve lines, the wheel over the log is taken, and nothing else. -/
example : ((Hud.update { envTall with details := detailsOf tallPanels tallStill none, log := logOf (List.replicate 12 [0x68, 0x69]) }
      { visible := true, timeDetail := true, profDetail := true }
      [entry 0x61 [], wheelAt 25 4, wheelAt 36 16] (blank 37 16)).toOption.map fun q => (q.1.timeDetail, q.1.profDetail, q.1.active, q.2.1)) =
    some (true, true, 0, [entry 0x61 [], wheelAt 25 4, (wheelAt 36 16).struck]) := by decide +kernel

/-- A frame with Ctrl-K, after which the overlay is hidden. -/
example : Spec.Still Unit Unit { visible := true, timeDetail := true } 1 { visible := false, timeDetail := true } := by
  refine .next (n := 0) (hud' := { visible := false, timeDetail := true }) { envTall with details := detailsOf tallPanels tallStill none }
    tallPanels tallStill none [entry 0x0B []] [(entry 0x0B []).struck] (blank 37 16) ((goto (blank 37 16) ⟨3, 2⟩).writeSGR [Sgr.bold]) none rfl rfl ?_ ?_ (.none _)
  · rw [update_eq]
    rfl
  · show ∀ e ∈ Spec.shown [entry 0x0B []], ¬ Spec.leftPress e
    decide +kernel

end Anansi.Hud
