import Verif.Props.HudTakes
/-
C153: in any state, the panels only add files and profiles, and only where they can be.
-/
set_option autoImplicit false

namespace Anansi.Hud
open Geom Evq Edl

variable {α : Type}

/-- What controls that have files with these names can do to the state. -/
def Adds (P : Bytes → Prop) (s s' : St) : Prop :=
  s.uicur ≤ s'.uicur ∧ (∃ extra, s'.made = s.made ++ extra ∧ ∀ m ∈ extra, m.2 ≠ [] ∧ P m.1) ∧
    (s'.ui.active = s.ui.active ∨ s'.ui.active = 0 ∨ (s.uicur < s'.ui.active ∧ s'.ui.active ≤ s'.uicur))

theorem Adds.same {P : Bytes → Prop} {s s' : St} (h1 : s'.uicur = s.uicur) (h2 : s'.made = s.made) (h3 : s'.ui = s.ui) : Adds P s s' :=
  ⟨by omega, ⟨[], by simp [h2], by simp⟩, .inl (by rw [h3])⟩

theorem Adds.trans {P : Bytes → Prop} {a b c : St} (h1 : Adds P a b) (h2 : Adds P b c) : Adds P a c := by
  obtain ⟨u1, ⟨x, e1, m1⟩, a1⟩ := h1
  obtain ⟨u2, ⟨y, e2, m2⟩, a2⟩ := h2
  refine ⟨by omega, ⟨x ++ y, by rw [e2, e1, List.append_assoc], fun m hm => ?_⟩, ?_⟩
  · rcases List.mem_append.1 hm with h | h
    · exact m1 m h
    · exact m2 m h
  · rcases a2 with h | h | h
    · rcases a1 with g | g | g
      · exact .inl (h.trans g)
      · exact .inr (.inl (h.trans g))
      · exact .inr (.inr ⟨by omega, by omega⟩)
    · exact .inr (.inl h)
    · exact .inr (.inr ⟨by omega, by omega⟩)

theorem Adds.mono {P Q : Bytes → Prop} (hPQ : ∀ n, P n → Q n) {a b : St} (h : Adds P a b) : Adds Q a b := by
  obtain ⟨u1, ⟨x, e1, m1⟩, a1⟩ := h
  exact ⟨u1, ⟨x, e1, fun m hm => ⟨(m1 m hm).1, hPQ _ (m1 m hm).2⟩⟩, a1⟩

theorem done_adds (s0 s : St) (fil : Fil) (hc : fil.create = true) (hu : s.uicur = s0.uicur) (hm : s.made = s0.made) :
    Adds (fun n => fil.create = true ∧ n = fil.name) s0 (s.done fil) := by
  refine ⟨by show s0.uicur ≤ s.uicur; omega, ?_, .inr (.inl rfl)⟩
  show ∃ extra, (if (if s.ui.edlin.buf.length > 0 then s.ui.edlin.buf else fil.dflt.getD []) ≠ [] then
    s.made ++ [(fil.name, if s.ui.edlin.buf.length > 0 then s.ui.edlin.buf else fil.dflt.getD [])] else s.made) = s0.made ++ extra ∧ _
  generalize (if s.ui.edlin.buf.length > 0 then s.ui.edlin.buf else fil.dflt.getD []) = name
  by_cases h : name ≠ []
  · rw [if_pos h, hm]
    refine ⟨_, rfl, fun m hm => ?_⟩
    rw [List.mem_singleton.1 hm]
    exact ⟨h, hc, rfl⟩
  · rw [if_neg h, hm]
    exact ⟨[], by simp, by simp⟩

theorem fileEdit_adds (gr : Nat → Bool) (gray : Attr) (fil : Fil) (s s' : St) (box : Rect) (enter : Bool)
    (h : underFileEdit gr gray fil s box enter = .ok s') :
    s'.uicur = s.uicur ∧ Adds (fun n => fil.create = true ∧ n = fil.name) s s' ∧ (s'.ui.active = s.ui.active ∨ s'.ui.active = 0) := by
  unfold underFileEdit at h
  split at h
  · cases h
    exact ⟨rfl, ⟨Nat.le_refl _, ⟨[], by simp [St.exit], by simp⟩, .inr (.inl rfl)⟩, .inr rfl⟩
  · rename_i hc
    have hc : fil.create = true := by simpa using hc
    simp only at h
    obtain ⟨f, hup, h⟩ := bound h
    split at h
    · split at h
      · split at h
        · cases h
          exact ⟨rfl, done_adds s _ fil hc rfl rfl, .inr rfl⟩
        · obtain ⟨w, -, h⟩ := bound h
          cases h
          exact ⟨rfl, ⟨Nat.le_refl _, ⟨[], by simp, by simp⟩, .inl rfl⟩, .inl rfl⟩
      · cases h
        exact ⟨rfl, ⟨Nat.le_refl _, ⟨[], by simp, by simp⟩, .inl rfl⟩, .inl rfl⟩
    · cases h
      exact ⟨rfl, done_adds s _ fil hc rfl rfl, .inr rfl⟩
    · cases h
      exact ⟨rfl, ⟨Nat.le_refl _, ⟨[], by simp [St.exit], by simp⟩, .inr (.inl rfl)⟩, .inr rfl⟩

theorem activation_adds (gr : Nat → Bool) (gray : Attr) (fil : Fil) (s s' : St) (box : Rect)
    (h : underActivation gr gray fil s box = .ok s') : Adds (fun n => fil.create = true ∧ n = fil.name) s s' := by
  have key : ∀ (s0 : St) (en : Bool), s0.uicur = s.uicur + 1 → s0.made = s.made →
      (s0.ui.active = s.ui.active ∨ s0.ui.active = 0 ∨ s0.ui.active = s.uicur + 1) →
      (if s0.ui.active = s.uicur + 1 then underFileEdit gr gray fil s0 box en else .ok s0) = .ok s' →
      Adds (fun n => fil.create = true ∧ n = fil.name) s s' := by
    intro s0 en hu hm ha h1
    have base : Adds (fun n => fil.create = true ∧ n = fil.name) s s0 := by
      refine ⟨by omega, ⟨[], by simp [hm], by simp⟩, ?_⟩
      rcases ha with h | h | h
      · exact .inl h
      · exact .inr (.inl h)
      · exact .inr (.inr ⟨by omega, by omega⟩)
    split at h1
    · exact base.trans (fileEdit_adds gr gray fil s0 s' box en h1).2.1
    · cases h1; exact base
  unfold underActivation at h
  simp only at h
  refine key _ _ ?_ ?_ ?_ h
  · split_ifs <;> rfl
  · split_ifs <;> rfl
  · split_ifs <;> simp

theorem fileRow_adds (gr : Nat → Bool) (dw : Int) (gray : Attr) (t : Theme) (fil : Fil) (after : Option Bytes) (label : Bytes) (s : St)
    (r : (Rect × Rect) × St) (h : fileRow gr dw gray t fil after label s = .ok r) :
    Adds (fun n => fil.create = true ∧ n = fil.name) s r.2 := by
  unfold fileRow at h
  obtain ⟨b, -, h⟩ := bound h
  obtain ⟨v, -, h⟩ := bound h
  obtain ⟨s1, h1, h⟩ := bound h
  obtain ⟨v2, -, h⟩ := bound h
  injection h with h
  subst h
  have k := activation_adds _ _ _ _ _ _ h1
  exact k

theorem profControls_adds (gr : Nat → Bool) (dw : Int) (gray : Attr) (t : Theme) (ns : Nat) : ∀ (l : List Prof) (s : St)
    (r : List (Option Bool) × St), profControls gr dw gray t ns l s = .ok r →
    Adds (fun n => ∃ z ∈ l, z.fil.create = true ∧ n = z.fil.name) s r.2 ∧ List.Forall₂ (fun z c => ∀ on, c = some on → on = !z.active) l r.1
  | [], s, r, h => by
    injection h with h
    subst h
    exact ⟨Adds.same rfl rfl rfl, .nil⟩
  | p :: l, s, r, h => by
    unfold profControls at h
    obtain ⟨r1, h1, h⟩ := bound h
    obtain ⟨q, h2, h⟩ := bound h
    injection h with h
    subst h
    obtain ⟨b1, b2⟩ := profControls_adds gr dw gray t ns l _ _ h2
    unfold profControl at h1
    obtain ⟨f, hf, h1⟩ := bound h1
    obtain ⟨b, -, h1⟩ := bound h1
    obtain ⟨c, hc, h1⟩ := bound h1
    injection h1 with h1
    subst h1
    have a1 := fileRow_adds _ _ _ _ _ _ _ _ _ hf
    refine ⟨(a1.mono fun n hn => ⟨p, by simp, hn⟩).trans ?_, .cons ?_ b2⟩
    · have b1 : Adds (fun n => ∃ z ∈ l, z.fil.create = true ∧ n = z.fil.name) f.2 q.2 := b1
      exact b1.mono fun n ⟨z, hz, hn⟩ => ⟨z, List.mem_cons_of_mem _ hz, hn⟩
    · unfold drawSpinner at hc
      split at hc
      · cases hc
      · obtain ⟨v1, -, hc⟩ := bound hc
        injection hc with hc
        subst hc
        intro on hon
        simp only at hon
        split at hon
        · injection hon with hon; exact hon.symm
        · cases hon

theorem pickClicks_from (box : Rect) (l : List Bytes) : ∀ (es : Events) (r : Events × List Bytes × Bool), pickClicks box l es = .ok r →
    ∀ x ∈ r.2.1, x ∈ l
  | [], r, h => by injection h with h; subst h; simp
  | e :: es, r, h => by
    unfold pickClicks at h
    split at h
    · split at h
      · split at h
        · cases h
        · rename_i p hp
          obtain ⟨q, h1, h⟩ := bound h
          injection h with h; subst h
          intro x hx
          rcases List.mem_cons.1 hx with rfl | hx
          · exact List.mem_of_getElem? hp
          · exact pickClicks_from box l es q h1 x hx
      · obtain ⟨q, h1, h⟩ := bound h
        injection h with h; subst h
        exact pickClicks_from box l es q h1
    · obtain ⟨q, h1, h⟩ := bound h
      injection h with h; subst h
      exact pickClicks_from box l es q h1

theorem selector_adds (gr : Nat → Bool) (dw : Int) (t : Theme) (id : Nat) (all : List Bytes) (s r : Pick)
    (h : drawSelector gr dw t id all s = .ok r) :
    (∃ new, r.have_ = s.have_ ++ new ∧ ∀ x ∈ new, x ∈ all ∧ x ∉ s.have_) ∧ (r.active = s.active ∨ r.active = 0 ∨ r.active = id) := by
  unfold drawSelector at h
  obtain ⟨b, -, h⟩ := bound h
  simp only at h
  obtain ⟨v, -, h⟩ := bound h
  generalize hs1 : (if s.active ≠ id then
      ({ s with es := (countPressesIn b.2 1 0 s.es).1, active := if (countPressesIn b.2 1 0 s.es).2 % 2 = 1 then id else s.active } : Pick)
    else s) = s1 at h
  have k1 : s1.have_ = s.have_ ∧ (s1.active = s.active ∨ s1.active = id) := by
    rw [← hs1]
    split_ifs <;> simp
  have k2 : s1.active = s.active ∨ s1.active = 0 ∨ s1.active = id := k1.2.imp (fun h => h) .inr
  split at h
  · split at h
    · injection h with h; subst h
      exact ⟨⟨[], by simp [k1.1], by simp⟩, k2⟩
    · obtain ⟨q, -, h⟩ := bound h
      obtain ⟨c, h2, h⟩ := bound h
      injection h with h; subst h
      refine ⟨⟨c.2.1, by simp [k1.1], fun x hx => ?_⟩, ?_⟩
      · have := pickClicks_from _ _ _ _ h2 x hx
        rw [offered, k1.1, List.mem_filter] at this
        refine ⟨this.1, fun hx => ?_⟩
        have h3 := this.2
        simp only [Bool.not_eq_true', List.any_eq_false, decide_eq_true_eq] at h3
        exact h3 x hx rfl
      · show (if c.2.2 = true then 0 else s1.active) = _ ∨ _
        split_ifs
        · exact .inr (.inl rfl)
        · exact k2
  · obtain ⟨v2, -, h⟩ := bound h
    injection h with h; subst h
    exact ⟨⟨[], by simp [k1.1], by simp⟩, k2⟩

/-- **C153**: in any state, a frame of the panels: files are asked for in addition to those there are, with a name, and only for the
log of telemetry, if its panel is open, or for profilers that have files of their own, if theirs is; profiles are added to those there
are, each an available one that was not there; a profiler is started only if it does not run and stopped only if it does; and a
control that becomes active is one that is drawn in this frame. -/
theorem panels_adds (e : Panels) (p q : Panel α) (h : panels e p = .ok q) :
    (∃ extra, q.s.made = p.s.made ++ extra ∧ ∀ m ∈ extra, m.2 ≠ [] ∧
      ((p.time = true ∨ p.fps = true) ∧ m.1 = ascii "Telemetry Log" ∨ p.prof = true ∧ ∃ z ∈ e.profs, z.fil.create = true ∧ m.1 = z.fil.name)) ∧
    (∃ new, q.have_ = p.have_ ++ new ∧ ∀ x ∈ new, p.prof = true ∧ x ∈ e.all ∧ x ∉ p.have_) ∧
    (q.calls = p.calls ∨ q.calls = [] ∨ List.Forall₂ (fun z c => ∀ on, c = some on → on = !z.active) e.profs q.calls) ∧
    (q.s.ui.active = p.s.ui.active ∨ q.s.ui.active = 0 ∨ (p.s.uicur < q.s.ui.active ∧ q.s.ui.active ≤ q.s.uicur)) := by
  let P : Bytes → Prop := fun n => (p.time = true ∨ p.fps = true) ∧ n = ascii "Telemetry Log" ∨
    p.prof = true ∧ ∃ z ∈ e.profs, z.fil.create = true ∧ n = z.fil.name
  unfold panels at h
  obtain ⟨p1, h1, h⟩ := bound h
  obtain ⟨p2, h2, h⟩ := bound h
  obtain ⟨p3, h3, h4⟩ := bound h
  have s1 : Adds P p.s p1.s ∧ p1.have_ = p.have_ ∧ p1.calls = p.calls ∧ p1.time = p.time ∧ p1.fps = p.fps ∧ p1.prof = p.prof := by
    unfold timePanel at h1
    split at h1
    · obtain ⟨r, k, h1⟩ := bound h1
      injection h1 with h1; subst h1
      exact ⟨Adds.same rfl rfl rfl, rfl, rfl, rfl, rfl, rfl⟩
    · injection h1 with h1; subst h1; exact ⟨Adds.same rfl rfl rfl, rfl, rfl, rfl, rfl, rfl⟩
  obtain ⟨a1, b1, c1, d1, f1, g1⟩ := s1
  have s2 : Adds P p1.s p2.s ∧ p2.have_ = p.have_ ∧ p2.calls = p.calls ∧ p2.prof = p.prof := by
    unfold telePanel at h2
    split at h2
    · rename_i ht
      obtain ⟨r, k, h2⟩ := bound h2
      injection h2 with h2; subst h2
      refine ⟨?_, b1, c1, g1⟩
      unfold telemetryPanel at k
      obtain ⟨b, -, k⟩ := bound k
      obtain ⟨r1, k1, k⟩ := bound k
      obtain ⟨r2, -, k⟩ := bound k
      obtain ⟨r3, -, k⟩ := bound k
      injection k with k
      subst k
      have a := fileRow_adds _ _ _ _ _ _ _ _ _ k1
      rw [d1, f1] at ht
      have a' := Adds.mono (Q := P) (fun n hn => Or.inl ⟨by simpa using ht, hn.2⟩) a
      exact a'
    · injection h2 with h2; subst h2; exact ⟨Adds.same rfl rfl rfl, b1, c1, g1⟩
  obtain ⟨a2, b2, c2, g2⟩ := s2
  have s3 : Adds P p2.s p3.s ∧ (∃ new, p3.have_ = p.have_ ++ new ∧ ∀ x ∈ new, p.prof = true ∧ x ∈ e.all ∧ x ∉ p.have_) ∧
      (p3.calls = p.calls ∨ p3.calls = [] ∨ List.Forall₂ (fun z c => ∀ on, c = some on → on = !z.active) e.profs p3.calls) := by
    unfold profPanel at h3
    split at h3
    · rename_i hp
      rw [g2] at hp
      obtain ⟨r, k, h3⟩ := bound h3
      injection h3 with h3; subst h3
      unfold profDetail at k
      obtain ⟨b, -, k⟩ := bound k
      simp only at k
      split at k
      · injection k with k; subst k
        exact ⟨Adds.same rfl rfl rfl, ⟨[], by simp [b2], by simp⟩, .inr (.inl rfl)⟩
      · obtain ⟨r1, k1, k⟩ := bound k
        obtain ⟨w, k2, k⟩ := bound k
        injection k with k; subst k
        obtain ⟨a, c⟩ := profControls_adds _ _ _ _ _ _ _ _ k1
        obtain ⟨⟨new, hn, hx⟩, hact⟩ := selector_adds _ _ _ _ _ _ _ k2
        refine ⟨?_, ⟨new, ?_, fun x hxn => ?_⟩, .inr (.inr c)⟩
        · have a' := Adds.mono (Q := P) (fun n hn => Or.inr ⟨hp, hn⟩) a
          have a'' : Adds P p2.s r1.2 := a'
          refine a''.trans ⟨Nat.le_succ _, ⟨[], by simp, by simp⟩, ?_⟩
          rcases hact with h | h | h
          · exact .inl h
          · exact .inr (.inl h)
          · refine .inr (.inr ⟨?_, ?_⟩)
            · show r1.2.uicur < w.active
              omega
            · show w.active ≤ r1.2.uicur + 1
              omega
        · show w.have_ = _
          rw [hn, b2]
        · obtain ⟨y1, y2⟩ := hx x hxn
          rw [b2] at y2
          exact ⟨hp, y1, y2⟩
    · injection h3 with h3; subst h3
      exact ⟨Adds.same rfl rfl rfl, ⟨[], by simp [b2], by simp⟩, .inl c2⟩
  obtain ⟨a3, b3, c3⟩ := s3
  have s4 : Adds P p3.s q.s ∧ q.have_ = p3.have_ ∧ q.calls = p3.calls := by
    unfold fpsPanel at h4
    split at h4
    · obtain ⟨r, k, h4⟩ := bound h4
      injection h4 with h4; subst h4
      exact ⟨Adds.same rfl rfl rfl, rfl, rfl⟩
    · injection h4 with h4; subst h4; exact ⟨Adds.same rfl rfl rfl, rfl, rfl⟩
  obtain ⟨a4, b4, c4⟩ := s4
  obtain ⟨-, m, act⟩ := ((a1.trans a2).trans a3).trans a4
  exact ⟨m, by rw [b4]; exact b3, by rw [c4]; exact c3, act⟩

/-- A press on the sign of "CPU", which runs, stops it, and one on "Add" opens the list. -/
example : ((panels tallPanels { tallStart with s := { tallStart.s with es := [clickAt 21 12, clickAt 25 13] } }).toOption.map fun q =>
    (q.s.made, q.calls, q.s.ui.active)) = some ([], [none, some false], 4) := by decide +kernel

/-- While the file of the log is being typed: an `x` and the return key. -/
example : ((panels tallPanels { tallStart with s := { tallStart.s with ui := { active := 1 }, es := [entry 0x78 [], entry 0x0D []] } }).toOption.map
    fun q => (q.s.made, q.calls, q.s.ui.active)) = some ([(ascii "Telemetry Log", [0x78])], [none, none], 0) := by decide +kernel

/-- With the list of profiles open, a press on its first row. -/
example : ((panels { tallPanels with all := [[0x61], [0x62]] }
      { tallStart with have_ := [[0x61]], s := { tallStart.s with ui := { active := 4 }, es := [clickAt 36 13] } }).toOption.map
    fun q => (q.have_, q.s.ui.active)) = some ([[0x61], [0x62]], 0) := by decide +kernel

end Anansi.Hud
