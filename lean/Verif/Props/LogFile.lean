import Verif.Model.Log
/-
C67 Log lines reach the log file.
-/
set_option autoImplicit false

namespace Anansi
namespace Logs
open Bg

/-- A schedule in which no flush fails, and nothing is logged while the worker is inside a
flush. -/
def Calm : File → List Act → Prop
  | _, [] => True
  | s, a :: l => (match a with
      | .log _ => s.flushing = none
      | .bg (.worker f) _ => f = false
      | _ => True) ∧ ∀ s', s.step a = some s' → Calm s' l

/-- What holds all the time on such a schedule. -/
structure Inv (s : File) : Prop where
  kept : s.file ++ s.fbuf = s.logged
  taken : ∀ n, s.flushing = some n → n = s.fbuf.length
  fNil : s.bg.fNil = false
  eBuf : s.bg.eBuf = false
  send : ∀ o, s.bg.worker ≠ .sendErr o
  last : s.bg.worker = .work false → s.bg.closed = true
  over : s.bg.worker = .closeE ∨ s.bg.worker = .done → s.bg.closed = true ∧ s.fbuf = []
  eClosed : s.bg.eClosed = true → s.bg.worker = .done
  closed : s.bg.closed = true → s.bg.stop ≠ .idle ∧ s.bg.stop ≠ .closing
  ret : ∀ b, s.bg.stop = .returned b → b = false ∧ s.direct = true ∧ s.bg.eClosed = true
  direct : s.direct = true → ∃ b, s.bg.stop = .returned b
  wNil : s.bg.wNil = true → s.bg.closed = true
  niling : s.bg.stop = .niling → s.bg.closed = true

theorem inv_step (s s' : File) (a : Act) (h : Inv s)
    (hc : match a with
      | .log _ => s.flushing = none
      | .bg (.worker f) _ => f = false
      | _ => True) (hs : s.step a = some s') : Inv s' := by
  obtain ⟨⟨wNil, closed, tok, eBuf, eClosed, fNil, worker, stop⟩, fbuf, file, flushing, direct, logged⟩ := s
  obtain ⟨k1, k2, k3, k4, k5, k6, k7, k8, k9, k10, k11, k12, k13⟩ := h
  simp only at k1 k2 k3 k4 k5 k6 k7 k8 k9 k10 k11 k12 k13
  subst k3 k4
  cases a with
  | flush =>
    simp only [File.step] at hs
    split at hs
    · split at hs
      · cases hs
      · injection hs with hs; subst hs
        refine ⟨k1, ?_, rfl, rfl, k5, k6, k7, k8, k9, k10, k11, k12, k13⟩
        intro n hn
        simp only [Option.some.injEq] at hn
        exact hn.symm
    · cases hs
  | log p =>
    simp only at hc
    subst hc
    simp only [File.step, Bool.false_eq_true, if_false] at hs
    cases stop with
    | closing => cases hs
    | niling => cases hs
    | waiting => cases hs
    | idle =>
      have hd : direct = false := by
        cases direct with
        | false => rfl
        | true => obtain ⟨b, hb⟩ := k11 rfl; cases hb
      subst hd
      have hcl : closed = false := by
        cases closed with
        | false => rfl
        | true => exact absurd rfl (k9 rfl).1
      subst hcl
      simp only [Bool.false_eq_true, if_false] at hs
      injection hs with hs; subst hs
      refine ⟨by rw [← k1, List.append_assoc], (by intro n hn; cases hn), rfl, rfl, k5, k6, ?_, k8, k9, k10, k11, k12, k13⟩
      intro hw
      exact absurd (k7 hw).1 (by simp)
    | returned b =>
      obtain ⟨rfl, rfl, he⟩ := k10 b rfl
      subst he
      have hd := k8 rfl
      obtain ⟨hcl, rfl⟩ := k7 (Or.inr hd)
      simp only [if_true] at hs
      injection hs with hs; subst hs
      refine ⟨?_, (by intro n hn; cases hn), rfl, rfl, k5, k6, k7, k8, k9, k10, k11, k12, k13⟩
      rw [← k1]; simp
  | bg a k =>
    simp only [File.step, Option.bind_eq_some_iff] at hs
    obtain ⟨b, hb, hs⟩ := hs
    cases a with
    | notify =>
      simp only [State.step, State.notify] at hb
      split at hb
      · cases hb
      · rename_i hst
        have hst : stop = .idle := by simpa using hst
        subst hst
        split at hb
        · injection hb with hb; subst hb
          cases worker <;> (simp only at hs; injection hs with hs; subst hs; exact ⟨k1, k2, rfl, rfl, k5, k6, k7, k8, k9, k10, k11, k12, k13⟩)
        · simp only [Bool.false_eq_true, if_false] at hb
          injection hb with hb; subst hb
          cases worker <;> (simp only at hs; injection hs with hs; subst hs; exact ⟨k1, k2, rfl, rfl, k5, k6, k7, k8, k9, k10, k11, k12, k13⟩)
    | stop =>
      simp only [State.step, State.stepStop] at hb
      have hs' : s' = ⟨b, fbuf, file, flushing, direct || decide (stop = .waiting), logged⟩ := by
        cases worker <;> (simp only at hs; injection hs with hs; exact hs.symm)
      subst hs'
      cases stop with
      | idle =>
        have hw : wNil = false := by
          cases wNil with
          | false => rfl
          | true => exact absurd rfl (k9 (k12 rfl)).1
        subst hw
        simp only [Bool.or_self, Bool.false_eq_true, if_false] at hb
        injection hb with hb; subst hb
        have hd : direct = false := by
          cases direct with
          | false => rfl
          | true => obtain ⟨b, hb⟩ := k11 rfl; cases hb
        subst hd
        have hcl : closed = false := by
          cases closed with
          | false => rfl
          | true => exact absurd rfl (k9 rfl).1
        subst hcl
        exact ⟨k1, k2, rfl, rfl, k5, k6, k7, k8, by simp, by simp, by simp, by simp, by simp⟩
      | closing =>
        simp only at hb
        injection hb with hb; subst hb
        have hd : direct = false := by
          cases direct with
          | false => rfl
          | true => obtain ⟨b, hb⟩ := k11 rfl; cases hb
        subst hd
        exact ⟨k1, k2, rfl, rfl, k5, fun _ => rfl, fun hw => ⟨rfl, (k7 hw).2⟩, k8, by simp, by simp, by simp, fun _ => rfl, fun _ => rfl⟩
      | niling =>
        simp only at hb
        injection hb with hb; subst hb
        have hd : direct = false := by
          cases direct with
          | false => rfl
          | true => obtain ⟨b, hb⟩ := k11 rfl; cases hb
        subst hd
        exact ⟨k1, k2, rfl, rfl, k5, k6, k7, k8, by simp, by simp, by simp, fun _ => k13 rfl, by simp⟩
      | waiting =>
        simp only [Bool.false_eq_true, if_false] at hb
        cases eClosed with
        | false => simp at hb
        | true =>
          simp only [if_true] at hb
          injection hb with hb; subst hb
          exact ⟨k1, k2, rfl, rfl, k5, k6, k7, k8, by simp, by simp, by simp, k12, by simp⟩
      | returned r => cases hb
    | worker f =>
      simp only at hc
      subst hc
      simp only [State.step, State.stepWorker] at hb
      cases worker with
      | eval =>
        simp only at hb hs
        injection hb with hb; subst hb
        injection hs with hs; subst hs
        exact ⟨k1, k2, rfl, rfl, by simp, by simp, by simp, by simpa using k8, k9, k10, k11, k12, k13⟩
      | recv nc =>
        cases nc with
        | true => simp at hb
        | false =>
          simp only at hb hs
          split at hb
          · injection hb with hb; subst hb
            injection hs with hs; subst hs
            exact ⟨k1, k2, rfl, rfl, by simp, by simp, by simp, by simpa using k8, k9, k10, k11, k12, k13⟩
          · split at hb
            · injection hb with hb; subst hb
              injection hs with hs; subst hs
              rename_i hcl
              exact ⟨k1, k2, rfl, rfl, by simp, fun _ => hcl, by simp, by simpa using k8, k9, k10, k11, k12, k13⟩
            · cases hb
      | work o =>
        simp only [Bool.false_eq_true, if_false] at hb hs
        injection hb with hb; subst hb
        cases flushing with
        | none => simp at hs
        | some n =>
          simp only at hs
          injection hs with hs; subst hs
          have hn := k2 n rfl
          subst hn
          have he : eClosed = false := by
            cases eClosed with
            | false => rfl
            | true => have := k8 rfl; cases this
          subst he
          refine ⟨by rw [← k1]; simp, (by intro n hn; cases hn), rfl, rfl, ?_, ?_, ?_, by simp, k9, k10, k11, k12, k13⟩
          · intro o'; simp only [loop]; split <;> simp
          · simp only [loop]; split <;> simp
          · intro hw
            cases o with
            | true => simp [loop] at hw
            | false => exact ⟨k6 rfl, rfl⟩
      | sendErr o => exact absurd rfl (k5 o)
      | closeE =>
        simp only at hb hs
        injection hb with hb; subst hb
        injection hs with hs; subst hs
        have := k7 (Or.inl rfl)
        exact ⟨k1, k2, rfl, rfl, by simp, by simp, fun _ => this, fun _ => rfl, k9, by
          intro b hb; exact ⟨(k10 b hb).1, (k10 b hb).2.1, rfl⟩, k11, k12, k13⟩
      | done => simp at hb

theorem inv_run (l : List Act) : ∀ (s s' : File), Inv s → Calm s l → s.run l = some s' → Inv s' := by
  induction l with
  | nil => intro s s' h _ hr; injection hr with hr; subst hr; exact h
  | cons a l ih =>
    intro s s' h hc hr
    simp only [File.run, Option.bind_eq_some_iff] at hr
    obtain ⟨s1, h1, h2⟩ := hr
    exact ih s1 s' (inv_step s s1 a h hc.1 h1) (hc.2 s1 h1) h2

/-- The state after `Start`. -/
theorem inv_start : Inv {} :=
  ⟨rfl, by simp, rfl, rfl, by simp, by simp, by simp, by simp, by simp, by simp, by simp, by simp, by simp⟩

/-- **C67**: on every schedule in which no flush fails and nothing is logged while the
worker is inside a flush, what has been logged is, in order, what is in the file and then
what is still deferred; once `Stop` has returned, with no error, the file holds all that
was logged before it and all that is logged afterwards. -/
theorem log_delivered_partial (l : List Act) (s : File) (hc : Calm {} l) (hr : ({} : File).run l = some s) :
    s.file ++ s.fbuf = s.logged ∧ ∀ e, s.bg.stop = .returned e → e = false ∧ s.file = s.logged := by
  have h := inv_run l _ _ inv_start hc hr
  refine ⟨h.kept, ?_⟩
  intro e he
  obtain ⟨h1, _, h3⟩ := h.ret e he
  refine ⟨h1, ?_⟩
  have := (h.over (Or.inr (h.eClosed h3))).2
  rw [← h.kept, this, List.append_nil]

/-- A schedule with two logged lines, one flushed on notification and one at the stop, and
a third logged after it. -/
def sample : List Act :=
  [.log [1], .bg (.worker false) 0, .bg .notify 0, .bg (.worker false) 0, .flush, .bg (.worker false) 0,
   .log [2], .bg (.worker false) 0, .bg .stop 0, .bg .stop 0, .bg (.worker false) 0, .bg .stop 0, .flush,
   .bg (.worker false) 0, .bg (.worker false) 0, .bg .stop 0, .log [3]]

example : (({} : File).run sample).map (fun s => (s.bg.stop, s.file, s.fbuf)) =
    some (.returned false, [1, 2, 3], []) := by decide

/-- Negation for **C67**: a line logged while the worker is writing is gone: it is neither
in the file nor deferred any more. -/
theorem lost_during_flush : ∃ s, ({} : File).run
    [.log [1], .bg (.worker false) 0, .bg .notify 0, .bg (.worker false) 0, .flush, .log [2], .bg (.worker false) 0] =
      some s ∧ s.logged = [1, 2] ∧ s.file = [1] ∧ s.fbuf = [] := ⟨_, rfl, rfl, rfl, rfl⟩

/-- The worker waits on a nil channel, or is about to, and `Stop` has returned. -/
structure Dead (s : File) : Prop where
  worker : s.bg.worker = .eval ∨ s.bg.worker = .recv true
  wNil : s.bg.wNil = true
  stop : s.bg.stop = .returned false
  direct : s.direct = false

theorem dead_step (s s' : File) (a : Act) (h : Dead s) (hs : s.step a = some s') : Dead s' ∧ s'.file = s.file := by
  obtain ⟨h1, h2, h3, h4⟩ := h
  cases a with
  | flush =>
    simp only [File.step] at hs
    rcases h1 with h1 | h1 <;> rw [h1] at hs <;> cases hs
  | log p =>
    simp only [File.step, h3, h4] at hs
    split at hs
    · injection hs with hs; subst hs; exact ⟨⟨h1, h2, h3, h4⟩, rfl⟩
    · simp only [Bool.false_eq_true, if_false] at hs
      injection hs with hs; subst hs; exact ⟨⟨h1, h2, h3, rfl⟩, rfl⟩
  | bg a k =>
    simp only [File.step, Option.bind_eq_some_iff] at hs
    obtain ⟨b, hb, hs⟩ := hs
    cases a with
    | notify => simp [State.step, State.notify, h3] at hb
    | stop => simp [State.step, State.stepStop, h3] at hb
    | worker f =>
      simp only [State.step, State.stepWorker] at hb
      rcases h1 with h1 | h1
      · rw [h1] at hb hs
        simp only at hb hs
        injection hb with hb; subst hb
        injection hs with hs; subst hs
        exact ⟨⟨Or.inr (by simp [h2]), h2, h3, h4⟩, rfl⟩
      · rw [h1] at hb
        simp at hb

/-- Negation for **C67**: after one failed write, reported by `Notify`, the worker is dead
and `Stop` returns no error; the line is not in the file, and whatever is logged from then
on never gets there, though the file may be fine again. -/
theorem lost_after_error : ∃ l s, ({} : File).run l = some s ∧ s.bg.stop = .returned false ∧ s.logged = [1] ∧
    s.file = [] ∧ ∀ l' s', s.run l' = some s' → s'.file = [] := by
  refine ⟨[.log [1], .bg (.worker false) 0, .bg .notify 0, .bg (.worker false) 0, .flush, .bg (.worker true) 0,
    .bg (.worker false) 0, .bg .notify 0, .bg .stop 0], _, rfl, rfl, rfl, rfl, ?_⟩
  have key : ∀ (l' : List Act) (s s' : File), Dead s → s.run l' = some s' → s'.file = s.file := by
    intro l'
    induction l' with
    | nil => intro s s' _ hr; injection hr with hr; rw [hr]
    | cons a l ih =>
      intro s s' h hr
      simp only [File.run, Option.bind_eq_some_iff] at hr
      obtain ⟨s1, h1, h2⟩ := hr
      obtain ⟨d1, e1⟩ := dead_step s s1 a h h1
      rw [ih s1 s' d1 h2, e1]
  intro l' s' hr
  exact key l' _ s' ⟨Or.inl rfl, rfl, rfl, rfl⟩ hr

end Logs
end Anansi
