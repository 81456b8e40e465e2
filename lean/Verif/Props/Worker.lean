import Verif.Model.Worker
import Mathlib.Tactic.SplitIfs
/-
C47 Stopping a background worker always returns.
-/
set_option autoImplicit false

namespace Anansi
namespace Bg

/-- `Stop` has returned. -/
def State.back (s : State) : Prop := ∃ e, s.stop = .returned e

/-- The worker waits for work and there is none: what holds between frames once all work
is done. -/
structure Waiting (s : State) : Prop where
  worker : s.worker = .recv false
  tok : s.tok = false
  closed : s.closed = false
  wNil : s.wNil = false
  eClosed : s.eClosed = false
  idle : s.stop = .idle

/-- The states between the call of `Stop` on a waiting worker and its return. -/
def Stopping (s : State) : Prop :=
  s.tok = false ∧ s.stop ≠ .idle ∧
  (match s.worker with
    | .recv false => s.eClosed = false
    | .work false => s.closed = true ∧ s.eClosed = false
    | .sendErr false => s.closed = true ∧ s.eClosed = false
    | .closeE => s.closed = true ∧ s.eClosed = false
    | .done => s.closed = true ∧ s.eClosed = true
    | _ => False) ∧
  (match s.stop with
    | .closing => s.closed = false
    | .niling => s.closed = true
    | .waiting => s.closed = true
    | _ => True)

def WPc.rank : WPc → Nat
  | .eval => 9
  | .recv _ => 4
  | .work _ => 3
  | .sendErr _ => 2
  | .closeE => 1
  | .done => 0

def SPc.rank : SPc → Nat
  | .idle => 4
  | .closing => 3
  | .niling => 2
  | .waiting => 1
  | .returned _ => 0

/-- The steps left. -/
def State.rank (s : State) : Nat := s.worker.rank + s.stop.rank

theorem stopping_step (s s' : State) (a : Act) (h : Stopping s) (hs : s.step a = some s') :
    Stopping s' ∧ s'.rank < s.rank := by
  obtain ⟨wNil, closed, tok, eBuf, eClosed, fNil, worker, stop⟩ := s
  obtain ⟨h1, h2, h3, h4⟩ := h
  simp only at h1 h2 h3 h4
  subst h1
  cases a with
  | notify =>
    simp only [State.step, State.notify] at hs
    rw [if_pos h2] at hs; cases hs
  | stop =>
    simp only [State.step, State.stepStop] at hs
    cases stop with
    | idle => exact absurd rfl h2
    | closing =>
      simp only at h4; subst h4
      injection hs with hs; subst hs
      refine ⟨⟨rfl, by simp, ?_, rfl⟩, by simp [State.rank, SPc.rank]⟩
      split at h3 <;> simp_all
    | niling =>
      injection hs with hs; subst hs
      exact ⟨⟨rfl, by simp, h3, h4⟩, by simp [State.rank, SPc.rank]⟩
    | waiting =>
      simp only at hs
      split_ifs at hs
      · injection hs with hs; subst hs
        exact ⟨⟨rfl, by simp, h3, trivial⟩, by simp [State.rank, SPc.rank]⟩
      · injection hs with hs; subst hs
        exact ⟨⟨rfl, by simp, h3, trivial⟩, by simp [State.rank, SPc.rank]⟩
    | returned e => cases hs
  | worker f =>
    simp only [State.step, State.stepWorker] at hs
    cases worker with
    | eval => exact absurd h3 (by simp)
    | recv nc =>
      cases nc with
      | true => exact absurd h3 (by simp)
      | false =>
        simp only [Bool.false_eq_true, if_false] at hs
        split_ifs at hs with hc
        injection hs with hs; subst hs
        exact ⟨⟨rfl, h2, ⟨hc, h3⟩, h4⟩, by simp [State.rank, WPc.rank]⟩
    | work opn =>
      cases opn with
      | true => exact absurd h3 (by simp)
      | false =>
        simp only at h3
        simp only [loop] at hs
        split_ifs at hs
        all_goals
          first
            | contradiction
            | (injection hs with hs; subst hs
               exact ⟨⟨rfl, h2, h3, h4⟩, by simp [State.rank, WPc.rank]⟩)
    | sendErr opn =>
      cases opn with
      | true => exact absurd h3 (by simp)
      | false =>
        simp only at h3
        simp only [loop] at hs
        split_ifs at hs
        all_goals
          first
            | contradiction
            | (injection hs with hs; subst hs
               exact ⟨⟨rfl, h2, h3, h4⟩, by simp [State.rank, WPc.rank]⟩)
    | closeE =>
      injection hs with hs; subst hs
      exact ⟨⟨rfl, h2, ⟨h3.1, rfl⟩, h4⟩, by simp [State.rank, WPc.rank]⟩
    | done => cases hs

/-- Until `Stop` has returned one of the two goroutines can make a step. -/
theorem stopping_progress (s : State) (h : Stopping s) (hb : ¬ s.back) :
    (∃ s', s.step .stop = some s') ∨ ∀ f, ∃ s', s.step (.worker f) = some s' := by
  obtain ⟨wNil, closed, tok, eBuf, eClosed, fNil, worker, stop⟩ := s
  obtain ⟨h1, h2, h3, h4⟩ := h
  simp only at h1 h2 h3 h4
  subst h1
  cases stop with
  | idle => exact absurd rfl h2
  | closing => exact Or.inl ⟨_, rfl⟩
  | niling => exact Or.inl ⟨_, rfl⟩
  | returned e => exact absurd ⟨e, rfl⟩ hb
  | waiting =>
    cases eBuf with
    | true => exact Or.inl ⟨_, rfl⟩
    | false =>
      simp only at h4
      subst h4
      cases worker with
      | eval => exact absurd h3 (by simp)
      | recv nc =>
        cases nc with
        | true => exact absurd h3 (by simp)
        | false => exact Or.inr fun f => ⟨_, rfl⟩
      | work opn =>
        refine Or.inr fun f => ?_
        simp only [State.step, State.stepWorker]
        split_ifs <;> exact ⟨_, rfl⟩
      | sendErr opn => exact Or.inr fun f => ⟨_, rfl⟩
      | closeE => exact Or.inr fun f => ⟨_, rfl⟩
      | done =>
        simp only at h3
        obtain ⟨_, rfl⟩ := h3
        exact Or.inl ⟨_, rfl⟩

theorem waiting_stopping (s s' : State) (h : Waiting s) (hs : s.step .stop = some s') :
    s'.back ∨ (Stopping s' ∧ s'.rank ≤ 7) := by
  obtain ⟨wNil, closed, tok, eBuf, eClosed, fNil, worker, stop⟩ := s
  obtain ⟨h1, h2, h3, h4, h5, h6⟩ := h
  simp only at h1 h2 h3 h4 h5 h6
  subst h1 h2 h3 h4 h5 h6
  simp only [State.step, State.stepStop, Bool.or_false] at hs
  split_ifs at hs
  · injection hs with hs; subst hs; exact Or.inl ⟨_, rfl⟩
  · injection hs with hs; subst hs
    exact Or.inr ⟨⟨rfl, by simp, rfl, rfl⟩, by simp [State.rank, WPc.rank, SPc.rank]⟩

theorem run_rank (l : List Act) : ∀ (s s' : State), Stopping s → s.run l = some s' →
    Stopping s' ∧ s'.rank + l.length ≤ s.rank := by
  induction l with
  | nil => intro s s' h hr; injection hr with hr; subst hr; exact ⟨h, by simp⟩
  | cons a l ih =>
    intro s s' h hr
    simp only [State.run, Option.bind_eq_some_iff] at hr
    obtain ⟨m, h1, h2⟩ := hr
    obtain ⟨g1, g2⟩ := stopping_step s m a h h1
    obtain ⟨g3, g4⟩ := ih m s' g1 h2
    exact ⟨g3, by rw [List.length_cons]; omega⟩

/-- **C47**: when `Stop` is called while the worker waits and no work is pending, then
whatever the schedule and whether or not the last work fails, at most seven more steps
follow, and the goroutines only come to rest once `Stop` has returned. -/
theorem stop_returns_partial (s s1 s' : State) (l : List Act) (h : Waiting s) (h1 : s.step .stop = some s1)
    (hr : s1.run l = some s') :
    s'.back ∨ (l.length ≤ 7 ∧ ((∃ s'', s'.step .stop = some s'') ∨ ∀ f, ∃ s'', s'.step (.worker f) = some s'')) := by
  rcases waiting_stopping s s1 h h1 with hb | ⟨hs, hk⟩
  · left
    have key : ∀ (l : List Act) (s s' : State), s.back → s.run l = some s' → s'.back := by
      intro l
      induction l with
      | nil => intro s s' hb hr; injection hr with hr; subst hr; exact hb
      | cons a l ih =>
        intro s s' hb hr
        simp only [State.run, Option.bind_eq_some_iff] at hr
        obtain ⟨m, h1, h2⟩ := hr
        refine ih m s' ?_ h2
        obtain ⟨e, he⟩ := hb
        cases a with
        | stop => simp [State.step, State.stepStop, he] at h1
        | notify => simp [State.step, State.notify, he] at h1
        | worker f =>
          refine ⟨e, ?_⟩
          simp only [State.step, State.stepWorker] at h1
          split at h1
          · injection h1 with h1; subst h1; exact he
          · cases h1
          · split_ifs at h1
            · injection h1 with h1; subst h1; exact he
            · injection h1 with h1; subst h1; exact he
          · split_ifs at h1
            · injection h1 with h1; subst h1; exact he
            · injection h1 with h1; subst h1; exact he
            · injection h1 with h1; subst h1; exact he
          · split_ifs at h1
            injection h1 with h1; subst h1; exact he
          · injection h1 with h1; subst h1; exact he
          · cases h1
    exact key l s1 s' hb hr
  · obtain ⟨g1, g2⟩ := run_rank l s1 s' hs hr
    by_cases hb : s'.back
    · exact Or.inl hb
    · exact Or.inr ⟨by omega, stopping_progress s' g1 hb⟩

/-- A worker that has just waited, stopped while its last work fails. -/
example : Waiting { worker := .recv false } ∧ ∃ s, ({ worker := .recv false } : State).run
    [.stop, .stop, .worker true, .stop, .worker true, .worker true, .stop] = some s ∧ s.stop = .returned true :=
  ⟨⟨rfl, rfl, rfl, rfl, rfl, rfl⟩, _, rfl, by decide⟩

/-! ### `Stop` may hang -/

/-- Both goroutines wait for ever. -/
def Hung (s : State) : Prop :=
  s.worker = .recv true ∧ s.stop = .waiting ∧ s.eBuf = false ∧ s.eClosed = false

theorem hung_forever (l : List Act) : ∀ (s s' : State), Hung s → s.run l = some s' → s' = s ∧ l = [] := by
  intro s s' h hr
  cases l with
  | nil => injection hr with hr; exact ⟨hr.symm, rfl⟩
  | cons a l =>
    obtain ⟨h1, h2, h3, h4⟩ := h
    exfalso
    cases a with
    | worker f => simp [State.run, State.step, State.stepWorker, h1] at hr
    | stop => simp [State.run, State.step, State.stepStop, h2, h3, h4] at hr
    | notify => simp [State.run, State.step, State.notify, h2] at hr

/-- Negation for **C47**: if `Stop` gets as far as clearing `core.w` before the worker comes
to receive again (having just started, or being at work), both wait for ever: the worker
on a nil channel, `Stop` for the worker. -/
theorem stop_hangs (s s' : State) (hw : s.worker = .eval) (hs : s.stop = .waiting) (hn : s.wNil = true)
    (he : s.eBuf = false) (hc : s.eClosed = false) (f : Bool) (h1 : s.step (.worker f) = some s') :
    Hung s' ∧ ∀ l s'', s'.run l = some s'' → s'' = s' ∧ l = [] := by
  have hh : Hung s' := by
    simp only [State.step, State.stepWorker, hw] at h1
    injection h1 with h1; subst h1
    exact ⟨by rw [hn], hs, he, hc⟩
  exact ⟨hh, fun l s'' hr => hung_forever l s' s'' hh hr⟩

/-- Negation for **C47**: a schedule from the start of a worker after which `Stop` never
returns; there is no work and nothing fails. -/
theorem stop_hangs_at_start : ∃ l s, ({} : State).run l = some s ∧ Hung s ∧
    ∀ l' s'', s.run l' = some s'' → s'' = s ∧ l' = [] := by
  refine ⟨[.stop, .stop, .stop, .worker false], _, rfl, ⟨rfl, rfl, rfl, rfl⟩, ?_⟩
  exact fun l s'' hr => hung_forever l _ s'' ⟨rfl, rfl, rfl, rfl⟩ hr

/-- Negation for **C47**: the same after one notification, with the worker waiting when it
came: `Stop` right after `Notify` hangs whenever it is quicker than the worker. -/
theorem stop_hangs_after_notify : ∃ l s, ({ worker := .recv false } : State).run l = some s ∧ Hung s ∧
    ∀ l' s'', s.run l' = some s'' → s'' = s ∧ l' = [] := by
  refine ⟨[.notify, .stop, .stop, .stop, .worker false, .worker false, .worker false], _, rfl,
    ⟨rfl, rfl, rfl, rfl⟩, ?_⟩
  exact fun l s'' hr => hung_forever l _ s'' ⟨rfl, rfl, rfl, rfl⟩ hr

/-- After the file has been taken away (`SetFile(nil)`), `Stop` returns at once, and leaves
the worker as it is. -/
theorem stop_no_file (s : State) (h : s.fNil = true) (hi : s.stop = .idle) :
    s.step .stop = some { s with stop := .returned false } := by
  simp [State.step, State.stepStop, h, hi]

end Bg
end Anansi
