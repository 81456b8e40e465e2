import Verif.Model.Suspend
/-
C106: suspending the process.
-/
set_option autoImplicit false

namespace Anansi.Susp

/-- The results of the call. -/
def St.result (s : St) : Option (Option Call) := match s.pc with | .done r => some r | _ => none

/-- Whether a call went well. -/
def Env.ok (v : Env) : Call → Bool
  | .exit => v.exitOk
  | .kill => v.killOk
  | .enter => v.enterOk

/-- What holds between the steps. -/
structure Inv (v : Env) (a : Bool) (s : St) : Prop where
  before : s.stops = 0 → s.stopped = false ∧ s.conts = 0
  stopped : s.stopped = true → s.pc = .recv ∧ s.entered = false ∧ s.active = false
  cont : s.stops ≠ 0 → s.stopped = false → s.conts ≠ 0
  at_ : match s.pc with
    | .start => s.stops = 0 ∧ s.active = a ∧ s.entered = a ∧ s.registered = false ∧ s.wrapped = false
    | .exit => s.stops = 0 ∧ s.active = true ∧ a = true ∧ s.entered = true ∧ s.registered = false ∧ s.wrapped = true
    | .notify => s.stops = 0 ∧ s.active = false ∧ s.entered = false ∧ s.registered = false ∧ s.wrapped = a
    | .kill => s.stops = 0 ∧ s.active = false ∧ s.entered = false ∧ s.registered = true ∧ s.wrapped = a
    | .recv => s.stops = 1 ∧ s.active = false ∧ s.entered = false ∧ s.registered = true ∧ s.wrapped = a
    | .blocked => s.stops = 1 ∧ s.active = false ∧ s.entered = false ∧ s.registered = true ∧ s.wrapped = a
    | .stop r => s.stops = (if r = none then 1 else 0) ∧ s.active = false ∧ s.entered = false ∧ s.wrapped = a ∧
        (r ≠ none → r = some .kill ∧ v.killOk = false)
    | .enter => s.stops = 1 ∧ s.active = false ∧ s.entered = false ∧ s.registered = false ∧ a = true
    | .done none => s.stops = 1 ∧ s.active = a ∧ s.entered = a ∧ s.registered = false
    | .done (some .exit) => s.stops = 0 ∧ s.active = true ∧ a = true ∧ s.entered = false ∧ s.registered = false ∧ v.exitOk = false
    | .done (some .kill) => s.stops = 0 ∧ s.active = false ∧ s.entered = false ∧ s.registered = false ∧ v.killOk = false
    | .done (some .enter) => s.stops = 1 ∧ s.active = false ∧ a = true ∧ s.entered = false ∧ s.registered = false ∧ v.enterOk = false

theorem inv_init (v : Env) (a : Bool) : Inv v a (init a) :=
  ⟨fun _ => ⟨rfl, rfl⟩, fun h => by simp [init] at h, fun h => absurd rfl h, ⟨rfl, rfl, rfl, rfl, rfl⟩⟩

theorem inv_go (v : Env) (a : Bool) (s : St) (i : Inv v a s) (hs : s.stopped = false) : Inv v a (s.go v) := by
  obtain ⟨i1, i2, i3, i4⟩ := i
  obtain ⟨pc, active, entered, wrapped, registered, stopped, pending, stops, conts⟩ := s
  simp only at *
  subst hs
  cases pc with
  | start =>
    obtain ⟨h1, h2, h3, h4, h5⟩ := i4
    cases active <;> exact ⟨by simpa [St.go] using i1, by simp [St.go], by simpa [St.go] using i3, by simp_all [St.go]⟩
  | exit =>
    obtain ⟨h1, h2, h3, h4, h5, h6⟩ := i4
    cases hv : v.exitOk <;> exact ⟨by simpa [St.go, hv] using i1, by simp [St.go, hv], by simpa [St.go, hv] using i3, by simp_all [St.go]⟩
  | notify =>
    exact ⟨by simpa [St.go] using i1, by simp [St.go], by simpa [St.go] using i3, by simp_all [St.go]⟩
  | kill =>
    cases hv : v.killOk
    · exact ⟨by simpa [St.go, hv] using i1, by simp [St.go, hv], by simpa [St.go, hv] using i3, by simp_all [St.go]⟩
    · exact ⟨by simp [St.go, hv], by simp_all [St.go], by simp [St.go, hv], by simp_all [St.go]⟩
  | recv =>
    exact ⟨by simpa [St.go] using i1, by simp [St.go], by simpa [St.go] using i3, by simp_all [St.go]⟩
  | blocked => exact ⟨i1, i2, i3, i4⟩
  | stop r =>
    obtain ⟨h1, h2, h3, h4, h5⟩ := i4
    cases r with
    | none =>
      cases wrapped <;> exact ⟨by simpa [St.go] using i1, by simp [St.go], by simpa [St.go] using i3, by simp_all [St.go]⟩
    | some c =>
      obtain ⟨h6, h7⟩ := h5 (by simp)
      cases h6
      exact ⟨by simpa [St.go] using i1, by simp [St.go], by simpa [St.go] using i3, by simp_all [St.go]⟩
  | enter =>
    cases hv : v.enterOk <;> exact ⟨by simpa [St.go, hv] using i1, by simp [St.go, hv], by simpa [St.go, hv] using i3, by simp_all [St.go]⟩
  | done r => exact ⟨i1, i2, i3, i4⟩

theorem inv_step (v : Env) (a : Bool) (s : St) (x : Step) (i : Inv v a s) : Inv v a (s.step v x) := by
  cases x with
  | go =>
    unfold St.step
    cases hs : s.stopped
    · simpa [hs] using inv_go v a s i hs
    · simpa [hs] using i
  | cont =>
    obtain ⟨i1, i2, i3, i4⟩ := i
    refine ⟨fun h => ⟨rfl, ?_⟩, by simp [St.step], fun h _ => ?_, ?_⟩
    · have : s.stops = 0 := h
      simp [St.step, this]
    · have : s.stops ≠ 0 := h
      simp [St.step, this]
    · exact i4
  | deliver =>
    unfold St.step
    simp only
    split
    · exact i
    · rename_i h
      obtain ⟨i1, i2, i3, i4⟩ := i
      split
      · rename_i h'
        obtain ⟨h1, h2⟩ := h'
        rw [h2] at i4
        refine ⟨i1, fun hs => absurd (Or.inl hs) h, i3, ?_⟩
        simp_all
      · exact ⟨i1, i2, i3, i4⟩

theorem inv_steps (v : Env) (a : Bool) (l : List Step) : ∀ s, Inv v a s → Inv v a (s.steps v l) := by
  induction l with
  | nil => intro s i; exact i
  | cons x l ih => intro s i; exact ih _ (inv_step v a s x i)

/-- **C106**: in every execution: the process is stopped only after the terminal was left; without
an error the call returns only after the process was stopped, once, and continued, and the
terminal is then as it was before; whatever it returns, no signals are sent to its channel any
more. -/
theorem suspend_safe (v : Env) (a : Bool) (l : List Step) :
    let s := (init a).steps v l
    (s.stopped = true → s.entered = false ∧ s.active = false) ∧ s.stops ≤ 1 ∧
    (s.result = some none → s.stops = 1 ∧ s.stopped = false ∧ 1 ≤ s.conts ∧ s.active = a ∧ s.entered = a) ∧
    (s.result ≠ none → s.registered = false) := by
  have i := inv_steps v a l (init a) (inv_init v a)
  generalize (init a).steps v l = s at i
  obtain ⟨i1, i2, i3, i4⟩ := i
  simp only
  refine ⟨fun h => (i2 h).2, ?_, ?_, ?_⟩
  · split at i4
    · omega
    · omega
    · omega
    · omega
    · omega
    · omega
    · have := i4.1
      split at this <;> omega
    all_goals omega
  · intro h
    unfold St.result at h
    split at h
    · rename_i r hr
      cases h
      rw [hr] at i4
      have hs : s.stopped = false := by
        cases hc : s.stopped
        · rfl
        · have := (i2 hc).1
          rw [hr] at this
          cases this
      exact ⟨i4.1, hs, Nat.one_le_iff_ne_zero.2 (i3 (by omega) hs), i4.2.1, i4.2.2.1⟩
    · simp at h
  · intro h
    unfold St.result at h
    split at h
    · rename_i r hr
      rw [hr] at i4
      split at i4 <;> simp_all
    · simp at h

/-- **C106**, errors: when leaving the terminal or the signal fails, the process is not stopped;
the call fails only when one of its calls does. -/
theorem suspend_errors (v : Env) (a : Bool) (l : List Step) (e : Call) (h : ((init a).steps v l).result = some (some e)) :
    v.ok e = false ∧
    ((init a).steps v l).stops = (if e = .enter then 1 else 0) := by
  have i := (inv_steps v a l (init a) (inv_init v a)).at_
  generalize (init a).steps v l = s at i h
  unfold St.result at h
  split at h
  · rename_i r hr
    cases h
    rw [hr] at i
    cases e <;> simp_all [Env.ok]
  · simp at h

/-- **C106**, the return, when the signal comes while the goroutine waits for it.  Missing: the
signal coming before, where it is false (`wakeup_lost`). -/
theorem suspend_returns_partial (v : Env) (a : Bool) (l : List Step) (hb : ((init a).steps v l).pc = .blocked) :
    ((init a).steps v (l ++ [.cont, .deliver, .go, .go])).result = some (if a = true ∧ v.enterOk = false then some .enter else none) := by
  have i := inv_steps v a l (init a) (inv_init v a)
  unfold St.steps at *
  rw [List.foldl_append]
  generalize (init a).1 = x at *
  generalize List.foldl (St.step v) _ l = s at *
  obtain ⟨i1, i2, i3, i4⟩ := i
  rw [hb] at i4
  obtain ⟨h1, h2, h3, h4, h5⟩ := i4
  simp only [List.foldl, St.step, hb, h4]
  simp only [St.go, h5]
  cases a <;> cases hv : v.enterOk <;> simp [St.result, hv]

/-- **C106 fails**: when the signal is handed on before the goroutine has come to the receive,
it is lost: the process runs, but the call never returns, whatever happens, until somebody sends
the signal once more. -/
theorem wakeup_lost (a : Bool) (more : List Step) (hm : Step.cont ∉ more) :
    let first : List Step := (if a then [.go] else []) ++ [.go, .go, .go, .cont, .deliver]
    let s := (init a).steps {} (first ++ more)
    s.stops = 1 ∧ s.conts = 1 ∧ s.stopped = false ∧ s.result = none := by
  have key : ∀ (more : List Step), Step.cont ∉ more → ∀ s : St, (s.pc = .recv ∨ s.pc = .blocked) → s.pending = false → s.stopped = false →
      s.stops = 1 → s.conts = 1 →
      let t := s.steps {} more
      t.stops = 1 ∧ t.conts = 1 ∧ t.stopped = false ∧ t.result = none := by
    intro more
    induction more with
    | nil =>
      intro _ s h1 h2 h3 h4 h5
      refine ⟨h4, h5, h3, ?_⟩
      unfold St.steps St.result
      rcases h1 with h | h <;> simp [h]
    | cons x l ih =>
      intro hm s h1 h2 h3 h4 h5
      have hl : Step.cont ∉ l := fun hc => hm (by simp [hc])
      show let t := (s.step {} x).steps {} l; t.stops = 1 ∧ t.conts = 1 ∧ t.stopped = false ∧ t.result = none
      cases x with
      | cont => simp at hm
      | go =>
        apply ih hl
        · rcases h1 with h | h <;> simp [St.step, h3, St.go, h]
        · rcases h1 with h | h <;> simp [St.step, h3, St.go, h, h2]
        · rcases h1 with h | h <;> simp [St.step, h3, St.go, h]
        · rcases h1 with h | h <;> simp [St.step, h3, St.go, h, h4]
        · rcases h1 with h | h <;> simp [St.step, h3, St.go, h, h5]
      | deliver =>
        have : s.step {} .deliver = s := by simp [St.step, h2]
        rw [this]
        exact ih hl s h1 h2 h3 h4 h5
  simp only
  unfold St.steps
  rw [List.foldl_append]
  apply key more hm <;> cases a <;> simp [init, St.step, St.go]

/-- **C106 fails**: when the signal cannot be sent, the call fails and leaves the terminal left. -/
theorem failed_kill_leaves : ((init true).steps { killOk := false } [.go, .go, .go, .go, .go]).result = some (some .kill) ∧
    ((init true).steps { killOk := false } [.go, .go, .go, .go, .go]).entered = false := by decide

example : ((init true).steps {} [.go, .go, .go, .go]).stopped = true := by decide

example : ((init true).steps {} [.go, .go, .go, .go, .cont, .go]).pc = .blocked := by decide

example : ((init true).steps {} [.go, .go, .go, .go, .cont, .go, .deliver, .go, .go]).result = some none := by decide

end Anansi.Susp
