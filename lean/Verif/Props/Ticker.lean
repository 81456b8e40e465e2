import Verif.Model.Ticker
/-
C89: waiting for the next frame.
-/
set_option autoImplicit false

namespace Anansi
namespace Tik

/-- The duration, or if it is zero that of sixty frames a second. -/
def Spec.duration (d : Nat) : Nat := if d = 0 then 1000000000 / 60 else d

/-- What is always so. -/
structure Inv (k : Ticker) : Prop where
  both : k.t.isSome = k.c.isSome
  going : ∀ x, x ∈ k.going ↔ k.t = some x.1 ∧ x.2 = k.d
  one : k.going.length ≤ 1
  old_t : ∀ n, k.t = some n → n < k.tickers
  ticks : ∀ x ∈ k.ticks, x.1 < k.tickers
  open_ : ∀ n, k.c = some n → n < k.chans ∧ n ∉ k.closed
  closed : ∀ n, n ∈ k.closed → n < k.chans
  shut : ∀ n, n < k.chans → n ∈ k.closed ∨ k.c = some n

theorem exit_inv (k : Ticker) (i : Inv k) : Inv k.exit ∧ k.exit.t = none ∧ k.exit.c = none ∧ k.exit.tickers = k.tickers ∧
    k.exit.chans = k.chans ∧ k.exit.d = k.d ∧ k.exit.ticks = k.ticks ∧ k.exit.going = [] := by
  obtain ⟨b, g, o, ot, tk, op, cl, sh⟩ := i
  have hgo : ∀ n, k.t = some n → k.going.filter (fun x => x.1 ≠ n) = [] := by
    intro n hn
    rw [List.filter_eq_nil_iff]
    intro x hx
    have := ((g x).1 hx).1
    rw [hn] at this
    simp at this
    simp [this]
  cases ht : k.t with
  | none =>
    cases hc : k.c with
    | none =>
      have e : k.exit = k := by unfold Ticker.exit; simp only [ht, hc]
      have hg : k.going = [] := by
        apply List.eq_nil_iff_forall_not_mem.2
        intro x hx
        have := ((g x).1 hx).1
        rw [ht] at this; simp at this
      rw [e]
      exact ⟨⟨b, g, o, ot, tk, op, cl, sh⟩, ht, hc, rfl, rfl, rfl, rfl, hg⟩
    | some m => rw [ht, hc] at b; simp at b
  | some n =>
    cases hc : k.c with
    | none => rw [ht, hc] at b; simp at b
    | some m =>
      have e : k.exit = { k with going := [], t := none, closed := m :: k.closed, c := none } := by
        unfold Ticker.exit
        simp only [ht, hc, hgo n ht]
      rw [e]
      refine ⟨⟨rfl, by simp, by simp, by simp, tk, by simp, ?_, ?_⟩, rfl, rfl, rfl, rfl, rfl, rfl, rfl⟩
      · intro j hj
        rcases List.mem_cons.1 hj with rfl | hj
        · exact (op _ hc).1
        · exact cl j hj
      · intro j hj
        left
        rcases sh j hj with h | h
        · exact List.mem_cons_of_mem _ h
        · rw [hc] at h
          simp at h
          simp [h]

theorem enter_inv (k : Ticker) (i : Inv k) : Inv k.enter ∧ k.enter.t = some k.tickers ∧ k.enter.c = some k.chans ∧
    k.enter.d = Spec.duration k.d ∧ k.enter.tickers = k.tickers + 1 ∧ k.enter.chans = k.chans + 1 ∧
    k.enter.going = [(k.tickers, Spec.duration k.d)] ∧ k.enter.closed = k.exit.closed ∧ k.enter.ticks = k.ticks := by
  obtain ⟨⟨b, g, o, ot, tk, op, cl, sh⟩, h1, h2, h3, h4, h5, h6, h7⟩ := exit_inv k i
  have e : k.enter = ⟨Spec.duration k.d, some k.tickers, some k.chans, k.tickers + 1, k.chans + 1,
      [(k.tickers, Spec.duration k.d)], k.exit.closed, k.exit.ticks⟩ := by
    unfold Ticker.enter
    simp only [h5]
    by_cases hd : k.d = 0
    · simp only [if_pos hd, h3, h4, h7, Spec.duration, defaultTick]
    · simp only [if_neg hd, h3, h4, h5, h7, Spec.duration]
  rw [e]
  refine ⟨⟨rfl, ?_, by simp, ?_, ?_, ?_, ?_, ?_⟩, rfl, rfl, rfl, rfl, rfl, rfl, rfl, h6⟩
  · rintro ⟨x, y⟩
    simp only [List.mem_singleton, Prod.mk.injEq, Option.some.injEq]
    constructor
    · rintro ⟨rfl, rfl⟩; exact ⟨rfl, rfl⟩
    · rintro ⟨rfl, rfl⟩; exact ⟨rfl, rfl⟩
  · intro n hn; simp only [Option.some.injEq] at hn ⊢; omega
  · intro x hx; have := tk x hx; rw [h3] at this; simp only; omega
  · intro n hn
    simp only [Option.some.injEq] at hn ⊢
    subst hn
    refine ⟨by omega, ?_⟩
    intro h
    have := cl _ h
    rw [h4] at this
    omega
  · intro n hn; have := cl n hn; rw [h4] at this; simp only; omega
  · intro n hn
    simp only at hn ⊢
    by_cases h : n = k.chans
    · right; rw [h]
    · left
      rcases sh n (by rw [h4]; omega) with h | h
      · exact h
      · rw [h2] at h; simp at h

theorem op_inv (k : Ticker) (x : Op) (i : Inv k) : Inv (k.op x) := by
  cases x with
  | enter => exact (enter_inv k i).1
  | exit => exact (exit_inv k i).1
  | fire n t =>
    simp only [Ticker.op, Ticker.fire]
    split
    · rename_i h
      obtain ⟨b, g, o, ot, tk, op, cl, sh⟩ := i
      refine ⟨b, g, o, ot, ?_, op, cl, sh⟩
      intro x hx
      rcases List.mem_cons.1 hx with rfl | hx
      · obtain ⟨y, h1, h2⟩ := List.mem_map.1 h.1
        have := ((g y).1 h1).1
        rw [h2] at this
        exact ot _ this
      · exact tk x hx
    · exact i

theorem run_inv (l : List Op) : ∀ k : Ticker, Inv k → Inv (k.run l) := by
  induction l with
  | nil => intro k i; exact i
  | cons x l ih => intro k i; exact ih _ (op_inv k x i)

theorem init_inv (d : Nat) : Inv { d := d } := by
  refine ⟨rfl, by simp, by simp, by simp, by simp, by simp, by simp, by simp⟩

/-- **C89**: after any history at most one ticker is going: the one of the context, with its
duration, or after leaving it none. -/
theorem one_ticker (d : Nat) (l : List Op) :
    (({ d := d } : Ticker).run (l ++ [.exit])).going = [] ∧
    ∃ n, (({ d := d } : Ticker).run (l ++ [.enter])).going = [(n, Spec.duration d)] ∧
      (({ d := d } : Ticker).run (l ++ [.enter])).t = some n := by
  have hd : ∀ (l : List Op) (k : Ticker), Inv k → Spec.duration (k.run l).d = Spec.duration k.d := by
    intro l
    induction l with
    | nil => intro k _; rfl
    | cons x l ih =>
      intro k i
      have e : k.run (x :: l) = (k.op x).run l := rfl
      rw [e, ih _ (op_inv k x i)]
      cases x with
      | enter =>
        simp only [Ticker.op]
        rw [(enter_inv k i).2.2.2.1]
        by_cases h : k.d = 0
        · simp [h, Spec.duration]
        · simp [h, Spec.duration]
      | exit => simp only [Ticker.op]; rw [(exit_inv k i).2.2.2.2.2.1]
      | fire n t =>
        simp only [Ticker.op, Ticker.fire]
        split <;> rfl
  have i := run_inv l { d := d } (init_inv d)
  have e : ∀ x, ({ d := d } : Ticker).run (l ++ [x]) = (({ d := d } : Ticker).run l).op x := by
    intro x; simp [Ticker.run]
  rw [e, e]
  refine ⟨(exit_inv _ i).2.2.2.2.2.2.2, _, ?_, (enter_inv _ i).2.1⟩
  simp only [Ticker.op]
  rw [(enter_inv _ i).2.2.2.2.2.2.1, hd l _ (init_inv d)]

theorem closed_run (n : Nat) (l : List Op) : ∀ k : Ticker, Inv k → n ∈ k.closed → n ∈ (k.run l).closed := by
  induction l with
  | nil => intro k _ h; exact h
  | cons x l ih =>
    intro k i h
    apply ih _ (op_inv k x i)
    have hx : n ∈ k.exit.closed := by
      unfold Ticker.exit
      split
      · simp only
        split
        · exact List.mem_cons_of_mem _ h
        · exact h
      · simp only
        split
        · exact List.mem_cons_of_mem _ h
        · exact h
    cases x with
    | enter => simp only [Ticker.op]; rw [(enter_inv k i).2.2.2.2.2.2.2.1]; exact hx
    | exit => exact hx
    | fire m t =>
      simp only [Ticker.op, Ticker.fire]
      split <;> exact h

theorem exit_closes (k : Ticker) (n : Nat) (h : k.c = some n) : n ∈ k.exit.closed := by
  unfold Ticker.exit
  split
  · simp only [h, List.mem_cons, true_or]
  · simp only [h, List.mem_cons, true_or]

theorem ticks_from (x : Nat × Nat) (l : List Op) : ∀ (k : Ticker), Inv k → x ∈ (k.run l).ticks → x ∈ k.ticks ∨ Op.fire x.1 x.2 ∈ l := by
  induction l with
  | nil => intro k _ h; exact Or.inl h
  | cons y l ih =>
    intro k i h
    have er : k.run (y :: l) = (k.op y).run l := rfl
    rw [er] at h
    rcases ih _ (op_inv k y i) h with h | h
    · cases y with
      | enter => left; simp only [Ticker.op] at h; rwa [(enter_inv k i).2.2.2.2.2.2.2.2] at h
      | exit => left; simp only [Ticker.op] at h; rwa [(exit_inv k i).2.2.2.2.2.2.1] at h
      | fire m t =>
        simp only [Ticker.op, Ticker.fire] at h
        split at h
        · rcases List.mem_cons.1 h with h | h
          · right; rw [h]; simp
          · exact Or.inl h
        · exact Or.inl h
    · right; simp [h]

/-- **C89**: a wait begun while the ticker is active can return the zero time just when it has been
left, or entered anew, since (no tick has the zero time); and it still can later. -/
theorem wait_ends_iff (d : Nat) (before l : List Op) (ha : (({ d := d } : Ticker).run before).t.isSome = true)
    (hz : ∀ n, Op.fire n 0 ∉ before ∧ Op.fire n 0 ∉ l) :
    let k := ({ d := d } : Ticker).run before
    0 ∈ k.wait.ready (k.run l) ↔ (Op.exit ∈ l ∨ Op.enter ∈ l) := by
  intro k
  have i : Inv k := run_inv before _ (init_inv d)
  have hc : k.c.isSome = true := by rw [← i.both]; exact ha
  obtain ⟨n, hn⟩ := Option.isSome_iff_exists.1 hc
  have hno : ∀ x ∈ (k.run l).ticks, x.2 ≠ 0 := by
    rintro ⟨m, t⟩ hx rfl
    rcases ticks_from _ l k i hx with h | h
    · rcases ticks_from _ before _ (init_inv d) h with h | h
      · simp at h
      · exact (hz m).1 h
    · exact (hz m).2 h
  have e : (0 ∈ k.wait.ready (k.run l)) ↔ n ∈ (k.run l).closed := by
    simp only [Wait.ready, Ticker.wait, hn, List.mem_append]
    constructor
    · rintro (h | h)
      · split at h
        · obtain ⟨x, h1, h2⟩ := List.mem_map.1 h
          exact absurd h2 (hno x (List.mem_filter.1 h1).1)
        · simp at h
      · split at h
        · assumption
        · simp at h
    · intro h
      right
      rw [if_pos h]
      simp
  rw [e]
  clear e ha hc hno hz
  clear_value k
  induction l generalizing k with
  | nil =>
    simp only [Ticker.run, List.foldl_nil, List.not_mem_nil, or_self, iff_false]
    exact (i.open_ n hn).2
  | cons x l ih =>
    have er : k.run (x :: l) = (k.op x).run l := rfl
    rw [er]
    cases x with
    | enter =>
      simp only [List.mem_cons, true_or, or_true, iff_true]
      apply closed_run _ _ _ (enter_inv k i).1
      rw [(enter_inv k i).2.2.2.2.2.2.2.1]
      exact exit_closes k n hn
    | exit =>
      simp only [List.mem_cons, true_or, iff_true]
      exact closed_run _ _ _ (exit_inv k i).1 (exit_closes k n hn)
    | fire m t =>
      have hf : (k.op (.fire m t)).c = some n := by
        simp only [Ticker.op, Ticker.fire]
        split <;> exact hn
      exact (ih _ (op_inv k _ i) hf).trans (by simp)

/-- **C89**: a wait returns no other times than those its ticker has put into its channel while it
was going. -/
theorem wait_times (d : Nat) (before l : List Op) (time : Nat) (ht : time ≠ 0) :
    let k := ({ d := d } : Ticker).run before
    time ∈ k.wait.ready (k.run l) → ∃ n, k.t = some n ∧ (Op.fire n time ∈ before ∨ Op.fire n time ∈ l) := by
  intro k h
  unfold Wait.ready at h
  rcases List.mem_append.1 h with h | h
  · simp only [Ticker.wait] at h
    cases hn : k.t with
    | none => rw [hn] at h; simp at h
    | some n =>
      rw [hn] at h
      refine ⟨n, rfl, ?_⟩
      obtain ⟨x, hx, rfl⟩ := List.mem_map.1 h
      rw [List.mem_filter] at hx
      obtain ⟨h1, h2⟩ := hx
      simp only [decide_eq_true_eq] at h2
      have i := run_inv before { d := d } (init_inv d)
      rcases ticks_from x l k i h1 with h | h
      · rcases ticks_from x before { d := d } (init_inv d) h with h | h
        · simp at h
        · left; rw [← h2]; exact h
      · right; rw [← h2]; exact h
  · split at h
    · split at h
      · simp only [List.mem_singleton] at h; exact absurd h ht
      · simp at h
    · simp at h

/-- Entered; a tick comes; left. -/
example : let k := ({} : Ticker).run [.enter]
    k.wait.ready k = [] ∧ k.wait.ready (k.run [.fire 0 7]) = [7] ∧ k.wait.ready (k.run [.exit]) = [0] := by decide +kernel

/-- Negation for **C89**: a wait begun when the ticker is not active (never entered, or left) returns
never, whatever happens later; it should return the zero time. -/
theorem inactive_wait_hangs (d : Nat) (before l : List Op) :
    let k := ({ d := d } : Ticker).run (before ++ [.exit])
    k.wait.ready (k.run l) = [] ∧ (({ d := d } : Ticker).wait.ready (({ d := d } : Ticker).run l)) = [] := by
  intro k
  have e : k = (({ d := d } : Ticker).run before).exit := by simp [k, Ticker.run, Ticker.op]
  obtain ⟨_, h1, h2, _⟩ := exit_inv _ (run_inv before _ (init_inv d))
  refine ⟨?_, rfl⟩
  unfold Wait.ready Ticker.wait
  rw [e, h1, h2]
  rfl

end Tik
end Anansi
