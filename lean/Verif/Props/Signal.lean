import Verif.Model.Signal
import Mathlib.Tactic.SplitIfs
/-
C46 Signals never block the sender.
-/
set_option autoImplicit false

namespace Anansi
namespace Sig

/-- A goroutine has something left to do. -/
def Thread.busy (t : Thread) : Prop := t.pc ≠ .idle ∨ t.todo ≠ []

/-- The steps a goroutine still has to make. -/
def Thread.left (t : Thread) : Nat :=
  3 * t.todo.length + (match t.pc with
    | .idle => 0
    | .tryOn _ _ => 1
    | .try _ => 2
    | _ => 3)

/-- A goroutine that is not making a channel. -/
def Thread.Plain (k : Nat) (t : Thread) : Prop :=
  match t.pc with
  | .idle => True
  | .try _ => True
  | .tryOn (some k') _ => k' = k
  | _ => False

/-- The channel `k` is in use. -/
structure Opened (k : Nat) (s : State) : Prop where
  c : s.c = some k
  chan : ∃ ch, s.chans[k]? = some ch ∧ 1 ≤ ch.cap
  plain : ∀ t ∈ s.threads, t.Plain k

/-- What is buffered in channel `k`. -/
def State.bufOf (s : State) (k : Nat) : List Msg := ((s.chans[k]?).map (·.buf)).getD []

/-- The message an action offers to channel `k`. -/
def offer (s : State) (k : Nat) : Act → Option Msg
  | .deliver k' m => if k' = k then some m else none
  | .thread i =>
    match s.threads[i]? with
    | some { pc := .tryOn (some k') m, .. } => if k' = k then some m else none
    | _ => none
  | _ => none

/-- The messages offered to channel `k` during a schedule. -/
def offers (s : State) (k : Nat) : List Act → List Msg
  | [] => []
  | a :: l => (offer s k a).toList ++ (match s.step a with
    | some s' => offers s' k l
    | none => [])

theorem trySend_c (s : State) (k : Nat) (m : Msg) : (s.trySend k m).c = s.c ∧ (s.trySend k m).threads = s.threads ∧
    (s.trySend k m).got = s.got := by
  unfold State.trySend
  split
  · split_ifs <;> exact ⟨rfl, rfl, rfl⟩
  · exact ⟨rfl, rfl, rfl⟩

theorem trySend_other (s : State) (k k' : Nat) (m : Msg) (h : k' ≠ k) :
    (s.trySend k' m).chans[k]? = s.chans[k]? := by
  unfold State.trySend
  split
  · split_ifs
    · exact List.getElem?_set_ne h
    · rfl
  · rfl

theorem trySend_self (s : State) (k : Nat) (m : Msg) (ch : Chan) (h : s.chans[k]? = some ch) :
    (s.trySend k m).chans[k]? =
      some (if ch.buf.length < ch.cap then { ch with buf := ch.buf ++ [m] } else ch) := by
  unfold State.trySend
  rw [h]
  simp only
  split_ifs
  · exact List.getElem?_set_self (List.getElem?_eq_some_iff.mp h).1
  · exact h

theorem trySend_chan (s : State) (k k' : Nat) (m : Msg) (ch : Chan) (h : s.chans[k]? = some ch) :
    ∃ ch', (s.trySend k' m).chans[k]? = some ch' ∧ ch'.cap = ch.cap := by
  by_cases hk : k' = k
  · subst hk
    refine ⟨_, trySend_self s k' m ch h, ?_⟩
    split_ifs <;> rfl
  · exact ⟨ch, (trySend_other s k k' m hk).trans h, rfl⟩

theorem mem_set {α : Type} (l : List α) (i : Nat) (a x : α) (h : x ∈ l.set i a) : x = a ∨ x ∈ l :=
  (List.mem_or_eq_of_mem_set h).symm

/-- What a step of the sending goroutine does when the channel is open. -/
theorem thread_step (s : State) (k i : Nat) (t : Thread) (h : Opened k s) (ht : s.threads[i]? = some t)
    (hb : t.busy) : ∃ s' t', s.stepThread i = some s' ∧ s'.threads = s.threads.set i t' ∧ t'.Plain k ∧
      t'.left + 1 = t.left ∧ s'.c = s.c ∧ s'.got = s.got ∧
      s'.chans = (match offer s k (.thread i) with
        | some m => (s.trySend k m).chans
        | none => s.chans) := by
  have hp := h.plain t (List.mem_of_getElem? ht)
  obtain ⟨todo, pc⟩ := t
  unfold State.stepThread
  simp only [offer]
  rw [ht]
  cases pc with
  | idle =>
    cases todo with
    | nil => exact absurd hb (by unfold Thread.busy; simp)
    | cons m r =>
      refine ⟨_, { todo := r, pc := .try m }, rfl, ?_, trivial, ?_, rfl, rfl, rfl⟩
      · simp [h.c]
      · simp [Thread.left]; omega
  | make m => exact absurd hp (by simp [Thread.Plain])
  | put m => exact absurd hp (by simp [Thread.Plain])
  | putOn q m => exact absurd hp (by simp [Thread.Plain])
  | «try» m =>
    refine ⟨_, { todo := todo, pc := .tryOn (some k) m }, rfl, ?_, rfl, ?_, rfl, rfl, rfl⟩
    · simp [h.c]
    · simp [Thread.left]
  | tryOn q m =>
    cases q with
    | none => exact absurd hp (by simp [Thread.Plain])
    | some k' =>
      have hk : k' = k := hp
      subst hk
      refine ⟨_, { todo := todo, pc := .idle }, rfl, ?_, trivial, ?_, ?_, ?_, ?_⟩
      · simp [(trySend_c s k' m).2.1]
      · simp [Thread.left]
      · exact (trySend_c s k' m).1
      · exact (trySend_c s k' m).2.2
      · simp

theorem not_busy_none (s : State) (i : Nat) (t : Thread) (ht : s.threads[i]? = some t) (hb : ¬ t.busy) :
    s.stepThread i = none := by
  unfold Thread.busy at hb
  rw [not_or, not_not, not_not] at hb
  unfold State.stepThread
  rw [ht]
  simp [hb.1, hb.2]

theorem recv_facts (s : State) (k : Nat) (ch : Chan) (hc : s.c = some k) (hk : s.chans[k]? = some ch) :
    s.recv.c = s.c ∧ s.recv.threads = s.threads ∧
    s.recv.got = s.got ++ ch.buf.take 1 ∧ s.recv.chans[k]? = some { ch with buf := ch.buf.drop 1 } := by
  unfold State.recv
  rw [hc]
  obtain ⟨n, buf⟩ := ch
  cases buf with
  | nil => simp [hk, hc]
  | cons m r =>
    simp only [hk]
    refine ⟨trivial, trivial, rfl, ?_⟩
    exact List.getElem?_set_self (List.getElem?_eq_some_iff.mp hk).1

/-- Everything but `Close` keeps the channel open, and adds an offered message if there
is room. -/
theorem step_opened (s s' : State) (k : Nat) (a : Act) (ch : Chan) (ha : a ≠ .close) (h : Opened k s)
    (hk : s.chans[k]? = some ch) (hs : s.step a = some s') :
    Opened k s' ∧ ∃ ch', s'.chans[k]? = some ch' ∧ ch'.cap = ch.cap ∧
      (if a = .recv then s'.got = s.got ++ ch.buf.take 1 ∧ ch'.buf = ch.buf.drop 1
       else s'.got = s.got ∧ ch'.buf = (match offer s k a with
        | some m => if ch.buf.length < ch.cap then ch.buf ++ [m] else ch.buf
        | none => ch.buf)) := by
  have hcap : 1 ≤ ch.cap := by
    obtain ⟨c', h1, h2⟩ := h.chan
    rw [hk] at h1; injection h1 with h1; subst h1; exact h2
  cases a with
  | close => exact absurd rfl ha
  | recv =>
    injection hs with hs; subst hs
    obtain ⟨r1, r2, r3, r4⟩ := recv_facts s k ch h.c hk
    refine ⟨⟨r1.trans h.c, ⟨_, r4, hcap⟩, fun t ht => h.plain t (r2 ▸ ht)⟩, _, r4, rfl, ?_⟩
    rw [if_pos rfl]; exact ⟨r3, rfl⟩
  | deliver k' m =>
    injection hs with hs; subst hs
    obtain ⟨t1, t2, t3⟩ := trySend_c s k' m
    obtain ⟨ch', c1, c2⟩ := trySend_chan s k k' m ch hk
    refine ⟨⟨t1.trans h.c, ⟨ch', c1, c2 ▸ hcap⟩, fun t ht => h.plain t (t2 ▸ ht)⟩, ch', c1, c2, ?_⟩
    rw [if_neg (by simp)]
    refine ⟨t3, ?_⟩
    simp only [offer]
    by_cases hkk : k' = k
    · subst hkk
      rw [if_pos rfl]
      rw [trySend_self s k' m ch hk] at c1
      injection c1 with c1
      subst c1
      simp only
      split_ifs <;> rfl
    · rw [if_neg hkk]
      rw [trySend_other s k k' m hkk, hk] at c1
      injection c1 with c1
      subst c1; rfl
  | thread i =>
    have hs : s.stepThread i = some s' := hs
    cases ht : s.threads[i]? with
    | none => unfold State.stepThread at hs; rw [ht] at hs; cases hs
    | some t =>
      by_cases hb : t.busy
      · obtain ⟨s1, t', e1, e2, e3, _, e5, e6, e7⟩ := thread_step s k i t h ht hb
        rw [hs] at e1; injection e1 with e1; subst e1
        have hpl : ∀ t ∈ s'.threads, t.Plain k := by
          intro x hx
          rw [e2] at hx
          rcases mem_set _ _ _ _ hx with rfl | hx
          · exact e3
          · exact h.plain x hx
        cases ho : offer s k (.thread i) with
        | none =>
          rw [ho] at e7
          have hk' : s'.chans[k]? = some ch := by rw [e7]; exact hk
          refine ⟨⟨e5.trans h.c, ⟨ch, hk', hcap⟩, hpl⟩, ch, hk', rfl, ?_⟩
          rw [if_neg (by simp)]; exact ⟨e6, rfl⟩
        | some m =>
          rw [ho] at e7
          simp only at e7
          have hk' := trySend_self s k m ch hk
          rw [← e7] at hk'
          refine ⟨⟨e5.trans h.c, ⟨_, hk', by split_ifs <;> exact hcap⟩, hpl⟩, _, hk', by split_ifs <;> rfl, ?_⟩
          rw [if_neg (by simp)]
          refine ⟨e6, ?_⟩
          simp only
          split_ifs <;> rfl
      · rw [not_busy_none s i t ht hb] at hs; cases hs

theorem run_opened (l : List Act) : ∀ (s s' : State) (k : Nat), Opened k s → Act.close ∉ l → s.run l = some s' →
    Opened k s' := by
  induction l with
  | nil => intro s s' k h _ hr; injection hr with hr; subst hr; exact h
  | cons a l ih =>
    intro s s' k h hc hr
    simp only [State.run, Option.bind_eq_some_iff] at hr
    obtain ⟨m, h1, h2⟩ := hr
    obtain ⟨ch, hk, _⟩ := h.chan
    exact ih m s' k (step_opened s m k a ch (fun e => hc (e ▸ List.mem_cons_self)) h hk h1).1
      (fun e => hc (List.mem_cons_of_mem _ e)) h2

/-- **C46**: once the signal is open, whatever the goroutines, receivers and the runtime
do, a goroutine in the middle of sending can always make a step, and each brings it
nearer to its end: three steps for each message. -/
theorem send_never_blocks_partial (s s' : State) (k : Nat) (l : List Act) (h : Opened k s) (hl : Act.close ∉ l)
    (hr : s.run l = some s') (i : Nat) (t : Thread) (ht : s'.threads[i]? = some t) (hb : t.busy) :
    ∃ s'' t', s'.step (.thread i) = some s'' ∧ s''.threads[i]? = some t' ∧ t'.left + 1 = t.left := by
  obtain ⟨s'', t', e1, e2, _, e4, _⟩ := thread_step s' k i t (run_opened l s s' k h hl hr) ht hb
  exact ⟨s'', t', e1, by rw [e2]; exact List.getElem?_set_self (List.getElem?_eq_some_iff.mp ht).1, e4⟩

/-- `Open` makes or keeps the channel. -/
theorem open_opened (s : State) (ht : ∀ t ∈ s.threads, t.pc = .idle)
    (hc : ∀ k, s.c = some k → ∃ ch, s.chans[k]? = some ch ∧ 1 ≤ ch.cap) : ∃ k, Opened k s.open := by
  have hpl : ∀ k, ∀ t ∈ s.threads, t.Plain k := by
    intro k t hm; unfold Thread.Plain; rw [ht t hm]; trivial
  unfold State.open
  cases hs : s.c with
  | none =>
    exact ⟨s.chans.length, rfl, ⟨{}, by simp, Nat.le_refl _⟩, hpl _⟩
  | some k =>
    exact ⟨k, hs, hc k hs, hpl _⟩

/-- **C46**: of the messages offered to the channel from a state in which it is empty on,
the first is received first, or waits first in line; and what is received or waits is
made of the offered messages, in order and each at most once. -/
theorem burst_delivered (l : List Act) : ∀ (s s' : State) (k : Nat), Opened k s → Act.close ∉ l →
    s.run l = some s' → ∃ new, s'.got ++ s'.bufOf k = s.got ++ s.bufOf k ++ new ∧ new.Sublist (offers s k l) ∧
      (s.bufOf k = [] → new.head? = (offers s k l).head?) := by
  induction l with
  | nil =>
    intro s s' k _ _ hr
    injection hr with hr; subst hr
    exact ⟨[], by simp, List.Sublist.refl _, fun _ => rfl⟩
  | cons a l ih =>
    intro s s' k h hc hr
    simp only [State.run, Option.bind_eq_some_iff] at hr
    obtain ⟨m, h1, h2⟩ := hr
    obtain ⟨ch, hk, hcap⟩ := h.chan
    have ha : a ≠ .close := fun e => hc (e ▸ List.mem_cons_self)
    obtain ⟨ho, ch', hk', _, hst⟩ := step_opened s m k a ch ha h hk h1
    obtain ⟨new, n1, n2, n3⟩ := ih m s' k ho (fun e => hc (List.mem_cons_of_mem _ e)) h2
    have hb : s.bufOf k = ch.buf := by unfold State.bufOf; rw [hk]; rfl
    have hb' : m.bufOf k = ch'.buf := by unfold State.bufOf; rw [hk']; rfl
    have hof : offers s k (a :: l) = (offer s k a).toList ++ offers m k l := by
      rw [offers, h1]
    rw [hof, hb, n1, hb']
    rw [hb'] at n3
    by_cases har : a = .recv
    · rw [if_pos har] at hst
      subst har
      refine ⟨new, ?_, n2, ?_⟩
      · rw [hst.1, hst.2, List.append_assoc s.got, List.take_append_drop]
      · intro he
        rw [he] at hst
        simpa [offer] using n3 hst.2
    · rw [if_neg har] at hst
      cases hof' : offer s k a with
      | none =>
        rw [hof'] at hst
        refine ⟨new, by rw [hst.1, hst.2], n2, ?_⟩
        intro he
        exact n3 (hst.2.trans he)
      | some x =>
        rw [hof'] at hst
        simp only at hst
        by_cases hlt : ch.buf.length < ch.cap
        · rw [if_pos hlt] at hst
          refine ⟨x :: new, ?_, ?_, fun _ => rfl⟩
          · rw [hst.1, hst.2]; simp
          · simpa using n2.cons_cons x
        · rw [if_neg hlt] at hst
          refine ⟨new, by rw [hst.1, hst.2], ?_, ?_⟩
          · exact n2.trans (List.sublist_append_right _ _)
          · intro he
            rw [he] at hlt
            exact absurd hcap (by simpa using hlt)

theorem bufOf_grows (l : List Act) : ∀ (s s' : State) (k : Nat), Opened k s → Act.close ∉ l → Act.recv ∉ l →
    s.run l = some s' → s.bufOf k ≠ [] → s'.bufOf k ≠ [] := by
  induction l with
  | nil => intro s s' k _ _ _ hr hn; injection hr with hr; subst hr; exact hn
  | cons a l ih =>
    intro s s' k h hc hv hr hn
    simp only [State.run, Option.bind_eq_some_iff] at hr
    obtain ⟨m, h1, h2⟩ := hr
    obtain ⟨ch, hk, _⟩ := h.chan
    obtain ⟨ho, ch', hk', _, hst⟩ := step_opened s m k a ch (fun e => hc (e ▸ List.mem_cons_self)) h hk h1
    refine ih m s' k ho (fun e => hc (List.mem_cons_of_mem _ e)) (fun e => hv (List.mem_cons_of_mem _ e)) h2 ?_
    have hb : s.bufOf k = ch.buf := by unfold State.bufOf; rw [hk]; rfl
    have hb' : m.bufOf k = ch'.buf := by unfold State.bufOf; rw [hk']; rfl
    rw [hb'] at *
    rw [hb] at hn
    have har : a ≠ .recv := fun e => hv (e ▸ List.mem_cons_self)
    rw [if_neg har] at hst
    rw [hst.2]
    split
    · split_ifs
      · simp
      · exact hn
    · exact hn

/-- **C46**: a signal is never missed altogether: when a message has been offered since the
last receive, the next receive gets one. -/
theorem wakeup (s s1 s' : State) (k : Nat) (a : Act) (l : List Act) (h : Opened k s) (m : Msg)
    (ho : offer s k a = some m) (hs : s.step a = some s1) (hl : Act.close ∉ l) (hv : Act.recv ∉ l)
    (hr : s1.run l = some s') : ∃ x, s'.recv.got = s'.got ++ [x] := by
  have ha : a ≠ .close := by rintro rfl; cases ho
  have har : a ≠ .recv := by rintro rfl; cases ho
  obtain ⟨ch, hk, hcap⟩ := h.chan
  obtain ⟨h1, ch', hk', _, hst⟩ := step_opened s s1 k a ch ha h hk hs
  rw [if_neg har, ho] at hst
  simp only at hst
  have hb' : s1.bufOf k = ch'.buf := by unfold State.bufOf; rw [hk']; rfl
  have hne : s1.bufOf k ≠ [] := by
    rw [hb', hst.2]
    split_ifs with hlt
    · simp
    · intro e; rw [e] at hlt; exact absurd hcap (by simpa using hlt)
  have hne' := bufOf_grows l s1 s' k h1 hl hv hr hne
  have h' := run_opened l s1 s' k h1 hl hr
  obtain ⟨c2, hk2, _⟩ := h'.chan
  have hb2 : s'.bufOf k = c2.buf := by unfold State.bufOf; rw [hk2]; rfl
  rw [hb2] at hne'
  obtain ⟨_, _, r3, _⟩ := recv_facts s' k c2 h'.c hk2
  cases hbuf : c2.buf with
  | nil => exact absurd hbuf hne'
  | cons x r => exact ⟨x, by rw [r3, hbuf]; rfl⟩

/-- Two goroutines, a delivery and a receive, interleaved. -/
example : ∃ s, (({ threads := [{ todo := [1, 2] }, { todo := [3] }] } : State).open).run
      [.thread 0, .thread 1, .thread 1, .thread 0, .thread 1, .thread 0, .deliver 0 9, .recv, .thread 0, .thread 0,
        .thread 0] = some s ∧ s.got = [3] ∧ s.bufOf 0 = [2] := ⟨_, rfl, by decide, by decide⟩

/-! ### Before the signal is open -/

/-- A lone goroutine's state when the channel may not have been made. -/
def Lone (s : State) : Prop :=
  ∃ t, s.threads = [t] ∧
    match t.pc with
    | .idle => True
    | .make _ => s.c = none
    | .put _ => ∃ k, s.c = some k ∧ s.chans[k]? = some {}
    | .putOn k _ => ∃ k', k = some k' ∧ s.c = some k' ∧ s.chans[k']? = some {}
    | .try _ => True
    | .tryOn _ _ => True

/-- A lone goroutine can send to a signal never opened: it makes the channel and its send
finds room (the runtime delivers only to channels given to `signal.Notify` by `Open`). -/
theorem lone_send_never_blocks (l : List Act) : ∀ (s s' : State), Lone s →
    (∀ a ∈ l, a = .thread 0 ∨ a = .recv) → s.run l = some s' → Lone s' ∧
    ∀ t, s'.threads = [t] → t.busy → (s'.step (.thread 0)).isSome := by
  induction l with
  | nil =>
    intro s s' h _ hr
    injection hr with hr; subst hr
    refine ⟨h, ?_⟩
    intro t ht hb
    obtain ⟨t', ht', hm⟩ := h
    rw [ht] at ht'; injection ht' with ht' _; subst ht'
    obtain ⟨todo, pc⟩ := t
    show (s.stepThread 0).isSome
    unfold State.stepThread
    rw [ht]
    cases pc with
    | idle =>
      cases todo with
      | nil => exact absurd hb (by unfold Thread.busy; simp)
      | cons m r => rfl
    | make m => rfl
    | put m => rfl
    | putOn q m =>
      obtain ⟨k', rfl, _, hk⟩ := hm
      simp [hk]
    | «try» m => rfl
    | tryOn q m => cases q <;> rfl
  | cons a l ih =>
    intro s s' h ha hr
    simp only [State.run, Option.bind_eq_some_iff] at hr
    obtain ⟨m, h1, h2⟩ := hr
    refine ih m s' ?_ (fun b hb => ha b (List.mem_cons_of_mem _ hb)) h2
    obtain ⟨t, ht, hm⟩ := h
    rcases ha a List.mem_cons_self with rfl | rfl
    · have h1 : s.stepThread 0 = some m := h1
      obtain ⟨todo, pc⟩ := t
      unfold State.stepThread at h1
      rw [ht] at h1
      cases pc with
      | idle =>
        cases todo with
        | nil => cases h1
        | cons x r =>
          simp only [List.getElem?_cons_zero, Option.some.injEq] at h1
          subst h1
          refine ⟨{ todo := r, pc := if s.c = none then .make x else .try x }, rfl, ?_⟩
          by_cases hc : s.c = none
          · simp [hc]
          · simp [hc]
      | make x =>
        simp only [List.getElem?_cons_zero, Option.some.injEq] at h1
        subst h1
        exact ⟨{ todo := todo, pc := .put x }, by simp [ht], _, rfl, by simp⟩
      | put x =>
        simp only [List.getElem?_cons_zero, Option.some.injEq] at h1
        subst h1
        obtain ⟨k, hk1, hk2⟩ := hm
        exact ⟨{ todo := todo, pc := .putOn s.c x }, by simp [ht], k, hk1, hk1, hk2⟩
      | putOn q x =>
        obtain ⟨k', rfl, hc, hk⟩ := hm
        simp only [List.getElem?_cons_zero, hk] at h1
        rw [if_pos (by decide)] at h1
        injection h1 with h1; subst h1
        exact ⟨{ todo := todo, pc := .idle }, by simp [ht], trivial⟩
      | «try» x =>
        simp only [List.getElem?_cons_zero, Option.some.injEq] at h1
        subst h1
        exact ⟨{ todo := todo, pc := .tryOn s.c x }, by simp [ht], trivial⟩
      | tryOn q x =>
        cases q with
        | none =>
          simp only [List.getElem?_cons_zero, Option.some.injEq] at h1
          subst h1
          exact ⟨{ todo := todo, pc := .idle }, by simp [ht], trivial⟩
        | some k =>
          simp only [List.getElem?_cons_zero, Option.some.injEq] at h1
          subst h1
          exact ⟨{ todo := todo, pc := .idle }, by simp [ht, (trySend_c s k x).2.1], trivial⟩
    · injection h1 with h1; subst h1
      have hrecv : s.recv.c = s.c ∧ s.recv.threads = s.threads ∧
          (∀ k, s.c = some k → s.chans[k]? = some {} → s.recv.chans[k]? = some {}) := by
        unfold State.recv
        cases hc : s.c with
        | none => exact ⟨hc, rfl, fun k hk => by cases hk⟩
        | some k =>
          simp only
          split
          · rename_i n x r hk
            refine ⟨rfl, rfl, ?_⟩
            intro k' hk' hk2
            injection hk' with hk'; subst hk'
            rw [hk] at hk2; injection hk2 with hk2; cases hk2
          · exact ⟨hc, rfl, fun k' _ h => h⟩
      obtain ⟨r1, r2, r3⟩ := hrecv
      refine ⟨t, r2.trans ht, ?_⟩
      obtain ⟨todo, pc⟩ := t
      cases pc with
      | idle => trivial
      | make x => exact r1.trans hm
      | put x => obtain ⟨k, hk1, hk2⟩ := hm; exact ⟨k, r1.trans hk1, r3 k hk1 hk2⟩
      | putOn q x =>
        obtain ⟨k, hq, hk1, hk2⟩ := hm
        exact ⟨k, hq, r1.trans hk1, r3 k hk1 hk2⟩
      | «try» x => trivial
      | tryOn q x => trivial

/-- Negation for **C46**: when two goroutines send to a signal that has not been opened,
one may wait for room in the channel, and if nobody receives it waits for ever. -/
theorem unopened_race_blocks : ∃ (l : List Act) (s : State),
    ({ threads := [{ todo := [1] }, { todo := [2] }] } : State).run l = some s ∧ Act.close ∉ l ∧
    (∃ t, s.threads[1]? = some t ∧ t.busy) ∧ s.threads[0]? = some { todo := [], pc := .idle } ∧
    (∀ i, s.step (.thread i) = none) := by
  refine ⟨[.thread 0, .thread 1, .thread 0, .thread 1, .thread 0, .thread 0, .thread 1],
    { c := some 1, chans := [{}, { buf := [1] }], threads := [{ todo := [] }, { todo := [], pc := .putOn (some 1) 2 }] },
    by decide, by decide, ⟨_, rfl, Or.inl (by simp)⟩, rfl, ?_⟩
  intro i
  match i with
  | 0 => decide
  | 1 => decide
  | n + 2 => rfl

/-- Negation for **C46**: a signal closed while the first message is being sent makes the
sender wait for ever. -/
theorem close_race_blocks : ∃ (l : List Act) (s : State),
    ({ threads := [{ todo := [1] }] } : State).run l = some s ∧
    s.threads[0]? = some { todo := [], pc := .putOn none 1 } ∧
    ∀ l' s', s.run l' = some s' → s'.threads[0]? = some { todo := [], pc := .putOn none 1 } := by
  refine ⟨[.thread 0, .thread 0, .close, .thread 0],
    { c := none, chans := [{}], threads := [{ todo := [], pc := .putOn none 1 }] }, by decide, rfl, ?_⟩
  have key : ∀ (l' : List Act) (s s' : State), s.threads = [{ todo := [], pc := .putOn none 1 }] → s.run l' = some s' →
      s'.threads = [{ todo := [], pc := .putOn none 1 }] := by
    intro l'
    induction l' with
    | nil => intro s s' h hr; injection hr with hr; subst hr; exact h
    | cons a l ih =>
      intro s s' h hr
      simp only [State.run, Option.bind_eq_some_iff] at hr
      obtain ⟨m, h1, h2⟩ := hr
      refine ih m s' ?_ h2
      cases a with
      | thread i =>
        have h1 : s.stepThread i = some m := h1
        unfold State.stepThread at h1
        rw [h] at h1
        match i with
        | 0 => cases h1
        | n + 1 => cases h1
      | deliver k x => injection h1 with h1; subst h1; rw [(trySend_c s k x).2.1]; exact h
      | recv =>
        injection h1 with h1; subst h1
        unfold State.recv
        split
        · exact h
        · split <;> exact h
      | close => injection h1 with h1; subst h1; exact h
  intro l' s' hr
  rw [key l' _ s' rfl hr]; rfl

/-- Negation for **C46** with a channel of the user's own: without room nothing is ever
delivered to a receiver that does not wait. -/
theorem unbuffered_loses : ∃ s, ({ c := some 0, chans := [{ cap := 0 }], threads := [{ todo := [1] }] } : State).run
    [.thread 0, .thread 0, .thread 0, .recv] = some s ∧ s.got = [] := ⟨_, rfl, by decide⟩

end Sig
end Anansi
