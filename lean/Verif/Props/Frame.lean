import Verif.Model.Frame
import Verif.Props.Events
import Mathlib.Data.List.Basic
/-
C79: errors and signals end a run.  C80: the client's time.  C81: input reaches the client
once.
-/
set_option autoImplicit false

namespace Anansi
namespace Frm
open Evq

variable {σ ε : Type}

namespace Spec

/-- The first error of a list. -/
def firstErr : List (Option (Err ε)) → Option (Err ε)
  | [] => none
  | some e :: _ => some e
  | none :: l => firstErr l

/-- Entries not handled yet. -/
def live (es : Events) : Events := es.filter fun e => e.kind ≠ .none

/-- A key the platform keeps for itself: Ctrl-L, Ctrl-R or Ctrl-K. -/
def ownKey (e : Ev) : Bool := e.kind = .rune && (e.esc = 0x0C || e.esc = 0x12 || e.esc = 0x0B)

/-- What is typed: every time there is input, the events decoded from it after what was
left of the input before; `none` when a read waits for ever. -/
def typed (inp : Inp.Input) : List Poll → Option (Inp.Input × Events)
  | [] => some (inp, [])
  | .input av g s :: l =>
    match inp.readAny av g s with
    | none => none
    | some (inp, n, _, _) =>
      let d := if 0 < n then (inp.drain.1, inp.drain.2.map fun x => entry x.1 x.2) else (inp, [])
      (typed d.1 l).map fun r => (r.1, d.2 ++ r.2)
  | _ :: l => typed inp l

/-- A poll that reads. -/
def Poll.reads : Poll → Bool
  | .input _ _ _ => true
  | _ => false

end Spec
open Spec

/-! ### C79 -/

theorem errOr_first (a b : Option (Err ε)) : errOr a b = firstErr [a, b] := by
  cases a <;> cases b <;> rfl

theorem firstErr_append (a b : List (Option (Err ε))) :
    firstErr (a ++ b) = firstErr [firstErr a, firstErr b] := by
  induction a with
  | nil => cases h : firstErr b <;> simp [firstErr, h]
  | cons x a ih => cases x <;> simp [firstErr, ih]

theorem firstErr_none (l : List (Option (Err ε))) : firstErr l = none ↔ ∀ x ∈ l, x = none := by
  induction l with
  | nil => simp [firstErr]
  | cons x a ih => cases x <;> simp [firstErr, ih]

/-- The error a poll adds. -/
def pollErr (p : Plat σ) : Poll → Option (Err ε)
  | .stop sig => some (.signal sig)
  | .resize _ => none
  | .input av g s => match p.input.readAny av g s with
    | none => none
    | some (_, _, e, _) => readErr e

theorem poll_err (p : Plat σ) (err : Option (Err ε)) (q : Poll) (r : Plat σ × Option (Err ε))
    (h : p.poll err q = some r) : r.2 = firstErr [err, pollErr p q] := by
  cases q with
  | stop sig => simp only [Plat.poll, Option.some.injEq] at h; subst h; exact errOr_first _ _
  | resize sz => simp only [Plat.poll, Option.some.injEq] at h; subst h; exact errOr_first _ _
  | input av g s =>
    simp only [Plat.poll] at h
    simp only [pollErr]
    cases hr : p.input.readAny av g s with
    | none => rw [hr] at h; simp at h
    | some x =>
      obtain ⟨inp, n, e, _⟩ := x
      rw [hr] at h
      simp only at h ⊢
      split at h <;> (injection h with h; subst h; exact errOr_first _ _)

theorem poll_keeps (p : Plat σ) (err : Option (Err ε)) (q : Poll) (r : Plat σ × Option (Err ε))
    (h : p.poll err q = some r) : r.1.paused = p.paused ∧ r.1.lastTime = p.lastTime ∧ r.1.lastSize = p.lastSize ∧
      r.1.client = p.client ∧ r.1.hud = p.hud := by
  cases q with
  | stop sig => simp only [Plat.poll, Option.some.injEq] at h; subst h; exact ⟨rfl, rfl, rfl, rfl, rfl⟩
  | resize sz => simp only [Plat.poll, Option.some.injEq] at h; subst h; exact ⟨rfl, rfl, rfl, rfl, rfl⟩
  | input av g s =>
    simp only [Plat.poll] at h
    cases hr : p.input.readAny av g s with
    | none => rw [hr] at h; simp at h
    | some x =>
      obtain ⟨inp, n, e, _⟩ := x
      rw [hr] at h
      simp only at h
      split at h <;> (injection h with h; subst h; exact ⟨rfl, rfl, rfl, rfl, rfl⟩)

theorem polls_keeps (l : List Poll) : ∀ (p : Plat σ) (err : Option (Err ε)) (r : Plat σ × Option (Err ε)),
    p.polls err l = some r → r.1.paused = p.paused ∧ r.1.lastTime = p.lastTime ∧ r.1.lastSize = p.lastSize ∧
      r.1.client = p.client ∧ r.1.hud = p.hud := by
  induction l with
  | nil => intro p err r h; simp only [Plat.polls, Option.some.injEq] at h; subst h; exact ⟨rfl, rfl, rfl, rfl, rfl⟩
  | cons q l ih =>
    intro p err r h
    simp only [Plat.polls, Option.bind_eq_some_iff] at h
    obtain ⟨x, h1, h2⟩ := h
    obtain ⟨a, b, c, d, e⟩ := poll_keeps p err q x h1
    obtain ⟨a', b', c', d', e'⟩ := ih _ _ _ h2
    exact ⟨a'.trans a, b'.trans b, c'.trans c, d'.trans d, e'.trans e⟩

/-- The first error so far stays. -/
theorem polls_first (l : List Poll) : ∀ (p : Plat σ) (e : Err ε) (r : Plat σ × Option (Err ε)),
    p.polls (some e) l = some r → r.2 = some e := by
  induction l with
  | nil => intro p e r h; simp only [Plat.polls, Option.some.injEq] at h; subst h; rfl
  | cons q l ih =>
    intro p e r h
    simp only [Plat.polls, Option.bind_eq_some_iff] at h
    obtain ⟨x, h1, h2⟩ := h
    have := poll_err p (some e) q x h1
    obtain ⟨x1, x2⟩ := x
    simp only at this h2
    subst this
    exact ih _ _ _ h2

/-- A signal to stop makes an error. -/
theorem polls_stop (sig : Nat) (l : List Poll) (hs : .stop sig ∈ l) :
    ∀ (p : Plat σ) (err : Option (Err ε)) (r : Plat σ × Option (Err ε)),
      p.polls err l = some r → r.2 ≠ none := by
  induction l with
  | nil => simp at hs
  | cons q l ih =>
    intro p err r h
    simp only [Plat.polls, Option.bind_eq_some_iff] at h
    obtain ⟨x, h1, h2⟩ := h
    rcases List.mem_cons.1 hs with rfl | hm
    · have := poll_err p err (.stop sig) x h1
      have hx : ∃ e, x.2 = some e := by
        rw [this]; cases err with
        | none => exact ⟨_, rfl⟩
        | some e => exact ⟨_, rfl⟩
      obtain ⟨e, he⟩ := hx
      rw [he] at h2
      rw [polls_first l _ _ _ h2]; simp
    · exact ih hm _ _ _ h2

/-- The error of a frame whose polling came to `err`. -/
theorem frame_err (client : σ → View → Left σ ε) (p : Plat σ) (f : Frame ε) (ht : f.telemetry = none)
    (q : Plat σ × Option (Err ε)) (hq : p.polls none f.polls = some q) :
    let u := q.1.update client f q.2
    match firstErr [u.2.2, f.flush, f.notify] with
    | some e => p.frame client f = .stop (some u.2.1) e
    | none => p.frame client f = .next u.1 u.2.1 := by
  intro u
  have e : p.frame client f =
      (match (if (if u.2.2.isNone then f.flush else u.2.2).isNone then f.notify
          else (if u.2.2.isNone then f.flush else u.2.2)) with
        | some e => .stop (some u.2.1) e
        | none => .next u.1 u.2.1) := by
    unfold Plat.frame; simp only [ht, hq]; rfl
  rw [e]
  cases h1 : u.2.2 with
  | some x => simp [firstErr]
  | none =>
    cases h2 : f.flush with
    | some x => simp [firstErr]
    | none => cases h3 : f.notify <;> simp [firstErr]

theorem update_err (client : σ → View → Left σ ε) (p : Plat σ) (f : Frame ε) (e : Err ε) :
    (p.update client f (some e)).2.2 = some e := by
  unfold Plat.update
  simp only
  split <;> rfl

/-- **C79**: whatever the client, the frames before it and the rest of the frame, a frame in
which a signal to stop is found is the last one: `Run` returns an error (unless reading
input waits for ever), and the client sees no further frame. -/
theorem stop_signal_ends (client : σ → View → Left σ ε) (sig : Nat) (p : Plat σ) (f : Frame ε)
    (hs : .stop sig ∈ f.polls) (ht : f.time ≠ 0) (rest : List (Frame ε)) :
    (p.run client (f :: rest)).1.length ≤ 1 ∧
      ((p.run client (f :: rest)).2 = .hang ∨ ∃ e, (p.run client (f :: rest)).2 = .returned (some e)) := by
  unfold Plat.run
  rw [if_neg ht]
  cases hm : f.telemetry with
  | some e =>
    have : p.frame client f = .stop none e := by unfold Plat.frame; simp [hm]
    rw [this]; exact ⟨by simp, .inr ⟨e, rfl⟩⟩
  | none =>
    cases hq : p.polls (none : Option (Err ε)) f.polls with
    | none =>
      have : p.frame client f = .hang := by unfold Plat.frame; simp [hm, hq]
      rw [this]; exact ⟨by simp, .inl rfl⟩
    | some q =>
      have hne := polls_stop sig f.polls hs p none q hq
      obtain ⟨e, he⟩ := Option.ne_none_iff_exists'.1 hne
      have := frame_err client p f hm q hq
      have hu : (q.1.update client f q.2).2.2 = some e := by rw [he]; exact update_err client _ f e
      simp only [hu, firstErr] at this
      rw [this]; exact ⟨by simp, .inr ⟨e, rfl⟩⟩

/-- **C79**: the first error wins: if nothing went wrong before the signal was found, the
error returned is the signal's. -/
theorem stop_signal_wins (client : σ → View → Left σ ε) (sig : Nat) (p : Plat σ) (f : Frame ε)
    (a b : List Poll) (hf : f.polls = a ++ .stop sig :: b) (ha : ∀ q ∈ a, ∃ sz, q = .resize sz)
    (ht : f.time ≠ 0) (hm : f.telemetry = none) (rest : List (Frame ε)) (hh : (p.run client (f :: rest)).2 ≠ .hang) :
    (p.run client (f :: rest)).2 = .returned (some (.signal sig)) := by
  have key : ∀ (a : List Poll) (p : Plat σ) (q : Plat σ × Option (Err ε)), (∀ q ∈ a, ∃ sz, q = Poll.resize sz) →
      p.polls none (a ++ .stop sig :: b) = some q → q.2 = some (.signal sig) := by
    intro a
    induction a with
    | nil =>
      intro p q _ h
      simp only [List.nil_append, Plat.polls, Plat.poll, Option.bind_some, errOr, Option.isSome_none,
        Bool.false_eq_true, if_false] at h
      exact polls_first b _ _ _ h
    | cons x a ih =>
      intro p q hx h
      obtain ⟨sz, rfl⟩ := hx x (by simp)
      simp only [List.cons_append, Plat.polls, Plat.poll, Option.bind_some, errOr, Option.isSome_none,
        Bool.false_eq_true, if_false] at h
      exact ih _ _ (fun y hy => hx y (List.mem_cons_of_mem _ hy)) h
  unfold Plat.run at hh ⊢
  rw [if_neg ht] at hh ⊢
  cases hq : p.polls (none : Option (Err ε)) f.polls with
  | none =>
    have : p.frame client f = .hang := by unfold Plat.frame; simp [hm, hq]
    rw [this] at hh; exact absurd rfl hh
  | some q =>
    rw [hf] at hq
    have he := key a p q ha hq
    rw [← hf] at hq
    have := frame_err client p f hm q hq
    have hu : (q.1.update client f q.2).2.2 = some (.signal sig) := by rw [he]; exact update_err client _ f _
    simp only [hu, firstErr] at this
    rw [this]

/-- **C79**: a frame goes wrong exactly when something in it does: telemetry, a signal, a
read, toggling the recording, the client, the output or the background workers; the error is
that of the first of these. -/
theorem frame_goes_on (client : σ → View → Left σ ε) (p : Plat σ) (f : Frame ε) :
    (∃ p' v, p.frame client f = .next p' v) ↔
      f.telemetry = none ∧ ∃ q, p.polls none f.polls = some (q, (none : Option (Err ε))) ∧
        (q.update client f none).2.2 = none ∧ f.flush = none ∧ f.notify = none := by
  constructor
  · rintro ⟨p', v, h⟩
    cases hm : f.telemetry with
    | some e => unfold Plat.frame at h; simp [hm] at h
    | none =>
      cases hq : p.polls (none : Option (Err ε)) f.polls with
      | none => unfold Plat.frame at h; simp [hm, hq] at h
      | some q =>
        have := frame_err client p f hm q hq
        cases hf : firstErr [(q.1.update client f q.2).2.2, f.flush, f.notify] with
        | some e => simp only [hf] at this; rw [this] at h; simp at h
        | none =>
          rw [firstErr_none] at hf
          have h1 := hf _ (by simp : (q.1.update client f q.2).2.2 ∈ _)
          obtain ⟨q1, q2⟩ := q
          cases q2 with
          | some e => simp only at h1; rw [update_err] at h1; simp at h1
          | none => exact ⟨rfl, q1, rfl, h1, hf _ (by simp), hf _ (by simp)⟩
  · rintro ⟨hm, q, hq, h1, h2, h3⟩
    have := frame_err client p f hm _ hq
    simp only [h1, h2, h3, firstErr] at this
    exact ⟨_, _, this⟩

/-- **C79**: once a run has ended, further frames change nothing. -/
theorem run_ended (client : σ → View → Left σ ε) (l m : List (Frame ε)) : ∀ (p : Plat σ),
    (p.run client l).2 ≠ .running → p.run client (l ++ m) = p.run client l := by
  induction l with
  | nil => intro p h; exact absurd rfl h
  | cons f l ih =>
    intro p h
    rw [List.cons_append]
    unfold Plat.run at h ⊢
    split
    · rfl
    · next ht =>
      rw [if_neg ht] at h
      cases hf : p.frame client f with
      | hang => rfl
      | stop v e => rfl
      | next p' v =>
        rw [hf] at h
        simp only at h ⊢
        rw [ih p' h]

/-! ### C80 -/

theorem next_time (client : σ → View → Left σ ε) (p p' : Plat σ) (f : Frame ε) (v : View)
    (h : p.frame client f = .next p' v ∨ ∃ e, p.frame client f = .stop (some v) e) :
    v.paused = p.paused ∧ v.time = (if p.paused then p.lastTime else f.time) ∧
      (p.frame client f = .next p' v → p'.lastTime = v.time) := by
  cases hm : f.telemetry with
  | some e =>
    have : p.frame client f = .stop none e := by unfold Plat.frame; simp [hm]
    rw [this] at h; simp at h
  | none =>
    cases hq : p.polls (none : Option (Err ε)) f.polls with
    | none =>
      have : p.frame client f = .hang := by unfold Plat.frame; simp [hm, hq]
      rw [this] at h; simp at h
    | some q =>
      obtain ⟨k1, k2, _⟩ := polls_keeps f.polls p none q hq
      have := frame_err client p f hm q hq
      have hv : (q.1.update client f q.2).2.1.paused = p.paused ∧
          (q.1.update client f q.2).2.1.time = (if p.paused then p.lastTime else f.time) ∧
          (q.1.update client f q.2).1.lastTime = (q.1.update client f q.2).2.1.time := by
        unfold Plat.update
        simp only [k1, k2, and_self]
      cases hf : firstErr [(q.1.update client f q.2).2.2, f.flush, f.notify] with
      | some e =>
        simp only [hf] at this
        rw [this] at h ⊢
        simp only [reduceCtorEq, Done.stop.injEq, Option.some.injEq, false_or, exists_and_left] at h
        rw [← h.1]
        exact ⟨hv.1, hv.2.1, by simp⟩
      | none =>
        simp only [hf] at this
        rw [this] at h ⊢
        simp only [reduceCtorEq, Done.next.injEq, exists_false, or_false] at h
        obtain ⟨h1, h2⟩ := h
        rw [← h2, ← h1]
        exact ⟨hv.1, hv.2.1, fun _ => hv.2.2⟩

/-- **C80**: the time the client sees is that of the frame, or while paused that of the frame
before. -/
theorem client_time (client : σ → View → Left σ ε) (l : List (Frame ε)) : ∀ (p : Plat σ) (i : Nat) (v : View),
    (p.run client l).1[i]? = some v →
    ∃ f, l[i]? = some f ∧ (v.paused = false → v.time = f.time) ∧
      (v.paused = true → v.time = match i with
        | 0 => p.lastTime
        | j + 1 => (((p.run client l).1[j]?).map View.time).getD 0) := by
  induction l with
  | nil => intro p i v h; simp [Plat.run] at h
  | cons f l ih =>
    intro p i v h
    by_cases ht : f.time = 0
    · simp [Plat.run, ht] at h
    cases hf : p.frame client f with
    | hang => simp [Plat.run, ht, hf] at h
    | stop w e =>
      simp only [Plat.run, ht, hf, if_false] at h
      cases w with
      | none => simp at h
      | some w =>
        cases i with
        | succ i => simp at h
        | zero =>
          simp only [Option.toList_some, List.getElem?_cons_zero, Option.some.injEq] at h
          subst h
          obtain ⟨h1, h2, _⟩ := next_time client p p f w (.inr ⟨e, hf⟩)
          refine ⟨f, rfl, ?_, ?_⟩ <;> intro hp <;> rw [h1] at hp <;> simp [h2, hp]
    | next p' w =>
      have hr : p.run client (f :: l) = (w :: (p'.run client l).1, (p'.run client l).2) := by
        simp [Plat.run, ht, hf]
      rw [hr] at h ⊢
      obtain ⟨h1, h2, h3⟩ := next_time client p p' f w (.inl hf)
      have h3 := h3 hf
      cases i with
      | zero =>
        simp only [List.getElem?_cons_zero, Option.some.injEq] at h
        subst h
        refine ⟨f, rfl, ?_, ?_⟩ <;> intro hp <;> rw [h1] at hp <;> simp [h2, hp]
      | succ i =>
        simp only [List.getElem?_cons_succ] at h
        obtain ⟨g, g1, g2, g3⟩ := ih p' i v h
        refine ⟨g, g1, g2, fun hp => ?_⟩
        rw [g3 hp]
        cases i with
        | zero => simp [h3]
        | succ i => simp

/-- **C80**: if the ticks never go back, neither does the client's time, and it is never
ahead of the ticks. -/
theorem client_time_monotone (client : σ → View → Left σ ε) (l : List (Frame ε)) : ∀ (p : Plat σ),
    List.IsChain (· ≤ ·) (p.lastTime :: l.map Frame.time) →
    List.IsChain (· ≤ ·) (p.lastTime :: (p.run client l).1.map View.time) ∧
      ∀ (i : Nat) (v : View) (f : Frame ε), (p.run client l).1[i]? = some v → l[i]? = some f → v.time ≤ f.time := by
  induction l with
  | nil => intro p _; simp [Plat.run]
  | cons f l ih =>
    intro p hc
    rw [List.map_cons, List.isChain_cons_cons] at hc
    by_cases ht : f.time = 0
    · simp [Plat.run, ht]
    have bound : ∀ w : View, w.time = (if p.paused then p.lastTime else f.time) →
        p.lastTime ≤ w.time ∧ w.time ≤ f.time := by
      intro w hw
      rw [hw]
      have := hc.1
      split <;> omega
    cases hf : p.frame client f with
    | hang => simp [Plat.run, ht, hf]
    | stop w e =>
      simp only [Plat.run, ht, hf, if_false]
      cases w with
      | none => simp
      | some w =>
        obtain ⟨_, h2, _⟩ := next_time client p p f w (.inr ⟨e, hf⟩)
        obtain ⟨b1, b2⟩ := bound w h2
        refine ⟨by simpa using b1, ?_⟩
        intro i v g hi hg
        cases i with
        | zero => simp at hi hg; subst hi hg; exact b2
        | succ i => simp at hi
    | next p' w =>
      have hr : p.run client (f :: l) = (w :: (p'.run client l).1, (p'.run client l).2) := by
        simp [Plat.run, ht, hf]
      rw [hr]
      obtain ⟨_, h2, h3⟩ := next_time client p p' f w (.inl hf)
      have h3 := h3 hf
      obtain ⟨b1, b2⟩ := bound w h2
      have hc' : List.IsChain (· ≤ ·) (p'.lastTime :: l.map Frame.time) := by
        have := hc.2
        cases l with
        | nil => simp
        | cons g l =>
          rw [List.map_cons, List.isChain_cons_cons] at this ⊢
          exact ⟨by rw [h3]; omega, this.2⟩
      obtain ⟨i1, i2⟩ := ih p' hc'
      refine ⟨?_, ?_⟩
      · rw [List.map_cons, List.isChain_cons_cons, ← h3]
        exact ⟨by rw [h3]; exact b1, i1⟩
      · intro i v g hi hg
        cases i with
        | zero => simp at hi hg; subst hi hg; exact b2
        | succ i => exact i2 i v g (by simpa using hi) (by simpa using hg)

/-! ### C81 -/

theorem live_strike (P : Ev → Bool) (es : Events) : live (strikeIf P es) = (live es).filter fun e => !P e := by
  induction es with
  | nil => rfl
  | cons e es ih =>
    have hl : ∀ (e : Ev) (es : Events), live (e :: es) = if e.kind ≠ .none then e :: live es else live es := by
      intro e es; unfold live; rw [List.filter_cons]; simp only [decide_eq_true_eq]
    rw [show strikeIf P (e :: es) = (if P e then e.struck else e) :: strikeIf P es from rfl, hl, hl, ih]
    by_cases h : P e = true
    · rw [if_pos h, if_neg (by simp [Ev.struck])]
      split
      · rw [List.filter_cons, h]; rfl
      · rfl
    · rw [if_neg h]
      split
      · rw [List.filter_cons]; simp [h]
      · rfl

theorem entry_live (e : Nat) (a : Bytes) : (entry e a).kind ≠ .none := by
  unfold entry
  simp only
  repeat' split
  all_goals simp_all

theorem live_entries (l : List Event) : live (l.map fun x => entry x.1 x.2) = l.map fun x => entry x.1 x.2 := by
  unfold live
  rw [List.filter_eq_self]
  intro e he
  obtain ⟨x, _, rfl⟩ := List.mem_map.1 he
  simpa using entry_live x.1 x.2

theorem typed_append (a b : List Poll) : ∀ (inp : Inp.Input),
    typed inp (a ++ b) = (typed inp a).bind fun r => (typed r.1 b).map fun s => (s.1, r.2 ++ s.2) := by
  induction a with
  | nil => intro inp; cases h : typed inp b <;> simp [typed, h]
  | cons q a ih =>
    intro inp
    cases q with
    | stop sig => exact ih inp
    | resize sz => exact ih inp
    | input av g s =>
      rw [List.cons_append, typed, typed]
      cases hr : inp.readAny av g s with
      | none => rfl
      | some x =>
        obtain ⟨inp', n, e, _⟩ := x
        simp only [ih]
        generalize (if 0 < n then (inp'.drain.1, inp'.drain.2.map fun x => entry x.1 x.2) else (inp', [])) = d
        cases h1 : typed d.1 a with
        | none => simp
        | some y => cases h2 : typed y.1 b <;> simp [h2]

theorem typed_live (l : List Poll) : ∀ (inp : Inp.Input) (r : Inp.Input × Events), typed inp l = some r →
    live r.2 = r.2 := by
  induction l with
  | nil => intro inp r h; simp only [typed, Option.some.injEq] at h; subst h; rfl
  | cons q l ih =>
    intro inp r h
    cases q with
    | stop sig => exact ih inp r h
    | resize sz => exact ih inp r h
    | input av g s =>
      rw [typed] at h
      cases hr : inp.readAny av g s with
      | none => rw [hr] at h; simp at h
      | some x =>
        obtain ⟨inp', n, e, _⟩ := x
        rw [hr] at h
        simp only [Option.map_eq_some_iff] at h
        obtain ⟨y, h1, rfl⟩ := h
        have := ih _ _ h1
        unfold live at this ⊢
        rw [List.filter_append, this]
        congr 1
        split
        · exact live_entries _
        · rfl

/-- What polling does to the queue and the input. -/
theorem polls_events (l : List Poll) : ∀ (p : Plat σ) (err : Option (Err ε)) (r : Plat σ × Option (Err ε)),
    p.polls err l = some r → ∃ es, typed p.input l = some (r.1.input, es) ∧
      (l.countP Poll.reads = 0 → r.1.events = p.events ∧ es = []) ∧
      (l.countP Poll.reads = 1 → r.1.events = es) := by
  induction l with
  | nil =>
    intro p err r h
    simp only [Plat.polls, Option.some.injEq] at h
    subst h
    exact ⟨[], rfl, fun _ => ⟨rfl, rfl⟩, by simp⟩
  | cons q l ih =>
    intro p err r h
    simp only [Plat.polls, Option.bind_eq_some_iff] at h
    obtain ⟨x, h1, h2⟩ := h
    obtain ⟨es, i1, i2, i3⟩ := ih _ _ _ h2
    cases q with
    | stop sig =>
      simp only [Plat.poll, Option.some.injEq] at h1
      subst h1
      exact ⟨es, i1, by simpa [Poll.reads] using i2, by simpa [Poll.reads] using i3⟩
    | resize sz =>
      simp only [Plat.poll, Option.some.injEq] at h1
      subst h1
      exact ⟨es, i1, by simpa [Poll.reads] using i2, by simpa [Poll.reads] using i3⟩
    | input av g s =>
      simp only [Plat.poll] at h1
      rw [typed]
      cases hr : p.input.readAny av g s with
      | none => rw [hr] at h1; simp at h1
      | some y =>
        obtain ⟨inp, n, e, _⟩ := y
        rw [hr] at h1
        simp only at h1 ⊢
        have hc : List.countP Poll.reads (Poll.input av g s :: l) = List.countP Poll.reads l + 1 :=
          List.countP_cons_of_pos rfl
        rw [hc]
        split at h1
        · next hn =>
          injection h1 with h1
          subst h1
          rw [if_pos hn]
          simp only [decodeInput] at i1 i2 ⊢
          rw [i1]
          refine ⟨_, rfl, by omega, fun h => ?_⟩
          obtain ⟨a, b⟩ := i2 (by omega)
          rw [a, b]; simp
        · next hn =>
          injection h1 with h1
          subst h1
          rw [if_neg hn, i1]
          refine ⟨_, rfl, by omega, fun h => ?_⟩
          obtain ⟨a, b⟩ := i2 (by omega)
          rw [a, b]; simp

theorem update_events (client : σ → View → Left σ ε) (p : Plat σ) (f : Frame ε) (err : Option (Err ε)) :
    live (p.update client f err).2.1.events = (live p.events).filter (fun e => !ownKey e) ∧
    (p.update client f err).1.input = p.input ∧
    (p.update client f err).1.events = (client p.client (p.update client f err).2.1).events := by
  refine ⟨?_, rfl, rfl⟩
  unfold Plat.update
  simp only
  rw [(countRune_strikes _ _ _).1, (countRune_strikes _ _ _).1, (countRune_strikes _ _ _).1,
    live_strike, live_strike, live_strike, List.filter_filter, List.filter_filter]
  apply List.filter_congr
  intro e _
  unfold isRune ownKey
  by_cases h : e.kind = .rune
  · simp only [h, decide_true, Bool.true_and, List.mem_singleton]
    cases decide (e.esc = 11) <;> cases decide (e.esc = 18) <;> cases decide (e.esc = 12) <;> rfl
  · simp [h]

/-- A frame in which the client saw `v`. -/
theorem frame_events (client : σ → View → Left σ ε) (p : Plat σ) (f : Frame ε) (v : View)
    (h0 : live p.events = []) (h1 : f.polls.countP Poll.reads ≤ 1)
    (h : (∃ p', p.frame client f = .next p' v) ∨ ∃ e, p.frame client f = .stop (some v) e) :
    ∃ inp es, typed p.input f.polls = some (inp, es) ∧ live v.events = es.filter (fun e => !ownKey e) ∧
      ∀ p', p.frame client f = .next p' v → p'.input = inp ∧ ∃ s, p'.events = (client s v).events := by
  cases hm : f.telemetry with
  | some e =>
    have : p.frame client f = .stop none e := by unfold Plat.frame; simp [hm]
    rw [this] at h; simp at h
  | none =>
    cases hq : p.polls (none : Option (Err ε)) f.polls with
    | none =>
      have : p.frame client f = .hang := by unfold Plat.frame; simp [hm, hq]
      rw [this] at h; simp at h
    | some q =>
      obtain ⟨es, e1, e2, e3⟩ := polls_events f.polls p none q hq
      obtain ⟨u1, u2, u3⟩ := update_events client q.1 f q.2
      have hes : (live q.1.events) = es := by
        rcases Nat.le_one_iff_eq_zero_or_eq_one.1 h1 with hz | hz
        · obtain ⟨a, b⟩ := e2 hz
          rw [a, b, h0]
        · rw [e3 hz]; exact typed_live _ _ _ e1
      rw [hes] at u1
      have := frame_err client p f hm q hq
      cases hf : firstErr [(q.1.update client f q.2).2.2, f.flush, f.notify] with
      | some e =>
        simp only [hf] at this
        rw [this] at h ⊢
        simp only [reduceCtorEq, Done.stop.injEq, Option.some.injEq, exists_false, false_or, exists_and_left] at h
        rw [← h.1]
        exact ⟨_, es, e1, u1, by simp⟩
      | none =>
        simp only [hf] at this
        rw [this] at h ⊢
        simp only [reduceCtorEq, Done.next.injEq, exists_false, or_false] at h
        obtain ⟨p', h2, h3⟩ := h
        rw [← h3]
        refine ⟨_, es, e1, u1, ?_⟩
        intro p'' hp
        simp only [Done.next.injEq, and_true] at hp
        rw [← hp]
        exact ⟨u2, _, u3⟩

/-- **C81**, for frames with at most one read each and clients that leave no input: the
client sees, frame after frame, exactly the events typed, each once and in order, apart from
the platform's own keys.  Missing, because it fails: a second read in a frame drops what the
first one got (`second_read_drops`), and what a client leaves is shown again in a frame
without input, as new (`left_shown_again`). -/
theorem input_once_partial (client : σ → View → Left σ ε) (hc : ∀ s v, live (client s v).events = [])
    (l : List (Frame ε)) (h1 : ∀ f ∈ l, f.polls.countP Poll.reads ≤ 1) : ∀ (p : Plat σ), live p.events = [] →
    ∃ inp es, typed p.input ((l.take (p.run client l).1.length).flatMap Frame.polls) = some (inp, es) ∧
      (p.run client l).1.flatMap (fun v => live v.events) = es.filter fun e => !ownKey e := by
  induction l with
  | nil => intro p _; exact ⟨p.input, [], rfl, rfl⟩
  | cons f l ih =>
    intro p h0
    have hf1 := h1 f (by simp)
    have ih := ih (fun g hg => h1 g (List.mem_cons_of_mem _ hg))
    by_cases ht : f.time = 0
    · simp only [Plat.run, ht, if_true]; exact ⟨p.input, [], rfl, rfl⟩
    cases hf : p.frame client f with
    | hang => simp only [Plat.run, ht, hf, if_false]; exact ⟨p.input, [], rfl, rfl⟩
    | stop w e =>
      simp only [Plat.run, ht, hf, if_false]
      cases w with
      | none => exact ⟨p.input, [], rfl, rfl⟩
      | some w =>
        obtain ⟨inp, es, e1, e2, _⟩ := frame_events client p f w h0 hf1 (.inr ⟨e, hf⟩)
        refine ⟨inp, es, ?_, by simpa using e2⟩
        simpa using e1
    | next p' w =>
      have hr : p.run client (f :: l) = (w :: (p'.run client l).1, (p'.run client l).2) := by
        simp [Plat.run, ht, hf]
      rw [hr]
      obtain ⟨inp, es, e1, e2, e3⟩ := frame_events client p f w h0 hf1 (.inl ⟨p', hf⟩)
      obtain ⟨g1, s, g2⟩ := e3 p' hf
      obtain ⟨inp', es', i1, i2⟩ := ih p' (by rw [g2]; exact hc s w)
      refine ⟨inp', es ++ es', ?_, ?_⟩
      · simp only [List.length_cons, List.take_succ_cons, List.flatMap_cons]
        rw [typed_append, e1]
        simp only [Option.bind_some]
        rw [← g1, i1]
        rfl
      · rw [List.flatMap_cons, e2, i2, List.filter_append]

/-! ### Witnesses -/

/-- A client that looks but takes nothing. -/
def looker (s : Nat) (v : View) : Left Nat Unit :=
  { state := s + 1, events := v.events, paused := v.paused, size := v.size, hud := v.hud, err := none }

/-- A client that takes all input. -/
def taker (s : Nat) (v : View) : Left Nat Unit :=
  { state := s + 1, events := [], paused := decide (s % 2 = 1), size := v.size, hud := v.hud, err := none }

/-- A read of one byte, and no more for now. -/
def keyIn (b : UInt8) : Poll := .input [.data b [] false, .nothing] true true

/-- Violation: a second input signal in a frame throws away what the first one brought: of
`a` and `b`, the client never sees `a`. -/
theorem second_read_drops :
    (({ client := 0 } : Plat Nat).run taker
      [{ time := 1, polls := [keyIn 0x61, keyIn 0x62] }, { time := 2 }]).1.map (fun v => (live v.events).map Ev.esc) =
      [[0x62], []] := by decide +kernel

/-- Violation: input the client leaves is there again, as new, in a frame without input. -/
theorem left_shown_again :
    (({ client := 0 } : Plat Nat).run looker
      [{ time := 1, polls := [keyIn 0x61] }, { time := 2 }, { time := 3, polls := [keyIn 0x62] }]).1.map
        (fun v => (live v.events).map Ev.esc) = [[0x61], [0x61], [0x62]] := by decide +kernel

/-- The hypotheses of `input_once_partial` are met: a key of the platform is kept from the
client, and the time stands still in the frame it is paused in. -/
example :
    let l : List (Frame Unit) := [{ time := 1, polls := [keyIn 0x61] }, { time := 2, polls := [.resize none, keyIn 0x0C] },
      { time := 4, polls := [keyIn 0x62, .stop 15] }, { time := 5 }]
    (∀ s v, live (taker s v).events = []) ∧ (∀ f ∈ l, f.polls.countP Poll.reads ≤ 1) ∧
      (({ client := 0 } : Plat Nat).run taker l).1.map (fun v => (v.time, v.redraw, (live v.events).map Ev.esc)) =
        [(1, true, [0x61]), (2, true, []), (2, true, [0x62])] ∧
      (({ client := 0 } : Plat Nat).run taker l).2 = .returned (some (.signal 15)) := by
  refine ⟨fun _ _ => rfl, by decide +kernel, by decide +kernel, by decide +kernel⟩

end Frm
end Anansi
