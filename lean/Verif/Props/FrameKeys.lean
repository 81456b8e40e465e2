import Verif.Props.Frame
/-
C96: when a client is told to redraw, the size it is shown, the platform's own keys, and
the first error of a frame.
-/
set_option autoImplicit false

namespace Anansi
namespace Frm
open Evq

variable {σ ε : Type}

namespace Spec

/-- How often a key is there. -/
def keys (k : Nat) (es : Events) : Nat := es.countP fun e => e.kind = .rune && e.esc = k

/-- The size after the polls: what the terminal said last. -/
def sizeAfter (size : Pt) : List Poll → Pt
  | [] => size
  | .resize (some s) :: l => sizeAfter s l
  | _ :: l => sizeAfter size l

/-- The error of switching recording or replaying, if the key for it was pressed an odd
number of times. -/
def switched (es : Events) (f : Frame ε) : Option (Err ε) :=
  if keys 0x12 es % 2 = 1 then f.toggle else none

end Spec
open Spec

/-- The count is the number of presses of the key. -/
theorem count_keys (k : Nat) (es : Events) : (countRune [k] 0 es).2 = keys k es := by
  rw [(countRune_strikes [k] es 0).2, Nat.zero_add]
  unfold keys
  induction es with
  | nil => rfl
  | cons e es ih =>
    rw [List.countP_cons, List.filter_cons, ← ih]
    by_cases h : e.kind = .rune
    · by_cases h' : e.esc = k
      · simp [h, h', Nat.add_comm]
      · simp [h, h', Ne.symm h']
    · simp [h]

/-- Striking one key leaves the presses of all others. -/
theorem keys_struck (k j : Nat) (h : k ≠ j) (es : Events) : keys k (countRune [j] 0 es).1 = keys k es := by
  rw [(countRune_strikes [j] es 0).1]
  unfold keys strikeIf
  rw [List.countP_map]
  apply List.countP_congr
  intro e _
  simp only [Function.comp]
  by_cases hi : isRune [j] e = true
  · have hne : e.esc ≠ k := by
      intro e'
      simp only [isRune, Bool.and_eq_true, decide_eq_true_eq, List.mem_singleton] at hi
      exact h (e'.symm.trans hi.2)
    simp [hi, Ev.struck, hne]
  · simp [hi]

theorem poll_size (p : Plat σ) (err : Option (Err ε)) (q : Poll) (r : Plat σ × Option (Err ε))
    (h : p.poll err q = some r) : r.1.size = sizeAfter p.size [q] := by
  cases q with
  | stop sig => simp only [Plat.poll, Option.some.injEq] at h; subst h; rfl
  | resize sz =>
    simp only [Plat.poll, Option.some.injEq] at h; subst h
    cases sz <;> rfl
  | input av g s =>
    simp only [Plat.poll] at h
    cases hr : p.input.readAny av g s with
    | none => rw [hr] at h; simp at h
    | some x =>
      obtain ⟨inp, n, e, _⟩ := x
      rw [hr] at h
      simp only at h
      split at h <;> (injection h with h; subst h; rfl)

/-- After any polls, the size is that of the last successful resize. -/
theorem polls_size (l : List Poll) : ∀ (p : Plat σ) (err : Option (Err ε)) (r : Plat σ × Option (Err ε)),
    p.polls err l = some r → r.1.size = sizeAfter p.size l := by
  induction l with
  | nil => intro p err r h; simp only [Plat.polls, Option.some.injEq] at h; subst h; rfl
  | cons q l ih =>
    intro p err r h
    simp only [Plat.polls, Option.bind_eq_some_iff] at h
    obtain ⟨x, h1, h2⟩ := h
    rw [ih _ _ _ h2, poll_size p err q x h1]
    cases q with
    | stop sig => rfl
    | resize sz => cases sz <;> rfl
    | input av g s => rfl

/-- The overlay is shown or hidden by an odd number of Ctrl-K. -/
theorem update_seen (client : σ → View → Left σ ε) (p : Plat σ) (f : Frame ε) (err : Option (Err ε)) :
    let u := p.update client f err
    let c := client p.client u.2.1
    u.2.1.redraw = decide (0 < keys 0x0C p.events ∨ p.size = ⟨0, 0⟩ ∨ p.size ≠ p.lastSize) ∧
    u.2.1.size = (if u.2.1.redraw then f.termSize.getD p.size else p.size) ∧
    u.2.1.hud = (p.hud != decide (keys 0x0B p.events % 2 = 1)) ∧
    u.2.2 = firstErr [err, switched p.events f, c.err] ∧
    u.1.size = c.size ∧ u.1.lastSize = c.size ∧ u.1.hud = c.hud ∧ u.1.paused = c.paused ∧ u.1.client = c.state := by
  intro u c
  have hr : keys 0x12 (countRune [0x0C] 0 p.events).1 = keys 0x12 p.events := keys_struck _ _ (by decide) _
  have hk : keys 0x0B (countRune [0x12] 0 (countRune [0x0C] 0 p.events).1).1 = keys 0x0B p.events := by
    rw [keys_struck _ _ (by decide), keys_struck _ _ (by decide)]
  refine ⟨?_, rfl, ?_, ?_, rfl, rfl, rfl, rfl, rfl⟩
  · change (decide ((countRune [0x0C] 0 p.events).2 > 0) || decide (p.size = ⟨0, 0⟩) || decide (p.size ≠ p.lastSize)) = _
    rw [count_keys]
    simp [Bool.or_assoc]
  · change (if (countRune [0x0B] 0 (countRune [0x12] 0 (countRune [0x0C] 0 p.events).1).1).2 % 2 = 1
      then !p.hud else p.hud) = _
    rw [count_keys, hk]
    by_cases h : keys 0x0B p.events % 2 = 1
    · simp [h]
    · simp [h]
  · change errOr (if (countRune [0x12] 0 (countRune [0x0C] 0 p.events).1).2 % 2 = 1 then errOr err f.toggle else err)
      c.err = _
    rw [count_keys, hr]
    unfold switched
    by_cases h : keys 0x12 p.events % 2 = 1
    · rw [if_pos h, if_pos h]; cases err <;> cases f.toggle <;> cases c.err <;> rfl
    · rw [if_neg h, if_neg h]; cases err <;> cases c.err <;> rfl

/-- **C96**: what the client is shown in a frame and what is kept of what it leaves.  It is
told to redraw exactly when Ctrl-L was pressed, there is no size yet, or the size after the
polls is not the one left by the frame before; it then gets the terminal's present size; and
the overlay is shown or hidden by an odd number of Ctrl-K.  The frame ends with the first
error, in order, of the polls, of switching recording (tried when Ctrl-R was pressed an odd
number of times), of the client, of the output and of the workers. -/
theorem frame_shows (client : σ → View → Left σ ε) (p : Plat σ) (f : Frame ε) (ht : f.telemetry = none)
    (q : Plat σ) (e0 : Option (Err ε)) (hq : p.polls none f.polls = some (q, e0)) :
    ∃ v, let c := client p.client v
      v.redraw = decide (0 < keys 0x0C q.events ∨ sizeAfter p.size f.polls = ⟨0, 0⟩ ∨
        sizeAfter p.size f.polls ≠ p.lastSize) ∧
      v.size = (if v.redraw then f.termSize.getD (sizeAfter p.size f.polls) else sizeAfter p.size f.polls) ∧
      v.hud = (p.hud != decide (keys 0x0B q.events % 2 = 1)) ∧
      match firstErr [e0, switched q.events f, c.err, f.flush, f.notify] with
      | some e => p.frame client f = .stop (some v) e
      | none => ∃ p', p.frame client f = .next p' v ∧ p'.size = c.size ∧ p'.lastSize = c.size ∧ p'.hud = c.hud ∧
          p'.paused = c.paused ∧ p'.client = c.state := by
  obtain ⟨k1, k2, k3, k4, k5⟩ := polls_keeps f.polls p none _ hq
  have ks := polls_size f.polls p none _ hq
  obtain ⟨a1, a2, a3, a4, a5, a6, a7, a8, a9⟩ := update_seen client q f e0
  have hf := frame_err client p f ht (q, e0) hq
  simp only at k1 k2 k3 k4 k5 ks hf
  refine ⟨(q.update client f e0).2.1, ?_, ?_, ?_, ?_⟩
  · rw [a1, ks, k3]
  · rw [a2, ks]
  · rw [a3, k5]
  · rw [k4] at a4 a5 a6 a7 a8 a9
    have : firstErr [e0, switched q.events f, (client p.client (q.update client f e0).2.1).err, f.flush, f.notify] =
        firstErr [(q.update client f e0).2.2, f.flush, f.notify] := by
      rw [a4]
      generalize (client p.client (q.update client f e0).2.1).err = e1
      generalize switched q.events f = e2
      cases e0 <;> cases e1 <;> cases e2 <;> rfl
    rw [this]
    cases hx : firstErr [(q.update client f e0).2.2, f.flush, f.notify] with
    | some e => rw [hx] at hf; exact hf
    | none => rw [hx] at hf; exact ⟨_, hf, a5, a6, a7, a8, a9⟩

theorem next_inv (client : σ → View → Left σ ε) (p p' : Plat σ) (f : Frame ε) (v : View)
    (h : p.frame client f = .next p' v) :
    f.telemetry = none ∧ ∃ (q : Plat σ) (e0 : Option (Err ε)), p.polls none f.polls = some (q, e0) := by
  unfold Plat.frame at h
  split at h
  · cases h
  · rename_i ht
    refine ⟨ht, ?_⟩
    split at h
    · cases h
    · rename_i q e hq
      exact ⟨q, e, hq⟩

/-- **C96**: between two frames of a run in which the client keeps the size it is shown and
the terminal says nothing else, the client is told to redraw only by Ctrl-L. -/
theorem redraw_again (client : σ → View → Left σ ε) (hc : ∀ s v, (client s v).size = v.size) (p p' p'' : Plat σ)
    (f f' : Frame ε) (v v' : View) (h : p.frame client f = .next p' v) (h' : p'.frame client f' = .next p'' v')
    (hs : v.size ≠ ⟨0, 0⟩) (hz : sizeAfter v.size f'.polls = v.size)
    (q : Plat σ) (e0 : Option (Err ε)) (hq : p'.polls none f'.polls = some (q, e0)) :
    v'.redraw = decide (0 < keys 0x0C q.events) ∧ (v'.redraw = false → v'.size = v.size) := by
  obtain ⟨ht, q0, e1, hq0⟩ := next_inv client p p' f v h
  obtain ⟨ht', _⟩ := next_inv client p' p'' f' v' h'
  obtain ⟨w, _, _, _, hw⟩ := frame_shows client p f ht q0 e1 hq0
  obtain ⟨w', b1, b2, _, hw'⟩ := frame_shows client p' f' ht' q e0 hq
  split at hw
  · rw [h] at hw; cases hw
  split at hw'
  · rw [h'] at hw'; cases hw'
  obtain ⟨x, e, s1, s2, _⟩ := hw
  obtain ⟨x', e', _⟩ := hw'
  rw [h] at e; injection e with e1 e2; subst e1; subst e2
  rw [h'] at e'; injection e' with e1 e2; subst e1; subst e2
  rw [s1, s2, hc, hz] at b1
  rw [s1, hc, hz] at b2
  refine ⟨by rw [b1]; simp [hs], fun hr => by rw [b2, hr]; rfl⟩

/-- **C96**: when the terminal says it has another size than the frame before was left
with, the client is told to redraw and shown that size, or the one the terminal says it
has when asked again. -/
theorem resize_seen (client : σ → View → Left σ ε) (p : Plat σ) (f : Frame ε) (v : View) (s : Pt)
    (h : (∃ p', p.frame client f = .next p' v) ∨ ∃ e, p.frame client f = .stop (some v) e)
    (hs : sizeAfter p.size f.polls = s) (hn : s ≠ p.lastSize) :
    v.redraw = true ∧ v.size = f.termSize.getD s := by
  cases ht : f.telemetry with
  | some e => unfold Plat.frame at h; simp [ht] at h
  | none =>
    cases hq : p.polls (none : Option (Err ε)) f.polls with
    | none => unfold Plat.frame at h; simp [ht, hq] at h
    | some q =>
      obtain ⟨w, a1, a2, _, hw⟩ := frame_shows client p f ht q.1 q.2 hq
      rw [hs] at a1 a2
      have hr : w.redraw = true := by rw [a1]; simp [hn]
      have : w = v := by
        split at hw
        · rw [hw] at h; rcases h with ⟨_, h⟩ | ⟨_, h⟩
          · cases h
          · injection h with h; injection h
        · obtain ⟨_, e, _⟩ := hw
          rw [e] at h; rcases h with ⟨_, h⟩ | ⟨_, h⟩
          · injection h
          · cases h
      subst this
      exact ⟨hr, by rw [a2, hr]; rfl⟩

/-- A client that leaves everything as it is shown. -/
def watcher : Nat → View → Left Nat Unit :=
  fun s v => { state := s + 1, events := [], paused := v.paused, size := v.size, hud := v.hud, err := none }

/-- Keys and sizes over five frames: the first draws, the second does not, Ctrl-L and a new
size make it draw again, and two Ctrl-K in a frame leave the overlay as it is. -/
example :
    ((({ client := 0 } : Plat Nat).run watcher
      [{ time := 1, termSize := some ⟨80, 24⟩ }, { time := 2, polls := [keyIn 0x0B] },
       { time := 3, polls := [keyIn 0x0C], termSize := some ⟨80, 24⟩ },
       { time := 4, polls := [.resize (some ⟨90, 30⟩)], termSize := some ⟨91, 30⟩ },
       { time := 5, polls := [.input [.data 0x0B [0x0B] false, .nothing] true true] }]).1.map
        fun v => (v.redraw, v.size, v.hud)) =
      [(true, ⟨80, 24⟩, false), (false, ⟨80, 24⟩, true), (true, ⟨80, 24⟩, true), (true, ⟨91, 30⟩, true),
       (false, ⟨91, 30⟩, true)] := by decide +kernel

end Frm
end Anansi
