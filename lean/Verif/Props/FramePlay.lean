import Verif.Model.FramePlay
import Verif.Props.FrameKeys
import Verif.Props.Play
/-
C114: the platform while a replay goes on.
-/
set_option autoImplicit false

namespace Anansi
namespace Frm
open Evq Spec

variable {σ ε : Type}

/-- Without a replay, an update is that of `Model/Frame.lean`. -/
theorem update_live (client : σ → View → Left σ ε) (done : Err ε) (p : Plat σ) (f : Frame ε) (err : Option (Err ε)) :
    (⟨p, none⟩ : RPlat σ).update client done f err =
      (⟨(p.update client f err).1, none⟩, some (p.update client f err).2.1, (p.update client f err).2.2) := rfl

/-- A frame ends with the first error of the update, the output and the workers. -/
theorem rframe_err (client : σ → View → Left σ ε) (done : Err ε) (r : RPlat σ) (f : Frame ε) (ht : f.telemetry = none)
    (q : Plat σ × Option (Err ε)) (hq : r.p.polls none f.polls = some q) :
    r.frame client done f =
      match firstErr [(({ r with p := q.1 } : RPlat σ).update client done f q.2).2.2, f.flush, f.notify] with
      | some e => .stop (({ r with p := q.1 } : RPlat σ).update client done f q.2).1
          (({ r with p := q.1 } : RPlat σ).update client done f q.2).2.1 e
      | none => .next (({ r with p := q.1 } : RPlat σ).update client done f q.2).1
          (({ r with p := q.1 } : RPlat σ).update client done f q.2).2.1 := by
  unfold RPlat.frame
  simp only [ht, hq]
  generalize ({ r with p := q.1 } : RPlat σ).update client done f q.2 = u
  obtain ⟨a, b, c⟩ := u
  cases c <;> cases f.flush <;> cases f.notify <;> rfl

/-- Without a replay, a run is that of `Model/Frame.lean`: what is proved of it there holds here. -/
theorem run_live (client : σ → View → Left σ ε) (done : Err ε) (l : List (Frame ε)) : ∀ p : Plat σ,
    (⟨p, none⟩ : RPlat σ).run client done l = p.run client l := by
  induction l with
  | nil => intro p; rfl
  | cons f l ih =>
    intro p
    rw [RPlat.run, Plat.run]
    split
    · rfl
    · cases ht : f.telemetry with
      | some e =>
        have h1 : (⟨p, none⟩ : RPlat σ).frame client done f = .stop ⟨p, none⟩ none e := by unfold RPlat.frame; simp [ht]
        have h2 : p.frame client f = .stop none e := by unfold Plat.frame; simp [ht]
        rw [h1, h2]
      | none =>
        cases hq : p.polls (none : Option (Err ε)) f.polls with
        | none =>
          have h1 : (⟨p, none⟩ : RPlat σ).frame client done f = .hang := by unfold RPlat.frame; simp [ht, hq]
          have h2 : p.frame client f = .hang := by unfold Plat.frame; simp [ht, hq]
          rw [h1, h2]
        | some q =>
          have hf := frame_err client p f ht q hq
          rw [rframe_err client done ⟨p, none⟩ f ht q hq]
          simp only [update_live] at hf ⊢
          cases he : firstErr [(q.1.update client f q.2).2.2, f.flush, f.notify] with
          | some e => rw [he] at hf; simp only at hf; rw [hf]
          | none => rw [he] at hf; simp only at hf; rw [hf]; simp [ih]

/-- While a replay goes on and Ctrl-C is not typed, an update does not depend on the error of the polls:
neither signals to stop nor errors of reading count. -/
theorem error_lost (client : σ → View → Left σ ε) (done : Err ε) (p : Plat σ) (rep : Rpl.Play Int) (f : Frame ε)
    (hc : keys 0x03 p.events = 0) (err : Option (Err ε)) :
    (⟨p, some rep⟩ : RPlat σ).update client done f err = (⟨p, some rep⟩ : RPlat σ).update client done f none := by
  have h : (hasTerminal 0x03 (countRune [0x0C] 0 p.events).1).2 = false := by
    rw [Bool.eq_false_iff]
    intro hh
    obtain ⟨e, he, hr⟩ := (hasTerminal_strikes 0x03 _).1.1 hh
    have := keys_struck 0x03 0x0C (by decide) p.events
    rw [hc] at this
    unfold keys at this
    rw [List.countP_eq_zero] at this
    have := this e he
    simp only [isRune, List.mem_singleton, Bool.and_eq_true, decide_eq_true_eq] at hr
    simp [hr.1, hr.2] at this
  unfold RPlat.update
  simp only [h]
  rfl

/-- What the client sees of recorded bytes in a frame of a replay: all events but Ctrl-K. -/
def Spec.replayed (b : Bytes) : Events := strikeIf (isRune [0x0B]) (decodeBytes [] b)

/-- **C114**: a frame of a replay that is not paused, without keys for it, runs the client with the next
recorded frame: at its time (unless the platform is paused), in the size of that time, with its events but
Ctrl-K; the error is the client's, whatever the polls found. -/
theorem replay_shows (client : σ → View → Left σ ε) (done : Err ε) (p : Plat σ) (rep : Rpl.Play Int) (f : Frame ε)
    (hc : keys 0x03 p.events = 0) (hs : keys 0x20 p.events % 2 = 0) (hp : rep.pause = none)
    (x : Int × Pt × Bytes) (rest : List (Int × Pt × Bytes)) (hx : Rpl.Spec.timeline rep.size rep.cur = x :: rest)
    (err : Option (Err ε)) : ∃ (q : Plat σ) (rep' : Rpl.Play Int) (v : View),
      (⟨p, some rep⟩ : RPlat σ).update client done f err = (⟨q, some rep'⟩, some v, (client p.client v).err) ∧
      v.time = (if p.paused then p.lastTime else x.1) ∧ v.size = x.2.1 ∧ v.events = Spec.replayed x.2.2 ∧
      v.paused = p.paused ∧
      v.redraw = decide (0 < keys 0x0C p.events ∨ p.size = ⟨0, 0⟩ ∨ p.size ≠ p.lastSize) ∧
      q.client = (client p.client v).state ∧ q.events = (client p.client v).events ∧ q.size = (client p.client v).size ∧
      q.lastSize = (client p.client v).size ∧ q.paused = (client p.client v).paused ∧
      rep'.pause = none ∧ Rpl.Spec.timeline rep'.size rep'.cur = rest := by
  have hcur : rep.cur ≠ [] := by intro h; rw [h] at hx; cases hx
  have hA := Rpl.advance_spec rep.cur rep.frame rep.size
  rw [hx] at hA
  obtain ⟨a1, a2, a3, a4⟩ := hA
  have hl : keys 0x20 (countRune [0x0C] 0 p.events).1 = keys 0x20 p.events := keys_struck _ _ (by decide) _
  have h : (hasTerminal 0x03 (countRune [0x0C] 0 p.events).1).2 = false := by
    rw [Bool.eq_false_iff]
    intro hh
    obtain ⟨e, he, hr⟩ := (hasTerminal_strikes 0x03 _).1.1 hh
    have := keys_struck 0x03 0x0C (by decide) p.events
    rw [hc] at this
    unfold keys at this
    rw [List.countP_eq_zero] at this
    have := this e he
    simp only [isRune, List.mem_singleton, Bool.and_eq_true, decide_eq_true_eq] at hr
    simp [hr.1, hr.2] at this
  have hodd : ¬ keys 0x20 p.events % 2 = 1 := by omega
  have hu : rep.update false (keys 0x20 p.events) 0 =
      ({ cur := (Rpl.advance rep.frame rep.size rep.cur).2.2, frame := (Rpl.advance rep.frame rep.size rep.cur).1,
         pause := none, size := x.2.1 }, .run (some x.1) x.2.1 (some x.2.2)) := by
    unfold Rpl.Play.update
    simp [hcur, hodd, hp, a1, a2, a3]
  unfold RPlat.update
  simp only [h, if_neg hcur, count_keys, hl, if_neg hodd, hp, Option.isSome_none, Bool.false_eq_true, if_false, hu]
  refine ⟨_, _, _, rfl, rfl, rfl, ?_, rfl, ?_, rfl, rfl, rfl, rfl, rfl, rfl, ?_⟩
  · exact (countRune_strikes [0x0B] _ 0).1
  · simp [Plat.runClient, Bool.or_assoc]
  · rw [← a2]; exact a4

/-- **C114**: while a replay is paused, by a space now or before, frames without a dot run the client at the
time and in the size of the recorded frame last shown, with what is typed now but for Ctrl-L, spaces, dots and
Ctrl-K; the replay stays where it is. -/
theorem paused_shows (client : σ → View → Left σ ε) (done : Err ε) (p : Plat σ) (rep : Rpl.Play Int) (f : Frame ε)
    (hcur : rep.cur ≠ []) (hc : keys 0x03 p.events = 0) (t : Int) (ht : rep.frame.t = some t)
    (hp : if keys 0x20 p.events % 2 = 1 then rep.pause = none else rep.pause.isSome)
    (hd : keys 0x2E p.events % 2 = 0) (err : Option (Err ε)) : ∃ (q : Plat σ) (rep' : Rpl.Play Int) (v : View),
      (⟨p, some rep⟩ : RPlat σ).update client done f err = (⟨q, some rep'⟩, some v, (client p.client v).err) ∧
      v.time = (if p.paused then p.lastTime else t) ∧ v.size = rep.size ∧
      v.events = strikeIf (isRune [0x0B]) (strikeIf (isRune [0x2E]) (strikeIf (isRune [0x20])
        (strikeIf (isRune [0x0C]) p.events))) ∧
      v.paused = p.paused ∧ q.client = (client p.client v).state ∧
      rep' = { rep with pause := rep'.pause } ∧ rep'.pause.isSome := by
  have hl : keys 0x20 (countRune [0x0C] 0 p.events).1 = keys 0x20 p.events := keys_struck _ _ (by decide) _
  have hl2 : keys 0x2E (countRune [0x20] 0 (countRune [0x0C] 0 p.events).1).1 = keys 0x2E p.events := by
    rw [keys_struck _ _ (by decide), keys_struck _ _ (by decide)]
  have h : (hasTerminal 0x03 (countRune [0x0C] 0 p.events).1).2 = false := by
    rw [Bool.eq_false_iff]
    intro hh
    obtain ⟨e, he, hr⟩ := (hasTerminal_strikes 0x03 _).1.1 hh
    have := keys_struck 0x03 0x0C (by decide) p.events
    rw [hc] at this
    unfold keys at this
    rw [List.countP_eq_zero] at this
    have := this e he
    simp only [isRune, List.mem_singleton, Bool.and_eq_true, decide_eq_true_eq] at hr
    simp [hr.1, hr.2] at this
  have hpause : (if keys 0x20 p.events % 2 = 1 then rep.pause.isNone && rep.frame.t.isSome else rep.pause.isSome) = true := by
    by_cases ho : keys 0x20 p.events % 2 = 1
    · rw [if_pos ho] at hp ⊢; rw [hp, ht]; rfl
    · rw [if_neg ho] at hp ⊢; exact hp
  have hodd : ¬ keys 0x2E p.events % 2 = 1 := by omega
  have hu : ∃ z, rep.update false (keys 0x20 p.events) (keys 0x2E p.events) =
      ({ rep with pause := some z }, .run (some t) rep.size none) := by
    unfold Rpl.Play.update
    by_cases ho : keys 0x20 p.events % 2 = 1
    · rw [if_pos ho] at hp
      exact ⟨t, by simp [hcur, ho, hp, hodd, ht]⟩
    · rw [if_neg ho] at hp
      obtain ⟨z, hz⟩ := Option.isSome_iff_exists.1 hp
      exact ⟨z, by simp [hcur, ho, hz, hodd, ht]⟩
  obtain ⟨z, hu⟩ := hu
  unfold RPlat.update
  simp only [h, if_neg hcur, count_keys, hl, hpause, if_true, hl2, Bool.false_eq_true, if_false, hu]
  refine ⟨_, _, _, rfl, rfl, rfl, ?_, rfl, rfl, rfl, rfl⟩
  rw [← (countRune_strikes [0x0C] p.events 0).1, ← (countRune_strikes [0x20] _ 0).1, ← (countRune_strikes [0x2E] _ 0).1,
    ← (countRune_strikes [0x0B] _ 0).1]
  rfl

/-- **C114**: a dot (any odd number of them) while it is paused shows the next recorded frame, and it stays paused. -/
theorem paused_step (client : σ → View → Left σ ε) (done : Err ε) (p : Plat σ) (rep : Rpl.Play Int) (f : Frame ε)
    (hc : keys 0x03 p.events = 0) (t : Int) (ht : rep.frame.t = some t)
    (hp : if keys 0x20 p.events % 2 = 1 then rep.pause = none else rep.pause.isSome)
    (hd : keys 0x2E p.events % 2 = 1)
    (x : Int × Pt × Bytes) (rest : List (Int × Pt × Bytes)) (hx : Rpl.Spec.timeline rep.size rep.cur = x :: rest)
    (err : Option (Err ε)) : ∃ (q : Plat σ) (rep' : Rpl.Play Int) (v : View),
      (⟨p, some rep⟩ : RPlat σ).update client done f err = (⟨q, some rep'⟩, some v, (client p.client v).err) ∧
      v.time = (if p.paused then p.lastTime else x.1) ∧ v.size = x.2.1 ∧ v.events = Spec.replayed x.2.2 ∧
      v.paused = p.paused ∧ q.client = (client p.client v).state ∧
      rep'.pause.isSome ∧ Rpl.Spec.timeline rep'.size rep'.cur = rest := by
  have hcur : rep.cur ≠ [] := by intro h; rw [h] at hx; cases hx
  have hA := Rpl.advance_spec rep.cur rep.frame rep.size
  rw [hx] at hA
  obtain ⟨a1, a2, a3, a4⟩ := hA
  have hl : keys 0x20 (countRune [0x0C] 0 p.events).1 = keys 0x20 p.events := keys_struck _ _ (by decide) _
  have hl2 : keys 0x2E (countRune [0x20] 0 (countRune [0x0C] 0 p.events).1).1 = keys 0x2E p.events := by
    rw [keys_struck _ _ (by decide), keys_struck _ _ (by decide)]
  have h : (hasTerminal 0x03 (countRune [0x0C] 0 p.events).1).2 = false := by
    rw [Bool.eq_false_iff]
    intro hh
    obtain ⟨e, he, hr⟩ := (hasTerminal_strikes 0x03 _).1.1 hh
    have := keys_struck 0x03 0x0C (by decide) p.events
    rw [hc] at this
    unfold keys at this
    rw [List.countP_eq_zero] at this
    have := this e he
    simp only [isRune, List.mem_singleton, Bool.and_eq_true, decide_eq_true_eq] at hr
    simp [hr.1, hr.2] at this
  have hpause : (if keys 0x20 p.events % 2 = 1 then rep.pause.isNone && rep.frame.t.isSome else rep.pause.isSome) = true := by
    by_cases ho : keys 0x20 p.events % 2 = 1
    · rw [if_pos ho] at hp ⊢; rw [hp, ht]; rfl
    · rw [if_neg ho] at hp ⊢; exact hp
  have hu : rep.update false (keys 0x20 p.events) (keys 0x2E p.events) =
      ({ cur := (Rpl.advance rep.frame rep.size rep.cur).2.2, frame := (Rpl.advance rep.frame rep.size rep.cur).1,
         pause := some t, size := x.2.1 }, .run (some x.1) x.2.1 (some x.2.2)) := by
    unfold Rpl.Play.update
    by_cases ho : keys 0x20 p.events % 2 = 1
    · rw [if_pos ho] at hp
      simp [hcur, ho, hp, hd, ht, a1, a2, a3]
    · rw [if_neg ho] at hp
      simp [hcur, ho, hp, hd, ht, a1, a2, a3]
  unfold RPlat.update
  simp only [h, if_neg hcur, count_keys, hl, hpause, if_true, hl2, Bool.false_eq_true, if_false, hu]
  refine ⟨_, _, _, rfl, rfl, rfl, ?_, rfl, rfl, rfl, ?_⟩
  · exact (countRune_strikes [0x0B] _ 0).1
  · rw [← a2]; exact a4

/-- **C114** When all recorded frames have been shown, the next one ends the run with the error that says so. -/
theorem replay_done (client : σ → View → Left σ ε) (done : Err ε) (p : Plat σ) (rep : Rpl.Play Int) (f : Frame ε)
    (hr : rep.cur = []) (err : Option (Err ε)) :
    ∃ q, (⟨p, some rep⟩ : RPlat σ).update client done f err = (⟨q, some rep⟩, none, some done) ∧ q.client = p.client := by
  unfold RPlat.update
  simp only [hr, if_true]
  exact ⟨_, rfl, rfl⟩

/-- Signals to stop, and nothing else. -/
def Spec.onlySignals (l : List Poll) : Prop := ∀ q ∈ l, ∃ sig, q = Poll.stop sig

theorem polls_signals (l : List Poll) (hl : onlySignals l) : ∀ (p : Plat σ) (err : Option (Err ε)),
    ∃ e, p.polls err l = some (p, e) := by
  induction l with
  | nil => intro p err; exact ⟨err, rfl⟩
  | cons q l ih =>
    intro p err
    obtain ⟨sig, rfl⟩ := hl q (by simp)
    rw [Plat.polls, Plat.poll, Option.bind_some]
    exact ih (fun x hx => hl x (by simp [hx])) p _

/-- Negation for **C114**: while a replay goes on, signals to stop do not end the run.  Whatever is
recorded and whichever signals come in, as long as there are recorded frames left the run goes on and the
client is shown every one of them. -/
theorem signals_ignored (client : σ → View → Left σ ε) (hcl : ∀ s v, (client s v).err = none ∧ (client s v).events = [])
    (done : Err ε) (fs : List (Frame ε)) : ∀ (p : Plat σ) (rep : Rpl.Play Int), p.events = [] → rep.pause = none →
    (∀ f ∈ fs, f.time ≠ 0 ∧ f.telemetry = none ∧ f.flush = none ∧ f.notify = none ∧ onlySignals f.polls) →
    fs.length ≤ (Rpl.Spec.timeline rep.size rep.cur).length →
    ((⟨p, some rep⟩ : RPlat σ).run client done fs).2 = .running ∧
      ((⟨p, some rep⟩ : RPlat σ).run client done fs).1.map (fun v => (v.size, v.events)) =
        ((Rpl.Spec.timeline rep.size rep.cur).take fs.length).map fun x => (x.2.1, Spec.replayed x.2.2) := by
  induction fs with
  | nil => intro p rep _ _ _ _; exact ⟨rfl, by simp [RPlat.run]⟩
  | cons f fs ih =>
    intro p rep he hp hf hn
    obtain ⟨ht, hm, hfl, hno, hs⟩ := hf f (by simp)
    obtain ⟨e, hq⟩ := polls_signals f.polls hs p (none : Option (Err ε))
    cases hx : Rpl.Spec.timeline rep.size rep.cur with
    | nil => rw [hx] at hn; simp at hn
    | cons x rest =>
      obtain ⟨q, rep', v, h1, h2, h3, h4, h5, h6, h7, h8, h9, h10, h11, h12, h13⟩ :=
        replay_shows client done p rep f (by rw [he]; rfl) (by rw [he]; rfl) hp x rest hx e
      have hfr := rframe_err client done ⟨p, some rep⟩ f hm (p, e) hq
      simp only [h1, (hcl p.client v).1, hfl, hno, firstErr] at hfr
      rw [RPlat.run, if_neg ht, hfr]
      simp only
      rw [hx] at hn
      have := ih q rep' (by rw [h8, (hcl p.client v).2]) h12 (fun g hg => hf g (by simp [hg]))
        (by rw [h13]; simpa using hn)
      refine ⟨this.1, ?_⟩
      simp only [Option.toList_some, List.singleton_append, List.map_cons, List.length_cons, List.take_succ_cons,
        this.2, h13, h3, h4]

theorem keys_all_struck (k : Nat) (l : Events) : keys k (l.map Ev.struck) = 0 := by
  unfold keys
  rw [List.countP_eq_zero]
  intro e he
  obtain ⟨x, _, rfl⟩ := List.mem_map.1 he
  simp [Ev.struck]

/-- Ctrl-L being taken changes nothing else that is there before a Ctrl-C. -/
theorem keys_terminal (k : Nat) (hk : k ≠ 0x0C) (es : Events) :
    keys k (hasTerminal 0x03 (strikeIf (isRune [0x0C]) es)).1 = keys k (hasTerminal 0x03 es).1 := by
  induction es with
  | nil => rfl
  | cons e es ih =>
    have hcons : strikeIf (isRune [0x0C]) (e :: es) =
        (if isRune [0x0C] e then e.struck else e) :: strikeIf (isRune [0x0C]) es := rfl
    rw [hcons]
    by_cases h : e.kind = .rune ∧ e.esc = 0x03
    · have : isRune [0x0C] e = false := by simp [isRune, h.2]
      have he : (if isRune [0x0C] e = true then e.struck else e) = e := by rw [this]; rfl
      rw [he, hasTerminal, hasTerminal, if_pos h, if_pos h]
      simp only [keys_all_struck]
    · by_cases h2 : isRune [0x0C] e = true
      · have hn : ¬ (e.struck.kind = .rune ∧ e.struck.esc = 0x03) := by simp [Ev.struck]
        rw [h2, if_pos rfl, hasTerminal, hasTerminal, if_neg h, if_neg hn]
        simp only [isRune, List.mem_singleton, Bool.and_eq_true, decide_eq_true_eq] at h2
        unfold keys at ih ⊢
        simp only [List.countP_cons, ih, Ev.struck, h2.2, hk.symm]
        simp
      · rw [if_neg h2, hasTerminal, hasTerminal, if_neg h, if_neg h]
        unfold keys at ih ⊢
        simp only [List.countP_cons, ih]

theorem terminal_there (es : Events) (hc : 0 < keys 0x03 es) : (hasTerminal 0x03 (countRune [0x0C] 0 es).1).2 = true := by
  rw [← keys_struck 0x03 0x0C (by decide) es] at hc
  unfold keys at hc
  rw [List.countP_pos_iff] at hc
  obtain ⟨e, he, h⟩ := hc
  exact (hasTerminal_strikes 0x03 _).1.2 ⟨e, he, by simpa [isRune] using h⟩

theorem goOn_err (client : σ → View → Left σ ε) (p : Plat σ) (f : Frame ε) (redraw : Bool) (err : Option (Err ε)) :
    (p.goOn client f redraw err).2.2 =
      firstErr [err, switched p.events f, (client p.client (p.goOn client f redraw err).2.1).err] := by
  have h : (p.goOn client f redraw err).2.2 =
      errOr (if (countRune [0x12] 0 p.events).2 % 2 = 1 then errOr err f.toggle else err)
        (client p.client (p.goOn client f redraw err).2.1).err := rfl
  rw [h, count_keys]
  generalize (client p.client (p.goOn client f redraw err).2.1).err = x
  unfold switched
  split <;> cases err <;> cases f.toggle <;> cases x <;> rfl

/-- Typing Ctrl-C while a replay goes on ends it: unless the polls found an error, which ends the run, the
frame is one without a replay, with what was typed before the Ctrl-C. -/
theorem stop_live (client : σ → View → Left σ ε) (done : Err ε) (p : Plat σ) (rep : Rpl.Play Int) (f : Frame ε)
    (hcur : rep.cur ≠ []) (hc : 0 < keys 0x03 p.events) (err : Option (Err ε)) :
    (∀ e, err = some e → ((⟨p, some rep⟩ : RPlat σ).update client done f err).2 = (none, some e)) ∧
    (err = none → ∃ (q : Plat σ) (v : View) (e : Option (Err ε)),
      (⟨p, some rep⟩ : RPlat σ).update client done f err = (⟨q, none⟩, some v, e) ∧
      v.redraw = decide (0 < keys 0x0C p.events ∨ p.size = ⟨0, 0⟩ ∨ p.size ≠ p.lastSize) ∧
      v.size = (if v.redraw then f.termSize.getD p.size else p.size) ∧
      v.time = (if p.paused then p.lastTime else f.time) ∧
      e = firstErr [switched (hasTerminal 0x03 p.events).1 f, (client p.client v).err] ∧
      q.size = (client p.client v).size ∧ q.lastSize = (client p.client v).size ∧
      q.events = (client p.client v).events ∧ q.client = (client p.client v).state) := by
  have ht := terminal_there p.events hc
  have hk : keys 0x12 (hasTerminal 0x03 (countRune [0x0C] 0 p.events).1).1 = keys 0x12 (hasTerminal 0x03 p.events).1 := by
    rw [(countRune_strikes [0x0C] p.events 0).1]; exact keys_terminal _ (by decide) _
  constructor
  · rintro e rfl
    unfold RPlat.update
    simp only [if_neg hcur, ht, Option.isSome_some, if_true]
  · rintro rfl
    unfold RPlat.update
    simp only [if_neg hcur, ht, Option.isSome_none, Bool.false_eq_true, if_false, if_true]
    refine ⟨_, _, _, rfl, ?_, rfl, rfl, ?_, rfl, rfl, rfl, rfl⟩
    · change (decide ((countRune [0x0C] 0 p.events).2 > 0) || decide (p.size = ⟨0, 0⟩) || decide (p.size ≠ p.lastSize)) = _
      rw [count_keys]
      simp [Bool.or_assoc]
    · rw [goOn_err]
      have : switched (hasTerminal 0x03 (countRune [0x0C] 0 p.events).1).1 f = switched (hasTerminal 0x03 p.events).1 f := by
        unfold switched; rw [hk]
      simp only [this, firstErr]

/-- Negation for **C114**: a replay that is ended by Ctrl-C leaves the screen in the recorded size, whatever
the terminal's size is: until Ctrl-L is typed or the terminal changes its size, the client goes on to be
shown the recorded size. -/
theorem size_stays (client : σ → View → Left σ ε)
    (hcl : ∀ s v, (client s v).size = v.size ∧ (client s v).events = []) (done : Err ε) (s : Pt) (hs : s ≠ ⟨0, 0⟩)
    (p : Plat σ) (rep : Rpl.Play Int) (hcur : rep.cur ≠ []) (hc : 0 < keys 0x03 p.events) (hl : keys 0x0C p.events = 0)
    (h1 : p.size = s) (h2 : p.lastSize = s) (fs : List (Frame ε)) (hf : ∀ f ∈ fs, f.polls = []) :
    ∀ v ∈ ((⟨p, some rep⟩ : RPlat σ).run client done fs).1, v.size = s := by
  have live : ∀ (fs : List (Frame ε)) (p : Plat σ), (∀ f ∈ fs, f.polls = []) → p.size = s → p.lastSize = s → keys 0x0C p.events = 0 →
      ∀ v ∈ (p.run client fs).1, v.size = s := by
    intro fs
    induction fs with
    | nil => intro p _ _ _ _ v hv; simp [Plat.run] at hv
    | cons f fs ih =>
      intro p hf h1 h2 hl v hv
      rw [Plat.run] at hv
      by_cases ht : f.time = 0
      · rw [if_pos ht] at hv; simp at hv
      · rw [if_neg ht] at hv
        cases hm : f.telemetry with
        | some e =>
          have : p.frame client f = .stop none e := by unfold Plat.frame; simp [hm]
          rw [this] at hv; simp at hv
        | none =>
          have hq : p.polls (none : Option (Err ε)) f.polls = some (p, none) := by rw [hf f (by simp)]; rfl
          have hfr := frame_err client p f hm (p, none) hq
          obtain ⟨b1, b2, b3, b4, b5, b6, b7, b8, b9⟩ := update_seen client p f none
          have hr : (p.update client f (none : Option (Err ε))).2.1.redraw = false := by
            rw [b1, hl, h1, h2]; simp [hs]
          have hsz : (p.update client f (none : Option (Err ε))).2.1.size = s := by rw [b2, hr, h1]; rfl
          simp only at hfr
          cases he : firstErr [(p.update client f (none : Option (Err ε))).2.2, f.flush, f.notify] with
          | some e =>
            rw [he] at hfr; simp only at hfr
            rw [hfr] at hv
            simp only [Option.toList_some, List.mem_singleton] at hv
            rw [hv]; exact hsz
          | none =>
            rw [he] at hfr; simp only at hfr
            rw [hfr] at hv
            rcases List.mem_cons.1 hv with rfl | hv
            · exact hsz
            · refine ih _ (fun g hg => hf g (by simp [hg])) ?_ ?_ ?_ v hv
              · rw [b5, (hcl _ _).1, hsz]
              · rw [b6, (hcl _ _).1, hsz]
              · have : (p.update client f (none : Option (Err ε))).1.events =
                    (client p.client (p.update client f (none : Option (Err ε))).2.1).events := rfl
                rw [this, (hcl _ _).2]; rfl
  cases fs with
  | nil => intro v hv; simp [RPlat.run] at hv
  | cons f fs =>
    intro v hv
    rw [RPlat.run] at hv
    by_cases ht : f.time = 0
    · rw [if_pos ht] at hv; simp at hv
    · rw [if_neg ht] at hv
      cases hm : f.telemetry with
      | some e =>
        have : (⟨p, some rep⟩ : RPlat σ).frame client done f = .stop ⟨p, some rep⟩ none e := by unfold RPlat.frame; simp [hm]
        rw [this] at hv; simp at hv
      | none =>
        have hq : p.polls (none : Option (Err ε)) f.polls = some (p, none) := by rw [hf f (by simp)]; rfl
        have hfr := rframe_err client done ⟨p, some rep⟩ f hm (p, none) hq
        obtain ⟨q, w, e, c1, c2, c3, c4, c5, c6, c7, c8, c9⟩ := (stop_live client done p rep f hcur hc none).2 rfl
        have hr : w.redraw = false := by rw [c2, hl, h1, h2]; simp [hs]
        have hsz : w.size = s := by rw [c3, hr, h1]; rfl
        simp only [c1] at hfr
        cases he : firstErr [e, f.flush, f.notify] with
        | some x =>
          rw [he] at hfr; simp only at hfr
          rw [hfr] at hv
          simp only [Option.toList_some, List.mem_singleton] at hv
          rw [hv]; exact hsz
        | none =>
          rw [he] at hfr; simp only at hfr
          rw [hfr] at hv
          simp only [Option.toList_some, List.singleton_append, List.mem_cons, run_live] at hv
          rcases hv with rfl | hv
          · exact hsz
          · refine live fs q (fun g hg => hf g (by simp [hg])) ?_ ?_ ?_ v hv
            · rw [c6, (hcl _ _).1, hsz]
            · rw [c7, (hcl _ _).1, hsz]
            · rw [c8, (hcl _ _).2]; rfl

/-- **C114**: a client sees in a replay the same events as when they were typed exactly if neither Ctrl-L nor
Ctrl-R was among them: live, the platform takes these away; in a replay the client gets them. -/
theorem keys_replayed_iff (client : σ → View → Left σ ε) (p : Plat σ) (f : Frame ε) (err : Option (Err ε)) (b : Bytes)
    (he : p.events = decodeBytes [] b) :
    (p.update client f err).2.1.events = Spec.replayed b ↔ keys 0x0C p.events = 0 ∧ keys 0x12 p.events = 0 := by
  have h : (p.update client f err).2.1.events =
      (countRune [0x0B] 0 (countRune [0x12] 0 (countRune [0x0C] 0 p.events).1).1).1 := rfl
  rw [h, (countRune_strikes [0x0B] _ 0).1, (countRune_strikes [0x12] _ 0).1, (countRune_strikes [0x0C] _ 0).1, Spec.replayed, ← he]
  unfold strikeIf keys
  rw [List.map_map, List.map_map, List.map_inj_left, List.countP_eq_zero, List.countP_eq_zero, ← forall₂_and]
  constructor
  · intro H e hm
    have := H e hm
    constructor
    · intro hk
      simp only [Bool.and_eq_true, decide_eq_true_eq] at hk
      simp [isRune, hk.1, hk.2, Ev.struck] at this
      exact absurd (congrArg Ev.kind this) (by simp [hk.1])
    · intro hk
      simp only [Bool.and_eq_true, decide_eq_true_eq] at hk
      simp [isRune, hk.1, hk.2, Ev.struck] at this
      exact absurd (congrArg Ev.kind this) (by simp [hk.1])
  · intro H e hm
    obtain ⟨h1, h2⟩ := H e hm
    have e1 : isRune [0x0C] e = false := by
      rw [Bool.eq_false_iff]; intro hh; exact h1 (by simpa [isRune] using hh)
    have e2 : isRune [0x12] e = false := by
      rw [Bool.eq_false_iff]; intro hh; exact h2 (by simpa [isRune] using hh)
    simp [e1, e2]

/-! ### Examples -/

/-- A client that counts its frames, draws nothing, and takes all input. -/
def counter : Nat → View → Left Nat Unit := fun n v => ⟨n + 1, [], v.paused, v.size, v.hud, none⟩

/-- A replay of two frames in a screen of ten by five: an "a", and a Ctrl-L. -/
def tape : Rpl.Play Int :=
  { cur := [{ t := some 7, m := Rpl.resize ++ [0x31, 0x30, 0x2C, 0x35], b := [0x61] }, { t := some 8, b := [0x0C] }] }

example : Rpl.Spec.timeline tape.size tape.cur = [(7, ⟨10, 5⟩, [0x61]), (8, ⟨10, 5⟩, [0x0C])] := by decide +kernel

/-- A platform whose screen is as the replay left it, with nothing typed. -/
def plat (es : Events) : Plat Nat := { client := 0, events := es, size := ⟨10, 5⟩, lastSize := ⟨10, 5⟩ }

/-- Two frames, with a signal in each, show both recorded frames and do not end the run; the same signal ends a
run without a replay at once. -/
example : let fs : List (Frame Unit) := [{ time := 100, polls := [.stop 15] }, { time := 200, polls := [.stop 15, .stop 2] }]
    ((⟨plat [], some tape⟩ : RPlat Nat).run counter (.other ()) fs).2 = .running ∧
    ((⟨plat [], some tape⟩ : RPlat Nat).run counter (.other ()) fs).1.map (fun v => (v.time, v.size)) = [(7, ⟨10, 5⟩), (8, ⟨10, 5⟩)] ∧
    ((plat []).run counter fs).2 = .returned (some (.signal 15)) := by decide +kernel

/-- The hypotheses of `signals_ignored` and of `replay_shows` are met. -/
example : (∀ s v, (counter s v).err = none ∧ (counter s v).events = []) ∧ onlySignals [.stop 15, .stop 2] ∧
    keys 0x03 (plat []).events = 0 ∧ tape.pause = none := by
  refine ⟨fun _ _ => ⟨rfl, rfl⟩, ?_, rfl, rfl⟩
  intro q hq
  simp only [List.mem_cons, List.not_mem_nil, or_false] at hq
  rcases hq with rfl | rfl
  · exact ⟨15, rfl⟩
  · exact ⟨2, rfl⟩

/-- Ctrl-C in a terminal of eighty by twenty-four: the client is shown ten by five, in this frame and the next. -/
example : let fs : List (Frame Unit) := [{ time := 100, termSize := some ⟨80, 24⟩ }, { time := 200, termSize := some ⟨80, 24⟩ }]
    ((⟨plat [entry 0x03 []], some tape⟩ : RPlat Nat).run counter (.other ()) fs).1.map (fun v => (v.time, v.size)) =
      [(100, ⟨10, 5⟩), (200, ⟨10, 5⟩)] ∧ 0 < keys 0x03 (plat [entry 0x03 []]).events ∧
      keys 0x0C (plat [entry 0x03 []]).events = 0 := by decide +kernel

/-- A replay paused after its first frame: typing "a" runs the client with it, and a dot shows the next frame. -/
example : let r : Rpl.Play Int := { cur := [{ t := some 8, b := [0x62] }], frame := { t := some 7 }, pause := some 7, size := ⟨10, 5⟩ }
    (((⟨plat [entry 0x61 []], some r⟩ : RPlat Nat).update counter (.other ()) ({ time := 100 } : Frame Unit) none).2.1.map fun v =>
      (v.time, v.events)) = some (7, [entry 0x61 []]) ∧
    (((⟨plat [entry 0x2E []], some r⟩ : RPlat Nat).update counter (.other ()) ({ time := 100 } : Frame Unit) none).2.1.map fun v =>
      (v.time, v.events)) = some (8, [entry 0x62 []]) ∧ keys 0x2E (plat [entry 0x2E []]).events = 1 ∧
    Rpl.Spec.timeline r.size r.cur = [(8, ⟨10, 5⟩, [0x62])] := by decide +kernel

/-- Negation for **C114**: the replayed client gets the Ctrl-L that the live client did not get. -/
theorem replay_shows_keys : let live := ((plat (decodeBytes [] [0x0C])).update counter ({ time := 8 } : Frame Unit) none).2.1
    Spec.live live.events = [] ∧ Spec.live (Spec.replayed [0x0C]) = [entry 0x0C []] := by decide +kernel

end Frm
end Anansi
