import Verif.Model.CmdRun
import Verif.Model.Lolwut
import Verif.Model.InteractDraw
import Verif.Props.App
import Verif.Props.PlatNew
import Verif.Props.Demo
/-
C144: how the interactive commands end.
-/
set_option autoImplicit false

namespace Anansi.Cmd
open Evq Frm Typ.Spec

variable {σ : Type}

namespace Spec

/-- Ctrl-C is among the events. -/
def Interrupted (es : Events) : Prop := ∃ e ∈ es, Dem.Spec.key 0x03 e = true

/-- The command returns `errInt` exactly when there is a Ctrl-C. -/
def Obeys (upd : σ → View → σ × Events × Dem.Res Fail) : Prop :=
  ∀ s v, (upd s v).2.2 = .interrupt ↔ Interrupted v.events

/-- The runs before the last were to be repeated. -/
def Again (r : Ending CErr) : Prop := r = .returned none ∨ r = .returned (some (.other .replayDone))

/-- The status a process should end with: 0 if the user or the end of the input ended it, otherwise that of the
signal, or 1. -/
def status : Fail → Nat
  | .input .eof => 0
  | .other .int => 0
  | .signal n => if n = 0 then 1 else (-(n : Int) % 256).toNat
  | _ => 1

/-- A frame in which nothing goes wrong but possibly what is typed. -/
structure Sound (f : Frame CErr) : Prop where
  time : f.time ≠ 0
  telemetry : f.telemetry = none
  toggle : f.toggle = none
  stop : ∀ n, Poll.stop n ∉ f.polls

end Spec
open Cmd.Spec

/-! ### The keys of the commands -/

theorem key_isRune (r : Nat) (e : Ev) : isRune [r] e = Dem.Spec.key r e := by
  simp [isRune, Dem.Spec.key]

theorem terminal_iff (es : Events) : (hasTerminal 0x03 es).2 = true ↔ Interrupted es := by
  rw [(hasTerminal_strikes 0x03 es).1]
  simp only [key_isRune, Interrupted]

/-- **C144**, the keys: the demo returns its `errInt` exactly when there is a Ctrl-C among the events. -/
theorem demo_interrupts {ε : Type} (sec ns : Nat) (sus : Option ε) (d : Grid) (es : Events) (sc : Screen) (o : Dem.Out ε)
    (h : Dem.update sec ns sus d es sc = some o) : o.res = .interrupt ↔ Interrupted es := by
  rw [← terminal_iff]
  unfold Dem.update at h
  simp only [Option.bind_eq_some_iff] at h
  obtain ⟨q, -, h⟩ := h
  injection h with h
  subst h
  cases ht : (hasTerminal 0x03 es).2
  · simp only [Bool.false_eq_true, if_false, iff_false]
    split
    · split <;> simp
    · simp
  · simp

/-- **C144**, the keys of lolwut. -/
theorem lolwut_interrupts {ε : Type} (d : Lol.Demo) (art : Int → Int → Int → Nat → Nat → Lol.Turn) (sus : Option ε) (es : Events)
    (sc : Screen) (o : Lol.Out ε) (h : d.update art sus es sc = some o) : o.res = .interrupt ↔ Interrupted es := by
  rw [← terminal_iff]
  unfold Lol.Demo.update at h
  simp only [Option.bind_eq_some_iff] at h
  obtain ⟨_, -, q, -, h⟩ := h
  injection h with h
  subst h
  cases ht : (hasTerminal 0x03 es).2
  · simp only [Bool.false_eq_true, if_false, iff_false]
    split
    · split <;> simp
    · simp
  · simp

theorem map_ok' {α β : Type} {x : Except Fault α} {f : α → β} {b : β} (h : x.map f = .ok b) : ∃ a, x = .ok a ∧ f a = b := by
  cases x with
  | error e => cases h
  | ok a => injection h with h; exact ⟨a, rfl, h⟩

theorem bind_ok' {α β : Type} {x : Except Fault α} {f : α → Except Fault β} {b : β} (h : x.bind f = .ok b) :
    ∃ a, x = .ok a ∧ f a = .ok b := by
  cases x with
  | error e => cases h
  | ok a => exact ⟨a, rfl, h⟩

/-- **C144**, the keys of interact. -/
theorem interact_interrupts {ε : Type} (gr : Nat → Bool) (world : List (List Bytes) → Itr.Outcome) (sus : Option ε) (hud : Bool)
    (f : Itr.Full) (es : Events) (v : VScreen) (o : Itr.Out ε) (h : f.update gr world sus hud es v = .ok o) :
    o.res = .interrupt ↔ Interrupted es := by
  rw [← terminal_iff]
  unfold Itr.Full.update at h
  simp only at h
  obtain ⟨_, -, h⟩ := bind_ok' h
  obtain ⟨_, -, h⟩ := bind_ok' h
  obtain ⟨_, -, h⟩ := bind_ok' h
  obtain ⟨_, -, h⟩ := map_ok' h
  subst h
  cases ht : (hasTerminal 0x03 es).2
  · simp only [Bool.false_eq_true, if_false, iff_false]
    split
    · split <;> simp
    · simp
  · simp

/-! ### Runs -/

/-- A run that goes on after some frames goes on from where it then is. -/
theorem run_on (c : σ → View → Left σ CErr) (I : Plat σ → Prop) (m : List (Frame CErr)) : ∀ (l : List (Frame CErr)) (p : Plat σ),
    (p.run c l).2 = .running → (∀ f ∈ l, ∀ p p' v, I p → p.frame c f = .next p' v → I p') → I p →
    ∃ p' : Plat σ, I p' ∧ (p.run c (l ++ m)).2 = (p'.run c m).2
  | [], p, _, _, h0 => ⟨p, h0, rfl⟩
  | f :: l, p, h, h1, h0 => by
    unfold Plat.run at h
    split at h
    · cases h
    · next ht =>
      cases hf : p.frame c f with
      | hang => rw [hf] at h; cases h
      | stop v e => rw [hf] at h; cases h
      | next p1 v =>
        rw [hf] at h
        simp only at h
        obtain ⟨p', i1, i2⟩ := run_on c I m l p1 h (fun f hf => h1 f (by simp [hf])) (h1 f (by simp) p p1 v h0 hf)
        refine ⟨p', i1, ?_⟩
        rw [← i2, List.cons_append]
        have : p.run c (f :: (l ++ m)) = (v :: (p1.run c (l ++ m)).1, (p1.run c (l ++ m)).2) := by
          rw [Plat.run, if_neg ht, hf]
        rw [this]

/-- Polls without input leave it. -/
theorem noread_input (l : List Poll) (h : ∀ q ∈ l, Frm.Spec.Poll.reads q = false) : ∀ (p : Plat σ) (e : Option Fail),
    ∃ r, p.polls e l = some r ∧ r.1.input = p.input := by
  induction l with
  | nil => intro p e; exact ⟨_, rfl, rfl⟩
  | cons q l ih =>
    intro p e
    have ih := ih (fun q hq => h q (by simp [hq]))
    cases q with
    | stop n => exact ih p _
    | resize sz => exact ih { p with size := sizeTo p.size sz } _
    | input av g s => have := h _ List.mem_cons_self; simp [Frm.Spec.Poll.reads] at this

theorem decode_flags (es : Events) (i : Inp.Input) : (decodeInput es i).2.nonblock = i.nonblock ∧
    (decodeInput es i).2.flags = i.flags ∧ (decodeInput es i).2.file = i.file := by
  have dec : ∀ i : Inp.Input, i.decode.1.nonblock = i.nonblock ∧ i.decode.1.flags = i.flags ∧ i.decode.1.file = i.file := by
    intro i
    unfold Inp.Input.decode
    simp only
    split
    · exact ⟨rfl, rfl, rfl⟩
    · split
      · exact ⟨rfl, rfl, rfl⟩
      · split
        · exact ⟨rfl, rfl, rfl⟩
        · split <;> exact ⟨rfl, rfl, rfl⟩
  have aux : ∀ n (i : Inp.Input), (i.drainAux n).1.nonblock = i.nonblock ∧ (i.drainAux n).1.flags = i.flags ∧
      (i.drainAux n).1.file = i.file := by
    intro n
    induction n with
    | zero => intro i; exact ⟨rfl, rfl, rfl⟩
    | succ n ih =>
      intro i
      have hd := dec i
      unfold Inp.Input.drainAux
      split
      · next s h => rw [h] at hd; exact hd
      · next s ev h =>
        rw [h] at hd
        obtain ⟨a1, a2, a3⟩ := ih s
        exact ⟨a1.trans hd.1, a2.trans hd.2.1, a3.trans hd.2.2⟩
  exact aux _ _

/-- Polls that bring what is typed do not wait for ever, and so it stays. -/
theorem sent_able (l : List Poll) (b : Bytes) (h : Sent l b) (p : Plat σ) (e : Option Fail) (ha : App.Able p.input) :
    ∃ r, p.polls e l = some r ∧ App.Able r.1.input := by
  cases h with
  | none _ h =>
    obtain ⟨r, k1, k2⟩ := noread_input l h p e
    exact ⟨r, k1, k2 ▸ ha⟩
  | some a c cs h1 h2 =>
    obtain ⟨r, k1, k2⟩ := noread_input a h1 p e
    obtain ⟨inp, r1, r2⟩ := App.readAny_able r.1.input cs (k2 ▸ ha)
    rw [App.polls_append, k1]
    simp only [Option.bind_some, Plat.polls, Plat.poll, r1]
    split
    · simp only [Option.bind_some]
      obtain ⟨r', k3, k4⟩ := noread_input c h2 ({ r.1 with events := (decodeInput [] inp).1, input := (decodeInput [] inp).2 } : Plat σ)
        (errOr r.2 (readErr Inp.Err.nil))
      refine ⟨r', k3, ?_⟩
      rw [k4]
      obtain ⟨d1, d2, d3⟩ := decode_flags [] inp
      unfold App.Able Inp.Input.nonblocking at r2 ⊢
      rw [d1, d2, d3]
      exact r2
    · simp only [Option.bind_some]
      obtain ⟨r', k3, k4⟩ := noread_input c h2 ({ r.1 with events := [], input := inp } : Plat σ) (errOr r.2 (readErr Inp.Err.nil))
      exact ⟨r', k3, k4 ▸ r2⟩

/-- What is typed whole is taken whole. -/
theorem frame_takes (c : σ → View → Left σ CErr) (f : Frame CErr) (b : Bytes) (s1 : Sent f.polls b) (is : List InItem)
    (s2 : ∀ i ∈ is, i.Ok) (s3 : b = is.flatMap InItem.bytes) (p p' : Plat σ) (v : View) (h0 : p.input.buf = [])
    (ha : App.Able p.input) (hf : p.frame c f = .next p' v) : p'.input.buf = [] ∧ App.Able p'.input := by
  obtain ⟨hm, q, hq, -, -, -⟩ := (frame_goes_on c p f).1 ⟨p', v, hf⟩
  obtain ⟨es, t1, -, -⟩ := polls_events f.polls p none _ hq
  obtain ⟨k1, -⟩ := Typ.typed_items f.polls b s1 is s2 s3 p.input _ _ h0 t1
  have fe := frame_err c p f hm _ hq
  simp only at fe k1
  split at fe
  · rw [fe] at hf; cases hf
  · rw [fe] at hf
    injection hf with hf
    rw [← hf]
    obtain ⟨r, a1, a2⟩ := sent_able f.polls b s1 p none ha
    rw [hq] at a1
    injection a1 with a1
    rw [← a1] at a2
    exact ⟨k1, a2⟩

theorem run_last (c : σ → View → Left σ CErr) (p : Plat σ) (f : Frame CErr) (m : List (Frame CErr)) (ht : f.time ≠ 0) (e : Fail)
    (h : p.frame c f = .hang ∨ ∃ v, p.frame c f = .stop v e) :
    (p.run c (f :: m)).2 = .hang ∨ (p.run c (f :: m)).2 = .returned (some e) := by
  unfold Plat.run
  rw [if_neg ht]
  rcases h with h | ⟨v, h⟩
  · rw [h]; exact .inl rfl
  · rw [h]; exact .inr rfl

/-- All that is sent is read without an error. -/
theorem read_fine (cs : List Inp.Chunk) (s : Inp.Input) (q : Inp.Input × Nat × Inp.Err × List Inp.Avail)
    (h : s.readAny (cs.map (fun c => Inp.Avail.data c.1 c.2.1 c.2.2) ++ [.nothing]) true true = some q) : q.2.2.1 = .nil := by
  have loop : ∀ (cs : List Inp.Chunk) (s : Inp.Input) (n : Nat) (q : Inp.Input × Nat × Inp.Err × List Inp.Avail),
      s.readLoop n (cs.map (fun c => Inp.Avail.data c.1 c.2.1 c.2.2) ++ [.nothing]) = some q → q.2.2.1 = .wouldBlock := by
    intro cs
    induction cs with
    | nil =>
      intro s n q h
      simp only [List.map_nil, List.nil_append, Inp.Input.readLoop] at h
      split at h
      · injection h with h; rw [← h]
      · split at h
        · injection h with h; rw [← h]
        · cases h
    | cons c cs ih =>
      intro s n q h
      simp only [List.map_cons, List.cons_append, Inp.Input.readLoop] at h
      exact ih _ _ _ h
  obtain ⟨h1, -⟩ := Typ.setNonblock_ok s
  unfold Inp.Input.readAny at h
  simp only [h1, Bool.not_true, Bool.false_eq_true, if_false] at h
  cases hl : ({ (s.setNonblock true true true).1 with ateof := false } : Inp.Input).readLoop 0
      (cs.map (fun c => Inp.Avail.data c.1 c.2.1 c.2.2) ++ [.nothing]) with
  | none => rw [hl] at h; cases h
  | some t =>
    rw [hl] at h
    have := loop _ _ _ _ hl
    obtain ⟨t1, tn, te, tl⟩ := t
    simp only at this
    subst this
    injection h with h
    rw [← h]

theorem read_eof (cs : List Inp.Chunk) (s : Inp.Input) (q : Inp.Input × Nat × Inp.Err × List Inp.Avail)
    (h : s.readAny (cs.map (fun c => Inp.Avail.data c.1 c.2.1 c.2.2) ++ [.eof]) true true = some q) : q.2.2.1 = .eof := by
  have loop : ∀ (cs : List Inp.Chunk) (s : Inp.Input) (n : Nat) (q : Inp.Input × Nat × Inp.Err × List Inp.Avail),
      s.readLoop n (cs.map (fun c => Inp.Avail.data c.1 c.2.1 c.2.2) ++ [.eof]) = some q → q.2.2.1 = .eof := by
    intro cs
    induction cs with
    | nil =>
      intro s n q h
      simp only [List.map_nil, List.nil_append, Inp.Input.readLoop] at h
      injection h with h; rw [← h]
    | cons c cs ih =>
      intro s n q h
      simp only [List.map_cons, List.cons_append, Inp.Input.readLoop] at h
      exact ih _ _ _ h
  obtain ⟨h1, -⟩ := Typ.setNonblock_ok s
  unfold Inp.Input.readAny at h
  simp only [h1, Bool.not_true, Bool.false_eq_true, if_false] at h
  cases hl : ({ (s.setNonblock true true true).1 with ateof := false } : Inp.Input).readLoop 0
      (cs.map (fun c => Inp.Avail.data c.1 c.2.1 c.2.2) ++ [.eof]) with
  | none => rw [hl] at h; cases h
  | some t =>
    rw [hl] at h
    have := loop _ _ _ _ hl
    obtain ⟨t1, tn, te, tl⟩ := t
    simp only at this
    subst this
    injection h with h
    rw [← h]

theorem noread_none (l : List Poll) (h : ∀ q ∈ l, Frm.Spec.Poll.reads q = false) (hs : ∀ n, Poll.stop n ∉ l) :
    ∀ (p : Plat σ), ∃ p' : Plat σ, p.polls (none : Option Fail) l = some (p', none) ∧ p'.input = p.input := by
  induction l with
  | nil => intro p; exact ⟨p, rfl, rfl⟩
  | cons q l ih =>
    intro p
    have ih := ih (fun q hq => h q (by simp [hq])) (fun n hn => hs n (by simp [hn]))
    cases q with
    | stop n => exact absurd List.mem_cons_self (hs n)
    | resize sz =>
      obtain ⟨p', e, hi⟩ := ih { p with size := sizeTo p.size sz }
      exact ⟨p', by simpa [Plat.polls, Plat.poll, errOr] using e, hi⟩
    | input av g s => have := h _ List.mem_cons_self; simp [Frm.Spec.Poll.reads] at this

/-- Nothing is wrong with polls without signals that bring what is typed. -/
theorem sent_none (l : List Poll) (b : Bytes) (h : Sent l b) (hs : ∀ n, Poll.stop n ∉ l) (p : Plat σ) (r : Plat σ × Option Fail)
    (hr : p.polls none l = some r) : r.2 = none := by
  cases h with
  | none _ h =>
    obtain ⟨p', e, -⟩ := noread_none l h hs p
    rw [e] at hr
    injection hr with hr
    rw [← hr]
  | some a c cs ha hc =>
    obtain ⟨p1, e1, -⟩ := noread_none a ha (fun n hn => hs n (by simp [hn])) p
    rw [App.polls_append, e1] at hr
    simp only [Option.bind_some, Plat.polls, Plat.poll] at hr
    cases hq : p1.input.readAny (cs.map (fun c => Inp.Avail.data c.1 c.2.1 c.2.2) ++ [.nothing]) true true with
    | none => rw [hq] at hr; cases hr
    | some q =>
      have hn := read_fine cs _ _ hq
      obtain ⟨q1, qn, qe, ql⟩ := q
      simp only at hn
      subst hn
      rw [hq] at hr
      simp only at hr
      split at hr
      · obtain ⟨p', e, -⟩ := noread_none c hc (fun n hn => hs n (by simp [hn]))
          ({ p1 with events := (decodeInput [] q1).1, input := (decodeInput [] q1).2 } : Plat σ)
        simp only [Option.bind_some, errOr, readErr] at hr
        simp only [Option.isSome_none, Bool.false_eq_true, if_false, if_true] at hr
        rw [e] at hr
        injection hr with hr
        rw [← hr]
      · obtain ⟨p', e, -⟩ := noread_none c hc (fun n hn => hs n (by simp [hn]))
          ({ p1 with events := [], input := q1 } : Plat σ)
        simp only [Option.bind_some, errOr, readErr] at hr
        simp only [Option.isSome_none, Bool.false_eq_true, if_false, if_true] at hr
        rw [e] at hr
        injection hr with hr
        rw [← hr]

/-- The events of a frame have the Ctrl-C that was typed. -/
theorem update_sees (c : σ → View → Left σ CErr) (p : Plat σ) (f : Frame CErr) (err : Option Fail)
    (h : ∃ e ∈ p.events, Dem.Spec.key 0x03 e = true) : Interrupted (p.update c f err).2.1.events := by
  obtain ⟨e, he, hk⟩ := h
  have hl : e ∈ Frm.Spec.live (p.update c f err).2.1.events := by
    rw [(update_events c p f err).1]
    simp only [Dem.Spec.key, decide_eq_true_eq] at hk
    simp only [List.mem_filter, Frm.Spec.live, Frm.Spec.ownKey]
    refine ⟨⟨he, ?_⟩, ?_⟩
    · rw [hk.1]; decide
    · rw [hk.1, hk.2]; decide
  exact ⟨e, (List.mem_filter.1 hl).1, hk⟩

/-- A frame in which Ctrl-C is typed. -/
theorem frame_interrupt (upd : σ → View → σ × Events × Dem.Res Fail) (ho : Obeys upd) (p : Plat σ) (h0 : p.input.buf = []) (ha : App.Able p.input)
    (f : Frame CErr) (hf : Sound f) (b : Bytes) (hb : Sent f.polls b) (is : List InItem) (hi : ∀ i ∈ is, i.Ok)
    (hbs : b = is.flatMap InItem.bytes) (hc : InItem.rune 0x03 ∈ is) :
    ∃ v, p.frame (client upd) f = .stop v (.other .int) := by
  obtain ⟨q, hq, -⟩ := sent_able (σ := σ) f.polls b hb p none ha
  have hn := sent_none f.polls b hb hf.stop p q hq
  obtain ⟨es, t1, t2, t3⟩ := polls_events f.polls p none _ hq
  obtain ⟨-, k2⟩ := Typ.typed_items f.polls b hb is hi hbs p.input _ _ h0 t1
  have hne : es ≠ [] := by
    rw [k2]
    intro h
    rw [List.map_eq_nil_iff] at h
    rw [h] at hc
    cases hc
  have h1 : f.polls.countP Frm.Spec.Poll.reads = 1 := by
    have := Typ.sent_once _ _ hb
    rcases Nat.lt_or_ge (f.polls.countP Frm.Spec.Poll.reads) 1 with h | h
    · exact absurd (t2 (by omega)).2 hne
    · omega
  have hs : ∃ e ∈ q.1.events, Dem.Spec.key 0x03 e = true := by
    rw [t3 h1, k2]
    exact ⟨_, List.mem_map.2 ⟨_, hc, rfl⟩, by decide⟩
  have hin := update_sees (client upd) q.1 f q.2 hs
  have he : (q.1.update (client upd) f q.2).2.2 = some (.other .int) := by
    have hcl : ∀ v, Interrupted v.events → (client upd q.1.client v).err = some (.other .int) := by
      intro v hv
      unfold client
      simp only [(ho q.1.client v).2 hv, failOf]
    have h := hcl _ hin
    have e2 : (q.1.update (client upd) f q.2).2.2 =
        errOr (if (countRune [0x12] 0 (countRune [0x0C] 0 q.1.events).1).2 % 2 = 1 then errOr q.2 f.toggle else q.2)
          (client upd q.1.client (q.1.update (client upd) f q.2).2.1).err := rfl
    rw [e2, h, hn, hf.toggle]
    split <;> rfl
  have fe := frame_err (client upd) p f hf.telemetry q hq
  simp only [he, Frm.Spec.firstErr] at fe
  exact ⟨_, fe⟩

/-- **C144**: Ctrl-C, typed whole at any time among anything else, ends a run with `errInt`, whatever was typed before. -/
theorem interrupt_ends (upd : σ → View → σ × Events × Dem.Res Fail) (ho : Obeys upd) (p : Plat σ) (h0 : p.input.buf = []) (ha : App.Able p.input)
    (l m : List (Frame CErr)) (hl : (p.run (client upd) l).2 = .running)
    (ht : ∀ f ∈ l, ∃ is : List InItem, (∀ i ∈ is, i.Ok) ∧ Sent f.polls (is.flatMap InItem.bytes))
    (f : Frame CErr) (hf : Sound f) (is : List InItem) (hi : ∀ i ∈ is, i.Ok) (hs : Sent f.polls (is.flatMap InItem.bytes))
    (hc : InItem.rune 0x03 ∈ is) :
    (p.run (client upd) (l ++ f :: m)).2 = .returned (some (.other .int)) := by
  obtain ⟨p', i1, i2⟩ := run_on (client upd) (fun p => p.input.buf = [] ∧ App.Able p.input) (f :: m) l p hl
    (fun f hf p p' v h0 h => by
      obtain ⟨is, k1, k2⟩ := ht f hf
      exact frame_takes _ f _ k2 is k1 rfl p p' v h0.1 h0.2 h) ⟨h0, ha⟩
  rw [i2]
  obtain ⟨v, hv⟩ := frame_interrupt upd ho p' i1.1 i1.2 f hf _ hs is hi rfl hc
  rw [Plat.run, if_neg hf.time, hv]

/-- A frame in which the input is found to have ended, all well before. -/
theorem eof_frame (c : σ → View → Left σ CErr) (p : Plat σ) (f : Frame CErr) (hm : f.telemetry = none)
    (a b : List Poll) (cs : List Inp.Chunk) (ha : ∀ q ∈ a, ∃ sz, q = .resize sz)
    (hf : f.polls = a ++ .input (cs.map (fun c => Inp.Avail.data c.1 c.2.1 c.2.2) ++ [.eof]) true true :: b) :
    p.frame c f = .hang ∨ ∃ v, p.frame c f = .stop v (.input .eof) := by
  cases hq : p.polls (none : Option Fail) f.polls with
  | none =>
    left
    unfold Plat.frame
    rw [hm]
    simp only [hq]
  | some q =>
    right
    have he : q.2 = some (.input .eof) := by
      have hn1 : ∀ x ∈ a, Frm.Spec.Poll.reads x = false := by
        intro x hx; obtain ⟨sz, rfl⟩ := ha x hx; rfl
      have hn2 : ∀ n, Poll.stop n ∉ a := by
        intro n hx; obtain ⟨sz, h⟩ := ha _ hx; cases h
      obtain ⟨p1, e1, -⟩ := noread_none a hn1 hn2 p
      rw [hf, App.polls_append, e1] at hq
      simp only [Option.bind_some, Plat.polls, Plat.poll] at hq
      cases hr : p1.input.readAny (cs.map (fun c => Inp.Avail.data c.1 c.2.1 c.2.2) ++ [.eof]) true true with
      | none => rw [hr] at hq; cases hq
      | some r =>
        have hn := read_eof cs _ _ hr
        obtain ⟨r1, rn, re, rl⟩ := r
        simp only at hn
        subst hn
        rw [hr] at hq
        simp only at hq
        split at hq
        · exact polls_first b _ _ _ hq
        · exact polls_first b _ _ _ hq
    have fe := frame_err c p f hm q hq
    have hu := update_err c q.1 f (.input .eof)
    rw [← he] at hu
    simp only [hu] at fe
    rw [he] at fe
    exact ⟨_, fe⟩

/-- **C144**: the end of the input ends a run with `io.EOF`, whatever was read before and with it. -/
theorem eof_ends (c : σ → View → Left σ CErr) (p : Plat σ) (l m : List (Frame CErr)) (hl : (p.run c l).2 = .running)
    (f : Frame CErr) (ht : f.time ≠ 0) (hm : f.telemetry = none) (a b : List Poll) (cs : List Inp.Chunk)
    (ha : ∀ q ∈ a, ∃ sz, q = .resize sz)
    (hf : f.polls = a ++ .input (cs.map (fun c => Inp.Avail.data c.1 c.2.1 c.2.2) ++ [.eof]) true true :: b) :
    (p.run c (l ++ f :: m)).2 = .hang ∨ (p.run c (l ++ f :: m)).2 = .returned (some (.input .eof)) := by
  obtain ⟨p', -, i2⟩ := run_on c (fun _ => True) (f :: m) l p hl (fun _ _ _ _ _ _ _ => trivial) trivial
  rw [i2]
  exact run_last _ p' f m ht _ (eof_frame c p' f hm a b cs ha hf)

/-- **C144**: a signal to stop ends a run with its error. -/
theorem signal_ends (c : σ → View → Left σ CErr) (p : Plat σ) (l m : List (Frame CErr)) (hl : (p.run c l).2 = .running)
    (f : Frame CErr) (ht : f.time ≠ 0) (hm : f.telemetry = none) (a b : List Poll) (sig : Nat)
    (ha : ∀ q ∈ a, ∃ sz, q = .resize sz) (hf : f.polls = a ++ .stop sig :: b) :
    (p.run c (l ++ f :: m)).2 = .hang ∨ (p.run c (l ++ f :: m)).2 = .returned (some (.signal sig)) := by
  obtain ⟨p', -, i2⟩ := run_on c (fun _ => True) (f :: m) l p hl (fun _ _ _ _ _ _ _ => trivial) trivial
  rw [i2]
  by_cases h : (p'.run c (f :: m)).2 = .hang
  · exact .inl h
  · exact .inr (stop_signal_wins c sig p' f a b hf ha ht hm m h)

/-! ### The status -/

theorem loop_again (before : List (Ending CErr)) (h : ∀ r ∈ before, Again r) (l : List (Ending CErr)) :
    loop (before ++ l) = loop l := by
  induction before with
  | nil => rfl
  | cons r before ih =>
    have ih := ih fun r hr => h r (by simp [hr])
    rcases h r (by simp) with rfl | rfl
    · exact ih
    · simpa [loop] using ih

/-- **C144**: demo and interact run again after a replay is done, for as long as it takes, and end with the status of
the first run that ends otherwise. -/
theorem loop_status (due fatal : Bytes → Bytes) (say : Fail → Bytes) (logs : Lgs.Sink) (before after : List (Ending CErr))
    (h : ∀ r ∈ before, Again r) (e : Fail) (he : e ≠ .other .replayDone) :
    exit due fatal say logs (loop (before ++ .returned (some e) :: after)) = some (Spec.status e) := by
  rw [loop_again before h]
  simp only [loop, if_neg he]
  obtain ⟨m1, m2⟩ := Pnw.mustRun_status due fatal logs
  cases e with
  | input x =>
    cases x with
    | eof => simp [exit, m1, Spec.status]
    | _ => simp [exit, m2, Spec.status, failure]
  | signal n =>
    simp only [reduceCtorEq, or_self, if_false, exit, Option.map_some, m2, failure, Pnw.sigCode, Option.getD_some, Spec.status]
    congr 1
    split <;> split <;> first | rfl | omega
  | other x =>
    cases x with
    | replayDone => exact absurd rfl he
    | int => simp [exit, m1, Spec.status]
    | other t => simp [exit, m2, Spec.status, failure]

/-- **C144**: so, when Ctrl-C is typed, demo and interact end with status 0; but lolwut ends with status 1. -/
theorem interrupt_status (due fatal : Bytes → Bytes) (say : Fail → Bytes) (logs : Lgs.Sink) (before after : List (Ending CErr))
    (h : ∀ r ∈ before, Again r) (r : Ending CErr) (hr : r = .returned (some (.other .int))) :
    exit due fatal say logs (loop (before ++ r :: after)) = some 0 ∧ exit due fatal say logs (once r) = some 1 := by
  subst hr
  exact ⟨loop_status due fatal say logs before after h _ (by decide), by simp [once, exit, (Pnw.mustRun_status due fatal logs).2, failure]⟩

/-- **C144**: lolwut ends with status 1 whatever its run returns, but for signals; also when the user or the end of the input ends it. -/
theorem once_status (due fatal : Bytes → Bytes) (say : Fail → Bytes) (logs : Lgs.Sink) (e : Fail) :
    exit due fatal say logs (once (.returned (some e))) =
      some (match e with | .signal n => Spec.status (.signal n) | _ => 1) := by
  obtain ⟨-, m2⟩ := Pnw.mustRun_status due fatal logs
  cases e with
  | signal n =>
    simp only [once, exit, Option.map_some, m2, failure, Pnw.sigCode, Option.getD_some, Spec.status]
    congr 1
    split <;> split <;> first | rfl | omega
  | _ => simp [once, exit, m2, failure]

/-- **C144**, and it is so that the status of a signal is 256 less its number. -/
theorem signal_code (n : Nat) (h1 : 1 ≤ n) (h2 : n ≤ 64) : Spec.status (.signal n) = 256 - n := by
  simp only [Spec.status]
  rw [if_neg (by omega)]
  omega

/-- **C144** as a whole, for demo and interact: from the start of the last run, if what is typed before is typed whole and
ends nothing, and then Ctrl-C is, the process ends with status 0. -/
theorem typed_interrupt_status (due fatal : Bytes → Bytes) (say : Fail → Bytes) (logs : Lgs.Sink)
    (before after : List (Ending CErr)) (h : ∀ r ∈ before, Again r)
    (upd : σ → View → σ × Events × Dem.Res Fail) (ho : Obeys upd) (p : Plat σ) (h0 : p.input.buf = []) (ha : App.Able p.input)
    (l m : List (Frame CErr)) (hl : (p.run (client upd) l).2 = .running)
    (ht : ∀ f ∈ l, ∃ is : List InItem, (∀ i ∈ is, i.Ok) ∧ Sent f.polls (is.flatMap InItem.bytes))
    (f : Frame CErr) (hf : Sound f) (is : List InItem) (hi : ∀ i ∈ is, i.Ok) (hs : Sent f.polls (is.flatMap InItem.bytes))
    (hc : InItem.rune 0x03 ∈ is) :
    exit due fatal say logs (loop (before ++ (p.run (client upd) (l ++ f :: m)).2 :: after)) = some 0 :=
  (interrupt_status due fatal say logs before after h _ (interrupt_ends upd ho p h0 ha l m hl ht f hf is hi hs hc)).1

/-- **C144**, lolwut violates it: with the same keys the process ends with status 1. -/
theorem lolwut_interrupt_fails (due fatal : Bytes → Bytes) (say : Fail → Bytes) (logs : Lgs.Sink)
    (upd : σ → View → σ × Events × Dem.Res Fail) (ho : Obeys upd) (p : Plat σ) (h0 : p.input.buf = []) (ha : App.Able p.input)
    (l m : List (Frame CErr)) (hl : (p.run (client upd) l).2 = .running)
    (ht : ∀ f ∈ l, ∃ is : List InItem, (∀ i ∈ is, i.Ok) ∧ Sent f.polls (is.flatMap InItem.bytes))
    (f : Frame CErr) (hf : Sound f) (is : List InItem) (hi : ∀ i ∈ is, i.Ok) (hs : Sent f.polls (is.flatMap InItem.bytes))
    (hc : InItem.rune 0x03 ∈ is) :
    exit due fatal say logs (once (p.run (client upd) (l ++ f :: m)).2) = some 1 :=
  (interrupt_status due fatal say logs [] [] (by simp) _ (interrupt_ends upd ho p h0 ha l m hl ht f hf is hi hs hc)).2

/-! ### The demo -/

/-- The grids a demo can have. -/
abbrev DemoGrid := { d : Grid // ∃ z : Nat × Nat, Grid.Whole d z ∧ (z.1 = 0 → z.2 = 0) }

/-- The screen of a frame: what is on it does not matter, as the demo clears it. -/
def demoScreen (v : View) : Screen := (({} : Screen).resize (max 1 v.size.x.toNat, max 1 v.size.y.toNat)).1

theorem demo_next (sec ns : Nat) (sus : Option Fail) (d : DemoGrid) (v : View) :
    ∃ r : DemoGrid × Events × Dem.Res Fail, ∃ o, Dem.update sec ns sus d.1 v.events (demoScreen v) = some o ∧
      r.1.1 = o.grid ∧ r.2.1 = o.es ∧ r.2.2 = o.res := by
  obtain ⟨z, D, hz⟩ := d.2
  have W := (Screen.whole_of_resize (max 1 v.size.x.toNat) (max 1 v.size.y.toNat) (by omega) (by omega)).1
  obtain ⟨o, e, hd, -⟩ := Dem.keys_exact sec ns sus v.events (demoScreen v) W D hz
  obtain ⟨d', sc', e', W', -⟩ := Dem.frame_drawn (10 * sec + ns / 100000000) (demoScreen v) W D hz
  rw [hd] at e'
  injection e' with e'
  have : o.grid = d' := congrArg Prod.fst e'
  exact ⟨(⟨o.grid, _, by rw [this]; exact W', fun h => by simp at h⟩, o.es, o.res), o, e, rfl, rfl, rfl⟩

/-- The demo as a client, with a clock and suspending as given. -/
def demoUpd (clock : View → Nat × Nat) (sus : Option Fail) (d : DemoGrid) (v : View) : DemoGrid × Events × Dem.Res Fail :=
  match h : Dem.update (clock v).1 (clock v).2 sus d.1 v.events (demoScreen v) with
  | some o => (⟨o.grid, by
      obtain ⟨r, o', e, e1, -⟩ := demo_next (clock v).1 (clock v).2 sus d v
      rw [h] at e; injection e with e; rw [e, ← e1]; exact r.1.2⟩, o.es, o.res)
  | none => (d, v.events, .ok)

/-- **C144**: the demo is a client that returns `errInt` exactly on Ctrl-C, and never panics. -/
theorem demo_obeys (clock : View → Nat × Nat) (sus : Option Fail) : Obeys (demoUpd clock sus) ∧
    ∀ (d : DemoGrid) (v : View), (Dem.update (clock v).1 (clock v).2 sus d.1 v.events (demoScreen v)).isSome := by
  have ns : ∀ (d : DemoGrid) v, ∃ o, Dem.update (clock v).1 (clock v).2 sus d.1 v.events (demoScreen v) = some o := by
    intro d v
    obtain ⟨-, o, e, -⟩ := demo_next (clock v).1 (clock v).2 sus d v
    exact ⟨o, e⟩
  refine ⟨fun d v => ?_, fun d v => ?_⟩
  · unfold demoUpd
    split
    · next o h => exact demo_interrupts _ _ _ _ _ _ _ h
    · next h => obtain ⟨o, e⟩ := ns d v; rw [h] at e; cases e
  · obtain ⟨o, e⟩ := ns d v; rw [e]; rfl

/-! ### Examples -/

/-- A read of some bytes. -/
def readOf (b : UInt8) (t : Bytes) : Poll := .input [.data b t false, .nothing] true true

/-- The hypotheses hold: `a`, then a resize with `b`, Ctrl-C and an arrow key. -/
def typedC : List (Frame CErr) :=
  [{ time := 5, polls := [readOf 0x61 []] },
   { time := 6, polls := [.resize (some ⟨3, 2⟩), readOf 0x62 [0x03, 0x1B, 0x5B, 0x41]] }]

def plain : Plat Unit := { client := () }
def obey (_ : Unit) (v : View) : Unit × Events × Dem.Res Fail :=
  ((), [], if (hasTerminal 0x03 v.events).2 then .interrupt else .ok)

theorem obey_obeys : Obeys obey := by
  intro s v
  rw [← terminal_iff]
  unfold obey
  cases (hasTerminal 0x03 v.events).2 <;> simp

example : (plain.run (client obey) (typedC.take 1)).2 = .running ∧
    (plain.run (client obey) typedC).2 = .returned (some (.other .int)) ∧
    (plain.run (client obey) [{ time := 5, polls := [.input [.data 0x61 [] false, .eof] true true, .stop 2] }]).2 =
      .returned (some (.input .eof)) ∧
    (plain.run (client obey) [{ time := 5, polls := [.stop 2, .input [.data 0x03 [] false, .nothing] true true] }]).2 =
      .returned (some (.signal 2)) := by decide +kernel

example : Sent [Poll.resize (some ⟨3, 2⟩), readOf 0x62 [0x03, 0x1B, 0x5B, 0x41]] [0x62, 0x03, 0x1B, 0x5B, 0x41] :=
  .some [.resize (some ⟨3, 2⟩)] [] [(0x62, [0x03, 0x1B, 0x5B, 0x41], false)] (by simp [Frm.Spec.Poll.reads]) (by simp)

example : App.Able plain.input := .inl ⟨rfl, rfl⟩

example : Sound (typedC.getLast (by simp [typedC])) := ⟨by decide, rfl, rfl, by simp [typedC, readOf]⟩

/-- A replay that is done, and then an interrupt. -/
example : loop [.returned (some (.other .replayDone)), .returned none, .returned (some (.other .int)), .hang] = .returned none ∧
    loop [.returned (some (.other .replayDone)), .returned (some (.signal 15))] = .returned (some (.signal 15)) ∧
    Spec.status (.signal 15) = 241 := by decide

end Anansi.Cmd
