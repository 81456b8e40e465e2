import Verif.Model.Replay
import Verif.Props.InputDecode
/-
C44 Input recordings replay faithfully.
-/
set_option autoImplicit false

namespace Anansi
namespace Rpl
open Inp

/-! ### What a recording is and what it should replay as -/

namespace Spec

/-- What is in a recording: marks with a time, messages and what was read. -/
inductive Tok (τ : Type)
  | mark (t : τ)
  | msg (body : List Nat)
  | item (i : InItem)

/-- The things in a recording as things sent by a terminal. -/
def Tok.asItem {τ : Type} (fmt : τ → List Nat) : Tok τ → InItem
  | .mark t => .str false 0x9F (recTime ++ fmt t) false
  | .msg body => .str false 0x9F body false
  | .item i => i

/-- Runes that a control string can hold. -/
def text (body : List Nat) : Prop := ∀ c ∈ body, validRune c = true ∧ c ≠ 0xFFFD ∧ c ≠ 0x1B ∧ c ≠ 0x9C

/-- Input that is written back as it was: no strings, seven bit control sequences, no private
use characters that stand for escapes, and of the characters with Alt only those that are not
C1 controls, and not Alt-~. -/
def Plain : InItem → Prop
  | .rune r => ¬ (0xEF00 ≤ r ∧ r ≤ 0xEFFF)
  | .csi c1 _ _ => c1 = false
  | .str _ _ _ _ => False
  | .esc f => ¬ (0x40 ≤ f.toNat ∧ f.toNat ≤ 0x5F) ∧ f.toNat ≠ 0x7E

/-- Marks of times, messages that are not marks, and plain input. -/
def Tok.Ok {τ : Type} : Tok τ → Prop
  | .mark _ => True
  | .msg body => body ≠ [] ∧ text body ∧ ¬ ascii recTime <+: encodeRunes body ∧ ¬ ascii recReadErr <+: encodeRunes body
  | .item i => i.Ok ∧ Plain i

/-- A frame, if there is anything in it. -/
def flush {τ : Type} [DecidableEq τ] (f : Frame τ) : List (Frame τ) := if f = {} then [] else [f]

/-- The frames of a recording: every mark and every message begins one. -/
def frames {τ : Type} [DecidableEq τ] (cur : Frame τ) : List (Tok τ) → List (Frame τ)
  | [] => flush cur
  | .mark t :: l => flush cur ++ frames { t := some t } l
  | .msg body :: l => flush cur ++ frames { m := encodeRunes body } l
  | .item i :: l => frames { cur with b := cur.b ++ i.bytes } l

end Spec

open Spec (Tok)

/-! ### The ranges mean what they should -/

/-- The ranges are within the bytes. -/
structure Inv {τ : Type} (s : St τ) : Prop where
  off : s.off ≤ s.bs.length
  frames : ∀ p ∈ s.frames, p.b.2 ≤ s.bs.length ∧ p.m.2 ≤ s.bs.length
  b : s.prot.b = (0, 0)
  m : s.prot.m = (0, 0) ∨ (s.prot.m.1 < s.prot.m.2 ∧ s.prot.m.2 ≤ s.off)

/-- The frame being read. -/
def St.cur {τ : Type} (s : St τ) : Frame τ := ⟨s.prot.t, part s.bs s.prot.m, s.bs.drop s.off⟩

theorem part_zero (bs : Bytes) : part bs (0, 0) = [] := by simp [part]

theorem result_eq {τ : Type} (s : St τ) : s.result = s.frames.map fun p => ⟨p.t, part s.bs p.m, part s.bs p.b⟩ := by
  unfold St.result
  refine List.map_congr_left fun p _ => ?_
  congr 1
  · split
    · rfl
    · next h => rw [Classical.not_not.mp h, part_zero]
  · split
    · rfl
    · next h => rw [Classical.not_not.mp h, part_zero]

theorem part_append (bs x : Bytes) (r : Nat × Nat) (h : r.2 ≤ bs.length) : part (bs ++ x) r = part bs r := by
  unfold part; rw [List.take_append_of_le_length h]

/-- More bytes do not change the frames there are. -/
theorem result_append {τ : Type} (s : St τ) (h : Inv s) (bs : Bytes) (x : Bytes) (hb : bs = s.bs ++ x) (o : Nat) (p : Proto τ) :
    St.result { s with bs := bs, off := o, prot := p } = s.result := by
  rw [result_eq, result_eq, hb]
  refine List.map_congr_left fun p hp => ?_
  simp only
  rw [part_append _ _ _ (h.frames p hp).1, part_append _ _ _ (h.frames p hp).2]

theorem cur_empty {τ : Type} [DecidableEq τ] (s : St τ) (h : Inv s) :
    s.cur = {} ↔ ¬ (s.prot.m ≠ (0, 0) ∨ s.prot.t.isSome = true ∨ s.off < s.bs.length) := by
  have hm : part s.bs s.prot.m = [] ↔ s.prot.m = (0, 0) := by
    constructor
    · intro h0
      rcases h.m with hm | ⟨h1, h2⟩
      · exact hm
      · have := h.off
        have := congrArg List.length h0
        simp only [part, List.length_drop, List.length_take, List.length_nil] at this
        omega
    · intro h0; rw [h0, part_zero]
  simp only [St.cur, Frame.mk.injEq, hm, List.drop_eq_nil_iff, not_or, Classical.not_not, Nat.not_lt]
  cases s.prot.t <;> simp

/-- Pushing ends the frame. -/
theorem push_spec {τ : Type} [DecidableEq τ] (s : St τ) (h : Inv s) :
    Inv s.push ∧ s.push.result = s.result ++ Spec.flush s.cur ∧ s.push.prot = {} ∧ s.push.off = s.push.bs.length ∧
      s.push.bs = s.bs := by
  unfold Spec.flush
  by_cases hc : s.cur = {}
  · have := (cur_empty s h).mp hc
    rw [if_pos hc]
    unfold St.push
    rw [if_neg this]
    simp only [not_or, Classical.not_not, Nat.not_lt] at this
    obtain ⟨h1, h2, h3⟩ := this
    refine ⟨h, by simp, ?_, Nat.le_antisymm h.off h3, rfl⟩
    have hb := h.b
    have ht : s.prot.t = none := by cases ht : s.prot.t with
      | none => rfl
      | some x => rw [ht] at h2; simp at h2
    generalize s.prot = p at *
    obtain ⟨t, b, m⟩ := p
    simp only at h1 hb ht
    subst h1 hb ht
    rfl
  · have := mt (cur_empty s h).mpr hc
    rw [if_neg hc]
    unfold St.push
    rw [if_pos (Classical.not_not.mp this)]
    refine ⟨⟨Nat.le_refl _, ?_, rfl, Or.inl rfl⟩, ?_, rfl, rfl, rfl⟩
    · intro p hp
      simp only [List.mem_append, List.mem_singleton] at hp
      rcases hp with hp | rfl
      · exact h.frames p hp
      · have := h.off
        refine ⟨Nat.le_refl _, ?_⟩
        rcases h.m with hm | hm
        · simp [hm]
        · simp only; omega
    · rw [result_eq, result_eq]
      simp [St.cur, part]

/-! ### Each thing in a recording is taken for what it is -/

theorem encodeRunes_ascii (l : List Nat) (h : ∀ c ∈ l, c < 0x80) : encodeRunes l = ascii l := by
  induction l with
  | nil => rfl
  | cons c l ih =>
    have hc := h c (by simp)
    have : encodeRunes (c :: l) = encodeRune c ++ encodeRunes l := rfl
    rw [this, ih (fun d hd => h d (by simp [hd]))]
    have e : encodeRune c = [UInt8.ofNat c] := by unfold encodeRune; rw [if_pos (by omega)]
    rw [e]; rfl

theorem ascii_append (a b : List Nat) : ascii (a ++ b) = ascii a ++ ascii b := by simp [ascii]

/-- What the recorder needs to know about times: they are written with plain characters and
can be read again. -/
structure Times {τ : Type} (fmt : τ → List Nat) (parse : Bytes → Option (Option τ)) : Prop where
  plain : ∀ t, ∀ c ∈ fmt t, 0x20 ≤ c ∧ c ≤ 0x7E
  parse : ∀ t, parse (ascii (fmt t)) = some (some t)

/-- What is written for input events. -/
def back (e : Nat) (a : Bytes) : Bytes := if 0xEF00 ≤ e ∧ e ≤ 0xEFFF then escAppendWith e a else encodeRune e

/-- A plain item of input is recorded as the bytes it was read from. -/
theorem plain_bytes (i : InItem) (h : i.Ok) (hp : Spec.Plain i) :
    i.event.1 ≠ 0x9F ∧ back i.event.1 i.event.2 = i.bytes := by
  cases i with
  | rune r =>
    obtain ⟨h1, h2⟩ := h
    refine ⟨fun h => h2 (by unfold startsEscape; simp only [InItem.event] at h; omega), ?_⟩
    show back r [] = _
    unfold back
    have hp : ¬ (0xEF00 ≤ r ∧ r ≤ 0xEFFF) := hp
    rw [if_neg hp]
    rfl
  | csi c1 arg f =>
    obtain ⟨h1, h2, h3⟩ := h
    have hc : c1 = false := hp
    subst hc
    simp only [InItem.event]
    refine ⟨by omega, ?_⟩
    unfold back
    rw [if_pos (by omega)]
    unfold escAppendWith
    rw [if_neg (by omega), if_neg (by omega), if_neg (by omega), if_pos (by omega),
      show (0xEF80 + f.toNat) % 128 = f.toNat from by omega]
    simp [InItem.bytes, c1Bytes]
  | str c1 r body st => exact hp.elim
  | esc f =>
    obtain ⟨⟨h1, h2⟩, h3⟩ := h
    obtain ⟨h4, h5⟩ := hp
    have he : (InItem.esc f).event = (0xEF00 + f.toNat, []) := by simp only [InItem.event, if_neg h4]
    rw [he]
    simp only
    refine ⟨by omega, ?_⟩
    unfold back
    rw [if_pos (by omega)]
    unfold escAppendWith
    rw [if_neg (by omega), if_neg (by omega), if_pos (by omega),
      show (0xEF00 + f.toNat) % 128 = f.toNat from by omega]
    simp [InItem.bytes]

/-- Some more input. -/
theorem item_spec {τ : Type} (s : St τ) (h : Inv s) (x : Bytes) :
    Inv { s with bs := s.bs ++ x } ∧ ({ s with bs := s.bs ++ x } : St τ).result = s.result ∧
      ({ s with bs := s.bs ++ x } : St τ).cur = { s.cur with b := s.cur.b ++ x } := by
  have ho := h.off
  refine ⟨⟨?_, ?_, h.b, h.m⟩, result_append s h _ x rfl _ _, ?_⟩
  · simp only [List.length_append]; omega
  · intro p hp
    have := h.frames p hp
    simp only [List.length_append]
    omega
  · have hm : part (s.bs ++ x) s.prot.m = part s.bs s.prot.m := by
      refine part_append _ _ _ ?_
      rcases h.m with hm | hm
      · simp [hm]
      · omega
    simp only [St.cur, hm, List.drop_append_of_le_length ho]

theorem steps_append {τ : Type} (parse : Bytes → Option (Option τ)) (a b : List Event) (s : St τ) :
    s.steps parse (a ++ b) = (s.steps parse a).bind fun s => s.steps parse b := by
  simp only [St.steps, List.foldlM_append]; rfl

/-- The frames of a recording that is read, as events. -/
theorem steps_spec {τ : Type} [DecidableEq τ] (fmt : τ → List Nat) (parse : Bytes → Option (Option τ)) (ht : Times fmt parse)
    (toks : List (Tok τ)) (hk : ∀ k ∈ toks, k.Ok) : ∀ s : St τ, Inv s → ∃ s',
    s.steps parse (toks.map fun k => (k.asItem fmt).event) = some s' ∧
    s'.push.result = s.result ++ Spec.frames s.cur toks := by
  induction toks with
  | nil =>
    intro s h
    exact ⟨s, rfl, (push_spec s h).2.1⟩
  | cons k toks ih =>
    intro s h
    have ih := ih (fun j hj => hk j (by simp [hj]))
    have hk := hk k (by simp)
    obtain ⟨p1, p2, p3, p4, p5⟩ := push_spec s h
    cases k with
    | item i =>
      obtain ⟨h1, h2⟩ := plain_bytes i hk.1 hk.2
      have hs : s.step parse i.event = some { s with bs := s.bs ++ i.bytes } := by
        unfold St.step
        simp only
        rw [if_neg h1, ← h2]
        unfold back
        split <;> rfl
      obtain ⟨q1, q2, q3⟩ := item_spec s h i.bytes
      obtain ⟨s', r1, r2⟩ := ih _ q1
      refine ⟨s', ?_, ?_⟩
      · show (s.step parse i.event).bind _ = _
        rw [hs]; exact r1
      · rw [r2, q2, q3]; rfl
    | mark t =>
      have hp := ht.plain t
      have he : encodeRunes (recTime ++ fmt t) = ascii recTime ++ ascii (fmt t) := by
        rw [encodeRunes_ascii, ascii_append]
        intro c hc
        rcases List.mem_append.mp hc with hc | hc
        · exact (by decide : ∀ c ∈ recTime, c < 0x80) c hc
        · have := hp c hc; omega
      have hs : s.step parse (0x9F, encodeRunes (recTime ++ fmt t)) = some { s.push with prot := { s.push.prot with t := some t } } := by
        unfold St.step
        simp only
        rw [if_pos trivial, he, if_pos (by rw [List.isPrefixOf_iff_prefix]; exact List.prefix_append _ _),
          List.drop_left' (show (ascii recTime).length = 8 from rfl), ht.parse]
        rfl
      rw [p3] at hs
      have q : Inv ({ s.push with prot := { t := some t } } : St τ) := ⟨p1.off, p1.frames, rfl, Or.inl rfl⟩
      obtain ⟨s', r1, r2⟩ := ih _ q
      refine ⟨s', ?_, ?_⟩
      · show (s.step parse (0x9F, encodeRunes (recTime ++ fmt t))).bind _ = _
        rw [hs]; exact r1
      · rw [r2]
        have e1 : ({ s.push with prot := { t := some t } } : St τ).result = s.push.result := rfl
        have e2 : ({ s.push with prot := { t := some t } } : St τ).cur = { t := some t } := by
          simp only [St.cur, part_zero, p4, List.drop_length]
        rw [e1, e2, p2, List.append_assoc]; rfl
    | msg body =>
      obtain ⟨h1, h2, h3, h4⟩ := hk
      have hs : s.step parse (0x9F, encodeRunes body) = some { s.push with
          bs := s.push.bs ++ encodeRunes body
          prot := { s.push.prot with m := (s.push.off, (s.push.bs ++ encodeRunes body).length) }
          off := (s.push.bs ++ encodeRunes body).length } := by
        unfold St.step
        simp only
        rw [if_pos trivial, if_neg (by rw [List.isPrefixOf_iff_prefix]; exact h3),
          if_neg (by rw [List.isPrefixOf_iff_prefix]; exact h4)]
      have hl : 0 < (encodeRunes body).length := by
        have := encodeRunes_length body
        have := List.length_pos_iff.mpr h1
        omega
      rw [p3, p4] at hs
      generalize hx : encodeRunes body = x at *
      have q : Inv (⟨s.push.frames, s.push.bs ++ x, (s.push.bs ++ x).length, { m := (s.push.bs.length, (s.push.bs ++ x).length) }⟩ : St τ) := by
        refine ⟨Nat.le_refl _, ?_, rfl, Or.inr ⟨?_, Nat.le_refl _⟩⟩
        · intro p hp
          have := p1.frames p hp
          simp only [List.length_append]
          omega
        · simp only [List.length_append]; omega
      obtain ⟨s', r1, r2⟩ := ih _ q
      refine ⟨s', ?_, ?_⟩
      · show (s.step parse (0x9F, encodeRunes body)).bind _ = _
        rw [hx, hs]; exact r1
      · rw [r2, result_append s.push p1 _ x rfl]
        have e2 : (⟨s.push.frames, s.push.bs ++ x, (s.push.bs ++ x).length, { m := (s.push.bs.length, (s.push.bs ++ x).length) }⟩ : St τ).cur = { m := x } := by
          simp only [St.cur, part, List.take_length, List.drop_left, List.drop_length]
        rw [e2, p2, List.append_assoc]
        simp only [Spec.frames, hx]

/-! ### The reading loop -/

/-- A read that succeeds: all that is there is decoded, a zero is taken as input, and reading
goes on. -/
theorem loop_data {τ : Type} (parse : Bytes → Option (Option τ)) (s : St τ) (inp : Input) (hb : inp.drain.1.nonblocking = false)
    (b : UInt8) (t : Bytes) (full : Bool) (l : List Avail) : ∃ inp' n,
    inp.drain.1.readMore (.data b t full :: l) true true = some (inp', n, .nil, l) ∧
    loop parse s inp (.data b t full :: l) =
      ((s.steps parse inp.drain.2).bind fun s => s.step parse (0, [])).bind fun s => loop parse s inp' l := by
  refine ⟨_, _, by unfold Input.readMore fileRead; rfl, ?_⟩
  rw [loop]
  cases s.steps parse inp.drain.2 with
  | none => rfl
  | some s =>
    simp only [Option.bind_some]
    cases s.step parse (0, []) <;> rfl

/-- A chunk that is read: some bytes, which are the whole of some things. -/
structure Chunk (τ : Type) where
  toks : List (Tok τ)
  full : Bool

def Chunk.bytes {τ : Type} (fmt : τ → List Nat) (c : Chunk τ) : Bytes := c.toks.flatMap fun k => (k.asItem fmt).bytes

/-- What the file offers. -/
def Chunk.avail {τ : Type} (fmt : τ → List Nat) (c : Chunk τ) : Avail :=
  .data ((c.bytes fmt).headD 0) (c.bytes fmt).tail c.full

def Chunk.Ok {τ : Type} (c : Chunk τ) : Prop := c.toks ≠ [] ∧ ∀ k ∈ c.toks, k.Ok

/-- A zero byte. -/
def nul {τ : Type} : Tok τ := .item (.rune 0)

theorem asItem_ok {τ : Type} (fmt : τ → List Nat) (hp : ∀ t, ∀ c ∈ fmt t, 0x20 ≤ c ∧ c ≤ 0x7E) (k : Tok τ) (h : k.Ok) :
    (k.asItem fmt).Ok := by
  cases k with
  | item i => exact h.1
  | msg body => exact ⟨by decide, h.2.1⟩
  | mark t =>
    refine ⟨by decide, fun c hc => ?_⟩
    rcases List.mem_append.mp hc with hc | hc
    · exact (by decide : ∀ c ∈ recTime, validRune c = true ∧ c ≠ 0xFFFD ∧ c ≠ 0x1B ∧ c ≠ 0x9C) c hc
    · have := hp t c hc
      refine ⟨?_, by omega, by omega, by omega⟩
      unfold validRune; simp; omega

theorem item_bytes_pos (i : InItem) : i.bytes ≠ [] := by
  cases i with
  | rune r =>
    have := encodeRune_length_pos r
    intro h
    simp only [InItem.bytes] at h
    rw [h] at this; simp at this
  | csi c1 a f => simp [InItem.bytes]
  | str c1 r b st =>
    cases st
    · simp [InItem.bytes, c1Bytes]
    · intro h
      have := (List.append_eq_nil_iff.mp (List.append_eq_nil_iff.mp h).2).2
      revert this
      decide
  | esc f => simp [InItem.bytes]

/-- Reading a recording in chunks, however they arrive, is reading all of its items in one go. -/
theorem loop_spec {τ : Type} [DecidableEq τ] (fmt : τ → List Nat) (parse : Bytes → Option (Option τ)) (ht : Times fmt parse)
    (cs : List (Chunk τ)) (hc : ∀ c ∈ cs, c.Ok) : ∀ (pre : List (Tok τ)) (s : St τ) (inp : Input),
    inp.buf = pre.flatMap (fun k => (k.asItem fmt).bytes) → (∀ k ∈ pre, k.Ok) →
    loop parse s inp (cs.map (Chunk.avail fmt) ++ [.eof]) =
      (s.steps parse ((pre ++ cs.flatMap fun c => nul :: c.toks).map fun k => (k.asItem fmt).event)).map St.push := by
  have hdr : ∀ (pre : List (Tok τ)) (inp : Input), inp.buf = pre.flatMap (fun k => (k.asItem fmt).bytes) → (∀ k ∈ pre, k.Ok) →
      inp.drain.1.buf = [] ∧ inp.drain.2 = pre.map fun k => (k.asItem fmt).event := by
    intro pre inp hb hp
    have h := drain_items (pre.map (Tok.asItem fmt)) (by
      intro i hi
      obtain ⟨k, hk, rfl⟩ := List.mem_map.mp hi
      exact asItem_ok fmt ht.plain k (hp k hk)) inp [] (by rw [hb, List.append_nil, List.flatMap_map])
    have he : ({ inp with buf := [] } : Input).drain = ({ inp with buf := [] }, []) := by
      refine drain_stop _ _ ?_
      unfold Input.decode
      rw [if_pos rfl]
    rw [he] at h
    rw [h]
    simp only [List.append_nil, List.map_map, true_and]
    rfl
  induction cs with
  | nil =>
    intro pre s inp hb hp
    simp only [List.map_nil, List.nil_append, List.flatMap_nil, List.append_nil]
    rw [loop, (hdr pre inp hb hp).2]
  | cons c cs ih =>
    intro pre s inp hb hp
    obtain ⟨h1, h2⟩ := hdr pre inp hb hp
    have hk := hc c (by simp)
    have hne : c.bytes fmt ≠ [] := by
      obtain ⟨hk1, hk2⟩ := hk
      unfold Chunk.bytes
      cases hct : c.toks with
      | nil => exact absurd hct hk1
      | cons k l =>
        rw [List.flatMap_cons]
        intro h
        exact item_bytes_pos _ (List.append_eq_nil_iff.mp h).1
    have hcons : (c.bytes fmt).headD 0 :: (c.bytes fmt).tail = c.bytes fmt := by
      cases h : c.bytes fmt with
      | nil => exact absurd h hne
      | cons x l => rfl
    rw [List.map_cons, List.cons_append, Chunk.avail, loop, h2, List.map_append, steps_append]
    cases s.steps parse (pre.map fun k => (k.asItem fmt).event) with
    | none => rfl
    | some s =>
      simp only [Option.bind_some]
      have hs : s.step parse (0, []) = some { s with bs := s.bs ++ [0] } := by
        unfold St.step; simp only; rw [if_neg (by decide), if_neg (by decide)]; rfl
      rw [hs]
      simp only
      rw [hcons, ih (fun d hd => hc d (by simp [hd])) c.toks _ _ (by simp only [h1, List.nil_append]; rfl) hk.2]
      have e : s.steps parse ((((c :: cs).flatMap fun c => nul :: c.toks)).map fun k => (k.asItem fmt).event) =
          (s.step parse (0, [])).bind fun s => s.steps parse ((c.toks ++ cs.flatMap fun c => nul :: c.toks).map fun k => (k.asItem fmt).event) := rfl
      rw [e, hs]
      rfl

/-- **C44**: a recording without errors is read as the frames that are in it, with a zero byte
for every read: when the reads end between things.  (What is missing: there should be no zero
bytes, the reads may end anywhere, errors should come back, and all input should come back as
it was.) -/
theorem replay_partial {τ : Type} [DecidableEq τ] (fmt : τ → List Nat) (parse : Bytes → Option (Option τ)) (ht : Times fmt parse)
    (cs : List (Chunk τ)) (hc : ∀ c ∈ cs, c.Ok) :
    readInputReplay parse (cs.map (Chunk.avail fmt) ++ [.eof]) = some (Spec.frames {} (cs.flatMap fun c => nul :: c.toks)) := by
  unfold readInputReplay
  rw [loop_spec fmt parse ht cs hc [] {} {} rfl (by simp)]
  have hall : ∀ k ∈ (cs.flatMap fun c => nul :: c.toks), k.Ok := by
    intro k hk
    obtain ⟨c, h1, h2⟩ := List.mem_flatMap.mp hk
    rcases List.mem_cons.mp h2 with rfl | h2
    · exact ⟨(by decide : plainRune 0), (by decide : ¬ (0xEF00 ≤ 0 ∧ 0 ≤ 0xEFFF))⟩
    · exact (hc c h1).2 k h2
  obtain ⟨s', r1, r2⟩ := steps_spec fmt parse ht (cs.flatMap fun c => nul :: c.toks) hall {} ⟨Nat.le_refl _, by simp, rfl, Or.inl rfl⟩
  rw [List.nil_append, r1]
  simp only [Option.map_some, r2]
  rfl

/-- A session: the reads, each with its time and what was read. -/
abbrev Session (τ : Type) := List (τ × List InItem)

/-- What the recorder writes for a session. -/
def recorded {τ : Type} (fmt : τ → List Nat) (l : Session τ) : Bytes :=
  l.flatMap fun x => record (fun t => ascii (fmt t)) x.1 none (x.2.flatMap InItem.bytes)

theorem recorded_bytes {τ : Type} (fmt : τ → List Nat) (hp : ∀ t, ∀ c ∈ fmt t, 0x20 ≤ c ∧ c ≤ 0x7E) (l : Session τ) :
    recorded fmt l = (l.flatMap fun x => Tok.mark x.1 :: x.2.map Tok.item).flatMap fun k => (k.asItem fmt).bytes := by
  unfold recorded
  rw [List.flatMap_assoc]
  congr 1
  funext x
  rw [List.flatMap_cons, List.flatMap_map]
  unfold record
  have e : (x.2.flatMap fun a => ((Tok.item a : Tok τ).asItem fmt).bytes) = x.2.flatMap InItem.bytes := rfl
  rw [e]
  congr 1
  simp only [Tok.asItem, InItem.bytes, c1Bytes]
  rw [encodeRunes_ascii, ascii_append]
  · simp [apc]
  · intro c hc
    rcases List.mem_append.mp hc with hc | hc
    · exact (by decide : ∀ c ∈ recTime, c < 0x80) c hc
    · have := hp x.1 c hc; omega

theorem frames_items {τ : Type} [DecidableEq τ] (is : List InItem) (l : List (Tok τ)) : ∀ cur : Frame τ,
    Spec.frames cur (is.map Tok.item ++ l) = Spec.frames { cur with b := cur.b ++ is.flatMap InItem.bytes } l := by
  induction is with
  | nil => intro cur; simp
  | cons i is ih =>
    intro cur
    simp only [List.map_cons, List.cons_append, Spec.frames, ih, List.flatMap_cons, List.append_assoc]

theorem frames_session {τ : Type} [DecidableEq τ] (l : Session τ) : ∀ cur : Frame τ,
    Spec.frames cur (l.flatMap fun x => Tok.mark x.1 :: x.2.map Tok.item) =
      Spec.flush cur ++ l.map fun x => { t := some x.1, b := x.2.flatMap InItem.bytes } := by
  induction l with
  | nil => intro cur; simp [Spec.frames]
  | cons x l ih =>
    intro cur
    rw [List.flatMap_cons, List.cons_append, Spec.frames, frames_items, ih, List.map_cons]
    simp [Spec.flush]

/-- **C44**: a session of plain input recorded and read back in one read comes back with all its
times and bytes, after one frame too many, of a zero byte and no time. -/
theorem session_partial {τ : Type} [DecidableEq τ] (fmt : τ → List Nat) (parse : Bytes → Option (Option τ)) (ht : Times fmt parse)
    (x : τ × List InItem) (l : Session τ) (hl : ∀ y ∈ x :: l, ∀ i ∈ y.2, i.Ok ∧ Spec.Plain i) (full : Bool) (b : UInt8) (bs : Bytes)
    (hb : recorded fmt (x :: l) = b :: bs) :
    readInputReplay parse [.data b bs full, .eof] =
      some ({ b := [0] } :: (x :: l).map fun x => { t := some x.1, b := x.2.flatMap InItem.bytes }) := by
  have h := replay_partial fmt parse ht [⟨(x :: l).flatMap fun x => Tok.mark x.1 :: x.2.map Tok.item, full⟩] (by
    intro c hc
    simp only [List.mem_singleton] at hc
    subst hc
    refine ⟨by simp, fun k hk => ?_⟩
    obtain ⟨y, h1, h2⟩ := List.mem_flatMap.mp hk
    rcases List.mem_cons.mp h2 with rfl | h2
    · exact True.intro
    · obtain ⟨i, h3, rfl⟩ := List.mem_map.mp h2
      exact hl y h1 i h3)
  simp only [List.map_cons, List.map_nil, Chunk.avail, Chunk.bytes, ← recorded_bytes fmt ht.plain, hb, List.headD_cons,
    List.tail_cons, List.cons_append, List.nil_append] at h
  rw [h]
  rw [List.flatMap_cons, List.flatMap_nil, List.append_nil]
  simp only [nul, Spec.frames]
  rw [frames_session]
  simp only [Spec.flush]
  rw [if_neg (by simp [InItem.bytes, encodeRune])]
  rfl

/-! ### Examples and negations -/

/-- Times as letters, for the examples. -/
def letter (t : Fin 4) : List Nat := [0x61 + t.val]
def letterOf (b : Bytes) : Option (Option (Fin 4)) :=
  if b = [0x61] then some (some 0) else if b = [0x62] then some (some 1)
  else if b = [0x63] then some (some 2) else if b = [0x64] then some (some 3) else none

theorem letter_times : Times letter letterOf := ⟨by decide, by decide⟩

def avail (bs : Bytes) (full : Bool) : Avail := .data (bs.headD 0) bs.tail full
def fmt' (t : Fin 4) : Bytes := ascii (letter t)

/-- Two reads; the second is an arrow key. -/
example : readInputReplay letterOf [avail (record fmt' 0 none [0x68, 0x69] ++ record fmt' 1 none [0x1B, 0x5B, 0x41]) false, .eof] =
    some [{ b := [0] }, { t := some 0, b := [0x68, 0x69] }, { t := some 1, b := [0x1B, 0x5B, 0x41] }] := by decide +kernel

/-- Negation for **C44**: a zero byte is put in wherever a read ends, even within a frame. -/
theorem zero_bytes : readInputReplay letterOf [avail (record fmt' 0 none [0x68]) false, avail [0x69] false, .eof] =
    some [{ b := [0] }, { t := some 0, b := [0x68, 0, 0x69] }] := by decide +kernel

/-- Negation for **C44**: an error comes back as a message, and the bytes read with it are in
another frame, without a time. -/
theorem error_as_message : readInputReplay letterOf [avail (record fmt' 0 (some [0x45]) [0x68]) false, .eof] =
    some [{ b := [0] }, { t := some 0, m := [0x45] }, { b := [0x68] }] := by decide +kernel

/-- Negation for **C44**: the body of a control string (here OSC "0;x" ST) is lost. -/
theorem string_lost : readInputReplay letterOf
      [avail (record fmt' 0 none [0x1B, 0x5D, 0x30, 0x3B, 0x78, 0x1B, 0x5C]) false, .eof] =
    some [{ b := [0] }, { t := some 0, b := [0xC2, 0x9D] }] := by decide +kernel

/-- Negation for **C44**: Alt-O comes back as other bytes, and Alt-~ not at all. -/
theorem alt_changed : readInputReplay letterOf [avail (record fmt' 0 none [0x1B, 0x4F]) false, .eof] =
      some [{ b := [0] }, { t := some 0, b := [0xC2, 0x8F] }] ∧
    readInputReplay letterOf [avail (record fmt' 0 none [0x1B, 0x7E]) false, .eof] =
      some [{ b := [0] }, { t := some 0, b := [] }] := by
  refine ⟨by decide +kernel, by decide +kernel⟩

/-- Negation for **C44**: a private use character of those that stand for escapes comes back
as an escape. -/
theorem private_changed : readInputReplay letterOf [avail (record fmt' 0 none (encodeRune 0xEFC1)) false, .eof] =
    some [{ b := [0] }, { t := some 0, b := [0x1B, 0x5B, 0x41] }] := by decide +kernel

/-- Negation for **C44**: an APC string in the input is taken for a message, and what follows
loses its time. -/
theorem apc_taken : readInputReplay letterOf [avail (record fmt' 0 none (apc [0x78] ++ [0x68])) false, .eof] =
    some [{ b := [0] }, { t := some 0 }, { m := [0x78], b := [0x68] }] := by decide +kernel

/-- Negation for **C44**: what is unfinished at the end of the recording is lost. -/
theorem unfinished_lost : readInputReplay letterOf [avail (record fmt' 0 none [0x1B, 0x5B, 0x31]) false, .eof] =
    some [{ b := [0] }, { t := some 0 }] := by decide +kernel

end Rpl
end Anansi
