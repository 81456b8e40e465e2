import Verif.Props.Replay
import Verif.Props.Play
import Verif.Props.Sized
import Verif.Props.Events
/-
C86: a recorded session replays as it was.
-/
set_option autoImplicit false

namespace Anansi
namespace Rpl
open Inp Spec

/-- The file of a recording (`replay.go:167-180` and `input.go:306-332`): the state, in chunks, as a
section with its size, the size of the screen, and every read. -/
def recording {τ : Type} (fmt : τ → List Nat) (state : List Bytes) (size : Pt) (l : Session τ) : Szd.File :=
  l.foldl (fun f x => f.write (record (fun t => ascii (fmt t)) x.1 none (x.2.flatMap InItem.bytes)))
    ((Szd.section_ {} state).write (recordSize size))

/-- Writes at the end of a file. -/
theorem write_end (f : Szd.File) (h : f.pos = f.data.length) (p : Bytes) :
    f.write p = ⟨f.data ++ p, (f.data ++ p).length⟩ := by
  by_cases hp : p = []
  · subst hp; unfold Szd.File.write; rw [if_pos rfl, List.append_nil, ← h]
  · rw [Szd.write_eq f p hp, h]
    have : Szd.upto f.data f.data.length = f.data := by unfold Szd.upto; simp
    rw [this]
    simp

theorem writes_end {α : Type} (g : α → Bytes) (l : List α) : ∀ (f : Szd.File), f.pos = f.data.length →
    l.foldl (fun f x => f.write (g x)) f = ⟨f.data ++ l.flatMap g, (f.data ++ l.flatMap g).length⟩ := by
  induction l with
  | nil => intro f h; simp [← h]
  | cons x l ih =>
    intro f h
    rw [List.foldl_cons, write_end f h, ih _ rfl]
    simp

/-- What is in the file. -/
theorem recording_data {τ : Type} (fmt : τ → List Nat) (c : Bytes) (cs : List Bytes)
    (hc : (c ++ cs.flatten).length < 2 ^ 64) (size : Pt) (l : Session τ) :
    recording fmt (c :: cs) size l =
      ((Szd.section_ {} (c :: cs)).write (recordSize size ++ recorded fmt l)) := by
  have h : (Szd.section_ {} (c :: cs)).pos = (Szd.section_ {} (c :: cs)).data.length := by
    rw [Szd.section_written {} c cs hc]
    simp [Szd.upto, Szd.be64_length]
  unfold recording
  rw [write_end _ h, writes_end _ _ _ rfl, write_end _ h]
  simp only [recorded, List.append_assoc]

/-- The message with the size. -/
theorem size_msg {τ : Type} (fmt : τ → List Nat) (x y : Nat) (hx : x < 2 ^ 32) (hy : y < 2 ^ 32) :
    ∃ body : List Nat, (Tok.msg body : Tok τ).Ok ∧ ((Tok.msg body : Tok τ).asItem fmt).bytes = recordSize ⟨x, y⟩ ∧
      ∀ old, sizeOf (encodeRunes body) old = ⟨x, y⟩ := by
  obtain ⟨d, hd, hmem⟩ : ∃ d : List Nat, ascii d = resize ++ (itoaNat x ++ 0x2C :: itoaNat y) ∧ ∀ c ∈ d, 0x20 ≤ c ∧ c < 0x7F := by
    refine ⟨(resize ++ (itoaNat x ++ 0x2C :: itoaNat y)).map UInt8.toNat, ?_, ?_⟩
    · unfold ascii
      rw [List.map_map]
      conv_rhs => rw [← List.map_id (resize ++ (itoaNat x ++ 0x2C :: itoaNat y))]
      apply List.map_congr_left
      intro b _
      simp
    · intro c hc
      obtain ⟨b, hb, rfl⟩ := List.mem_map.1 hc
      rcases List.mem_append.1 hb with hb | hb
      · exact (by decide : ∀ b ∈ resize, 0x20 ≤ b.toNat ∧ b.toNat < 0x7F) b hb
      · rcases List.mem_append.1 hb with hb | hb
        · have := itoaNat_digits x b hb; omega
        · rcases List.mem_cons.1 hb with rfl | hb
          · decide
          · have := itoaNat_digits y b hb; omega
  have he : encodeRunes d = resize ++ (itoaNat x ++ 0x2C :: itoaNat y) := by
    rw [encodeRunes_ascii d (fun c hc => by have := hmem c hc; omega), hd]
  refine ⟨d, ⟨?_, ?_, ?_, ?_⟩, ?_, ?_⟩
  · rintro rfl
    have := congrArg List.length hd
    simp [ascii, resize] at this
  · intro c hc
    have := hmem c hc
    refine ⟨?_, by omega, by omega, by omega⟩
    unfold validRune; simp; omega
  · rw [he]; rintro ⟨t, ht⟩
    have := congrArg (fun l => l[2]?) ht
    simp [ascii, recTime, resize] at this
  · rw [he]; rintro ⟨t, ht⟩
    have := congrArg (fun l => l[2]?) ht
    simp [ascii, recReadErr, resize] at this
  · simp only [Tok.asItem, InItem.bytes, c1Bytes, he, recordSize]
    rw [itoa_natCast, itoa_natCast]
    simp
  · intro old
    rw [he]
    obtain ⟨m, h1, _, h3⟩ := size_reads x y hx hy old
    have : m = resize ++ (itoaNat x ++ 0x2C :: itoaNat y) := by
      unfold recordSize apc at h1
      rw [itoa_natCast, itoa_natCast] at h1
      simp only [List.append_assoc, List.cons_append, List.nil_append, List.cons.injEq, true_and] at h1
      have h2 : (resize ++ (itoaNat x ++ 0x2C :: itoaNat y)) ++ [0x1B, 0x5C] = m ++ [0x1B, 0x5C] := by simpa using h1
      exact (List.append_cancel_right h2).symm
    rw [← this]; exact h3

/-- **C86**: a session recorded with its state and read back gives the state, and then, without
keys from the user, the client gets to see every read of the session at its
time with its bytes, in order, on a screen of the recorded size; then the replay is done. -/
theorem record_replay_partial {τ : Type} [DecidableEq τ] (fmt : τ → List Nat) (parse : Bytes → Option (Option τ))
    (ht : Times fmt parse) (c : Bytes) (cs : List Bytes) (hc : (c ++ cs.flatten).length < 2 ^ 63) (x y : Nat)
    (hx : x < 2 ^ 32) (hy : y < 2 ^ 32) (l : Session τ) (hl : ∀ r ∈ l, ∀ i ∈ r.2, i.Ok ∧ Spec.Plain i)
    (k : Nat) (hk : 8 ≤ k) (ks : List Nat) (full : Bool) :
    ∃ g, Szd.readSized ((recording fmt (c :: cs) ⟨x, y⟩ l).seek 0) k ks = some (c ++ cs.flatten, g) ∧
    ∃ b bs, g.data.drop g.pos = b :: bs ∧
    ∃ frames, readInputReplay parse [.data b bs full, .eof] = some frames ∧
    ∀ us : List (Bool × Nat × Nat), (∀ u ∈ us, u.1 = false ∧ u.2.1 % 2 = 0) →
      ({ cur := frames } : Play τ).updates us =
        ((l.map fun r : τ × List InItem => Outcome.run (some r.1) ⟨x, y⟩ (some (r.2.flatMap InItem.bytes))) ++
          List.replicate us.length Outcome.done).take us.length := by
  obtain ⟨body, ok, hb, hs⟩ := size_msg fmt x y hx hy
  have hrd := Szd.section_reads_partial {} c cs (recordSize ⟨x, y⟩ ++ recorded fmt l) k ks hc hk
  rw [← recording_data fmt c cs (by omega)] at hrd
  obtain ⟨g, g1, g2, g3, g4⟩ := hrd
  have hdata : g.data.drop g.pos = recordSize ⟨x, y⟩ ++ recorded fmt l := by
    have hsw := Szd.section_written {} c cs (by omega)
    have hlen : (Szd.section_ {} (c :: cs)).pos = (Szd.section_ {} (c :: cs)).data.length := by
      rw [hsw]; simp [Szd.upto, Szd.be64_length]
    have hpos : g.pos = (Szd.section_ {} (c :: cs)).data.length := by
      rw [g2, ← hlen, hsw]
    rw [g4, recording_data fmt c cs (by omega), write_end _ hlen, hpos]
    exact List.drop_left
  refine ⟨g, g1, ?_⟩
  have hne : ∃ b bs, recordSize ⟨x, y⟩ ++ recorded fmt l = b :: bs := ⟨_, _, rfl⟩
  obtain ⟨b, bs, hbb⟩ := hne
  refine ⟨b, bs, by rw [hdata, hbb], ?_⟩
  let toks : List (Tok τ) := Tok.msg body :: (l.flatMap fun x => Tok.mark x.1 :: x.2.map Tok.item)
  have h := replay_partial fmt parse ht [⟨toks, full⟩] (by
    intro c hc
    simp only [List.mem_singleton] at hc
    subst hc
    refine ⟨by simp [toks], fun k hk => ?_⟩
    rcases List.mem_cons.mp hk with rfl | hk
    · exact ok
    obtain ⟨y, h1, h2⟩ := List.mem_flatMap.mp hk
    rcases List.mem_cons.mp h2 with rfl | h2
    · exact True.intro
    · obtain ⟨i, h3, rfl⟩ := List.mem_map.mp h2
      exact hl y h1 i h3)
  have hbytes : toks.flatMap (fun k => (k.asItem fmt).bytes) = b :: bs := by
    rw [List.flatMap_cons, hb, ← recorded_bytes fmt ht.plain, hbb]
  simp only [List.map_cons, List.map_nil, Chunk.avail, Chunk.bytes, hbytes, List.headD_cons,
    List.tail_cons, List.cons_append, List.nil_append] at h
  refine ⟨_, h, fun us hu => ?_⟩
  rw [play_all us hu _ rfl]
  congr 1
  congr 1
  rw [List.flatMap_cons, List.flatMap_nil, List.append_nil]
  simp only [nul, toks, Spec.frames]
  rw [frames_session]
  have hm : encodeRunes body ≠ [] := by
    intro h
    have := hs ⟨-1, -1⟩
    rw [h] at this
    simp [sizeOf, resize] at this
  simp only [Spec.flush]
  rw [if_neg (by simp [InItem.bytes, encodeRune]), if_neg (by simp [hm])]
  simp only [List.cons_append, List.nil_append, Spec.timeline]
  rw [hs]
  generalize (⟨x, y⟩ : Pt) = sz
  clear h hbytes hbb hdata toks g1 g3 g4 g2 hl
  induction l with
  | nil => rfl
  | cons r l ih =>
    simp only [List.map_cons, Spec.timeline]
    have e : sizeOf [] sz = sz := by simp [sizeOf, resize]
    rw [e, ih]
    rfl

/-! ### The same events -/

/-- **C86**: from a read of whole things the client gets the same events when it is replayed
(`replay.go:94-95`) as when it was read (`platform.go:199-203`). -/
theorem replay_events (is : List InItem) (h : ∀ i ∈ is, i.Ok) (s : Inp.Input) (hs : s.buf = is.flatMap InItem.bytes) :
    Evq.decodeBytes [] (is.flatMap InItem.bytes) = (Evq.decodeInput [] s).1 := by
  rw [Evq.decodeBytes_items is h, (Evq.decodeInput_items is h [] s hs).1]

example : ∃ is : List InItem, (∀ i ∈ is, i.Ok) ∧ is.flatMap InItem.bytes = [0x68, 0xC3, 0xA9] :=
  ⟨[.rune 0x68, .rune 0xE9], by intro i hi; rcases List.mem_cons.1 hi with rfl | hi
                                · exact (by decide : plainRune 0x68)
                                · rw [List.mem_singleton.1 hi]; exact (by decide : plainRune 0xE9), by decide +kernel⟩

/-! ### Changes of size -/

/-- What happens while recording: input is read, or the terminal changes size. -/
inductive Step (τ : Type)
  | read (t : τ) (is : List InItem)
  | resize (size : Pt)

/-- What is recorded of it: a change of size only sizes the screen (`platform.go:196-198`). -/
def reads {τ : Type} : List (Step τ) → Session τ
  | [] => []
  | .read t is :: l => (t, is) :: reads l
  | .resize _ :: l => reads l

/-- What the client sees in the recorded session. -/
def Spec.live {τ : Type} (size : Pt) : List (Step τ) → List (τ × Pt × Bytes)
  | [] => []
  | .read t is :: l => (t, size, is.flatMap InItem.bytes) :: Spec.live size l
  | .resize sz :: l => Spec.live sz l

/-- The size at every read. -/
def Spec.sizes {τ : Type} (size : Pt) : List (Step τ) → List Pt
  | [] => []
  | .read _ _ :: l => size :: Spec.sizes size l
  | .resize sz :: l => Spec.sizes sz l

theorem live_at {τ : Type} (a : Pt) (l : List (Step τ)) : ∀ size,
    Spec.live size l = (reads l).map (fun r => (r.1, a, r.2.flatMap InItem.bytes)) ↔ ∀ s ∈ Spec.sizes size l, s = a := by
  induction l with
  | nil => intro size; simp [Spec.live, reads, Spec.sizes]
  | cons x l ih =>
    intro size
    cases x with
    | read t is => simp [Spec.live, reads, Spec.sizes, ih]
    | resize sz => simp [Spec.live, reads, Spec.sizes, ih]

/-- **C86**: the replay of a recording shows what the client saw if and only if the terminal had
its first size at every read. -/
theorem replay_faithful_iff {τ : Type} (size : Pt) (l : List (Step τ)) :
    ((reads l).map fun r => Outcome.run (some r.1) size (some (r.2.flatMap InItem.bytes))) = (Spec.live size l).map Spec.shown ↔
      ∀ s ∈ Spec.sizes size l, s = size := by
  rw [← live_at size l size]
  have inj : Function.Injective (Spec.shown : τ × Pt × Bytes → Outcome τ) := by
    rintro ⟨a, b, c⟩ ⟨a', b', c'⟩ h
    simp only [Spec.shown, Outcome.run.injEq, Option.some.injEq] at h
    obtain ⟨rfl, rfl, rfl⟩ := h
    rfl
  have e : ((reads l).map fun r => Outcome.run (some r.1) size (some (r.2.flatMap InItem.bytes))) =
      ((reads l).map fun r => (r.1, size, r.2.flatMap InItem.bytes)).map Spec.shown := by
    rw [List.map_map]; rfl
  rw [e]
  constructor
  · intro h; exact ((List.map_inj_right inj).1 h).symm
  · intro h; rw [h]

/-! ### Examples and negations -/

/-- A recording of two reads, and what is in it. -/
example : (recording letter [[7]] ⟨80, 24⟩ [(0, [.rune 0x68]), (1, [.rune 0x69])]).data =
    [0, 0, 0, 0, 0, 0, 0, 1, 7] ++ recordSize ⟨80, 24⟩ ++ record fmt' 0 none [0x68] ++ record fmt' 1 none [0x69] := by
  decide +kernel

/-- It is read back and played: three updates. -/
example : (Szd.readSized ((recording letter [[7]] ⟨80, 24⟩ [(0, [.rune 0x68]), (1, [.rune 0x69])]).seek 0) 8 []).map
    (fun r => (r.1, (readInputReplay letterOf [avail (r.2.data.drop r.2.pos) false, .eof]).map
      fun fs => ({ cur := fs } : Play (Fin 4)).updates [(false, 0, 0), (false, 2, 1), (false, 0, 0)])) =
    some ([7], some [.run (some 0) ⟨80, 24⟩ (some [0x68]), .run (some 1) ⟨80, 24⟩ (some [0x69]), .done]) := by
  decide +kernel

/-- Negation for **C86**: a change of size while recording is not in the recording, and the
client is shown the old one. -/
theorem resize_not_replayed : ∃ l : List (Step (Fin 4)),
    ((reads l).map fun r => Outcome.run (some r.1) ⟨80, 24⟩ (some (r.2.flatMap InItem.bytes))) ≠
      (Spec.live ⟨80, 24⟩ l).map Spec.shown :=
  ⟨[.read 0 [.rune 0x68], .resize ⟨40, 10⟩, .read 1 [.rune 0x69]], by decide +kernel⟩

/-- Negation for **C86**: when a read ends within an escape sequence, the mark with the time of the
next read is taken for its end: the client gets an event when live and in the replay
one read less, with the mark as input. -/
theorem split_swallows_mark :
    (Evq.decodeInput [] { buf := [0x1B, 0x5B] }).1 = [] ∧
    (Evq.decodeInput [] { buf := [0x1B, 0x5B, 0x41] }).1 = [Evq.entry (csiId 0x41) []] ∧
    readInputReplay letterOf [avail (record fmt' 0 none [0x1B, 0x5B] ++ record fmt' 1 none [0x41]) false, .eof] =
      some [{ b := [0] }, { t := some 0, b := [0x1B, 0x5B, 0x5F] ++ ascii recTime ++ [0x62, 0xC2, 0x9C, 0x41] }] := by
  decide +kernel

end Rpl
end Anansi
