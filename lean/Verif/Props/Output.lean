import Verif.Model.Output
import Verif.Props.InputFlags
import Mathlib.Tactic.SplitIfs
/-
C45 Output stalls are bounded and flags restored.
-/
set_option autoImplicit false

namespace Anansi
namespace Outp
open Inp (O_NONBLOCK SETFL_MASK)

theorem recordStall_file (out : Output) (d : Nat) :
    (out.recordStall d).file = out.file ∧ (out.recordStall d).flushed = out.flushed := by
  unfold Output.recordStall
  split
  · split <;> exact ⟨rfl, rfl⟩
  · exact ⟨rfl, rfl⟩

theorem fd_written (f : File) : f.fd.written = f.written := by unfold File.fd; split <;> rfl

theorem stalled_file (b : Bool) (r : Output × Bytes × FErr) (d : Nat) :
    (if b then (r.1.recordStall d, r.2) else r).1.file = r.1.file ∧
    (if b then (r.1.recordStall d, r.2) else r).1.flushed = r.1.flushed ∧
    (if b then (r.1.recordStall d, r.2) else r).2 = r.2 := by
  cases b
  · exact ⟨rfl, rfl, rfl⟩
  · exact ⟨(recordStall_file r.1 d).1, (recordStall_file r.1 d).2, rfl⟩

theorem blockingFlush_spec (out : Output) (f : File) (p : Bytes) (y : Sys) :
    ∃ f' w, (out.blockingFlush f p y).1.file = some f' ∧ f'.written = f.written ++ w ∧
      p = w ++ (out.blockingFlush f p y).2.1 ∧ (out.blockingFlush f p y).1.flushed = out.flushed + w.length ∧
      ((out.blockingFlush f p y).2.2 = .nil → (out.blockingFlush f p y).2.1 = []) ∧
      (f.polled = false → y.restoreOk = true → f'.flags = f.flags) ∧
      (f.polled = true → y.restoreOk = true → f'.flags = f.flags &&& ~~~O_NONBLOCK) := by
  have hfd0 : f.polled = false → f.fd = f := fun h => by unfold File.fd; simp [h]
  have hfd1 : f.polled = true → f.fd = { f with flags := f.flags &&& ~~~O_NONBLOCK } := fun h => by
    unfold File.fd; simp [h]
  have hfd2 : f.fd.fd = f.fd := by
    unfold File.fd
    by_cases h : f.polled = true
    · simp [h, BitVec.and_assoc]
    · simp [h]
  have hpol : f.fd.polled = f.polled := by unfold File.fd; split <;> rfl
  unfold Output.blockingFlush
  simp only
  by_cases hg : y.getOk = true
  · simp only [hg, Bool.not_true, Bool.false_eq_true, if_false]
    by_cases hc : y.clearOk = true
    · simp only [hc, Bool.not_true, Bool.false_eq_true, if_false]
      obtain ⟨s1, s2, s3⟩ := stalled_file out.blocks.isSome
        (({ out with
            file := some (if y.restoreOk = true then
              (((f.fd.fd.setfl (f.fd.flags &&& ~~~O_NONBLOCK)).take p y.second).1.fd).setfl f.fd.flags
              else ((f.fd.fd.setfl (f.fd.flags &&& ~~~O_NONBLOCK)).take p y.second).1.fd),
            flushed := out.flushed + (p.take y.second.takes).length } : Output), p.drop y.second.takes,
          if (if p.length ≤ y.second.takes then FErr.nil else FErr.write y.second.err) = .nil then
            (if y.restoreOk then .nil else .fcntl)
          else (if p.length ≤ y.second.takes then FErr.nil else FErr.write y.second.err)) y.takes
      refine ⟨_, p.take y.second.takes, s1, ?_, ?_, s2, ?_, ?_, ?_⟩
      · have : ∀ g : File, (if y.restoreOk = true then g.setfl f.fd.flags else g).written = g.written := by
          intro g; split <;> rfl
        rw [this, fd_written]
        show f.fd.fd.written ++ _ = _
        rw [fd_written, fd_written]
      · have := congrArg (fun r => r.1) s3
        simp only at this
        exact (List.take_append_drop y.second.takes p).symm.trans (by rw [← this]; rfl)
      · intro he
        have h1 := congrArg (fun r => r.2) s3
        have h2 := congrArg (fun r => r.1) s3
        simp only at h1 h2
        have he' := h1.symm.trans he
        refine h2.trans ?_
        by_cases hl : p.length ≤ y.second.takes
        · exact List.drop_eq_nil_of_le hl
        · simp [hl] at he'
      · intro hp hr
        rw [if_pos hr]
        rw [hfd0 hp, hfd0 hp]
        have : (f.setfl (f.flags &&& ~~~O_NONBLOCK)).take p y.second =
          ((f.setfl (f.flags &&& ~~~O_NONBLOCK)).take p y.second) := rfl
        have hpp : ((f.setfl (f.flags &&& ~~~O_NONBLOCK)).take p y.second).1.fd =
            ((f.setfl (f.flags &&& ~~~O_NONBLOCK)).take p y.second).1 := by
          unfold File.fd; exact if_neg (by show ¬ f.polled = true; rw [hp]; decide)
        rw [hpp]
        exact Inp.set_same _ _ (Inp.set_rest _ _)
      · intro hp hr
        rw [if_pos hr, hfd2]
        have hpp : ((f.fd.setfl (f.fd.flags &&& ~~~O_NONBLOCK)).take p y.second).1.fd.flags &&& ~~~SETFL_MASK =
            f.fd.flags &&& ~~~SETFL_MASK := by
          have : ((f.fd.setfl (f.fd.flags &&& ~~~O_NONBLOCK)).take p y.second).1.fd.flags =
              ((f.fd.flags &&& ~~~SETFL_MASK) ||| ((f.fd.flags &&& ~~~O_NONBLOCK) &&& SETFL_MASK)) &&& ~~~O_NONBLOCK := by
            unfold File.fd
            rw [if_pos (by show f.fd.polled = true; rw [hpol, hp])]
            rfl
          rw [this, Inp.nonblock_in_mask, Inp.set_rest]
        have hset : (((f.fd.setfl (f.fd.flags &&& ~~~O_NONBLOCK)).take p y.second).1.fd.setfl f.fd.flags).flags =
            f.fd.flags := Inp.set_same _ _ hpp
        rw [hset, hfd1 hp]
    · have hc : y.clearOk = false := by simpa using hc
      simp only [hc, Bool.not_false, if_true]
      obtain ⟨s1, s2, s3⟩ := stalled_file out.blocks.isSome
        (({ out with file := some f.fd.fd } : Output), p, FErr.fcntl) y.takes
      refine ⟨_, [], s1, ?_, ?_, s2, ?_, ?_, ?_⟩
      · rw [fd_written, fd_written, List.append_nil]
      · exact (congrArg (fun r => r.1) s3).symm
      · intro he
        have := (congrArg (fun r => r.2) s3).symm.trans he
        cases this
      · intro hp _; rw [hfd2, hfd0 hp]
      · intro hp _; rw [hfd2, hfd1 hp]
  · have hg : y.getOk = false := by simpa using hg
    simp only [hg, Bool.not_false, if_true]
    obtain ⟨s1, s2, s3⟩ := stalled_file out.blocks.isSome
      (({ out with file := some f.fd } : Output), p, FErr.fcntl) y.takes
    refine ⟨_, [], s1, ?_, ?_, s2, ?_, ?_, ?_⟩
    · rw [fd_written, List.append_nil]
    · exact (congrArg (fun r => r.1) s3).symm
    · intro he
      have := (congrArg (fun r => r.2) s3).symm.trans he
      cases this
    · intro hp _; rw [hfd0 hp]
    · intro hp _; rw [hfd1 hp]

/-- **C45**: a flush writes a prefix of the bytes to the file and leaves exactly the rest
to be written, `Flushed` counts the written ones, and if no error is returned nothing is
left.  This holds for all outcomes of the system calls. -/
theorem flush_loses_nothing (out : Output) (f : File) (p : Bytes) (y : Sys) (hf : out.file = some f) :
    ∃ f' w, (out.flush p y).1.file = some f' ∧ f'.written = f.written ++ w ∧
      p = w ++ (out.flush p y).2.1 ∧ (out.flush p y).1.flushed = w.length ∧
      ((out.flush p y).2.2 = .nil → (out.flush p y).2.1 = []) := by
  unfold Output.flush
  simp only [hf, File.take]
  by_cases hl : p.length ≤ y.first.takes
  · simp only [hl, if_true]
    rw [if_neg (by simp)]
    exact ⟨_, p.take y.first.takes, rfl, rfl, (List.take_append_drop _ _).symm, rfl,
      fun _ => List.drop_eq_nil_of_le hl⟩
  · simp only [hl, if_false]
    by_cases hw : y.first.err = .wouldBlock
    · rw [if_pos (by rw [hw])]
      obtain ⟨f', w, h1, h2, h3, h4, h5, _, _⟩ := blockingFlush_spec
        { out with file := some { f with written := f.written ++ p.take y.first.takes },
                   flushed := (p.take y.first.takes).length }
        { f with written := f.written ++ p.take y.first.takes } (p.drop y.first.takes) y
      refine ⟨f', p.take y.first.takes ++ w, h1, ?_, ?_, ?_, h5⟩
      · rw [h2, List.append_assoc]
      · rw [List.append_assoc, ← h3, List.take_append_drop]
      · rw [h4, List.length_append]
    · rw [if_neg (by simpa using hw)]
      exact ⟨_, p.take y.first.takes, rfl, rfl, (List.take_append_drop _ _).symm, rfl, fun h => by cases h⟩

/-- **C45**: unless the last `fcntl` call fails, and unless Go's `os.File` was made in
non-blocking mode, a flush leaves the file flags as it found them, whatever else happens. -/
theorem flush_restores_partial (out : Output) (f : File) (p : Bytes) (y : Sys) (hf : out.file = some f)
    (hp : f.polled = false) (hr : y.restoreOk = true) :
    ∃ f', (out.flush p y).1.file = some f' ∧ f'.flags = f.flags := by
  unfold Output.flush
  simp only [hf]
  by_cases he : (f.take p y.first).2.2.2 = .write .wouldBlock
  · rw [if_pos he]
    obtain ⟨f', w, h1, _, _, _, _, h6, _⟩ := blockingFlush_spec
      { out with file := some (f.take p y.first).1, flushed := (f.take p y.first).2.2.1 }
      (f.take p y.first).1 (f.take p y.first).2.1 y
    exact ⟨f', h1, h6 hp hr⟩
  · rw [if_neg he]
    exact ⟨_, rfl, rfl⟩

/-- Negation for **C45**: on a file made in non-blocking mode a stalled flush leaves the
file in blocking mode. -/
theorem flush_polled_blocks (out : Output) (f : File) (p : Bytes) (y : Sys) (hf : out.file = some f)
    (hp : f.polled = true) (hn : f.flags &&& O_NONBLOCK ≠ 0) (hr : y.restoreOk = true)
    (hs : y.first.takes < p.length) (hw : y.first.err = .wouldBlock) :
    ∃ f', (out.flush p y).1.file = some f' ∧ f'.flags ≠ f.flags ∧ f'.flags &&& O_NONBLOCK = 0 := by
  unfold Output.flush
  simp only [hf]
  have he : (f.take p y.first).2.2.2 = .write .wouldBlock := by
    unfold File.take
    simp only
    rw [if_neg (by omega), hw]
  rw [if_pos he]
  obtain ⟨f', w, h1, _, _, _, _, _, h7⟩ := blockingFlush_spec
    { out with file := some (f.take p y.first).1, flushed := (f.take p y.first).2.2.1 }
    (f.take p y.first).1 (f.take p y.first).2.1 y
  have h7 : f'.flags = f.flags &&& ~~~O_NONBLOCK := h7 hp hr
  have h0 : f'.flags &&& O_NONBLOCK = 0 := by
    rw [h7, BitVec.and_assoc, show (~~~O_NONBLOCK &&& O_NONBLOCK) = 0 from rfl]
    exact BitVec.and_zero
  exact ⟨f', h1, fun hc => hn (hc ▸ h0), h0⟩

example : ∃ (out : Output) (f : File) (y : Sys), out.file = some f ∧ f.polled = true ∧
    f.flags &&& O_NONBLOCK ≠ 0 ∧ y.restoreOk = true ∧ y.first.takes < [0x41, 0x42].length ∧
    y.first.err = .wouldBlock :=
  ⟨{ file := some { flags := 0x802, polled := true } }, { flags := 0x802, polled := true },
    { first := ⟨1, .wouldBlock⟩, second := ⟨9, .other⟩ }, rfl, rfl, by decide, rfl, by decide, rfl⟩

/-- A write that would block never shows: if writes to a blocking file do not report
"would block", neither does a flush. -/
theorem flush_hides_wouldblock (out : Output) (p : Bytes) (y : Sys) (h : y.second.err ≠ .wouldBlock) :
    (out.flush p y).2.2 ≠ .write .wouldBlock := by
  unfold Output.flush
  split
  · simp
  · simp only
    split
    · rename_i he
      unfold Output.blockingFlush
      simp only
      have hst : ∀ (b : Bool) (r : Output × Bytes × FErr) (d : Nat), r.2.2 ≠ .write .wouldBlock →
          (if b = true then (r.1.recordStall d, r.2) else r).2.2 ≠ .write .wouldBlock := by
        intro b r d hr; cases b <;> exact hr
      split
      · exact hst _ _ _ (by simp)
      · split
        · exact hst _ _ _ (by simp)
        · apply hst
          simp only [File.take]
          by_cases hl : (List.drop y.first.takes p).length ≤ y.second.takes
          · simp only [hl, if_true]; split <;> simp
          · simp only [hl, if_false]; simpa using h
    · assumption

/-- A stalled flush in non-blocking mode: all bytes in order, the mode restored. -/
example : ({ file := some { flags := 0x802 }, blocks := some ([], 2) } : Output).flush [0x41, 0x42, 0x43]
      { first := ⟨1, .wouldBlock⟩, second := ⟨9, .other⟩, takes := 7 } =
    ({ file := some { flags := 0x802, written := [0x41, 0x42, 0x43] }, flushed := 3, blocks := some ([7], 2) }, [],
      .nil) := by decide

/-! ### Stall records -/

/-- The number of records a user asked for last, zero for none. -/
def asked (n : Nat) : List Op → Nat
  | [] => n
  | .track m :: l => asked m.toNat l
  | _ :: l => asked n l

/-- The records and their capacity agree with `n`. -/
def Tracks (n : Nat) (out : Output) : Prop :=
  match out.blocks with
  | none => n = 0
  | some (l, c) => c = n ∧ l.length ≤ n

theorem recordStall_tracks (n : Nat) (out : Output) (d : Nat) (h : Tracks n out) : Tracks n (out.recordStall d) := by
  unfold Output.recordStall Tracks at *
  cases hb : out.blocks with
  | none => rw [hb] at h; simp only [hb]; exact h
  | some b =>
    obtain ⟨l, c⟩ := b
    rw [hb] at h
    obtain ⟨rfl, h2⟩ := h
    show match (if l.length < c then { out with blocks := some (l ++ [d], c) } else out : Output).blocks with
      | none => c = 0
      | some (l, c') => c' = c ∧ l.length ≤ c
    split_ifs
    · exact ⟨rfl, by rw [List.length_append, List.length_singleton]; omega⟩
    · rw [hb]; exact ⟨rfl, h2⟩

theorem flush_blocks (out : Output) (p : Bytes) (y : Sys) :
    (out.flush p y).1.blocks = (out.recordStall y.takes).blocks ∨ (out.flush p y).1.blocks = out.blocks := by
  unfold Output.flush
  split
  · exact Or.inr rfl
  · simp only
    split
    · left
      unfold Output.blockingFlush
      simp only
      have hst : ∀ (r : Output × Bytes × FErr) (d : Nat), r.1.blocks = out.blocks →
          (if out.blocks.isSome = true then (r.1.recordStall d, r.2) else r).1.blocks = (out.recordStall d).blocks := by
        intro r d hr
        unfold Output.recordStall
        rw [hr]
        cases hb : out.blocks with
        | none => simp [hr, hb]
        | some b =>
          obtain ⟨l, c⟩ := b
          simp only [Option.isSome_some, if_true]
          split
          · rfl
          · rw [hr, hb]
      split
      · exact hst _ _ rfl
      · split
        · exact hst _ _ rfl
        · exact hst _ _ rfl
    · exact Or.inr rfl

/-- **C45**: after any operations there are never more stall records than asked for last,
and the room for them is exactly as asked for. -/
theorem stalls_bounded (l : List Op) : ∀ (n : Nat) (out out' : Output), Tracks n out → out.ops l = some out' →
    Tracks (asked n l) out' := by
  induction l with
  | nil => intro n out out' h ho; injection ho with ho; subst ho; exact h
  | cons o l ih =>
    intro n out out' h ho
    simp only [Output.ops, Option.bind_eq_some_iff] at ho
    obtain ⟨m, h1, h2⟩ := ho
    cases o with
    | track k =>
      refine ih k.toNat m out' ?_ h2
      simp only [Output.op, Output.trackStalls] at h1
      split at h1
      · rename_i hk
        injection h1 with h1; subst h1
        subst hk; rfl
      · split at h1
        · cases h1
        · injection h1 with h1; subst h1
          exact ⟨rfl, Nat.zero_le _⟩
    | stalls c =>
      refine ih n m out' ?_ h2
      injection h1 with h1; subst h1
      unfold Output.stalls Tracks at *
      cases hb : out.blocks with
      | none => rw [hb] at h; simp only [hb]; exact h
      | some b =>
        obtain ⟨l, cap⟩ := b
        rw [hb] at h
        simp only
        split_ifs
        · exact ⟨h.1, Nat.zero_le _⟩
        · rw [hb]; exact h
    | flush p y =>
      refine ih n m out' ?_ h2
      injection h1 with h1; subst h1
      rcases flush_blocks out p y with hb | hb
      · have := recordStall_tracks n out y.takes h
        unfold Tracks at this ⊢; rw [hb]; exact this
      · unfold Tracks at h ⊢; rw [hb]; exact h

/-- A flush stalls when its first write would block. -/
def Stalls (p : Bytes) (y : Sys) : Prop := y.first.takes < p.length ∧ y.first.err = .wouldBlock

instance (p : Bytes) (y : Sys) : Decidable (Stalls p y) := inferInstanceAs (Decidable (_ ∧ _))

theorem flush_records (out : Output) (f : File) (p : Bytes) (y : Sys) (hf : out.file = some f) :
    (out.flush p y).1.blocks = if Stalls p y then (out.recordStall y.takes).blocks else out.blocks := by
  unfold Output.flush
  simp only [hf]
  have he : (f.take p y.first).2.2.2 = .write .wouldBlock ↔ Stalls p y := by
    unfold File.take Stalls
    simp only
    split_ifs with h
    · simp only [reduceCtorEq, false_iff]; omega
    · simp only [FErr.write.injEq]; exact ⟨fun e => ⟨by omega, e⟩, fun e => e.2⟩
  by_cases h : Stalls p y
  · rw [if_pos (he.mpr h), if_pos h]
    have hst : ∀ (r : Output × Bytes × FErr) (d : Nat), r.1.blocks = out.blocks →
        (if out.blocks.isSome = true then (r.1.recordStall d, r.2) else r).1.blocks = (out.recordStall d).blocks := by
      intro r d hr
      unfold Output.recordStall
      rw [hr]
      cases hb : out.blocks with
      | none => simp [hr, hb]
      | some b =>
        obtain ⟨l, c⟩ := b
        simp only [Option.isSome_some, if_true]
        split
        · rfl
        · rw [hr, hb]
    unfold Output.blockingFlush
    simp only
    split
    · exact hst _ _ rfl
    · split
      · exact hst _ _ rfl
      · exact hst _ _ rfl
  · rw [if_neg (fun e => h (he.mp e)), if_neg h]

/-- The durations of the flushes that stall. -/
def stallTimes : List (Bytes × Sys) → List Nat
  | [] => []
  | (p, y) :: l => if Stalls p y then y.takes :: stallTimes l else stallTimes l

/-- **C45**: the records are the durations of the first stalls, as many as there is room
for; a flush that does not stall is not recorded. -/
theorem stalls_recorded (fl : List (Bytes × Sys)) : ∀ (out out' : Output) (f : File) (r : List Nat) (n : Nat),
    out.file = some f → out.blocks = some (r, n) → r.length ≤ n →
    out.ops (fl.map fun x => .flush x.1 x.2) = some out' →
    out'.blocks = some ((r ++ stallTimes fl).take n, n) := by
  induction fl with
  | nil =>
    intro out out' f r n _ hb hl ho
    injection ho with ho; subst ho
    rw [hb, stallTimes, List.append_nil, List.take_of_length_le hl]
  | cons x fl ih =>
    obtain ⟨p, y⟩ := x
    intro out out' f r n hf hb hl ho
    have ho : (out.flush p y).1.ops (fl.map fun x => .flush x.1 x.2) = some out' := ho
    have hrec := flush_records out f p y hf
    obtain ⟨f', _, hf', _⟩ := flush_loses_nothing out f p y hf
    have hrs : (out.recordStall y.takes).blocks = some (if r.length < n then r ++ [y.takes] else r, n) := by
      unfold Output.recordStall
      rw [hb]
      simp only
      split_ifs
      · rfl
      · exact hb
    unfold stallTimes
    by_cases h : Stalls p y
    · rw [if_pos h, hrs] at hrec
      rw [if_pos h]
      by_cases hlt : r.length < n
      · rw [if_pos hlt] at hrec
        have := ih _ out' f' _ n hf' hrec (by rw [List.length_append, List.length_singleton]; omega) ho
        rw [this, List.append_assoc]; rfl
      · rw [if_neg hlt] at hrec
        have := ih _ out' f' _ n hf' hrec hl ho
        rw [this]
        have hr : r.length = n := by omega
        rw [List.take_append_of_le_length (by omega), List.take_append_of_le_length (by omega)]
    · rw [if_neg h, hb] at hrec
      rw [if_neg h]
      exact ih _ out' f' _ n hf' hrec hl ho

/-- Three stalls with room for two records. -/
example : ∃ out, ({ file := some { flags := 0x802 } } : Output).ops [.track 2,
      .flush [0x41] { first := ⟨0, .wouldBlock⟩, second := ⟨1, .other⟩, takes := 5 },
      .flush [0x42] { first := ⟨0, .wouldBlock⟩, second := ⟨1, .other⟩, takes := 6 },
      .flush [0x43] { first := ⟨0, .wouldBlock⟩, second := ⟨1, .other⟩, takes := 7 }] = some out ∧
    out.blocks = some ([5, 6], 2) := ⟨_, rfl, by decide⟩

/-- **C45**: looking at the records returns all of them, and makes room for new ones if asked
for or if there was none left; otherwise it leaves them. -/
theorem stalls_reads (out : Output) (r : List Nat) (n : Nat) (c : Bool) (h : out.blocks = some (r, n)) :
    (out.stalls c).2 = r ∧ (out.stalls c).1.blocks = some (if c = true ∨ r.length = n then [] else r, n) ∧
      (out.stalls c).1.file = out.file := by
  unfold Output.stalls
  rw [h]
  simp only
  by_cases hl : r.length = n
  · simp [hl]
  · cases c <;> simp [hl, h]

/-- **C45**: so after looking at the records there is always room: the next stall is recorded
whatever happened before. -/
theorem stalls_room (out : Output) (r : List Nat) (n : Nat) (c : Bool) (h : out.blocks = some (r, n)) (hr : r.length ≤ n)
    (hn : n ≠ 0) (d : Nat) : ∃ r', ((out.stalls c).1.recordStall d).blocks = some (r' ++ [d], n) := by
  obtain ⟨_, h2, _⟩ := stalls_reads out r n c h
  unfold Output.recordStall
  rw [h2]
  simp only
  have : (if c = true ∨ r.length = n then [] else r).length < n := by
    split_ifs with hc
    · simp; omega
    · push Not at hc; omega
  rw [if_pos this]
  exact ⟨_, rfl⟩

/-- Two records of two. -/
example : (({ blocks := some ([5, 6], 2) } : Output).stalls false).1.blocks = some ([], 2) := by decide

end Outp
end Anansi
