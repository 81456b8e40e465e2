import Verif.Model.Sized
import Mathlib.Tactic.IntervalCases
/-
C52 Sized sections read back.
-/
set_option autoImplicit false

namespace Anansi
namespace Szd

/-- A file's contents up to a position, with zeros if there is nothing there. -/
def upto (d : Bytes) (n : Nat) : Bytes := (d ++ List.replicate (n - d.length) 0).take n

theorem upto_length (d : Bytes) (n : Nat) : (upto d n).length = n := by
  unfold upto
  simp only [List.length_take, List.length_append, List.length_replicate]; omega

theorem upto_upto (d : Bytes) (m n : Nat) (h : n ≤ m) : (upto d m).take n = upto d n := by
  unfold upto
  rw [List.take_take, Nat.min_eq_left h, List.take_append, List.take_append, List.take_replicate, List.take_replicate,
    show min (n - d.length) (m - d.length) = min (n - d.length) (n - d.length) from by omega]

theorem upto_append (a b : Bytes) (n : Nat) (h : n ≤ a.length) : upto (a ++ b) n = a.take n := by
  unfold upto
  rw [List.append_assoc, List.take_append_of_le_length h]

theorem write_eq (f : File) (p : Bytes) (h : p ≠ []) :
    f.write p = ⟨upto f.data f.pos ++ p ++ f.data.drop (f.pos + p.length), f.pos + p.length⟩ := by
  unfold File.write upto
  rw [if_neg h]

theorem be64_length (n : Nat) : (be64 n).length = 8 := by simp [be64]

theorem unbe64_be64 (n : Nat) (h : n < 2 ^ 64) : unbe64 (be64 n) = n := by
  have e : be64 n = [UInt8.ofNat (n / 256 ^ 7 % 256), UInt8.ofNat (n / 256 ^ 6 % 256), UInt8.ofNat (n / 256 ^ 5 % 256),
    UInt8.ofNat (n / 256 ^ 4 % 256), UInt8.ofNat (n / 256 ^ 3 % 256), UInt8.ofNat (n / 256 ^ 2 % 256),
    UInt8.ofNat (n / 256 ^ 1 % 256), UInt8.ofNat (n / 256 ^ 0 % 256)] := rfl
  rw [e]
  unfold unbe64
  simp only [List.foldl_cons, List.foldl_nil]
  have u : ∀ k, (UInt8.ofNat (k % 256)).toNat = k % 256 := by
    intro k
    rw [UInt8.toNat_ofNat']
    omega
  simp only [u]
  omega

/-- What the writer has done after some chunks: the payload is in its place, with room for the
size before. -/
structure Wrote (f : File) (pay : Bytes) (w : Writer) : Prop where
  started : w.started = true
  off : w.off = f.pos
  size : w.size = pay.length
  pos : w.ws.pos = f.pos + 8 + pay.length
  data : w.ws.data = if pay = [] then f.data else upto f.data (f.pos + 8) ++ pay ++ f.data.drop (f.pos + 8 + pay.length)

theorem wrote_more (f : File) (pay : Bytes) (w : Writer) (h : Wrote f pay w) (p : Bytes) :
    Wrote f (pay ++ p) (w.write p) := by
  obtain ⟨h1, h2, h3, h4, h5⟩ := h
  unfold Writer.write
  rw [if_pos h1]
  by_cases hp : p = []
  · subst hp
    have : w.ws.write [] = w.ws := by unfold File.write; rw [if_pos rfl]
    refine ⟨h1, h2, ?_, ?_, ?_⟩ <;> simp only [this, List.append_nil, List.length_nil, Nat.add_zero] <;> assumption
  · simp only
    rw [write_eq _ _ hp]
    refine ⟨h1, h2, by simp only [h3, List.length_append], ?_, ?_⟩
    · simp only [h4, List.length_append]; omega
    · simp only
      rw [if_neg (by simp [hp]), h4, h5]
      by_cases hy : pay = []
      · subst hy
        rw [if_pos rfl]
        simp only [List.length_nil, Nat.add_zero, List.nil_append]
      · rw [if_neg hy]
        have hl : (upto f.data (f.pos + 8) ++ pay).length = f.pos + 8 + pay.length := by
          rw [List.length_append, upto_length]
        have e1 : upto (upto f.data (f.pos + 8) ++ pay ++ f.data.drop (f.pos + 8 + pay.length)) (f.pos + 8 + pay.length) =
            upto f.data (f.pos + 8) ++ pay := by
          rw [upto_append _ _ _ (by omega), List.take_of_length_le (by omega)]
        rw [e1, ← List.append_assoc (upto f.data (f.pos + 8))]
        congr 1
        rw [List.drop_append, hl, List.drop_eq_nil_of_le (by omega), List.nil_append, List.drop_drop, List.length_append]
        congr 1
        omega

theorem wrote_first (f : File) (p : Bytes) : Wrote f p (({ ws := f } : Writer).write p) := by
  have h0 : Wrote f [] { ws := f.seek (f.pos + 8), off := f.pos, started := true } :=
    ⟨rfl, rfl, rfl, rfl, by rw [if_pos rfl]; rfl⟩
  have := wrote_more f [] _ h0 p
  exact this

theorem wrote_chunks (f : File) (cs : List Bytes) : ∀ (pay : Bytes) (w : Writer), Wrote f pay w →
    Wrote f (pay ++ cs.flatten) (cs.foldl Writer.write w) := by
  induction cs with
  | nil => intro pay w h; simpa using h
  | cons c cs ih =>
    intro pay w h
    rw [List.foldl_cons, List.flatten_cons, ← List.append_assoc]
    exact ih _ _ (wrote_more f pay w h c)

/-- **C52**, writing: a section written in chunks puts the size and the bytes at the position
of the file, changes nothing else, and leaves the position after them. -/
theorem section_written (f : File) (c : Bytes) (cs : List Bytes) (h : (c ++ cs.flatten).length < 2 ^ 64) :
    section_ f (c :: cs) =
      ⟨upto f.data f.pos ++ be64 (c ++ cs.flatten).length ++ (c ++ cs.flatten) ++
        f.data.drop (f.pos + 8 + (c ++ cs.flatten).length), f.pos + 8 + (c ++ cs.flatten).length⟩ := by
  have hw := wrote_chunks f cs c _ (wrote_first f c)
  unfold section_
  rw [List.foldl_cons]
  generalize List.foldl Writer.write (({ ws := f } : Writer).write c) cs = w at *
  generalize c ++ cs.flatten = pay at *
  obtain ⟨h1, h2, h3, h4, h5⟩ := hw
  have hb : be64 pay.length ≠ [] := by
    intro h; have := congrArg List.length h; rw [be64_length] at this; simp at this
  unfold Writer.finish
  rw [h1]
  simp only [Bool.not_true, Bool.false_eq_true, if_false]
  rw [h3, Nat.mod_eq_of_lt h, write_eq _ _ hb]
  simp only [File.seek, h2, h4, be64_length, File.mk.injEq, and_true]
  rw [h5]
  by_cases hp : pay = []
  · subst hp
    rw [if_pos rfl]
    simp
  · rw [if_neg hp]
    have e1 : upto (upto f.data (f.pos + 8) ++ pay ++ f.data.drop (f.pos + 8 + pay.length)) f.pos = upto f.data f.pos := by
      rw [List.append_assoc, upto_append _ _ _ (by rw [upto_length]; omega), upto_upto _ _ _ (by omega)]
    rw [e1, List.append_assoc (upto f.data (f.pos + 8)), List.drop_left' (upto_length _ _)]
    simp

/-- Reading with a limit gets all that is there, up to the limit, however much comes at once. -/
theorem readLimited_spec (fuel : Nat) : ∀ (n : Nat) (ks : List Nat) (f : File), f.data.length - f.pos ≤ fuel →
    f.pos + n ≤ f.data.length →
    readLimited fuel n ks f = ((f.data.drop f.pos).take n, ⟨f.data, f.pos + n⟩) := by
  induction fuel with
  | zero =>
    intro n ks f h1 h2
    have : n = 0 := by omega
    subst this
    rfl
  | succ fuel ih =>
    intro n ks f h1 h2
    cases n with
    | zero => rfl
    | succ n =>
      rw [readLimited]
      case x_4 => simp
      simp only
      have ht : 1 ≤ min (min (n + 1) (max 1 (ks.headD 0))) (f.data.length - f.pos) := by omega
      have htn : min (min (n + 1) (max 1 (ks.headD 0))) (f.data.length - f.pos) ≤ n + 1 := by omega
      unfold File.read
      simp only
      generalize min (min (n + 1) (max 1 (ks.headD 0))) (f.data.length - f.pos) = t at *
      have hl : ((f.data.drop f.pos).take t).length = t := by
        rw [List.length_take, List.length_drop]; omega
      rw [if_neg (by intro h; have := congrArg List.length h; rw [hl] at this; simp at this; omega), hl]
      rw [ih (n + 1 - t) ks.tail ⟨f.data, f.pos + t⟩ (by simp only; omega) (by simp only; omega)]
      simp only [Prod.mk.injEq, File.mk.injEq, true_and]
      refine ⟨?_, by omega⟩
      rw [← List.drop_drop, ← List.take_add]
      congr 1
      omega

/-- **C52**: a section written in any (one or more) chunks, whatever is written after it,
reads back as the bytes written, leaving the reader at what follows; when the eight bytes of the
size come with the first read, and however the others come. -/
theorem section_reads_partial (f : File) (c : Bytes) (cs : List Bytes) (after : Bytes) (k : Nat) (ks : List Nat)
    (h : (c ++ cs.flatten).length < 2 ^ 63) (hk : 8 ≤ k) :
    ∃ g, readSized (((section_ f (c :: cs)).write after).seek f.pos) k ks = some (c ++ cs.flatten, g) ∧
      g.pos = f.pos + 8 + (c ++ cs.flatten).length ∧ (g.data.drop g.pos).take after.length = after ∧
      g.data = ((section_ f (c :: cs)).write after).data := by
  rw [section_written f c cs (by omega)]
  generalize c ++ cs.flatten = pay at *
  have hd : ∃ tail, ((⟨upto f.data f.pos ++ be64 pay.length ++ pay ++ f.data.drop (f.pos + 8 + pay.length),
      f.pos + 8 + pay.length⟩ : File).write after).data = upto f.data f.pos ++ (be64 pay.length ++ (pay ++ (after ++ tail))) := by
    by_cases ha : after = []
    · subst ha
      refine ⟨f.data.drop (f.pos + 8 + pay.length), ?_⟩
      unfold File.write
      rw [if_pos rfl]
      simp
    · rw [write_eq _ _ ha]
      simp only
      have hl : (upto f.data f.pos ++ be64 pay.length ++ pay).length = f.pos + 8 + pay.length := by
        rw [List.length_append, List.length_append, upto_length, be64_length]
      have e1 : upto (upto f.data f.pos ++ be64 pay.length ++ pay ++ f.data.drop (f.pos + 8 + pay.length)) (f.pos + 8 + pay.length) =
          upto f.data f.pos ++ be64 pay.length ++ pay := by
        rw [upto_append _ _ _ (by omega), List.take_of_length_le (by omega)]
      rw [e1]
      exact ⟨_, by simp only [List.append_assoc]; rfl⟩
  obtain ⟨tail, hd⟩ := hd
  generalize ((⟨upto f.data f.pos ++ be64 pay.length ++ pay ++ f.data.drop (f.pos + 8 + pay.length),
      f.pos + 8 + pay.length⟩ : File).write after) = g at *
  have hlen : g.data.length = f.pos + (8 + (pay.length + (after.length + tail.length))) := by
    rw [hd]; simp only [List.length_append, upto_length, be64_length]
  have hd0 : g.data.drop f.pos = be64 pay.length ++ (pay ++ (after ++ tail)) := by
    rw [hd, List.drop_left' (upto_length _ _)]
  have hd8 : g.data.drop (f.pos + 8) = pay ++ (after ++ tail) := by
    rw [← List.drop_drop, hd0, List.drop_left' (be64_length _)]
  have hdp : g.data.drop (f.pos + 8 + pay.length) = after ++ tail := by
    rw [← List.drop_drop, hd8, List.drop_left]
  have hr : (g.seek f.pos).read 8 k = (be64 pay.length, ⟨g.data, f.pos + 8⟩) := by
    unfold File.read File.seek
    simp only
    rw [show min (min 8 (max 1 k)) (g.data.length - f.pos) = 8 from by omega, hd0, List.take_left' (be64_length _)]
  unfold readSized
  simp only [hr]
  rw [if_neg (by intro h; have := congrArg List.length h; rw [be64_length] at this; simp at this)]
  simp only [be64_length, Nat.sub_self, List.replicate_zero, List.append_nil]
  rw [unbe64_be64 _ (by omega), if_pos h, readLimited_spec _ _ _ _ (by simp only [File.seek]; omega) (by simp only; omega)]
  refine ⟨⟨g.data, f.pos + 8 + pay.length⟩, by simp only [hd8, List.take_left], rfl, ?_, rfl⟩
  simp only [hdp, List.take_left]

/-- Two chunks, something after. -/
example : readSized (((section_ ⟨[9], 1⟩ [[1, 2], [3]]).write [7]).seek 1) 8 [1] =
    some ([1, 2, 3], ⟨[9, 0, 0, 0, 0, 0, 0, 0, 3, 1, 2, 3, 7], 12⟩) := by decide +kernel

/-- Negation for **C52**: nothing at all is written for a section of no chunks, and what
follows is taken for its size. -/
theorem no_chunks_no_section : section_ ⟨[], 0⟩ [] = ⟨[], 0⟩ ∧
    readSized (((section_ ⟨[], 0⟩ []).write [0, 0, 0, 0, 0, 0, 0, 1, 5]).seek 0) 8 [] =
      some ([5], ⟨[0, 0, 0, 0, 0, 0, 0, 1, 5], 9⟩) := by
  refine ⟨by decide +kernel, by decide +kernel⟩

/-- Negation for **C52**: if the first read does not get all eight bytes (as `Read` is allowed
to) the size is wrong. -/
theorem short_read_breaks : readSized ((section_ ⟨[], 0⟩ [[1, 2, 3]]).seek 0) 7 [] ≠ none ∧
    (readSized ((section_ ⟨[], 0⟩ [[1, 2, 3]]).seek 0) 7 []).map Prod.fst = some [] := by
  refine ⟨by decide +kernel, by decide +kernel⟩

/-- Negation for **C52**: a section cut short is read without an error. -/
theorem cut_section_accepted : ∃ b f, readSized ⟨[0, 0, 0, 0, 0, 0, 0, 9, 1, 2], 0⟩ 8 [] = some (b, f) ∧ b = [1, 2] :=
  ⟨_, _, rfl, by decide +kernel⟩

end Szd
end Anansi
