import Verif.Props.Stream
import Verif.Props.Mode
import Verif.Lemmas.Num
/-
C58: mode set and reset sequences; and C40 for modes.
-/
set_option autoImplicit false

namespace Anansi

/-- The mode with number `n`. -/
def modeOf (priv : Bool) (n : Nat) : BitVec 64 :=
  if priv then BitVec.ofNat 64 n ||| modePrivate else BitVec.ofNat 64 n

/-- `ESC [`, `?` for private modes, the number and a final byte. -/
def modeText (priv : Bool) (n : Nat) (final : UInt8) : Bytes :=
  [0x1B, 0x5B] ++ (if priv then [0x3F] else []) ++ itoaNat n ++ [final]

theorem ofNat_bit63 (n : Nat) (h : n < 2 ^ 63) : (BitVec.ofNat 64 n).getLsbD 63 = false := by
  rw [BitVec.getLsbD_ofNat]; simp [Nat.testBit_lt_two_pow h]

theorem private_bit (i : Nat) : modePrivate.getLsbD i = decide (i = 63) := by
  have e : modePrivate = BitVec.twoPow 64 63 := by decide
  rw [e, BitVec.getLsbD_twoPow]; by_cases h : i = 63 <;> simp [h]; omega

theorem mode_public (n : Nat) (h : n < 2 ^ 63) : modeOf false n &&& modePrivate = 0 := by
  apply BitVec.eq_of_getLsbD_eq
  intro i hi
  simp only [modeOf, Bool.false_eq_true, if_false, BitVec.getLsbD_and, private_bit, BitVec.getLsbD_zero]
  by_cases e : i = 63
  · subst e; rw [ofNat_bit63 n h]; rfl
  · simp [e]

theorem mode_private (n : Nat) : modeOf true n &&& modePrivate ≠ 0 := by
  intro h
  have := congrArg (fun v => BitVec.getLsbD v 63) h
  simp only [modeOf, if_true, BitVec.getLsbD_and, BitVec.getLsbD_or, private_bit] at this
  simp at this

theorem mode_strip (n : Nat) (h : n < 2 ^ 63) : modeOf true n &&& ~~~modePrivate = BitVec.ofNat 64 n := by
  apply BitVec.eq_of_getLsbD_eq
  intro i hi
  simp only [modeOf, if_true, BitVec.getLsbD_and, BitVec.getLsbD_or, BitVec.getLsbD_not, private_bit, hi]
  by_cases e : i = 63
  · subst e; rw [ofNat_bit63 n h]; rfl
  · simp [e]

theorem ofNat_toInt (n : Nat) (h : n < 2 ^ 63) : (BitVec.ofNat 64 n).toInt = n := by
  rw [BitVec.toInt_eq_toNat_of_lt]
  · rw [BitVec.toNat_ofNat, Nat.mod_eq_of_lt (by omega)]
  · rw [BitVec.toNat_ofNat, Nat.mod_eq_of_lt (by omega)]; omega

theorem mode_seq (f : UInt8) (hf : f = 0x68 ∨ f = 0x6C) (bs : List UInt8) (hb : bs = [] ∨ bs = [0x3F]) (n : Nat) :
    ∃ s, ((escSeq (csiId f)).bind fun s => (s.with bs).withInts [(n : Int)]) = some s ∧
      s.append = some ([0x1B, 0x5B] ++ bs ++ itoaNat n ++ [f]) := by
  refine ⟨{ id := csiId f, numBytes := bs.length, numInts := 1, argBytes := bs ++ List.replicate (3 - bs.length) 0, argInts := [(n : Int), 0, 0] }, ?_, ?_⟩
  · rcases hf with rfl | rfl <;> rcases hb with rfl | rfl <;>
      simp [escSeq, csiId, Seq.with, Seq.withInts, withLoop]
  · rcases hf with rfl | rfl <;> rcases hb with rfl | rfl <;>
      simp [Seq.append, csiId, Seq.argNums, Seq.argByteList, Seq.extraNums, Seq.staticNums, itoa_natCast]

/-- **C58**, the bytes, for every mode value: any 64 bit mode is a number below `2^63`,
private or not. -/
theorem mode_bytes (priv : Bool) (n : Nat) (h : n < 2 ^ 63) :
    (∃ s, modeSet (modeOf priv n) = some s ∧ s.append = some (modeText priv n 0x68)) ∧
    (∃ s, modeReset (modeOf priv n) = some s ∧ s.append = some (modeText priv n 0x6C)) := by
  cases priv with
  | false =>
    obtain ⟨s, h1, h2⟩ := mode_seq 0x68 (Or.inl rfl) [] (Or.inl rfl) n
    obtain ⟨r, g1, g2⟩ := mode_seq 0x6C (Or.inr rfl) [] (Or.inl rfl) n
    have e : (modeOf false n).toInt = n := ofNat_toInt n h
    constructor
    · refine ⟨s, ?_, by rw [h2]; simp [modeText]⟩
      unfold modeSet
      rw [if_pos (mode_public n h), e]; exact h1
    · refine ⟨r, ?_, by rw [g2]; simp [modeText]⟩
      unfold modeReset
      rw [if_pos (mode_public n h), e]; exact g1
  | true =>
    obtain ⟨s, h1, h2⟩ := mode_seq 0x68 (Or.inl rfl) [0x3F] (Or.inr rfl) n
    obtain ⟨r, g1, g2⟩ := mode_seq 0x6C (Or.inr rfl) [0x3F] (Or.inr rfl) n
    constructor
    · refine ⟨s, ?_, by rw [h2]; simp [modeText]⟩
      unfold modeSet
      rw [if_neg (mode_private n), mode_strip n h, ofNat_toInt n h]; exact h1
    · refine ⟨r, ?_, by rw [g2]; simp [modeText]⟩
      unfold modeReset
      rw [if_neg (mode_private n), mode_strip n h, ofNat_toInt n h]; exact g1

/-- Every mode value is one of these. -/
theorem mode_cover (m : BitVec 64) : ∃ priv n, n < 2 ^ 63 ∧ m = modeOf priv n := by
  by_cases h : m.toNat < 2 ^ 63
  · exact ⟨false, m.toNat, h, by simp [modeOf]⟩
  · refine ⟨true, m.toNat - 2 ^ 63, by have := m.isLt; omega, ?_⟩
    apply BitVec.eq_of_toNat_eq
    have h2 := m.isLt
    simp only [modeOf, if_true, BitVec.toNat_or, BitVec.toNat_ofNat]
    have e : modePrivate.toNat = 2 ^ 63 := by decide
    rw [e, Nat.mod_eq_of_lt (by omega)]
    have h3 : m.toNat - 2 ^ 63 < 2 ^ 63 := by omega
    have := Nat.two_pow_add_eq_or_of_lt h3 1
    rw [Nat.mul_one] at this
    rw [Nat.or_comm, ← this]
    omega

/-- **C58**, reading it back: the sequence is one event, a set or reset mode function, whose
argument, after the private marker, decodes to the mode.  The number must fit the
decoder's 32 bits: see `mode_too_big`. -/
theorem mode_roundtrip_partial (priv : Bool) (n : Nat) (h : n ≤ 2 ^ 32 - 1) (f : UInt8) (hf : f = 0x68 ∨ f = 0x6C) :
    ∃ arg, Delivers (modeText priv n f) [(csiId f, (if priv then [0x3F] else []) ++ arg)] ∧
      decodeMode priv arg = ⟨modeOf priv n, arg.length, none⟩ := by
  refine ⟨itoaNat n, ?_, ?_⟩
  · have := delivers_csi f ((if priv then [0x3F] else []) ++ itoaNat n) (by rcases hf with rfl | rfl <;> decide) (by
      intro b hb
      rcases List.mem_append.mp hb with hb | hb
      · cases priv <;> simp at hb; subst hb; decide
      · exact itoaNat_range n b hb)
    simpa [modeText] using this
  · have hd := decodeNumber_itoa n [] h (by simp [noDigit])
    rw [List.append_nil] at hd
    unfold decodeMode
    rw [if_neg (itoaNat_ne_nil n), hd]
    have : BitVec.ofInt 64 (n : Int) = BitVec.ofNat 64 n := by simp
    simp only [if_true, this, modeOf]

example : ∃ arg, Delivers (modeText true 1049 0x68) [(SM, 0x3F :: arg)] ∧
    decodeMode true arg = ⟨modePrivate ||| 1049, 4, none⟩ :=
  ⟨[0x31, 0x30, 0x34, 0x39], by
    have := delivers_csi 0x68 [0x3F, 0x31, 0x30, 0x34, 0x39] (by decide) (by decide)
    have e : modeText true 1049 0x68 = 0x1B :: 0x5B :: ([0x3F, 0x31, 0x30, 0x34, 0x39] ++ [0x68]) := by decide +kernel
    rw [e]; exact this, by decide +kernel⟩

/-- Negation for **C58**: a mode number of 33 bits is emitted in full and read back, without an error, as
another one. -/
theorem mode_too_big : ∃ s b, modeSet (modeOf false (2 ^ 32)) = some s ∧ s.append = some b ∧
    b = [0x1B, 0x5B] ++ itoaNat (2 ^ 32) ++ [0x68] ∧ decodeMode false (itoaNat (2 ^ 32)) = ⟨modeOf false (2 ^ 32 - 6), 10, none⟩ := by
  obtain ⟨⟨s, h1, h2⟩, _⟩ := mode_bytes false (2 ^ 32) (by decide)
  exact ⟨s, _, h1, h2, by simp [modeText], by decide +kernel⟩

/-- **C40** for modes: after adding any modes, however their bytes are appended, entering
sets them in order and exiting resets them in reverse order. -/
theorem modes_added (grow : Nat → Nat → Nat) (ms : List (Bool × Nat)) (l : List ModeBuf.Op)
    (h : l.map (fun o => (o.setBytes, o.resetBytes)) =
      ms.map fun m => (modeText m.1 m.2 0x68, modeText m.1 m.2 0x6C)) :
    (({} : ModeBuf).ops grow l).enter true = ms.flatMap (fun m => modeText m.1 m.2 0x68) ∧
    (({} : ModeBuf).ops grow l).exit true = ms.reverse.flatMap (fun m => modeText m.1 m.2 0x6C) := by
  obtain ⟨h1, h2⟩ := ModeBuf.mode_strings grow l
  have e1 : l.map ModeBuf.Op.setBytes = ms.map (fun m => modeText m.1 m.2 0x68) := by
    have := congrArg (List.map Prod.fst) h
    simpa [List.map_map, Function.comp_def] using this
  have e2 : l.map ModeBuf.Op.resetBytes = ms.map (fun m => modeText m.1 m.2 0x6C) := by
    have := congrArg (List.map Prod.snd) h
    simpa [List.map_map, Function.comp_def] using this
  refine ⟨?_, ?_⟩
  · rw [h1, List.flatMap_def, e1, ← List.flatMap_def]
  · rw [h2, List.flatMap_def, List.map_reverse, e2, ← List.map_reverse, ← List.flatMap_def]

end Anansi
