import Verif.Model.Utf8
/-
Helper lemmas about UTF-8 decoding.
-/
set_option autoImplicit false

namespace Anansi

theorem u8_ext {a b : UInt8} (h : a.toNat = b.toNat) : a = b := UInt8.toNat_inj.mp h

theorem u8_ofNat_toNat {n : Nat} (h : n < 256) : (UInt8.ofNat n).toNat = n := by
  simp [UInt8.toNat_ofNat']; omega

theorem u8_ofNat_eq {b : UInt8} {n : Nat} (h : b.toNat = n) : UInt8.ofNat n = b := by
  subst h; simp

theorem decodeRune_encodeRune (r : Nat) (hv : validRune r = true) (rest : Bytes) :
    decodeRune (encodeRune r ++ rest) = (r, (encodeRune r).length) := by
  have hv' : r < 0xD800 ∨ (0xDFFF < r ∧ r ≤ 0x10FFFF) := by simpa [validRune] using hv
  unfold encodeRune
  split
  · have : (UInt8.ofNat r).toNat = r := u8_ofNat_toNat (by omega)
    simp [decodeRune, this]; omega
  split
  · have h0 : (UInt8.ofNat (0xC0 + r / 64)).toNat = 0xC0 + r / 64 := u8_ofNat_toNat (by omega)
    have h1 : (UInt8.ofNat (0x80 + r % 64)).toNat = 0x80 + r % 64 := u8_ofNat_toNat (by omega)
    simp only [List.cons_append, List.nil_append, decodeRune, h0, h1, isCont]
    rw [if_neg (by omega), if_neg (by omega), if_pos (by omega), if_pos (by simp; omega)]
    simp; omega
  split
  · simp [hv] at *
  split
  · have h0 : (UInt8.ofNat (0xE0 + r / 4096)).toNat = 0xE0 + r / 4096 := u8_ofNat_toNat (by omega)
    have h1 : (UInt8.ofNat (0x80 + r / 64 % 64)).toNat = 0x80 + r / 64 % 64 :=
      u8_ofNat_toNat (by omega)
    have h2 : (UInt8.ofNat (0x80 + r % 64)).toNat = 0x80 + r % 64 := u8_ofNat_toNat (by omega)
    simp only [List.cons_append, List.nil_append, decodeRune, h0, h1, h2, isCont]
    rw [if_neg (by omega), if_neg (by omega), if_neg (by omega), if_pos (by omega)]
    rw [if_pos (by simp; split <;> split <;> omega)]
    simp; omega
  · have h0 : (UInt8.ofNat (0xF0 + r / 262144)).toNat = 0xF0 + r / 262144 :=
      u8_ofNat_toNat (by omega)
    have h1 : (UInt8.ofNat (0x80 + r / 4096 % 64)).toNat = 0x80 + r / 4096 % 64 :=
      u8_ofNat_toNat (by omega)
    have h2 : (UInt8.ofNat (0x80 + r / 64 % 64)).toNat = 0x80 + r / 64 % 64 :=
      u8_ofNat_toNat (by omega)
    have h3 : (UInt8.ofNat (0x80 + r % 64)).toNat = 0x80 + r % 64 := u8_ofNat_toNat (by omega)
    simp only [List.cons_append, List.nil_append, decodeRune, h0, h1, h2, h3, isCont]
    rw [if_neg (by omega), if_neg (by omega), if_neg (by omega), if_neg (by omega),
      if_pos (by omega)]
    rw [if_pos (by simp; split <;> split <;> omega)]
    simp; omega

/-- Every decoding result is either a replacement for at most one byte, or the
exact encoding of a valid rune. -/
theorem decodeRune_cases (p : Bytes) :
    (p = [] ∧ decodeRune p = (runeError, 0)) ∨
    (p ≠ [] ∧ decodeRune p = (runeError, 1)) ∨
    (∃ r rest, validRune r = true ∧ p = encodeRune r ++ rest ∧
      decodeRune p = (r, (encodeRune r).length)) := by
  match p with
  | [] => simp [decodeRune]
  | b0 :: t =>
    right
    have hb0 := b0.toNat_lt
    by_cases h1 : b0.toNat < 0x80
    · right
      refine ⟨b0.toNat, t, by simp [validRune]; omega, ?_, ?_⟩
      · rw [encodeRune, if_pos (by omega)]; simp
      · simp [decodeRune, h1, encodeRune, (by omega : b0.toNat ≤ 127)]
    by_cases h2 : b0.toNat < 0xC2
    · left; simp [decodeRune, h1, h2]
    by_cases h3 : b0.toNat < 0xE0
    · match t with
      | [] => left; simp [decodeRune, h1, h2, h3]
      | b1 :: t =>
        by_cases hc : isCont b1
        · right
          have hc' := hc
          simp [isCont] at hc
          refine ⟨(b0.toNat - 0xC0) * 64 + (b1.toNat - 0x80), t, ?_, ?_, ?_⟩
          · simp [validRune]; omega
          · rw [encodeRune, if_neg (by omega), if_pos (by omega)]
            simp only [List.cons_append, List.nil_append]
            rw [u8_ofNat_eq (b := b0) (by omega), u8_ofNat_eq (b := b1) (by omega)]
          · simp only [decodeRune, h1, h2, h3, hc', encodeRune]
            rw [if_neg (c := _ ≤ 0x7F) (by omega), if_pos (c := _ ≤ 0x7FF) (by omega)]; simp
        · left; simp [decodeRune, h1, h2, h3, hc]
    by_cases h4 : b0.toNat < 0xF0
    · match t with
      | [] => left; simp [decodeRune, h1, h2, h3, h4]
      | [b1] => left; simp [decodeRune, h1, h2, h3, h4]
      | b1 :: b2 :: t =>
        by_cases hc : ((if b0.toNat = 0xE0 then 0xA0 else 0x80) ≤ b1.toNat &&
            b1.toNat ≤ (if b0.toNat = 0xED then 0x9F else 0xBF) && isCont b2) = true
        · right
          have hc' := hc
          simp [isCont] at hc
          have hx : 0x80 ≤ b1.toNat ∧ b1.toNat ≤ 0xBF ∧ (b0.toNat = 0xE0 → 0xA0 ≤ b1.toNat) ∧
            (b0.toNat = 0xED → b1.toNat ≤ 0x9F) := by
            obtain ⟨⟨ha, hb⟩, hc⟩ := hc
            split at ha <;> split at hb <;> refine ⟨?_, ?_, ?_, ?_⟩ <;> omega
          have hval : validRune ((b0.toNat - 0xE0) * 4096 + (b1.toNat - 0x80) * 64 +
            (b2.toNat - 0x80)) = true := by simp [validRune]; omega
          refine ⟨(b0.toNat - 0xE0) * 4096 + (b1.toNat - 0x80) * 64 + (b2.toNat - 0x80), t, ?_, ?_, ?_⟩
          · exact hval
          · rw [encodeRune, if_neg (by omega), if_neg (by omega), hval, if_neg (by simp),
              if_pos (by omega)]
            simp only [List.cons_append, List.nil_append]
            rw [u8_ofNat_eq (b := b0) (by omega), u8_ofNat_eq (b := b1) (by omega),
              u8_ofNat_eq (b := b2) (by omega)]
          · simp only [decodeRune, h1, h2, h3, h4, hc', encodeRune]
            rw [if_neg (c := _ ≤ 0x7F) (by omega), if_neg (c := _ ≤ 0x7FF) (by omega), hval,
              if_neg (by simp), if_pos (c := _ ≤ 0xFFFF) (by omega)]; simp
        · left; simp only [decodeRune, h1, h2, h3, h4, hc]; simp
    by_cases h5 : b0.toNat < 0xF5
    · match t with
      | [] => left; simp [decodeRune, h1, h2, h3, h4, h5]
      | [b1] => left; simp [decodeRune, h1, h2, h3, h4, h5]
      | [b1, b2] => left; simp [decodeRune, h1, h2, h3, h4, h5]
      | b1 :: b2 :: b3 :: t =>
        by_cases hc : ((if b0.toNat = 0xF0 then 0x90 else 0x80) ≤ b1.toNat &&
            b1.toNat ≤ (if b0.toNat = 0xF4 then 0x8F else 0xBF) && isCont b2 && isCont b3) = true
        · right
          have hc' := hc
          simp [isCont] at hc
          have hx : 0x80 ≤ b1.toNat ∧ b1.toNat ≤ 0xBF ∧ (b0.toNat = 0xF0 → 0x90 ≤ b1.toNat) ∧
            (b0.toNat = 0xF4 → b1.toNat ≤ 0x8F) := by
            obtain ⟨⟨⟨ha, hb⟩, hc⟩, hd⟩ := hc
            split at ha <;> split at hb <;> refine ⟨?_, ?_, ?_, ?_⟩ <;> omega
          have hval : validRune ((b0.toNat - 0xF0) * 262144 + (b1.toNat - 0x80) * 4096 +
            (b2.toNat - 0x80) * 64 + (b3.toNat - 0x80)) = true := by simp [validRune]; omega
          refine ⟨(b0.toNat - 0xF0) * 262144 + (b1.toNat - 0x80) * 4096 +
            (b2.toNat - 0x80) * 64 + (b3.toNat - 0x80), t, ?_, ?_, ?_⟩
          · exact hval
          · rw [encodeRune, if_neg (by omega), if_neg (by omega), hval, if_neg (by simp),
              if_neg (by omega)]
            simp only [List.cons_append, List.nil_append]
            rw [u8_ofNat_eq (b := b0) (by omega), u8_ofNat_eq (b := b1) (by omega),
              u8_ofNat_eq (b := b2) (by omega), u8_ofNat_eq (b := b3) (by omega)]
          · simp only [decodeRune, h1, h2, h3, h4, h5, hc', encodeRune]
            rw [if_neg (c := _ ≤ 0x7F) (by omega), if_neg (c := _ ≤ 0x7FF) (by omega), hval,
              if_neg (by simp), if_neg (c := _ ≤ 0xFFFF) (by omega)]; simp
        · left; simp only [decodeRune, h1, h2, h3, h4, h5, hc]; simp
    · left; simp [decodeRune, h1, h2, h3, h4, h5]

theorem encodeRune_length_pos (r : Nat) : 1 ≤ (encodeRune r).length := by
  unfold encodeRune; repeat' split
  all_goals simp

theorem encodeRune_length_le (r : Nat) : (encodeRune r).length ≤ 4 := by
  unfold encodeRune; repeat' split
  all_goals simp

theorem encodeRune_ascii {r : Nat} (h : r < 0x80) : encodeRune r = [UInt8.ofNat r] := by
  rw [encodeRune, if_pos (by omega)]

theorem encodeRune_length_two {r : Nat} (h : 0x80 ≤ r) (h' : r ≤ 0x7FF) :
    (encodeRune r).length = 2 := by
  rw [encodeRune, if_neg (by omega), if_pos h']; rfl

theorem decodeRune_width (p : Bytes) (h : p ≠ []) :
    1 ≤ (decodeRune p).2 ∧ (decodeRune p).2 ≤ p.length ∧ (decodeRune p).2 ≤ 4 := by
  rcases decodeRune_cases p with ⟨h', _⟩ | ⟨h', e⟩ | ⟨r, rest, _, hp, e⟩
  · exact absurd h' h
  · rw [e]; have := List.length_pos_iff.mpr h; simp; omega
  · rw [e, hp]; have := encodeRune_length_pos r; have := encodeRune_length_le r; simp; omega

/-- A non-replacement rune was encoded exactly. -/
theorem decodeRune_exact {p : Bytes} {r m : Nat} (h : decodeRune p = (r, m)) (hr : r ≠ runeError) :
    validRune r = true ∧ m = (encodeRune r).length ∧ p = encodeRune r ++ p.drop m := by
  rcases decodeRune_cases p with ⟨_, e⟩ | ⟨_, e⟩ | ⟨r', rest, hv, hp, e⟩
  · rw [e] at h; simp at h; exact absurd h.1.symm hr
  · rw [e] at h; simp at h; exact absurd h.1.symm hr
  · rw [e] at h; simp at h; obtain ⟨rfl, rfl⟩ := h
    refine ⟨hv, rfl, ?_⟩
    conv => lhs; rw [hp]
    conv => rhs; rw [hp]
    simp

theorem decodeRune_exact' (p : Bytes) (hr : (decodeRune p).1 ≠ runeError) :
    validRune (decodeRune p).1 = true ∧ (decodeRune p).2 = (encodeRune (decodeRune p).1).length ∧
      p = encodeRune (decodeRune p).1 ++ p.drop (decodeRune p).2 ∧
      p.take (decodeRune p).2 = encodeRune (decodeRune p).1 := by
  have h := decodeRune_exact (p := p) (r := (decodeRune p).1) (m := (decodeRune p).2) rfl hr
  refine ⟨h.1, h.2.1, h.2.2, ?_⟩
  have e : ∀ (q a b : Bytes) (m : Nat), q = a ++ b → m = a.length → q.take m = a := by
    rintro q a b m rfl rfl; simp
  exact e _ _ _ _ h.2.2 h.2.1

theorem decodeRune_ascii (b : UInt8) (t : Bytes) (h : b.toNat < 0x80) :
    decodeRune (b :: t) = (b.toNat, 1) := by simp [decodeRune, h]

theorem decodeRune_lt_ascii {p : Bytes} {r m : Nat} (h : decodeRune p = (r, m)) (hr : r < 0x80) :
    m = 1 ∧ p = UInt8.ofNat r :: p.drop 1 := by
  have := decodeRune_exact h (by simp [runeError]; omega)
  rw [encodeRune_ascii hr] at this
  obtain ⟨_, rfl, h3⟩ := this
  exact ⟨rfl, h3⟩

theorem decodeRune_lt_ascii' (p : Bytes) (hr : (decodeRune p).1 < 0x80) :
    (decodeRune p).2 = 1 ∧ p = UInt8.ofNat (decodeRune p).1 :: p.drop 1 :=
  decodeRune_lt_ascii (r := (decodeRune p).1) (m := (decodeRune p).2) rfl hr

end Anansi
