import Verif.Model.Num
import Verif.Lemmas.Utf8
/-
Helper lemmas about decimal numbers.
-/
set_option autoImplicit false

namespace Anansi

theorem digitByte_toNat {d : Nat} (h : d < 10) : (digitByte d).toNat = 0x30 + d :=
  u8_ofNat_toNat (by omega)

theorem toInt64_small {u : Nat} (h : u < 2 ^ 63) : toInt64 u = u := by
  unfold toInt64
  have : u % 2 ^ 64 = u := Nat.mod_eq_of_lt (by omega)
  simp only [this, h, if_true]

theorem wrap64_small {i : Int} (h : -2 ^ 63 ≤ i) (h' : i < 2 ^ 63) : wrap64 i = i := by
  unfold wrap64 toInt64
  simp only
  split <;> omega

theorem numStep_ok {un d : Nat} (h : un * 10 + d ≤ numMaxVal) : numStep un d = (un * 10 + d, true) := by
  unfold numMaxVal at h
  have hc : un < numCutoff := by simp only [numCutoff]; omega
  have h1 : un * 10 % 2 ^ 64 = un * 10 := Nat.mod_eq_of_lt (by omega)
  have h2 : (un * 10 + d) % 2 ^ 64 = un * 10 + d := Nat.mod_eq_of_lt (by omega)
  simp only [numStep, hc, if_true, h1, h2]
  rw [if_pos (by simp only [numMaxVal]; omega)]

theorem numLoop_itoa (neg : Bool) (n : Nat) (k : Nat) (rest : Bytes) (h : n ≤ numMaxVal) :
    numLoop neg 0 k (itoaNat n ++ rest) = numLoop neg n (k + (itoaNat n).length) rest := by
  induction n using Nat.strongRecOn generalizing k rest with
  | _ n ih =>
    rw [itoaNat]
    split
    · rename_i hlt
      have hd := digitByte_toNat hlt
      simp only [List.cons_append, List.nil_append, numLoop, hd]
      rw [if_neg (by omega)]
      have : numStep 0 (0x30 + n - 0x30) = (n, true) := by
        have := numStep_ok (un := 0) (d := n) (by omega)
        rw [show 0x30 + n - 0x30 = n by omega]; simpa using this
      simp only [this, if_true, List.length_cons, List.length_nil, Nat.zero_add]
    · rename_i hge
      have hd := digitByte_toNat (d := n % 10) (by omega)
      rw [List.append_assoc, ih (n / 10) (by omega) _ _ (by omega)]
      simp only [List.cons_append, List.nil_append, numLoop, hd]
      rw [if_neg (by omega)]
      have : numStep (n / 10) (0x30 + n % 10 - 0x30) = (n, true) := by
        have := numStep_ok (un := n / 10) (d := n % 10) (by omega)
        rw [show 0x30 + n % 10 - 0x30 = n % 10 by omega, this]
        simp; omega
      simp only [this, if_true, List.length_append, List.length_cons, List.length_nil]; congr 1

theorem itoa_natCast (n : Nat) : itoa (n : Int) = itoaNat n := by
  unfold itoa; rw [if_neg (by omega)]; simp

theorem itoaNat_ne_nil (n : Nat) : itoaNat n ≠ [] := by
  rw [itoaNat]; split <;> simp

/-- First byte of a decimal number is a digit. -/
theorem itoaNat_head (n : Nat) : ∃ d t, itoaNat n = d :: t ∧ 0x30 ≤ d.toNat ∧ d.toNat ≤ 0x39 := by
  induction n using Nat.strongRecOn with
  | _ n ih =>
    rw [itoaNat]; split
    · rename_i h; exact ⟨_, _, rfl, by rw [digitByte_toNat h]; omega, by rw [digitByte_toNat h]; omega⟩
    · obtain ⟨d, t, h1, h2⟩ := ih (n / 10) (by omega)
      exact ⟨d, _, by rw [h1]; rfl, h2⟩

theorem itoaNat_digits (n : Nat) : ∀ b ∈ itoaNat n, 0x30 ≤ b.toNat ∧ b.toNat ≤ 0x39 := by
  induction n using Nat.strongRecOn with
  | _ n ih =>
    rw [itoaNat]; split
    · rename_i h; simp [digitByte_toNat h]; omega
    · intro b hb
      simp at hb
      rcases hb with hb | hb
      · exact ih _ (by omega) b hb
      · subst hb; rw [digitByte_toNat (by omega)]; omega

/-- The bytes do not begin with a digit. -/
def noDigit (rest : Bytes) : Prop := ∀ d, rest.head? = some d → d.toNat < 0x30 ∨ 0x39 < d.toNat

theorem numLoop_stop (neg : Bool) (un n : Nat) (rest : Bytes) (h : noDigit rest) :
    numLoop neg un n rest = ⟨if neg then wrap64 (-toInt64 un) else toInt64 un, n, none⟩ := by
  cases rest with
  | nil => rfl
  | cons c t =>
    have := h c rfl
    simp only [numLoop, this, if_true]

theorem numSign_itoa (n k : Nat) (rest : Bytes) (h : n ≤ numMaxVal) (hr : noDigit rest) :
    numSign k (itoaNat n ++ rest) = ⟨n, k + (itoaNat n).length, none⟩ := by
  obtain ⟨d, t, hd, h1, h2⟩ := itoaNat_head n
  have hne : ¬ (d = 0x2D ∨ d = 0x2B) := by
    rintro (rfl | rfl) <;> simp at h1
  have : numSign k (itoaNat n ++ rest) = numLoop false 0 k (itoaNat n ++ rest) := by
    rw [hd]; simp only [List.cons_append, numSign, hne, if_false]
  rw [this, numLoop_itoa _ _ _ _ h, numLoop_stop _ _ _ _ hr]
  simp only [numMaxVal] at h
  simp only [Bool.false_eq_true, if_false, toInt64_small (show n < 2 ^ 63 by omega)]

theorem decodeNumber_itoa (n : Nat) (rest : Bytes) (h : n ≤ numMaxVal) (hr : noDigit rest) :
    decodeNumber (itoaNat n ++ rest) = ⟨n, (itoaNat n).length, none⟩ := by
  obtain ⟨d, t, hd, h1, h2⟩ := itoaNat_head n
  have hne : ¬ (d = 0x3B) := by rintro rfl; simp at h2
  have : decodeNumber (itoaNat n ++ rest) = numSign 0 (itoaNat n ++ rest) := by
    rw [hd]; simp only [List.cons_append, decodeNumber, hne, if_false]
  rw [this, numSign_itoa _ _ _ h hr]; simp

theorem decodeNumber_sep_itoa (n : Nat) (rest : Bytes) (h : n ≤ numMaxVal) (hr : noDigit rest) :
    decodeNumber (0x3B :: (itoaNat n ++ rest)) = ⟨n, 1 + (itoaNat n).length, none⟩ := by
  simp only [decodeNumber, if_true]
  rw [numSign_itoa _ _ _ h hr]

theorem numSign_neg_itoa (n k : Nat) (rest : Bytes) (h : n ≤ numMaxVal) (hr : noDigit rest) :
    numSign k (0x2D :: (itoaNat n ++ rest)) = ⟨-n, k + 1 + (itoaNat n).length, none⟩ := by
  have hne : itoaNat n ++ rest ≠ [] := by simp [itoaNat_ne_nil]
  simp only [numSign, hne, if_false, true_or, if_true, decide_true]
  rw [numLoop_itoa _ _ _ _ h, numLoop_stop _ _ _ _ hr]
  simp only [numMaxVal] at h
  simp only [if_true, toInt64_small (show n < 2 ^ 63 by omega)]
  rw [wrap64_small (by omega) (by omega)]

theorem numSign_plus_itoa (n k : Nat) (rest : Bytes) (h : n ≤ numMaxVal) (hr : noDigit rest) :
    numSign k (0x2B :: (itoaNat n ++ rest)) = ⟨n, k + 1 + (itoaNat n).length, none⟩ := by
  have hne : itoaNat n ++ rest ≠ [] := by simp [itoaNat_ne_nil]
  simp only [numSign, hne, if_false, or_true, if_true]
  rw [show decide ((0x2B : UInt8) = 0x2D) = false by decide]
  rw [numLoop_itoa _ _ _ _ h, numLoop_stop _ _ _ _ hr]
  simp only [numMaxVal] at h
  simp only [Bool.false_eq_true, if_false, toInt64_small (show n < 2 ^ 63 by omega)]

end Anansi
