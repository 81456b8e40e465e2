import Verif.Model.EditLine
import Verif.Lemmas.Utf8
/-
Counting, skipping and removing runes of a valid UTF-8 text.
-/
set_option autoImplicit false

namespace Anansi

theorem encodeRunes_cons (r : Nat) (rs : List Nat) : encodeRunes (r :: rs) = encodeRune r ++ encodeRunes rs := by
  simp [encodeRunes]

theorem encodeRunes_append (a b : List Nat) : encodeRunes (a ++ b) = encodeRunes a ++ encodeRunes b := by
  simp [encodeRunes]

theorem encodeRune_ne_nil (r : Nat) : encodeRune r ≠ [] := by
  intro h
  have := encodeRune_length_pos r
  rw [h] at this; simp at this

theorem runeCountAux_encodeRunes (rs : List Nat) (h : ∀ r ∈ rs, validRune r = true) :
    ∀ f, rs.length ≤ f → runeCountAux f (encodeRunes rs) = rs.length := by
  induction rs with
  | nil =>
    intro f _
    cases f <;> simp [runeCountAux, encodeRunes]
  | cons r rs ih =>
    intro f hf
    cases f with
    | zero => simp at hf
    | succ f =>
      have hne : encodeRune r ++ encodeRunes rs ≠ [] := by simp [encodeRune_ne_nil]
      rw [encodeRunes_cons, runeCountAux, if_neg hne, decodeRune_encodeRune r (h r (by simp))]
      simp only [List.drop_left]
      rw [ih (fun x hx => h x (by simp [hx])) f (by simpa using hf)]
      rfl

theorem encodeRunes_len (rs : List Nat) : rs.length ≤ (encodeRunes rs).length := by
  induction rs with
  | nil => simp
  | cons r rs ih =>
    rw [encodeRunes_cons]
    have := encodeRune_length_pos r
    simp only [List.length_cons, List.length_append]; omega

theorem runeCount_encodeRunes (rs : List Nat) (h : ∀ r ∈ rs, validRune r = true) :
    runeCount (encodeRunes rs) = rs.length :=
  runeCountAux_encodeRunes rs h _ (encodeRunes_len rs)

theorem skipRunes_encodeRunes (k : Nat) : ∀ (rs : List Nat) (b : Bytes), (∀ r ∈ rs, validRune r = true) →
    k ≤ rs.length → Edl.skipRunes k (encodeRunes rs ++ b) = encodeRunes (rs.drop k) ++ b := by
  induction k with
  | zero => intro rs b _ _; rfl
  | succ k ih =>
    intro rs b h hk
    cases rs with
    | nil => simp at hk
    | cons r rs =>
      rw [Edl.skipRunes, encodeRunes_cons, List.append_assoc, decodeRune_encodeRune r (h r (by simp)),
        List.drop_left, ih rs b (fun x hx => h x (by simp [hx])) (by simpa using hk)]
      rfl

theorem skipRunes_nil (k : Nat) : Edl.skipRunes k [] = [] := by
  induction k with
  | zero => rfl
  | succ k ih => rw [Edl.skipRunes]; simpa using ih

theorem getD_append_right' (q e : Bytes) (d : Nat) (h1 : 1 ≤ d) (h2 : d ≤ e.length) :
    (q ++ e).getD ((q ++ e).length - d) 0 = e.getD (e.length - d) 0 := by
  rw [List.getD_eq_getElem?_getD, List.getD_eq_getElem?_getD, List.getElem?_append_right (by simp; omega)]
  congr 2
  simp; omega

theorem isCont_ofNat (k : Nat) (h : k < 64) : isCont (UInt8.ofNat (0x80 + k)) = true := by
  unfold isCont
  rw [u8_ofNat_toNat (by omega)]
  simp; omega

theorem decodeLastRune_encodeRune (q : Bytes) (r : Nat) (hv : validRune r = true) :
    decodeLastRune (q ++ encodeRune r) = (r, (encodeRune r).length) := by
  have hv' : r < 0xD800 ∨ (0xDFFF < r ∧ r ≤ 0x10FFFF) := by
    simpa [validRune] using hv
  have hne : q ++ encodeRune r ≠ [] := by simp [encodeRune_ne_nil]
  have hlen : (q ++ encodeRune r).length = q.length + (encodeRune r).length := by simp
  -- it is enough that the start of the rune is found
  have key : ¬ ((q ++ encodeRune r).getD ((q ++ encodeRune r).length - 1) 0).toNat < 0x80 →
      lastStart (q ++ encodeRune r) = q.length →
      decodeLastRune (q ++ encodeRune r) = (r, (encodeRune r).length) := by
    intro h1 h2
    unfold decodeLastRune
    rw [if_neg hne, if_neg h1]
    simp only
    have hd : decodeRune (encodeRune r) = (r, (encodeRune r).length) := by
      have := decodeRune_encodeRune r hv []
      rwa [List.append_nil] at this
    rw [h2, List.drop_left, hd, if_neg (by simp)]
  have hcont : ∀ k, k < 64 → ¬ (UInt8.ofNat (0x80 + k)).toNat < 0x80 := by
    intro k hk; rw [u8_ofNat_toNat (by omega)]; omega
  have hat : ∀ d, 1 ≤ d → d ≤ (encodeRune r).length →
      startsBack (q ++ encodeRune r) d = runeStart ((encodeRune r).getD ((encodeRune r).length - d) 0) := by
    intro d h1 h2
    unfold startsBack
    rw [getD_append_right' q _ d h1 h2, hlen]
    have : decide (d ≤ q.length + (encodeRune r).length) = true := by simp; omega
    rw [this, Bool.true_and]
  by_cases h7 : r ≤ 0x7F
  · have he : encodeRune r = [UInt8.ofNat r] := by rw [encodeRune, if_pos h7]
    have hg := getD_append_right' q (encodeRune r) 1 (by omega) (encodeRune_length_pos r)
    unfold decodeLastRune
    rw [if_neg hne, hg, he]
    simp only [List.length_singleton, Nat.sub_self, List.getD_cons_zero]
    rw [u8_ofNat_toNat (by omega), if_pos (by omega)]
  by_cases h8 : r ≤ 0x7FF
  · have he : encodeRune r = [UInt8.ofNat (0xC0 + r / 64), UInt8.ofNat (0x80 + r % 64)] := by
      rw [encodeRune, if_neg h7, if_pos h8]
    have hl : (encodeRune r).length = 2 := by rw [he]; rfl
    apply key
    · rw [getD_append_right' q _ 1 (by omega) (by omega), he]
      exact hcont _ (by omega)
    · unfold lastStart
      have a2 := hat 2 (by omega) (by omega)
      have s2 : runeStart ((encodeRune r).getD ((encodeRune r).length - 2) 0) = true := by
        rw [he]; show (!isCont (UInt8.ofNat (0xC0 + r / 64))) = true
        unfold isCont
        rw [u8_ofNat_toNat (by omega)]; simp; omega
      rw [a2, s2, if_pos rfl]; omega
  have hnv : (!validRune r) = false := by rw [hv]; rfl
  by_cases h9 : r ≤ 0xFFFF
  · have he : encodeRune r = [UInt8.ofNat (0xE0 + r / 4096), UInt8.ofNat (0x80 + r / 64 % 64), UInt8.ofNat (0x80 + r % 64)] := by
      rw [encodeRune, if_neg h7, if_neg h8, hnv, if_neg (by simp), if_pos h9]
    have hl : (encodeRune r).length = 3 := by rw [he]; rfl
    apply key
    · rw [getD_append_right' q _ 1 (by omega) (by omega), he]
      exact hcont _ (by omega)
    · unfold lastStart
      have a2 := hat 2 (by omega) (by omega)
      have s2 : runeStart ((encodeRune r).getD ((encodeRune r).length - 2) 0) = false := by
        rw [he]; show (!isCont (UInt8.ofNat (0x80 + r / 64 % 64))) = false
        rw [isCont_ofNat _ (by omega)]; rfl
      have a3 := hat 3 (by omega) (by omega)
      have s3 : runeStart ((encodeRune r).getD ((encodeRune r).length - 3) 0) = true := by
        rw [he]; show (!isCont (UInt8.ofNat (0xE0 + r / 4096))) = true
        unfold isCont
        rw [u8_ofNat_toNat (by omega)]; simp; omega
      rw [a2, s2, a3, s3, if_neg (by simp), if_pos rfl]; omega
  · have he : encodeRune r = [UInt8.ofNat (0xF0 + r / 262144), UInt8.ofNat (0x80 + r / 4096 % 64),
       UInt8.ofNat (0x80 + r / 64 % 64), UInt8.ofNat (0x80 + r % 64)] := by
      rw [encodeRune, if_neg h7, if_neg h8, hnv, if_neg (by simp), if_neg h9]
    have hl : (encodeRune r).length = 4 := by rw [he]; rfl
    apply key
    · rw [getD_append_right' q _ 1 (by omega) (by omega), he]
      exact hcont _ (by omega)
    · unfold lastStart
      have a2 := hat 2 (by omega) (by omega)
      have s2 : runeStart ((encodeRune r).getD ((encodeRune r).length - 2) 0) = false := by
        rw [he]; show (!isCont (UInt8.ofNat (0x80 + r / 64 % 64))) = false
        rw [isCont_ofNat _ (by omega)]; rfl
      have a3 := hat 3 (by omega) (by omega)
      have s3 : runeStart ((encodeRune r).getD ((encodeRune r).length - 3) 0) = false := by
        rw [he]; show (!isCont (UInt8.ofNat (0x80 + r / 4096 % 64))) = false
        rw [isCont_ofNat _ (by omega)]; rfl
      have a4 := hat 4 (by omega) (by omega)
      have s4 : runeStart ((encodeRune r).getD ((encodeRune r).length - 4) 0) = true := by
        rw [he]; show (!isCont (UInt8.ofNat (0xF0 + r / 262144))) = true
        unfold isCont
        rw [u8_ofNat_toNat (by omega)]; simp; omega
      rw [a2, s2, a3, s3, a4, s4, if_neg (by simp), if_neg (by simp), if_pos rfl]; omega

/-- Dropping the last rune. -/
theorem take_last (rs : List Nat) (r : Nat) (hv : validRune r = true) :
    (encodeRunes (rs ++ [r])).take ((encodeRunes (rs ++ [r])).length - (decodeLastRune (encodeRunes (rs ++ [r]))).2) =
      encodeRunes rs := by
  have e : encodeRunes (rs ++ [r]) = encodeRunes rs ++ encodeRune r := by
    rw [encodeRunes_append, encodeRunes_cons]; simp [encodeRunes]
  rw [e, decodeLastRune_encodeRune _ _ hv]
  simp

theorem dropLastRunes_encodeRunes (k : Nat) : ∀ (rs : List Nat), (∀ r ∈ rs, validRune r = true) →
    k ≤ rs.length → Edl.dropLastRunes k (encodeRunes rs) = encodeRunes (rs.take (rs.length - k)) := by
  induction k with
  | zero => intro rs _ _; simp [Edl.dropLastRunes]
  | succ k ih =>
    intro rs h hk
    rcases List.eq_nil_or_concat rs with rfl | ⟨l, r, rfl⟩
    · simp at hk
    · rw [List.concat_eq_append] at h hk ⊢
      rw [Edl.dropLastRunes, take_last l r (h r (by simp)), ih l (fun x hx => h x (by simp [hx])) (by simpa using hk)]
      congr 1
      rw [List.take_append_of_le_length (by simp)]
      simp

end Anansi
