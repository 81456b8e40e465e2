import Verif.Model.Decode
import Verif.Model.Seq
import Verif.Lemmas.Utf8
/-
Helper lemmas about decoding escape sequences.
-/
set_option autoImplicit false

namespace Anansi

theorem csiScan_args (arg : Bytes) (f : UInt8) (rest : Bytes)
    (ha : ∀ b ∈ arg, 0x20 ≤ b.toNat ∧ b.toNat ≤ 0x3F)
    (hf : 0x40 ≤ f.toNat ∧ f.toNat ≤ 0x7E) (inter : Bool) (ai : Option Nat) (ni : Nat)
    (hi : inter = true → ai ≠ none) :
    csiScan inter ai ni (arg ++ f :: rest) =
      some (if ai = none ∧ arg ≠ [] then some ni else ai, ni + arg.length, f) := by
  induction arg generalizing inter ai ni with
  | nil =>
    simp only [List.nil_append, csiScan]
    rw [if_neg (by simp; omega), if_pos (by simp; omega)]
    simp
  | cons c t ih =>
    have hc := ha c (by simp)
    have ht : ∀ b ∈ t, 0x20 ≤ b.toNat ∧ b.toNat ≤ 0x3F := fun b hb => ha b (by simp [hb])
    simp only [List.cons_append, csiScan]
    split
    · rw [ih ht _ _ _ (by intro _; split <;> simp_all)]
      cases ai <;> simp <;> omega
    · rename_i h1
      rw [if_neg (by simp; omega)]
      split
      · rw [ih ht _ _ _ (by intro _; split <;> simp_all)]
        cases ai <;> simp <;> omega
      · rename_i h2
        simp at h1 h2
        -- a parameter byte after an intermediate one
        have hin : inter = true := by
          cases inter
          · have := h1 rfl; omega
          · rfl
        rw [ih ht _ _ _ hi]
        have := hi hin
        cases ai <;> simp_all <;> omega

theorem decodeCSI_args (arg : Bytes) (f : UInt8) (rest : Bytes)
    (ha : ∀ b ∈ arg, 0x20 ≤ b.toNat ∧ b.toNat ≤ 0x3F)
    (hf : 0x40 ≤ f.toNat ∧ f.toNat ≤ 0x7E) :
    decodeCSI (arg ++ f :: rest) = some (csiId f, arg, arg.length + 1) := by
  unfold decodeCSI
  rw [csiScan_args arg f rest ha hf false none 0 (by simp)]
  cases arg <;> simp

/-- Decoding the two-byte introducer. -/
theorem ansiDecodeRune_esc_c1 (b : UInt8) (t : Bytes) (hb : 0x40 ≤ b.toNat ∧ b.toNat ≤ 0x5F) :
    ansiDecodeRune (0x1B :: b :: t) = (0x80 + b.toNat % 32, 2) := by
  unfold ansiDecodeRune
  rw [decodeRune_ascii 0x1B (b :: t) (by decide)]
  simp only [show (0x1B : UInt8).toNat = 0x1B from rfl, if_true, List.drop_succ_cons, List.drop_zero]
  rw [decodeRune_ascii b t (by omega)]
  simp only [hb, and_self, if_true]

theorem ansiDecodeRune_not_esc {p : Bytes} {r m : Nat} (h : decodeRune p = (r, m)) (hr : r ≠ 0x1B) :
    ansiDecodeRune p = (r, m) := by
  unfold ansiDecodeRune; rw [h]; simp [hr]

theorem decodeEscape_csi (arg : Bytes) (f : UInt8) (rest : Bytes)
    (ha : ∀ b ∈ arg, 0x20 ≤ b.toNat ∧ b.toNat ≤ 0x3F)
    (hf : 0x40 ≤ f.toNat ∧ f.toNat ≤ 0x7E) :
    decodeEscape (0x1B :: 0x5B :: (arg ++ f :: rest)) =
      ⟨csiId f, arg, arg.length + 3, 0x1B :: 0x5B :: (arg ++ f :: rest)⟩ := by
  unfold decodeEscape
  rw [ansiDecodeRune_esc_c1 _ _ (by decide)]
  simp only [show (0x80 + (0x5B : UInt8).toNat % 32) = 0x9B from rfl]
  rw [if_neg (by decide), if_pos (by decide)]
  simp only [List.drop_succ_cons, List.drop_zero, decodeCSI_args arg f rest ha hf]
  rw [show 2 + (arg.length + 1) = arg.length + 3 by omega]

theorem decodeEscape_csi_c1 (arg : Bytes) (f : UInt8) (rest : Bytes)
    (ha : ∀ b ∈ arg, 0x20 ≤ b.toNat ∧ b.toNat ≤ 0x3F)
    (hf : 0x40 ≤ f.toNat ∧ f.toNat ≤ 0x7E) :
    decodeEscape (0xC2 :: 0x9B :: (arg ++ f :: rest)) =
      ⟨csiId f, arg, arg.length + 3, 0xC2 :: 0x9B :: (arg ++ f :: rest)⟩ := by
  unfold decodeEscape
  have : decodeRune (0xC2 :: 0x9B :: (arg ++ f :: rest)) = (0x9B, 2) := by
    simp [decodeRune, isCont]
  rw [ansiDecodeRune_not_esc this (by decide)]
  simp only
  rw [if_neg (by decide), if_pos (by decide)]
  simp only [List.drop_succ_cons, List.drop_zero, decodeCSI_args arg f rest ha hf]
  rw [show 2 + (arg.length + 1) = arg.length + 3 by omega]

theorem csiId_final {id : Nat} (h : 0xEF80 < id ∧ id < 0xEFFF) :
    csiId (UInt8.ofNat (id % 128)) = id := by
  unfold csiId
  rw [u8_ofNat_toNat (by omega)]; omega

theorem escId_final {id : Nat} (h : 0xEF00 ≤ id ∧ id < 0xEF80) :
    escId (UInt8.ofNat (id % 128)) = id := by
  unfold escId
  rw [u8_ofNat_toNat (by omega)]; omega

/-- The escape loop passes over intermediates. -/
theorem decodeESCLoop_interm (its : Bytes) (hi : ∀ b ∈ its, 0x20 ≤ b.toNat ∧ b.toNat ≤ 0x2F)
    (fuel : Nat) (mid rest : Bytes) :
    decodeESCLoop (its.length + fuel) [] mid (its ++ rest) =
      decodeESCLoop fuel [] (mid ++ its) rest := by
  induction its generalizing mid with
  | nil => simp
  | cons b t ih =>
    have hb := hi b (by simp)
    have : (b :: t).length + fuel = (t.length + fuel) + 1 := by simp; omega
    rw [this]
    simp only [List.cons_append, decodeESCLoop, decodeRune_ascii b _ (by omega)]
    rw [if_neg (by simp [runeError]; omega), if_neg (by omega), if_neg (by omega),
      if_pos (by omega)]
    simp only [List.take_succ_cons, List.take_zero, List.drop_succ_cons, List.drop_zero]
    rw [ih (fun b hb => hi b (by simp [hb]))]
    simp

theorem decodeEscape_esc {p : Bytes} (b : UInt8) (hb : b.toNat < 0x40 ∨ 0x5F < b.toNat)
    (hb' : b.toNat < 0x80) : decodeEscape (0x1B :: b :: p) = decodeESC (0x1B :: b :: p) := by
  unfold decodeEscape
  have : ansiDecodeRune (0x1B :: b :: p) = (0x1B, 1) := by
    unfold ansiDecodeRune
    rw [decodeRune_ascii 0x1B (b :: p) (by decide)]
    simp only [show (0x1B : UInt8).toNat = 0x1B from rfl, if_true, List.drop_succ_cons, List.drop_zero]
    rw [decodeRune_ascii b p hb']
    simp only
    rw [if_neg (by omega)]
  rw [this]; simp

end Anansi
