import Verif.Model.Seq
import Verif.Spec.Num
import Verif.Lemmas.Num
/-
C05 Number arguments decode exactly.
-/
set_option autoImplicit false

namespace Anansi
open Spec

theorem digitsVal_append (ds : Bytes) (d : UInt8) :
    digitsVal (ds ++ [d]) = 10 * digitsVal ds + (d.toNat - 0x30) := by
  simp [digitsVal]

theorem numLoop_digits_count (neg : Bool) (ds : Bytes) (un k : Nat) (rest : Bytes)
    (hd : ∀ b ∈ ds, IsDigit b) :
    ∃ un', numLoop neg un k (ds ++ rest) = numLoop neg un' (k + ds.length) rest := by
  induction ds generalizing un k with
  | nil => exact ⟨un, by simp⟩
  | cons c t ih =>
    have hc := hd c (by simp)
    obtain ⟨un', h⟩ := ih (numStep un (c.toNat - 0x30)).1 (k + 1) (fun b hb => hd b (by simp [hb]))
    refine ⟨un', ?_⟩
    have hcut : ¬ (numMaxVal ≥ numCutoff) := by decide
    have hcut' : ¬ (numMaxVal > numCutoff) := by decide
    simp only [List.cons_append, numLoop]
    rw [if_neg (by unfold IsDigit at hc; omega)]
    simp only [hcut, hcut', decide_false, Bool.and_false, Bool.false_eq_true, if_false, ite_self]
    rw [h]; congr 1; simp; omega

theorem numLoop_digits_val (neg : Bool) (ds : Bytes) (un k : Nat) (rest : Bytes)
    (hd : ∀ b ∈ ds, IsDigit b)
    (hv : ds.foldl (fun v d => 10 * v + (d.toNat - 0x30)) un ≤ numMaxVal) :
    numLoop neg un k (ds ++ rest) =
      numLoop neg (ds.foldl (fun v d => 10 * v + (d.toNat - 0x30)) un) (k + ds.length) rest := by
  induction ds generalizing un k with
  | nil => simp
  | cons c t ih =>
    have hc := hd c (by simp)
    have mono : ∀ (l : Bytes) (v : Nat), v ≤ l.foldl (fun v d => 10 * v + (d.toNat - 0x30)) v := by
      intro l
      induction l with
      | nil => intro v; simp
      | cons a l ih => intro v; simp only [List.foldl_cons]; exact Nat.le_trans (by omega) (ih _)
    simp only [List.foldl_cons] at hv ⊢
    have hle := Nat.le_trans (mono t _) hv
    have hs := numStep_ok (un := un) (d := c.toNat - 0x30) (by omega)
    simp only [List.cons_append, numLoop]
    rw [if_neg (by unfold IsDigit at hc; omega)]
    simp only [hs, if_true]
    rw [show un * 10 + (c.toNat - 0x30) = 10 * un + (c.toNat - 0x30) by omega]
    rw [ih _ _ (fun b hb => hd b (by simp [hb])) hv]
    congr 1; simp; omega

/-- **C05** (part proved): a non-empty digit string with optional separator and
sign is read up to its last digit, without error, whatever follows; and its
value is exact whenever it is at most 2^32-1.
Missing from the full property: numbers above 2^32-1 are not rejected, see
`decodeNumber_never_reports_range` and the witnesses below it. -/
theorem decodeNumber_exact_partial (sep : Bool) (sg : Sign) (ds rest : Bytes)
    (hne : ds ≠ []) (hd : ∀ b ∈ ds, IsDigit b) (hr : NoDigitHead rest) :
    let res := decodeNumber (sepText sep ++ sg.text ++ ds ++ rest)
    res.err = none ∧ res.n = (sepText sep ++ sg.text ++ ds).length ∧
      (digitsVal ds ≤ 2 ^ 32 - 1 → res.val = sg.apply (digitsVal ds)) := by
  have hnr : noDigit rest := by
    intro d h; have := hr d h; unfold IsDigit at this; omega
  obtain ⟨d, t, rfl⟩ := List.exists_cons_of_ne_nil hne
  have hd0 := hd d (by simp)
  unfold IsDigit at hd0
  have n1 : ¬ (d = 0x3B) := by rintro rfl; simp at hd0
  have n2 : ¬ (d = 0x2D ∨ d = 0x2B) := by rintro (rfl | rfl) <;> simp at hd0
  have hne' : d :: (t ++ rest) ≠ [] := by simp
  -- reduce to the digit loop
  have key : ∃ k, k = (sepText sep ++ sg.text).length ∧
      decodeNumber (sepText sep ++ sg.text ++ (d :: t) ++ rest) =
        numLoop (sg = .minus) 0 k ((d :: t) ++ rest) := by
    refine ⟨_, rfl, ?_⟩
    cases sep <;> cases sg <;>
      simp [sepText, Sign.text, decodeNumber, numSign, n1, n2]
  obtain ⟨k, hk, e⟩ := key
  simp only
  rw [e]
  obtain ⟨un, hu⟩ := numLoop_digits_count (sg = .minus) (d :: t) 0 k rest hd
  refine ⟨?_, ?_, ?_⟩
  · rw [hu, numLoop_stop _ _ _ _ hnr]
  · rw [hu, numLoop_stop _ _ _ _ hnr]; simp [hk]; omega
  · intro hv
    rw [numLoop_digits_val _ _ _ _ _ hd hv, numLoop_stop _ _ _ _ hnr]
    have h63 : digitsVal (d :: t) < 2 ^ 63 := by omega
    show (if _ then wrap64 (-toInt64 (digitsVal (d :: t))) else toInt64 (digitsVal (d :: t))) = _
    rw [toInt64_small h63, wrap64_small (by omega) (by omega)]
    cases sg <;> simp [Sign.apply]

/-- A concrete case: `";-0042m"` reads as -42, using six bytes. -/
example : decodeNumber [0x3B, 0x2D, 0x30, 0x30, 0x34, 0x32, 0x6D] = ⟨-42, 6, none⟩ := by
  decide

/-- **C05**: the only inputs rejected are those that end before any digit could
follow: empty, a lone separator, a lone sign, or both. -/
theorem decodeNumber_error_iff (p : Bytes) :
    (decodeNumber p).err ≠ none ↔
      ∃ (sep : Bool) (sg : Sign), p = sepText sep ++ sg.text := by
  have loop_ok : ∀ (neg : Bool) (un k : Nat) (l : Bytes), (numLoop neg un k l).err = none := by
    intro neg un k l
    induction l generalizing un k with
    | nil => rfl
    | cons c t ih =>
      have hcut : ¬ (numMaxVal ≥ numCutoff) := by decide
      have hcut' : ¬ (numMaxVal > numCutoff) := by decide
      simp only [numLoop]
      split
      · rfl
      · simp only [hcut, hcut', decide_false, Bool.and_false, Bool.false_eq_true, if_false, ite_self]
        exact ih _ _
  have sign_err : ∀ (k : Nat) (l : Bytes), (numSign k l).err ≠ none ↔ ∃ sg : Sign, l = sg.text := by
    intro k l
    constructor
    · intro h
      match l with
      | [] => exact ⟨.none, rfl⟩
      | c :: t =>
        simp only [numSign] at h
        split at h
        · rename_i hc
          split at h
          · rename_i ht; subst ht
            rcases hc with rfl | rfl
            · exact ⟨.minus, rfl⟩
            · exact ⟨.plus, rfl⟩
          · exact absurd (loop_ok _ _ _ _) h
        · exact absurd (loop_ok _ _ _ _) h
    · rintro ⟨sg, rfl⟩
      cases sg <;> simp [Sign.text, numSign]
  constructor
  · intro h
    match p with
    | [] => exact ⟨false, .none, rfl⟩
    | c :: t =>
      simp only [decodeNumber] at h
      split at h
      · rename_i hc; subst hc
        obtain ⟨sg, rfl⟩ := (sign_err _ _).mp h
        exact ⟨true, sg, rfl⟩
      · obtain ⟨sg, hsg⟩ := (sign_err _ _).mp h
        exact ⟨false, sg, by simpa [sepText] using hsg⟩
  · rintro ⟨sep, sg, rfl⟩
    cases sep <;> cases sg <;> simp [sepText, Sign.text, decodeNumber, numSign]

example : (decodeNumber [0x3B, 0x2D]).err = some .syntax := by decide
example : (decodeNumber [0x3B, 0x2D, 0x78]).err = none := by decide

/-- Negation of the range part of **C05**: no input whatsoever is rejected with
a range error, although `DecodeNumber` documents one. -/
theorem decodeNumber_never_reports_range (p : Bytes) : (decodeNumber p).err ≠ some .range := by
  intro h
  have := (decodeNumber_error_iff p).mp (by rw [h]; simp)
  obtain ⟨sep, sg, rfl⟩ := this
  revert h
  cases sep <;> cases sg <;> decide

/-- Witness: `"4294967296"` (2^32) is returned as 4294967290 without error. -/
theorem decodeNumber_overflow_witness :
    decodeNumber (itoaNat (2 ^ 32)) = ⟨4294967290, 10, none⟩ := by decide +kernel

/-- Witness: an unsigned digit string decodes to a negative number. -/
theorem decodeNumber_negative_witness :
    decodeNumber (itoaNat 9999999999999999999) = ⟨-8446744083709551616, 19, none⟩ := by
  decide +kernel

end Anansi
