import Verif.Lemmas.DecodeEsc
/-
Helper lemmas: bounds of every branch of `DecodeEscape`.
-/
set_option autoImplicit false

namespace Anansi

theorem ansiDecodeRune_cases (p : Bytes) :
    (∃ b t, p = 0x1B :: b :: t ∧ 0x40 ≤ b.toNat ∧ b.toNat ≤ 0x5F ∧
      ansiDecodeRune p = (0x80 + b.toNat % 32, 2)) ∨
    (ansiDecodeRune p = decodeRune p ∧
      ∀ b t, p = 0x1B :: b :: t → ¬ (0x40 ≤ b.toNat ∧ b.toNat ≤ 0x5F)) := by
  by_cases h : ∃ b t, p = 0x1B :: b :: t ∧ 0x40 ≤ b.toNat ∧ b.toNat ≤ 0x5F
  · obtain ⟨b, t, rfl, h1, h2⟩ := h
    exact Or.inl ⟨b, t, rfl, h1, h2, ansiDecodeRune_esc_c1 b t ⟨h1, h2⟩⟩
  · right
    refine ⟨?_, fun b t hp hc => h ⟨b, t, hp, hc.1, hc.2⟩⟩
    by_cases h1 : (decodeRune p).1 = 0x1B
    · have hx := decodeRune_lt_ascii' p (by omega)
      unfold ansiDecodeRune
      simp only [h1, if_true]
      rw [if_neg]
      · rw [← h1]
      · rintro ⟨h2, h3⟩
        have hy := decodeRune_lt_ascii' (p.drop (decodeRune p).2) (by omega)
        apply h
        refine ⟨UInt8.ofNat (decodeRune (p.drop (decodeRune p).2)).1, (p.drop (decodeRune p).2).drop 1,
          ?_, ?_, ?_⟩
        · rw [← hy.2, hx.1]
          conv => lhs; rw [hx.2, h1]
          rfl
        · rw [u8_ofNat_toNat (by omega)]; omega
        · rw [u8_ofNat_toNat (by omega)]; omega
    · unfold ansiDecodeRune; simp only [h1, if_false]

theorem ansiDecodeRune_width (p : Bytes) (h : p ≠ []) :
    1 ≤ (ansiDecodeRune p).2 ∧ (ansiDecodeRune p).2 ≤ p.length := by
  rcases ansiDecodeRune_cases p with ⟨b, t, rfl, _, _, e⟩ | ⟨e, _⟩
  · rw [e]; simp
  · rw [e]; have := decodeRune_width p h; omega

theorem csiScan_bounds (inter : Bool) (ai : Option Nat) (ni : Nat) (p : Bytes)
    {ai' : Option Nat} {ni' : Nat} {c : UInt8} (h : csiScan inter ai ni p = some (ai', ni', c)) :
    ni ≤ ni' ∧ ni' < ni + p.length ∧ 0x40 ≤ c.toNat ∧ c.toNat ≤ 0x7E := by
  induction p generalizing inter ai ni with
  | nil => simp [csiScan] at h
  | cons b t ih =>
    simp only [csiScan] at h
    split at h
    · have := ih _ _ _ h; simp; omega
    · split at h
      · rename_i hc
        simp at h hc
        obtain ⟨_, rfl, rfl⟩ := h
        simp; omega
      · split at h
        · have := ih _ _ _ h; simp; omega
        · have := ih _ _ _ h; simp; omega

theorem decodeCSI_bounds {p : Bytes} {e : Nat} {a : Bytes} {n : Nat}
    (h : decodeCSI p = some (e, a, n)) :
    0xEFC0 ≤ e ∧ e ≤ 0xEFFE ∧ 1 ≤ n ∧ n ≤ p.length ∧ a <:+: p.take n := by
  unfold decodeCSI at h
  split at h
  · simp at h
  · rename_i ai ni c hs
    have hb := csiScan_bounds _ _ _ _ hs
    simp only [Option.some.injEq, Prod.mk.injEq] at h
    obtain ⟨rfl, rfl, rfl⟩ := h
    unfold csiId
    refine ⟨by omega, by omega, by omega, by omega, ?_⟩
    split
    · exact List.nil_infix
    · rename_i i
      rw [← List.drop_take]
      exact (List.drop_suffix _ _).isInfix.trans (List.take_prefix_take_left (by omega)).isInfix

theorem decodeStringFrom_bounds (p : Bytes) (fuel n : Nat) {a : Bytes} {k : Nat}
    (h : decodeStringFrom p fuel n = some (a, k)) : n < k ∧ k ≤ p.length ∧ a <+: p.take k := by
  induction fuel generalizing n with
  | zero => simp [decodeStringFrom] at h
  | succ fuel ih =>
    simp only [decodeStringFrom] at h
    have hne : (ansiDecodeRune (p.drop n)).1 ≠ runeError → p.drop n ≠ [] := by
      intro h1 h2; rw [h2] at h1; exact h1 (by decide)
    split at h
    · simp at h
    · rename_i h1
      have hw := ansiDecodeRune_width _ (hne h1)
      rw [List.length_drop] at hw
      split at h
      · simp at h; obtain ⟨rfl, rfl⟩ := h
        exact ⟨by omega, by omega, List.take_prefix_take_left (by omega)⟩
      · have := ih _ h; exact ⟨by omega, this.2.1, this.2.2⟩

theorem decodeString_bounds {p a : Bytes} {n : Nat} (h : decodeString p = some (a, n)) :
    1 ≤ n ∧ n ≤ p.length ∧ a <:+: p.take n := by
  have := decodeStringFrom_bounds p _ _ h
  exact ⟨by omega, this.2.1, this.2.2.isInfix⟩

theorem drop_take_infix (p : Bytes) (m n : Nat) : (p.drop m).take n <:+: p.take (m + n) := by
  have : (p.drop m).take n = (p.take (m + n)).drop m := by
    rw [List.drop_take]; congr 1; omega
  rw [this]; exact (List.drop_suffix _ _).isInfix

/-- The runes at which `DecodeEscape` starts looking for a longer sequence. -/
def introducer (r : Nat) : Prop := r = 0x9B ∨ r = 0x90 ∨ r = 0x9D ∨ r = 0x9E ∨ r = 0x9F
instance (r : Nat) : Decidable (introducer r) := by unfold introducer; infer_instance

/-- Non-ESC branches of `DecodeEscape`. -/
theorem decodeEscape_cases (p : Bytes) :
    ((ansiDecodeRune p).1 = 0x1B ∧ decodeEscape p = decodeESC p) ∨
    (introducer (ansiDecodeRune p).1 ∧ ∃ e a n, e ≠ 0 ∧ 1 ≤ n ∧ n ≤ (p.drop (ansiDecodeRune p).2).length ∧
      a <:+: p.take ((ansiDecodeRune p).2 + n) ∧ decodeEscape p = ⟨e, a, (ansiDecodeRune p).2 + n, p⟩) ∨
    ((ansiDecodeRune p).1 ≠ 0x1B ∧ decodeEscape p = decodeEscapeNone p (ansiDecodeRune p).1 (ansiDecodeRune p).2) := by
  unfold decodeEscape
  simp only
  generalize (ansiDecodeRune p).1 = r
  generalize (ansiDecodeRune p).2 = m
  split
  · left; exact ⟨by assumption, rfl⟩
  · rename_i hr
    right
    split
    · rename_i h9
      split
      · rename_i e a n hc
        have hb := decodeCSI_bounds hc
        left; exact ⟨Or.inl h9, e, a, n, by omega, hb.2.2.1, hb.2.2.2.1,
          hb.2.2.2.2.trans (drop_take_infix p m n), rfl⟩
      · right; exact ⟨hr, rfl⟩
    · split
      · rename_i h9
        split
        · rename_i a n hc
          have hb := decodeString_bounds hc
          left; exact ⟨Or.inr h9, r, a, n, by omega, hb.1, hb.2.1,
            hb.2.2.trans (drop_take_infix p m n), rfl⟩
        · right; exact ⟨hr, rfl⟩
      · right; exact ⟨hr, rfl⟩

theorem decodeRune_esc_head {p : Bytes} (h : (decodeRune p).1 = 0x1B) :
    p = 0x1B :: p.drop 1 ∧ (decodeRune p).2 = 1 := by
  have hx := decodeRune_lt_ascii' p (by omega)
  rw [h] at hx
  exact ⟨hx.2, hx.1⟩

theorem ansiDecodeRune_esc_head {p : Bytes} (h : (ansiDecodeRune p).1 = 0x1B) :
    p = 0x1B :: p.drop 1 := by
  rcases ansiDecodeRune_cases p with ⟨b, t, rfl, _, _, e⟩ | ⟨e, _⟩
  · rw [e] at h; have : 0x80 + b.toNat % 32 = 0x1B := h; omega
  · rw [e] at h; exact (decodeRune_esc_head h).1

theorem head_esc_decode {p : Bytes} (h : p.head? = some 0x1B) : decodeRune p = (0x1B, 1) := by
  cases p with
  | nil => simp at h
  | cons b t => simp at h; subst h; exact decodeRune_ascii _ _ (by decide)

/-- A buffer with an introducer that is neither ESC nor C1: pending is unchanged. -/
theorem decodeEscapeNone_cases (p : Bytes) (hr : (ansiDecodeRune p).1 ≠ 0x1B) :
    (p.head? ≠ some 0x1B ∧ decodeEscapeNone p (ansiDecodeRune p).1 (ansiDecodeRune p).2 = ⟨0, [], 0, p⟩) ∨
    (∃ b t, p = 0x1B :: b :: t ∧ 0x40 ≤ b.toNat ∧ b.toNat ≤ 0x5F ∧
      decodeEscapeNone p (ansiDecodeRune p).1 (ansiDecodeRune p).2 =
        ⟨0, [], 0, encodeRune (0x80 + b.toNat % 32) ++ t⟩) := by
  by_cases h : p.head? = some 0x1B
  · right
    rcases ansiDecodeRune_cases p with ⟨b, t, rfl, h1, h2, e⟩ | ⟨e, _⟩
    · refine ⟨b, t, rfl, h1, h2, ?_⟩
      unfold decodeEscapeNone
      rw [e, if_pos h]; simp
    · rw [e, head_esc_decode h] at hr; exact absurd rfl hr
  · left
    exact ⟨h, by unfold decodeEscapeNone; rw [if_neg h]⟩

end Anansi
