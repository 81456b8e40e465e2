import Verif.Model.Process
import Verif.Spec.Stream
import Verif.Lemmas.Decode
/-
Helper lemmas: what `decodeESC` does with an arbitrary buffer.
-/
set_option autoImplicit false

namespace Anansi

theorem Shuffle.appendLeft {α : Type} {a b c : List α} (x : List α) (h : Shuffle a b c) :
    Shuffle (x ++ a) b (x ++ c) := by
  induction x with
  | nil => exact h
  | cons y ys ih => exact .left ih

theorem Shuffle.appendRight {α : Type} {a b c : List α} (x : List α) (h : Shuffle a b c) :
    Shuffle a (x ++ b) (x ++ c) := by
  induction x with
  | nil => exact h
  | cons y ys ih => exact .right ih

theorem Shuffle.perm {α : Type} {a b c : List α} (h : Shuffle a b c) : List.Perm (a ++ b) c := by
  induction h with
  | nil => exact .nil
  | left _ ih => exact ih.cons _
  | right _ ih => exact (List.perm_middle).trans (ih.cons _)

theorem Shuffle.length {α : Type} {a b c : List α} (h : Shuffle a b c) :
    a.length + b.length = c.length := by
  rw [← h.perm.length_eq, List.length_append]

theorem Shuffle.trans_left {α : Type} {a b c : List α} (h : Shuffle a b c) :
    ∀ (a' b' : List α), Shuffle a' b' [] → Shuffle (a ++ a') (b ++ b') c := by
  intro a' b' h'
  cases h'
  simpa using h

/-- Shuffles concatenate. -/
theorem Shuffle.append {α : Type} {a b c a' b' c' : List α} (h : Shuffle a b c)
    (h' : Shuffle a' b' c') : Shuffle (a ++ a') (b ++ b') (c ++ c') := by
  induction h with
  | nil => exact h'
  | left _ ih => exact .left ih
  | right _ ih => exact .right ih

/-- Classes of runes inside an escape sequence. -/
def intermRune (r : Nat) : Prop := r ≤ 0xFF ∧ 0x20 ≤ r % 128 ∧ r % 128 ≤ 0x2F
def delRune (r : Nat) : Prop := r ≤ 0xFF ∧ r % 128 = 0x7F

instance (r : Nat) : Decidable (intermRune r) := by unfold intermRune; infer_instance
instance (r : Nat) : Decidable (delRune r) := by unfold delRune; infer_instance

/-- The last iteration of `decodeESC`'s loop. -/
def escFinish (pre mid rest : Bytes) : EscRes :=
  let r0 := (decodeRune rest).1
  let m := (decodeRune rest).2
  let buf := pre ++ mid ++ rest
  let shifted := pre ++ rest.take m ++ mid ++ rest.drop m
  if r0 = runeError then ⟨0, [], pre.length, buf⟩
  else if r0 > 0xFF then ⟨0, [], pre.length, shifted⟩
  else
    let r := r0 % 128
    let n := pre.length + mid.length + m
    if 0x30 ≤ r ∧ r ≤ 0x7E then
      match mid.tail with
      | [] => ⟨0xEF00 + r, [], n, buf⟩
      | [b] =>
        if 0x20 ≤ b.toNat ∧ b.toNat ≤ 0x2F then ⟨escId b, rest.take m, n, buf⟩
        else ⟨0xEF00 + r, [b], n, buf⟩
      | bs => ⟨0xEF00 + r, bs, n, buf⟩
    else if r = 0x18 then ⟨0, [], n, buf⟩
    else ⟨0, [], pre.length, shifted⟩

theorem interm_ne_err {r : Nat} (h : intermRune r) : r ≠ runeError := by
  have := h.1; simp only [runeError]; omega
theorem del_ne_err {r : Nat} (h : delRune r) : r ≠ runeError := by
  have := h.1; simp only [runeError]; omega

theorem decodeESCLoop_interm_step (fuel : Nat) (pre mid rest : Bytes)
    (h : intermRune (decodeRune rest).1) :
    decodeESCLoop (fuel + 1) pre mid rest =
      decodeESCLoop fuel pre (mid ++ rest.take (decodeRune rest).2) (rest.drop (decodeRune rest).2) := by
  have h0 := interm_ne_err h
  obtain ⟨h1, h2, h3⟩ := h
  simp only [decodeESCLoop]
  rw [if_neg h0, if_neg (by omega), if_neg (by omega), if_pos ⟨h2, h3⟩]

theorem decodeESCLoop_del_step (fuel : Nat) (pre mid rest : Bytes)
    (h : delRune (decodeRune rest).1) :
    decodeESCLoop (fuel + 1) pre mid rest =
      decodeESCLoop fuel (pre ++ rest.take (decodeRune rest).2) mid (rest.drop (decodeRune rest).2) := by
  have h0 := del_ne_err h
  obtain ⟨h1, h2⟩ := h
  simp only [decodeESCLoop]
  rw [if_neg h0, if_neg (by omega), if_neg (by omega), if_neg (by omega), if_pos h2]

theorem decodeESCLoop_finish_step (fuel : Nat) (pre mid rest : Bytes)
    (h1 : ¬ intermRune (decodeRune rest).1) (h2 : ¬ delRune (decodeRune rest).1) :
    decodeESCLoop (fuel + 1) pre mid rest = escFinish pre mid rest := by
  unfold intermRune at h1; unfold delRune at h2
  simp only [decodeESCLoop, escFinish]
  split
  · rfl
  · split
    · rfl
    · split
      · rfl
      · rw [if_neg (by omega), if_neg (by omega)]

/-- A byte string made of runes of a class. -/
inductive RunesOf (c : Nat → Prop) : Bytes → Prop
  | nil : RunesOf c []
  | cons {r : Nat} {t : Bytes} : validRune r = true → c r → RunesOf c t →
      RunesOf c (encodeRune r ++ t)

/-- `decodeESC` scans intermediates and deletes, then finishes. -/
theorem decodeESCLoop_scan (fuel : Nat) (pre mid rest : Bytes) (hf : rest.length < fuel) :
    ∃ d i x t, rest = x ++ t ∧ Shuffle d i x ∧ RunesOf delRune d ∧ RunesOf intermRune i ∧
      ¬ intermRune (decodeRune t).1 ∧ ¬ delRune (decodeRune t).1 ∧
      decodeESCLoop fuel pre mid rest = escFinish (pre ++ d) (mid ++ i) t := by
  induction fuel generalizing pre mid rest with
  | zero => omega
  | succ fuel ih =>
    by_cases hi : intermRune (decodeRune rest).1
    · have hx := decodeRune_exact' rest (interm_ne_err hi)
      rw [decodeESCLoop_interm_step _ _ _ _ hi]
      have hl := encodeRune_length_pos (decodeRune rest).1
      have hlen := congrArg List.length hx.2.2.1
      obtain ⟨d, i, x, t, h1, h2, h3, h4, h5, h6, h7⟩ := ih pre (mid ++ rest.take (decodeRune rest).2)
        (rest.drop (decodeRune rest).2) (by simp only [List.length_append] at hlen; omega)
      refine ⟨d, rest.take (decodeRune rest).2 ++ i, rest.take (decodeRune rest).2 ++ x, t, ?_, ?_, h3, ?_, h5, h6, ?_⟩
      · rw [List.append_assoc, ← h1, List.take_append_drop]
      · exact h2.appendRight _
      · rw [hx.2.2.2]; exact .cons hx.1 hi h4
      · rw [h7, List.append_assoc]
    · by_cases hd : delRune (decodeRune rest).1
      · have hx := decodeRune_exact' rest (del_ne_err hd)
        rw [decodeESCLoop_del_step _ _ _ _ hd]
        have hl := encodeRune_length_pos (decodeRune rest).1
        have hlen := congrArg List.length hx.2.2.1
        obtain ⟨d, i, x, t, h1, h2, h3, h4, h5, h6, h7⟩ := ih (pre ++ rest.take (decodeRune rest).2) mid
          (rest.drop (decodeRune rest).2) (by simp only [List.length_append] at hlen; omega)
        refine ⟨rest.take (decodeRune rest).2 ++ d, i, rest.take (decodeRune rest).2 ++ x, t, ?_, ?_, ?_, h4, h5, h6, ?_⟩
        · rw [List.append_assoc, ← h1, List.take_append_drop]
        · exact h2.appendLeft _
        · rw [hx.2.2.2]; exact .cons hx.1 hd h3
        · rw [h7, List.append_assoc]
      · exact ⟨[], [], [], rest, rfl, .nil, .nil, .nil, hi, hd, by
          rw [decodeESCLoop_finish_step _ _ _ _ hi hd]; simp⟩

/-- `decodeESC` on any buffer that starts with ESC. -/
theorem decodeESC_scan (p : Bytes) :
    ∃ d i x t, p = x ++ t ∧ Shuffle d i x ∧ RunesOf delRune d ∧ RunesOf intermRune i ∧
      ¬ intermRune (decodeRune t).1 ∧ ¬ delRune (decodeRune t).1 ∧
      decodeESC (0x1B :: p) = escFinish d (0x1B :: i) t := by
  obtain ⟨d, i, x, t, h1, h2, h3, h4, h5, h6, h7⟩ :=
    decodeESCLoop_scan ((0x1B :: p).length + 1) [] [0x1B] p (by simp; omega)
  exact ⟨d, i, x, t, h1, h2, h3, h4, h5, h6, by unfold decodeESC; simpa using h7⟩

/-- Case split on a finishing step. -/
theorem escFinish_cases (d i t : Bytes) :
    ((decodeRune t).1 = runeError ∧
      escFinish d (0x1B :: i) t = ⟨0, [], d.length, d ++ 0x1B :: i ++ t⟩) ∨
    (∃ r u, validRune r = true ∧ t = encodeRune r ++ u ∧ r ≠ runeError ∧
      ((r > 0xFF ∨ r % 128 < 0x20 ∧ r % 128 ≠ 0x18) ∨ intermRune r ∨ delRune r) ∧
      escFinish d (0x1B :: i) t = ⟨0, [], d.length, d ++ encodeRune r ++ 0x1B :: i ++ u⟩) ∨
    (∃ r u, validRune r = true ∧ t = encodeRune r ++ u ∧ r ≤ 0xFF ∧ r % 128 = 0x18 ∧
      escFinish d (0x1B :: i) t =
        ⟨0, [], (d ++ 0x1B :: i ++ encodeRune r).length, d ++ 0x1B :: i ++ encodeRune r ++ u⟩) ∨
    (∃ r u e a, validRune r = true ∧ t = encodeRune r ++ u ∧ r ≤ 0xFF ∧ 0x30 ≤ r % 128 ∧ r % 128 ≤ 0x7E ∧
      0xEF00 ≤ e ∧ e ≤ 0xEF7E ∧ a <:+: i ++ encodeRune r ∧
      escFinish d (0x1B :: i) t =
        ⟨e, a, (d ++ 0x1B :: i ++ encodeRune r).length, d ++ 0x1B :: i ++ encodeRune r ++ u⟩) := by
  by_cases he : (decodeRune t).1 = runeError
  · left; refine ⟨he, ?_⟩
    simp only [escFinish]; rw [if_pos he]
  · right
    have hx := decodeRune_exact' t he
    generalize hr : (decodeRune t).1 = r at *
    generalize hm : (decodeRune t).2 = m at *
    obtain ⟨hv, hm', ht, htk⟩ := hx
    have hbuf : d ++ 0x1B :: i ++ t = d ++ 0x1B :: i ++ encodeRune r ++ t.drop m := by
      conv => lhs; rw [ht]
      simp
    have hn : d.length + (0x1B :: i).length + m = (d ++ 0x1B :: i ++ encodeRune r).length := by
      simp [hm']; omega
    by_cases hb : r > 0xFF
    · left; refine ⟨r, t.drop m, hv, ht, he, Or.inl (Or.inl hb), ?_⟩
      simp only [escFinish, hr, hm]; rw [if_neg he, if_pos hb, htk]
    · by_cases hf : 0x30 ≤ r % 128 ∧ r % 128 ≤ 0x7E
      · right; right
        have : ∃ e a, 0xEF00 ≤ e ∧ e ≤ 0xEF7E ∧ a <:+: i ++ encodeRune r ∧ escFinish d (0x1B :: i) t =
            ⟨e, a, (d ++ 0x1B :: i ++ encodeRune r).length, d ++ 0x1B :: i ++ encodeRune r ++ t.drop m⟩ := by
          simp only [escFinish, hr, hm]
          rw [if_neg he, if_neg hb, if_pos hf, hbuf, hn]
          rw [htk]
          have hmid : (0x1B :: i).tail = i := rfl
          rw [hmid]
          split
          · exact ⟨_, _, by omega, by omega, List.nil_infix, rfl⟩
          · split
            · rename_i b _ hb
              exact ⟨_, _, by unfold escId; omega, by unfold escId; omega,
                (List.suffix_append _ _).isInfix, rfl⟩
            · exact ⟨_, _, by omega, by omega, (List.prefix_append _ _).isInfix, rfl⟩
          · exact ⟨_, _, by omega, by omega, (List.prefix_append _ _).isInfix, rfl⟩
        obtain ⟨e, a, h1, h1', h1'', h2⟩ := this
        exact ⟨r, t.drop m, e, a, hv, ht, by omega, hf.1, hf.2, h1, h1', h1'', h2⟩
      · by_cases hc : r % 128 = 0x18
        · right; left
          refine ⟨r, t.drop m, hv, ht, by omega, hc, ?_⟩
          simp only [escFinish, hr, hm]
          rw [if_neg he, if_neg hb, if_neg hf, if_pos hc, hbuf, hn]
        · left
          refine ⟨r, t.drop m, hv, ht, he, ?_, ?_⟩
          · unfold intermRune delRune; omega
          · simp only [escFinish, hr, hm]
            rw [if_neg he, if_neg hb, if_neg hf, if_neg hc, htk]

end Anansi
