import Verif.Props.Decoding
/-
Helper lemmas: the stream processor.
-/
set_option autoImplicit false

namespace Anansi

theorem decodeRune_width_le (p : Bytes) : (decodeRune p).2 ≤ p.length := by
  by_cases h : p = []
  · subst h; decide
  · exact (decodeRune_width p h).2.1

/-- What one iteration consumes. -/
theorem decodeEscape_progress (p : Bytes) (h : p ≠ []) :
    (decodeEscape p).buf.length = p.length ∧ (decodeEscape p).n ≤ p.length ∧
    ((decodeEscape p).e ≠ 0 → 1 ≤ (decodeEscape p).n) ∧
    1 ≤ (decodeEscape p).n + (decodeRune ((decodeEscape p).buf.drop (decodeEscape p).n)).2 := by
  obtain ⟨d, hd, h1, h2, h3⟩ := decodeEscape_bounds p h
  simp only [decodeEscape?, h, if_false, Option.some.injEq] at hd
  subst hd
  refine ⟨h1, h2, fun he => (h3 he).1, ?_⟩
  by_cases h0 : (decodeEscape p).n = 0
  · rw [h0, List.drop_zero]
    have : (decodeEscape p).buf ≠ [] := by
      intro hb; rw [hb] at h1; exact h (List.length_eq_zero_iff.mp h1.symm)
    have := decodeRune_width _ this; omega
  · omega

/-- One iteration of `Process` with the continuation `k` for the remaining bytes. -/
def processStep (k : Bytes → Processed) (p : Bytes) : Processed :=
  if p = [] then ⟨[], [], []⟩
  else
    let d := decodeEscape p
    let q := d.buf.drop d.n
    if d.e ≠ 0 then
      let r := k q
      ⟨(d.e, d.arg) :: r.events, d.buf.take d.n ++ r.done, r.rest⟩
    else
      let (c, m) := decodeRune q
      if c = 0x1B then ⟨[], d.buf.take d.n, q⟩
      else
        let r := k (q.drop m)
        ⟨(c, []) :: r.events, d.buf.take d.n ++ q.take m ++ r.done, r.rest⟩

theorem processAux_succ (fuel : Nat) (p : Bytes) :
    processAux (fuel + 1) p = processStep (processAux fuel) p := by
  rw [processAux]; rfl

theorem processStep_congr (k k' : Bytes → Processed) (p : Bytes)
    (h : ∀ q, q.length < p.length → k q = k' q) : processStep k p = processStep k' p := by
  unfold processStep
  split
  · rfl
  · rename_i hp
    obtain ⟨h1, h2, h3, h4⟩ := decodeEscape_progress p hp
    have hpos : 0 < p.length := List.length_pos_iff.mpr hp
    simp only
    split
    · rename_i he
      have := h3 he
      rw [h _ (by simp only [List.length_drop]; omega)]
    · split
      · rfl
      · have := decodeRune_width_le ((decodeEscape p).buf.drop (decodeEscape p).n)
        rw [h _ (by simp only [List.length_drop] at this ⊢; omega)]

/-- The fuel of `processAux` does not matter once it covers the bytes. -/
theorem processAux_fuel (p : Bytes) : ∀ f, p.length ≤ f → processAux f p = process p := by
  have key : ∀ n (p : Bytes), p.length = n → ∀ f, p.length ≤ f → processAux f p = processAux p.length p := by
    intro n
    induction n using Nat.strongRecOn with
    | _ n ih =>
      intro p hn f hf
      cases f with
      | zero => rw [show p.length = 0 by omega]
      | succ f =>
        by_cases hp : p = []
        · subst hp; rw [processAux_succ]; rfl
        · have hpos : 0 < p.length := List.length_pos_iff.mpr hp
          obtain ⟨m, hm⟩ : ∃ m, p.length = m + 1 := ⟨p.length - 1, by omega⟩
          rw [hm, processAux_succ, processAux_succ]
          apply processStep_congr
          intro q hq
          rw [ih q.length (by omega) q rfl f (by omega), ih q.length (by omega) q rfl m (by omega)]
  exact fun f hf => key _ p rfl f hf

/-- `Process` satisfies its loop equation without any bound on iterations. -/
theorem process_eq (p : Bytes) : process p = processStep process p := by
  by_cases hp : p = []
  · subst hp; rfl
  · have hpos : 0 < p.length := List.length_pos_iff.mpr hp
    obtain ⟨m, hm⟩ : ∃ m, p.length = m + 1 := ⟨p.length - 1, by omega⟩
    rw [process, hm, processAux_succ]
    apply processStep_congr
    intro q hq
    exact processAux_fuel q m (by omega)

theorem process_nil : process [] = ⟨[], [], []⟩ := rfl

/-- Induction principle over the iterations of `Process`. -/
theorem process_induct {P : Bytes → Processed → Prop}
    (hnil : P [] ⟨[], [], []⟩)
    (hesc : ∀ p, p ≠ [] → (decodeEscape p).e ≠ 0 →
      P ((decodeEscape p).buf.drop (decodeEscape p).n) (process ((decodeEscape p).buf.drop (decodeEscape p).n)) →
      P p ⟨((decodeEscape p).e, (decodeEscape p).arg) ::
        (process ((decodeEscape p).buf.drop (decodeEscape p).n)).events,
        (decodeEscape p).buf.take (decodeEscape p).n ++
          (process ((decodeEscape p).buf.drop (decodeEscape p).n)).done,
        (process ((decodeEscape p).buf.drop (decodeEscape p).n)).rest⟩)
    (hstop : ∀ p, p ≠ [] → (decodeEscape p).e = 0 →
      (decodeRune ((decodeEscape p).buf.drop (decodeEscape p).n)).1 = 0x1B →
      P p ⟨[], (decodeEscape p).buf.take (decodeEscape p).n, (decodeEscape p).buf.drop (decodeEscape p).n⟩)
    (hrune : ∀ p q m, p ≠ [] → (decodeEscape p).e = 0 →
      q = (decodeEscape p).buf.drop (decodeEscape p).n → m = (decodeRune q).2 →
      (decodeRune q).1 ≠ 0x1B → P (q.drop m) (process (q.drop m)) →
      P p ⟨((decodeRune q).1, []) :: (process (q.drop m)).events,
        (decodeEscape p).buf.take (decodeEscape p).n ++ q.take m ++ (process (q.drop m)).done,
        (process (q.drop m)).rest⟩)
    (p : Bytes) : P p (process p) := by
  have key : ∀ n (p : Bytes), p.length = n → P p (process p) := by
    intro n
    induction n using Nat.strongRecOn with
    | _ n ih =>
      intro p hn
      rw [process_eq]
      unfold processStep
      split
      · rename_i h; subst h; exact hnil
      · rename_i hp
        obtain ⟨h1, h2, h3, h4⟩ := decodeEscape_progress p hp
        have hpos : 0 < p.length := List.length_pos_iff.mpr hp
        simp only
        split
        · rename_i he
          have := h3 he
          exact hesc p hp he (ih _ (by simp only [List.length_drop]; omega) _ rfl)
        · rename_i he
          have he : (decodeEscape p).e = 0 := by simpa using he
          split
          · rename_i hc; exact hstop p hp he hc
          · rename_i hc
            have := decodeRune_width_le ((decodeEscape p).buf.drop (decodeEscape p).n)
            exact hrune p _ _ hp he rfl rfl hc
              (ih _ (by simp only [List.length_drop] at this ⊢; omega) _ rfl)
  exact key _ p rfl

/-- A complete escape at the front is one event. -/
theorem process_escape {p rest : Bytes} {e : Nat} {a : Bytes} (hp : p ≠ [])
    (h : decodeEscape (p ++ rest) = ⟨e, a, p.length, p ++ rest⟩) (he : e ≠ 0) :
    process (p ++ rest) =
      ⟨(e, a) :: (process rest).events, p ++ (process rest).done, (process rest).rest⟩ := by
  rw [process_eq]
  unfold processStep
  rw [if_neg (by simp [hp])]
  simp only [h, he, ne_eq, not_false_eq_true, if_true, List.drop_left, List.take_left]

/-- A rune that starts no escape is one event. -/
theorem process_rune (r : Nat) (hv : validRune r = true) (h1 : r ≠ 0x1B) (h2 : ¬ introducer r)
    (rest : Bytes) :
    process (encodeRune r ++ rest) =
      ⟨(r, []) :: (process rest).events, encodeRune r ++ (process rest).done, (process rest).rest⟩ := by
  have hd := decodeRune_encodeRune r hv rest
  have hne : encodeRune r ++ rest ≠ [] := by
    have := encodeRune_length_pos r
    intro h; rw [(List.append_eq_nil_iff.mp h).1] at this; simp at this
  have ha : ansiDecodeRune (encodeRune r ++ rest) = (r, (encodeRune r).length) :=
    ansiDecodeRune_not_esc hd h1
  have hhead : (encodeRune r ++ rest).head? ≠ some 0x1B := by
    intro h; rw [head_esc_decode h] at hd; simp at hd; exact h1 hd.1.symm
  have he : decodeEscape (encodeRune r ++ rest) = ⟨0, [], 0, encodeRune r ++ rest⟩ := by
    unfold introducer at h2
    unfold decodeEscape
    rw [ha]
    simp only
    rw [if_neg h1, if_neg (by omega), if_neg (by omega)]
    unfold decodeEscapeNone; rw [if_neg hhead]
  rw [process_eq]
  unfold processStep
  rw [if_neg hne]
  simp only [he, ne_eq, not_true_eq_false, if_false, List.drop_zero, hd, h1, List.take_zero,
    List.nil_append, List.drop_left, List.take_left]

end Anansi
