import Verif.Model.Input
import Verif.Spec.Input
import Verif.Lemmas.Process
import Verif.Props.Stream
import Mathlib.Data.List.Induction
import Mathlib.Tactic.Tauto
/-
C43 Input decoding does not depend on read boundaries.
-/
set_option autoImplicit false

namespace Anansi

/-! ### Control strings -/

/-- A cut encoding is no rune. -/
theorem decodeRune_cut (r : Nat) (hv : validRune r = true) (q : Bytes) (h : q <+: encodeRune r)
    (hne : q ≠ encodeRune r) : (decodeRune q).1 = runeError := by
  obtain ⟨z, hz⟩ := h
  rcases decodeRune_cases q with ⟨_, e⟩ | ⟨_, e⟩ | ⟨r', rest, hv', hq, _⟩
  · rw [e]
  · rw [e]
  · exfalso
    have h1 := decodeRune_encodeRune r hv []
    have h2 := decodeRune_encodeRune r' hv' (rest ++ z)
    rw [List.append_nil] at h1
    have h1' : decodeRune (encodeRune r' ++ (rest ++ z)) = (r, (encodeRune r).length) := by
      rw [← h1, ← hz, hq, List.append_assoc]
    rw [h2] at h1'
    have hl : (encodeRune r').length = (encodeRune r).length := (Prod.mk.inj h1').2
    have hl2 := congrArg List.length hz
    have hl3 := congrArg List.length hq
    simp only [List.length_append] at hl2 hl3
    apply hne
    have : z = [] := List.length_eq_zero_iff.mp (by omega)
    rw [← hz, this, List.append_nil]

theorem decodeStringFrom_rune (p pre q : Bytes) (r fuel : Nat) (hv : validRune r = true) (h1 : r ≠ 0xFFFD)
    (h2 : r ≠ 0x1B) (h3 : r ≠ 0x9C) (hp : p = pre ++ (encodeRune r ++ q)) :
    decodeStringFrom p (fuel + 1) pre.length = decodeStringFrom p fuel (pre.length + (encodeRune r).length) := by
  subst hp
  have ha : ansiDecodeRune (encodeRune r ++ q) = (r, (encodeRune r).length) :=
    ansiDecodeRune_not_esc (decodeRune_encodeRune r hv q) h2
  rw [decodeStringFrom]
  simp only [List.drop_left, ha]
  rw [if_neg (by unfold runeError; exact h1), if_neg h3]

theorem st_decodes (st1 : Bool) (q : Bytes) : ansiDecodeRune (c1Bytes st1 0x9C ++ q) = (0x9C, 2) := by
  cases st1
  · have := ansiDecodeRune_esc_c1 0x5C q (by decide)
    exact this
  · have : ansiDecodeRune (encodeRune 0x9C ++ q) = (0x9C, (encodeRune 0x9C).length) :=
      ansiDecodeRune_not_esc (decodeRune_encodeRune 0x9C (by decide) q) (by decide)
    exact this

def bodyRune (c : Nat) : Prop := validRune c = true ∧ c ≠ 0xFFFD ∧ c ≠ 0x1B ∧ c ≠ 0x9C

theorem decodeStringFrom_body (st1 : Bool) (rest : Bytes) (rs : List Nat) (h : ∀ c ∈ rs, bodyRune c) :
    ∀ (p pre : Bytes) (fuel : Nat), rs.length < fuel →
      p = pre ++ (encodeRunes rs ++ (c1Bytes st1 0x9C ++ rest)) →
      decodeStringFrom p fuel pre.length =
        some (pre ++ encodeRunes rs, (pre ++ encodeRunes rs).length + 2) := by
  induction rs with
  | nil =>
    intro p pre fuel hf hp
    subst hp
    obtain ⟨f, rfl⟩ : ∃ f, fuel = f + 1 := ⟨fuel - 1, by omega⟩
    rw [decodeStringFrom]
    simp only [List.drop_left]
    have : encodeRunes [] = ([] : Bytes) := rfl
    simp only [this, List.nil_append, List.append_nil, st_decodes]
    rw [if_neg (by decide), if_pos trivial, List.take_left]
  | cons r t ih =>
    intro p pre fuel hf hp
    obtain ⟨f, rfl⟩ : ∃ f, fuel = f + 1 := ⟨fuel - 1, by simp at hf; omega⟩
    obtain ⟨h1, h2, h3, h4⟩ := h r (by simp)
    have he : encodeRunes (r :: t) = encodeRune r ++ encodeRunes t := rfl
    rw [decodeStringFrom_rune p pre (encodeRunes t ++ (c1Bytes st1 0x9C ++ rest)) r f h1 h2 h3 h4
      (by rw [hp, he]; simp)]
    have := ih (fun c hc => h c (by simp [hc])) p (pre ++ encodeRune r) f (by simp at hf; omega)
      (by rw [hp, he]; simp)
    rw [List.length_append] at this
    rw [this, he]; simp

theorem encodeRunes_length (rs : List Nat) : rs.length ≤ (encodeRunes rs).length := by
  induction rs with
  | nil => simp
  | cons r t ih =>
    have he : encodeRunes (r :: t) = encodeRune r ++ encodeRunes t := rfl
    have := encodeRune_length_pos r
    rw [he]; simp; omega

theorem decodeString_body (st1 : Bool) (rest : Bytes) (rs : List Nat) (h : ∀ c ∈ rs, bodyRune c) :
    decodeString (encodeRunes rs ++ (c1Bytes st1 0x9C ++ rest)) =
      some (encodeRunes rs, (encodeRunes rs).length + 2) := by
  unfold decodeString
  have hl := encodeRunes_length rs
  have := decodeStringFrom_body st1 rest rs h (encodeRunes rs ++ (c1Bytes st1 0x9C ++ rest)) []
    ((encodeRunes rs ++ (c1Bytes st1 0x9C ++ rest)).length + 1) (by simp; omega) rfl
  simpa using this

theorem prefix_append_cases {a b q : Bytes} (h : q <+: a ++ b) :
    (∃ q', q = a ++ q' ∧ q' <+: b) ∨ (q <+: a ∧ q ≠ a) := by
  by_cases hq : a <+: q
  · obtain ⟨q', rfl⟩ := hq
    exact Or.inl ⟨q', rfl, (List.prefix_append_right_inj a).mp h⟩
  · rcases List.prefix_or_prefix_of_prefix h (List.prefix_append a b) with h1 | h1
    · refine Or.inr ⟨h1, ?_⟩
      rintro rfl; exact hq (List.prefix_refl _)
    · exact absurd h1 hq

theorem decodeStringFrom_cut (st1 : Bool) (rs : List Nat) (h : ∀ c ∈ rs, bodyRune c) :
    ∀ (p pre q : Bytes) (fuel : Nat), q.length + 1 ≤ fuel → p = pre ++ q →
      q <+: encodeRunes rs ++ c1Bytes st1 0x9C → q ≠ encodeRunes rs ++ c1Bytes st1 0x9C →
      decodeStringFrom p fuel pre.length = none := by
  have hstop : ∀ (p pre q : Bytes) (fuel : Nat), p = pre ++ q → (decodeRune q).1 = runeError →
      decodeStringFrom p fuel pre.length = none := by
    intro p pre q fuel hp hq
    subst hp
    cases fuel with
    | zero => rfl
    | succ f =>
      have : (ansiDecodeRune q).1 = runeError := by
        rw [ansiDecodeRune_not_esc (r := (decodeRune q).1) (m := (decodeRune q).2) rfl
          (by rw [hq]; decide)]
        exact hq
      rw [decodeStringFrom]
      simp only [List.drop_left]
      rw [if_pos this]
  induction rs with
  | nil =>
    intro p pre q fuel hf hp hq hne
    have he : encodeRunes [] = ([] : Bytes) := rfl
    rw [he, List.nil_append] at hq hne
    cases st1
    · change q <+: [0x1B, 0x5C] at hq
      change q ≠ [0x1B, 0x5C] at hne
      have hcase : q = [] ∨ q = [0x1B] := by
        cases q with
        | nil => exact Or.inl rfl
        | cons a q =>
          rw [List.cons_prefix_cons] at hq
          obtain ⟨rfl, hq⟩ := hq
          cases q with
          | nil => exact Or.inr rfl
          | cons b q =>
            rw [List.cons_prefix_cons] at hq
            obtain ⟨rfl, hq⟩ := hq
            rw [List.prefix_nil] at hq
            subst hq
            exact absurd rfl hne
      rcases hcase with rfl | rfl
      · exact hstop p pre [] fuel hp rfl
      · obtain ⟨f, rfl⟩ : ∃ f, fuel = f + 1 := ⟨fuel - 1, by simp at hf; omega⟩
        subst hp
        rw [decodeStringFrom]
        simp only [List.drop_left]
        rw [show ansiDecodeRune [0x1B] = (0x1B, 1) from rfl]
        simp only
        rw [if_neg (by decide), if_neg (by decide)]
        have := hstop (pre ++ [0x1B]) (pre ++ [0x1B]) [] f (by simp) rfl
        rw [List.length_append] at this
        exact this
    · exact hstop p pre q fuel hp (decodeRune_cut 0x9C (by decide) q hq hne)
  | cons r t ih =>
    intro p pre q fuel hf hp hq hne
    obtain ⟨h1, h2, h3, h4⟩ := h r (by simp)
    have he : encodeRunes (r :: t) = encodeRune r ++ encodeRunes t := rfl
    rw [he, List.append_assoc] at hq hne
    rcases prefix_append_cases hq with ⟨q', rfl, hq'⟩ | ⟨hq', hne'⟩
    · have hpos := encodeRune_length_pos r
      obtain ⟨f, rfl⟩ : ∃ f, fuel = f + 1 := ⟨fuel - 1, by omega⟩
      rw [decodeStringFrom_rune p pre q' r f h1 h2 h3 h4 hp]
      have := ih (fun c hc => h c (by simp [hc])) p (pre ++ encodeRune r) q' f
        (by simp at hf; omega) (by rw [hp]; simp) hq' (fun hx => hne (by rw [hx]))
      rw [List.length_append] at this
      exact this
    · exact hstop p pre q fuel hp (decodeRune_cut r h1 q hq' hne')

theorem decodeString_cut (st1 : Bool) (rs : List Nat) (h : ∀ c ∈ rs, bodyRune c) (q : Bytes)
    (hq : q <+: encodeRunes rs ++ c1Bytes st1 0x9C) (hne : q ≠ encodeRunes rs ++ c1Bytes st1 0x9C) :
    decodeString q = none :=
  decodeStringFrom_cut st1 rs h q [] q (q.length + 1) (by omega) rfl hq hne

/-! ### Control sequences -/

theorem csiScan_cut (a : Bytes) (h : ∀ b ∈ a, 0x20 ≤ b.toNat ∧ b.toNat ≤ 0x3F) :
    ∀ (inter : Bool) (ai : Option Nat) (ni : Nat), csiScan inter ai ni a = none := by
  induction a with
  | nil => intros; rfl
  | cons c t ih =>
    intro inter ai ni
    have hc := h c (by simp)
    have ih := ih (fun b hb => h b (by simp [hb]))
    simp only [csiScan]
    split
    · exact ih _ _ _
    · rw [if_neg (by simp; omega)]
      split
      · exact ih _ _ _
      · exact ih _ _ _

theorem decodeCSI_cut (arg : Bytes) (f : UInt8) (h : ∀ b ∈ arg, 0x20 ≤ b.toNat ∧ b.toNat ≤ 0x3F)
    (q : Bytes) (hq : q <+: arg ++ [f]) (hne : q ≠ arg ++ [f]) : decodeCSI q = none := by
  have hq' : q <+: arg := by
    rw [List.prefix_concat_iff] at hq
    rcases hq with hq | hq
    · exact absurd hq hne
    · exact hq
  unfold decodeCSI
  rw [csiScan_cut q (fun b hb => h b (hq'.subset hb))]

/-! ### The introducer in its two forms -/

/-- What `DecodeEscape` does after an introducer. -/
def afterIntro (r : Nat) (t : Bytes) : Option (Nat × Bytes × Nat) :=
  if r = 0x9B then decodeCSI t else (decodeString t).map fun x => (r, x.1, x.2)

theorem c1Bytes_decodes (c1 : Bool) (r : Nat) (h : introducer r) (t : Bytes) :
    ansiDecodeRune (c1Bytes c1 r ++ t) = (r, 2) := by
  unfold introducer at h
  cases c1
  · have hb : (UInt8.ofNat (r - 0x40)).toNat = r - 0x40 := u8_ofNat_toNat (by omega)
    have := ansiDecodeRune_esc_c1 (UInt8.ofNat (r - 0x40)) t (by rw [hb]; omega)
    rw [hb, show 0x80 + (r - 0x40) % 32 = r by omega] at this
    exact this
  · have h2 : (encodeRune r).length = 2 := encodeRune_length_two (by omega) (by omega)
    have : ansiDecodeRune (encodeRune r ++ t) = (r, (encodeRune r).length) :=
      ansiDecodeRune_not_esc (decodeRune_encodeRune r (by unfold validRune; simp; omega) t) (by omega)
    rw [h2] at this
    exact this

theorem c1Bytes_length (c1 : Bool) (r : Nat) (h : introducer r) : (c1Bytes c1 r).length = 2 := by
  unfold introducer at h
  cases c1
  · rfl
  · exact encodeRune_length_two (by omega) (by omega)

theorem c1Bytes_drop (c1 : Bool) (r : Nat) (h : introducer r) (t : Bytes) : (c1Bytes c1 r ++ t).drop 2 = t := by
  have := List.drop_left (l₁ := c1Bytes c1 r) (l₂ := t)
  rwa [c1Bytes_length c1 r h] at this

theorem decodeEscape_intro (c1 : Bool) (r : Nat) (h : introducer r) (t : Bytes) :
    decodeEscape (c1Bytes c1 r ++ t) = match afterIntro r t with
      | some (e, a, n) => ⟨e, a, 2 + n, c1Bytes c1 r ++ t⟩
      | none => ⟨0, [], 0, encodeRune r ++ t⟩ := by
  have hd := c1Bytes_decodes c1 r h t
  have hdr := c1Bytes_drop c1 r h t
  have hnone : decodeEscapeNone (c1Bytes c1 r ++ t) r 2 = ⟨0, [], 0, encodeRune r ++ t⟩ := by
    unfold decodeEscapeNone
    rw [hdr]
    cases c1
    · exact if_pos rfl
    · rw [if_neg]
      · rfl
      · intro hc
        have := head_esc_decode hc
        have h2 := decodeRune_encodeRune r (by unfold validRune; unfold introducer at h; simp; omega) t
        rw [show c1Bytes true r = encodeRune r from rfl, h2] at this
        unfold introducer at h
        simp at this; omega
  unfold decodeEscape
  rw [hd]
  simp only [hdr]
  unfold afterIntro
  rw [if_neg (by unfold introducer at h; omega)]
  by_cases h9 : r = 0x9B
  · rw [if_pos h9, if_pos h9]
    cases decodeCSI t with
    | none => exact hnone
    | some x => rfl
  · rw [if_neg h9, if_neg h9, if_pos (by unfold introducer at h; omega)]
    cases decodeString t with
    | none => exact hnone
    | some x => rfl

namespace Inp

/-! ### Draining the buffer -/

theorem decode_progress (s s' : Input) (ev : Event) (h : s.decode = (s', some ev)) :
    s'.buf.length < s.buf.length := by
  unfold Input.decode at h
  split at h
  · simp at h
  · rename_i hp
    obtain ⟨h1, h2, h3, h4⟩ := decodeEscape_progress s.buf hp
    have hpos : 0 < s.buf.length := List.length_pos_iff.mpr hp
    simp only at h
    split at h
    · rename_i he
      have := h3 he
      injection h with h _; subst h
      simp only [List.length_drop]; omega
    · split at h
      · simp at h
      · split at h
        · simp at h
        · injection h with h _; subst h
          have := decodeRune_width_le ((decodeEscape s.buf).buf.drop (decodeEscape s.buf).n)
          simp only [List.length_drop] at this ⊢; omega

theorem drainAux_fuel (n : Nat) : ∀ (s : Input) (f : Nat), s.buf.length < n → s.buf.length < f →
    s.drainAux f = s.drainAux n := by
  induction n with
  | zero => intro s f h; omega
  | succ n ih =>
    intro s f h1 h2
    obtain ⟨f, rfl⟩ : ∃ g, f = g + 1 := ⟨f - 1, by omega⟩
    simp only [Input.drainAux]
    cases hd : s.decode with
    | mk s' o =>
      cases o with
      | none => rfl
      | some ev =>
        have := decode_progress s s' ev hd
        simp only
        rw [ih s' f (by omega) (by omega)]

theorem drain_event (s s' : Input) (ev : Event) (h : s.decode = (s', some ev)) :
    s.drain = (s'.drain.1, ev :: s'.drain.2) := by
  have hp := decode_progress s s' ev h
  rw [Input.drain, Input.drainAux, h]
  simp only
  rw [Input.drain, drainAux_fuel (s'.buf.length + 1) s' s.buf.length (by omega) hp]

theorem drain_stop (s s' : Input) (h : s.decode = (s', none)) : s.drain = (s', []) := by
  rw [Input.drain, Input.drainAux, h]

/-- An item at the front is taken as its event. -/
theorem decode_item (i : InItem) (h : i.Ok) (s : Input) (rest : Bytes) (hs : s.buf = i.bytes ++ rest) :
    s.decode = ({ s with buf := rest }, some i.event) := by
  cases i with
  | rune r =>
    obtain ⟨h1, h2, h3⟩ := plain_intro h
    have hs : s.buf = encodeRune r ++ rest := hs
    have hd := decodeRune_encodeRune r h1 rest
    have hne : encodeRune r ++ rest ≠ [] := by
      have := encodeRune_length_pos r
      intro h; rw [(List.append_eq_nil_iff.mp h).1] at this; simp at this
    have ha : ansiDecodeRune (encodeRune r ++ rest) = (r, (encodeRune r).length) :=
      ansiDecodeRune_not_esc hd h2
    have hhead : (encodeRune r ++ rest).head? ≠ some 0x1B := by
      intro h; rw [head_esc_decode h] at hd; simp at hd; exact h2 hd.1.symm
    have he : decodeEscape (encodeRune r ++ rest) = ⟨0, [], 0, encodeRune r ++ rest⟩ := by
      unfold introducer at h3
      unfold decodeEscape
      rw [ha]
      simp only
      rw [if_neg h2, if_neg (by omega), if_neg (by omega)]
      unfold decodeEscapeNone; rw [if_neg hhead]
    unfold introducer at h3
    unfold Input.decode
    rw [hs, if_neg hne]
    simp only [he, ne_eq, not_true_eq_false, if_false, List.drop_zero, hne, hd, List.drop_left]
    rw [if_neg (by simp; intro; omega)]
    rfl
  | csi c1 arg f =>
    obtain ⟨ha, hf⟩ := h
    have hs : s.buf = c1Bytes c1 0x9B ++ (arg ++ [f]) ++ rest := hs
    rw [List.append_assoc] at hs
    have hd := decodeEscape_intro c1 0x9B (by decide) ((arg ++ [f]) ++ rest)
    have hc : decodeCSI ((arg ++ [f]) ++ rest) = some (csiId f, arg, arg.length + 1) := by
      have := decodeCSI_args arg f rest ha hf; simpa using this
    have hai : afterIntro 0x9B ((arg ++ [f]) ++ rest) = some (csiId f, arg, arg.length + 1) := by
      unfold afterIntro; rw [if_pos rfl, hc]
    rw [hai] at hd
    simp only at hd
    have hl := c1Bytes_length c1 0x9B (by decide)
    unfold Input.decode
    rw [hs, if_neg (by intro h; have := congrArg List.length h; simp at this)]
    simp only [hd]
    rw [if_pos (by unfold csiId; omega)]
    rw [← List.append_assoc, List.drop_left' (by simp [hl])]
    have hid : csiId f = 0xEF80 + f.toNat := by unfold csiId; omega
    rw [hid]; rfl
  | str c1 r body st1 =>
    obtain ⟨hr, hb⟩ := h
    have hi : introducer r := by unfold introducer; tauto
    have hs : s.buf = c1Bytes c1 r ++ (encodeRunes body ++ c1Bytes st1 0x9C) ++ rest := hs
    rw [List.append_assoc, List.append_assoc] at hs
    have hd := decodeEscape_intro c1 r hi (encodeRunes body ++ (c1Bytes st1 0x9C ++ rest))
    have hai : afterIntro r (encodeRunes body ++ (c1Bytes st1 0x9C ++ rest)) =
        some (r, encodeRunes body, (encodeRunes body).length + 2) := by
      unfold afterIntro; rw [if_neg (by omega), decodeString_body st1 rest body hb]; rfl
    rw [hai] at hd
    simp only at hd
    have hl := c1Bytes_length c1 r hi
    have hl2 : (c1Bytes st1 0x9C).length = 2 := by cases st1 <;> rfl
    unfold Input.decode
    rw [hs, if_neg (by intro h; have := congrArg List.length h; simp [hl] at this)]
    simp only [hd]
    rw [if_pos (by omega)]
    rw [← List.append_assoc, ← List.append_assoc, List.drop_left' (by simp [hl, hl2])]
    rfl
  | esc f =>
    obtain ⟨hf, hn⟩ := h
    have hs : s.buf = 0x1B :: f :: rest := hs
    simp only [List.mem_cons, List.not_mem_nil, or_false, not_or] at hn
    by_cases hc : 0x40 ≤ f.toNat ∧ f.toNat ≤ 0x5F
    · have ha := ansiDecodeRune_esc_c1 f rest hc
      have hd : decodeEscape (0x1B :: f :: rest) = ⟨0, [], 0, encodeRune (0x80 + f.toNat % 32) ++ rest⟩ := by
        unfold decodeEscape
        rw [ha]
        simp only
        rw [if_neg (by omega), if_neg (by omega), if_neg (by omega)]
        rfl
      have hr := decodeRune_encodeRune (0x80 + f.toNat % 32) (by unfold validRune; simp; omega) rest
      have hne : encodeRune (0x80 + f.toNat % 32) ++ rest ≠ [] := by
        have := encodeRune_length_pos (0x80 + f.toNat % 32)
        intro h; rw [(List.append_eq_nil_iff.mp h).1] at this; simp at this
      unfold Input.decode
      rw [hs, if_neg (by simp)]
      simp only [hd, ne_eq, not_true_eq_false, if_false, List.drop_zero, hne, hr, List.drop_left]
      rw [if_neg (by simp; intro; omega)]
      simp only [InItem.event, if_pos hc]
      congr 3; omega
    · have hd := decodeEscape_esc (p := rest) f (by omega) (by omega)
      have he : decodeESC (0x1B :: f :: rest) = ⟨0xEF00 + f.toNat, [], 2, 0x1B :: f :: rest⟩ := by
        simp only [decodeESC, List.take_succ_cons, List.take_zero, List.drop_succ_cons, List.drop_zero,
          List.length_cons, decodeESCLoop, decodeRune_ascii f rest (by omega)]
        rw [if_neg (by simp [runeError]; omega), if_neg (by omega),
          if_pos (by omega)]
        simp only [List.tail_cons, List.length_nil, List.length_cons, List.nil_append]
        congr 1
        omega
      unfold Input.decode
      rw [hs, if_neg (by simp), hd, he]
      simp only
      rw [if_pos (by omega)]
      simp only [InItem.event, if_neg hc, List.drop_succ_cons, List.drop_zero]

theorem drain_items (is : List InItem) (h : ∀ i ∈ is, i.Ok) : ∀ (s : Input) (rest : Bytes),
    s.buf = is.flatMap InItem.bytes ++ rest →
    s.drain = (({ s with buf := rest } : Input).drain.1,
      is.map InItem.event ++ ({ s with buf := rest } : Input).drain.2) := by
  induction is with
  | nil =>
    intro s rest hs
    have hs : s.buf = rest := hs
    subst hs; rfl
  | cons i l ih =>
    intro s rest hs
    have hd := decode_item i (h i (by simp)) s (l.flatMap InItem.bytes ++ rest) (by rw [hs]; simp)
    rw [drain_event s _ _ hd, ih (fun j hj => h j (by simp [hj])) _ rest rfl]
    rfl

/-- A beginning of an item in the form it is kept in the buffer. -/
def norm (p : Bytes) : Bytes :=
  match p with
  | 0x1B :: b :: t => if introducer (0x80 + b.toNat % 32) ∧ 0x40 ≤ b.toNat ∧ b.toNat ≤ 0x5F
    then encodeRune (0x80 + b.toNat % 32) ++ t else p
  | p => p

theorem norm_intro (c1 : Bool) (r : Nat) (h : introducer r) (t : Bytes) :
    norm (c1Bytes c1 r ++ t) = encodeRune r ++ t := by
  have h' := h
  unfold introducer at h'
  cases c1
  · have hb : (UInt8.ofNat (r - 0x40)).toNat = r - 0x40 := u8_ofNat_toNat (by omega)
    show norm (0x1B :: UInt8.ofNat (r - 0x40) :: t) = _
    unfold norm
    simp only [hb]
    rw [show 0x80 + (r - 0x40) % 32 = r by omega, if_pos ⟨h, by omega, by omega⟩]
  · show norm (encodeRune r ++ t) = _
    rw [encodeRune, if_neg (by omega), if_pos (by omega)]
    show norm (UInt8.ofNat (0xC0 + r / 64) :: _) = _
    unfold norm
    split
    · rename_i heq
      have := (List.cons.inj heq).1
      have hx : (UInt8.ofNat (0xC0 + r / 64)).toNat = 0x1B := by rw [this]; rfl
      rw [u8_ofNat_toNat (by omega)] at hx
      omega
    · rfl

/-- Both forms of an introducer are decoded alike. -/
theorem decode_forms (s : Input) (c1 : Bool) (r : Nat) (h : introducer r) (t : Bytes) :
    ({ s with buf := c1Bytes c1 r ++ t } : Input).decode =
      ({ s with buf := encodeRune r ++ t } : Input).decode := by
  have h1 := decodeEscape_intro c1 r h t
  have h2 := decodeEscape_intro true r h t
  have e : c1Bytes true r = encodeRune r := rfl
  rw [e] at h2
  have l1 := c1Bytes_length c1 r h
  have l2 := c1Bytes_length true r h
  rw [e] at l2
  have n1 : c1Bytes c1 r ++ t ≠ [] := by intro h; have := congrArg List.length h; simp [l1] at this
  have n2 : encodeRune r ++ t ≠ [] := by intro h; have := congrArg List.length h; simp [l2] at this
  cases ha : afterIntro r t with
  | none =>
    rw [ha] at h1 h2
    simp only at h1 h2
    unfold Input.decode
    simp only [n1, n2, if_false, h1, h2]
  | some x =>
    obtain ⟨e', a, n⟩ := x
    rw [ha] at h1 h2
    simp only at h1 h2
    have d1 : (c1Bytes c1 r ++ t).drop (2 + n) = t.drop n := by
      rw [← List.drop_drop, ← l1, List.drop_left]
    have d2 : (encodeRune r ++ t).drop (2 + n) = t.drop n := by
      rw [← List.drop_drop, ← l2, List.drop_left]
    unfold Input.decode
    simp only [n1, n2, if_false, h1, h2, d1, d2]

theorem drain_congr (s s' : Input) (h : s.decode = s'.decode) : s.drain = s'.drain := by
  cases hd : s.decode with
  | mk x o =>
    cases o with
    | none => rw [drain_stop s x hd, drain_stop s' x (h ▸ hd)]
    | some ev => rw [drain_event s x ev hd, drain_event s' x ev (h ▸ hd)]

theorem intro_of (i : InItem) (h : i.Ok) (intro : Bytes) (hi : i.intro? = some intro) :
    ∃ c1 r t, introducer r ∧ intro = c1Bytes c1 r ∧ i.bytes = c1Bytes c1 r ++ t ∧
      (∀ q, q <+: t → q ≠ t → afterIntro r q = none) := by
  cases i with
  | rune r => simp [InItem.intro?] at hi
  | esc f => simp [InItem.intro?] at hi
  | csi c1 arg f =>
    injection hi with hi
    refine ⟨c1, 0x9B, arg ++ [f], by decide, hi.symm, rfl, ?_⟩
    intro q hq hne
    unfold afterIntro
    rw [if_pos rfl, decodeCSI_cut arg f h.1 q hq hne]
  | str c1 r body st1 =>
    injection hi with hi
    obtain ⟨hr, hb⟩ := h
    refine ⟨c1, r, encodeRunes body ++ c1Bytes st1 0x9C, by unfold introducer; tauto, hi.symm, rfl, ?_⟩
    intro q hq hne
    unfold afterIntro
    rw [if_neg (by omega), decodeString_cut st1 body hb q hq hne]
    rfl

/-- A beginning of an item stays in the buffer, in its short form. -/
theorem decode_held (s : Input) (part : Bytes) (h : Held s.full part) (he : s.ateof = false)
    (hs : s.buf = part) : s.decode = ({ s with buf := norm part }, none) := by
  rcases h with rfl | ⟨hf, rfl⟩ | ⟨i, intro, hok, hi, h1, h2, h3⟩
  · unfold Input.decode
    rw [hs, if_pos rfl]
    cases s; simp only at hs; subst hs; rfl
  · unfold Input.decode
    rw [hs, if_neg (by simp)]
    rw [show decodeEscape [0x1B] = ⟨0, [], 0, [0x1B]⟩ by decide +kernel]
    simp [decodeRune_ascii (0x1B : UInt8) [] (by decide), he, hf, norm]
  · obtain ⟨c1, r, t, hr, rfl, hb, hcut⟩ := intro_of i hok intro hi
    obtain ⟨q, rfl⟩ := h1
    rw [hb] at h2 h3
    have hq : q <+: t := (List.prefix_append_right_inj _).mp h2
    have hn := hcut q hq (fun hx => h3 (by rw [hx]))
    have hd := decodeEscape_intro c1 r hr q
    rw [hn] at hd
    simp only at hd
    have hl := c1Bytes_length c1 r hr
    have hv : validRune r = true := by unfold introducer at hr; unfold validRune; simp; omega
    have hdr := decodeRune_encodeRune r hv q
    have hpos := encodeRune_length_pos r
    unfold Input.decode
    rw [hs, if_neg (by intro h; have := congrArg List.length h; simp [hl] at this)]
    simp only [hd, ne_eq, not_true_eq_false, if_false, List.drop_zero, hdr, norm_intro c1 r hr q]
    rw [if_neg (by intro h; have := congrArg List.length h; simp at this; simp [this.1] at hpos)]
    rw [if_pos]
    unfold introducer at hr
    simp [he]
    tauto

/-- Having been normalised makes no difference later. -/
theorem drain_norm (s : Input) (full : Bool) (part c : Bytes) (h : Held full part) :
    ({ s with buf := norm part ++ c } : Input).drain = ({ s with buf := part ++ c } : Input).drain := by
  rcases h with rfl | ⟨hf, rfl⟩ | ⟨i, intro, hok, hi, h1, h2, h3⟩
  · rfl
  · rfl
  · obtain ⟨c1, r, t, hr, rfl, hb, hcut⟩ := intro_of i hok intro hi
    obtain ⟨q, rfl⟩ := h1
    rw [norm_intro c1 r hr q, List.append_assoc, List.append_assoc]
    exact (drain_congr _ _ (decode_forms s c1 r hr (q ++ c))).symm

/-! ### Reads -/

/-- One read: at least one byte, and whether the bytes fill the room there was. -/
abbrev Chunk := UInt8 × Bytes × Bool

def Chunk.bytes (c : Chunk) : Bytes := c.1 :: c.2.1

/-- Reading with `ReadMore` and decoding all there is, again and again; the events. -/
def reads (s : Input) : List Chunk → Option (Input × List Event)
  | [] => some (s, [])
  | c :: l =>
    match s.readMore [.data c.1 c.2.1 c.2.2] true true with
    | none => none
    | some (s, _) =>
      let r := s.drain
      (reads r.1 l).map fun q => (q.1, r.2 ++ q.2)

/-- All bytes of the reads. -/
def total (l : List Chunk) : Bytes := l.flatMap Chunk.bytes

/-- Whether the last read filled the room there was. -/
def lastFull (l : List Chunk) : Bool := match l.getLast? with
  | some c => c.2.2
  | none => false

theorem readMore_chunk (s : Input) (c : Chunk) :
    s.readMore [.data c.1 c.2.1 c.2.2] true true =
      some ({ s with buf := s.buf ++ c.bytes, full := c.2.2, ateof := false }, c.2.1.length + 1, .nil, []) := by
  unfold Input.readMore fileRead; rfl

theorem reads_snoc (l : List Chunk) (c : Chunk) : ∀ s : Input, reads s (l ++ [c]) =
    (reads s l).map fun q =>
      ((({ q.1 with buf := q.1.buf ++ c.bytes, full := c.2.2, ateof := false } : Input).drain).1,
        q.2 ++ (({ q.1 with buf := q.1.buf ++ c.bytes, full := c.2.2, ateof := false } : Input).drain).2) := by
  induction l with
  | nil =>
    intro s
    simp only [List.nil_append, reads, readMore_chunk, Option.map_some, List.append_nil]
  | cons d l ih =>
    intro s
    simp only [List.cons_append, reads, readMore_chunk]
    rw [ih, Option.map_map, Option.map_map]
    congr 1
    funext q
    simp

theorem reads_state (s : Input) (hs : s.buf = []) (hse : s.ateof = false) (hsf : s.full = false) (l : List Chunk)
    (h : ∀ k, SafeCut (lastFull (l.take k)) (total (l.take k))) :
    ∀ (is : List InItem) (part : Bytes), (∀ i ∈ is, InItem.Ok i) → Held (lastFull l) part → total l = is.flatMap InItem.bytes ++ part →
      reads s l = some ({ s with buf := norm part, full := lastFull l }, is.map InItem.event) := by
  induction l using List.reverseRecOn with
  | nil =>
    intro is part hok hh he
    have he : [] = is.flatMap InItem.bytes ++ part := he
    have h1 := List.append_eq_nil_iff.mp he.symm
    have h2 : is = [] := by
      cases is with
      | nil => rfl
      | cons i l =>
        have h3 := (List.append_eq_nil_iff.mp (by simpa using h1.1 : i.bytes ++ l.flatMap InItem.bytes = [])).1
        exfalso
        have := decode_item i (hok i (by simp)) { s with buf := [] } [] (by rw [h3]; rfl)
        simp [Input.decode] at this
    subst h2
    rw [h1.2]
    unfold reads
    cases s; simp only at hs hsf; subst hs; subst hsf; rfl
  | append_singleton l c ih =>
    intro is' part' hok' hh' he'
    have hb := h l.length
    rw [List.take_left] at hb
    obtain ⟨is, part, hok, hh, he⟩ := hb
    have hpre : ∀ k, SafeCut (lastFull (l.take k)) (total (l.take k)) := by
      intro k
      by_cases hk : k ≤ l.length
      · have := h k
        rwa [List.take_append_of_le_length hk] at this
      · have := h l.length
        rw [List.take_left] at this
        rwa [List.take_of_length_le (by omega)]
    have hlf : lastFull (l ++ [c]) = c.2.2 := by unfold lastFull; simp
    rw [hlf] at hh' ⊢
    rw [reads_snoc, ih hpre is part hok hh he]
    simp only [Option.map_some, Option.some.injEq]
    -- the whole input at once
    let w : Input := { s with buf := total (l ++ [c]), full := c.2.2, ateof := false }
    have ht : total (l ++ [c]) = total l ++ c.bytes := by unfold total; simp
    have e1 := drain_items is hok w (part ++ c.bytes) (by show total (l ++ [c]) = _; rw [ht, he]; simp)
    have e2 := drain_items is' hok' w part' he'
    have e3 := drain_stop _ _ (decode_held ({ w with buf := part' } : Input) part' hh' rfl rfl)
    rw [e3] at e2
    rw [e2] at e1
    have e4 := drain_norm w (lastFull l) part c.bytes hh
    rw [← e4] at e1
    simp only [List.append_nil] at e1
    have hw : ({ w with buf := norm part ++ c.bytes } : Input) =
        { s with buf := norm part ++ c.bytes, full := c.2.2, ateof := false } := rfl
    rw [hw] at e1
    have e5 := Prod.mk.inj e1
    have hst : ({ w with buf := norm part' } : Input) = { s with buf := norm part', full := c.2.2 } := by
      show ({ s with buf := norm part', full := c.2.2, ateof := false } : Input) = _
      cases s; simp only at hse; subst hse; rfl
    refine Prod.ext ?_ ?_
    · rw [← hst]; exact e5.1.symm
    · exact e5.2.symm

/-- **C43** (part proved): let a terminal send any items, cut into reads anywhere — between
items and anywhere inside control sequences and control strings, even inside a character
of a control string — except between the two bytes of an introducer, inside a character
of the text, and inside an ESC sequence; there a cut is fine only after an ESC that just
fills the reader's room.  Then decoding all there is after each read gives exactly the
events the items mean, as if there had been one read.
Missing: the other cuts, for which it is false: see `reads_split_intro`, `reads_split_rune`
and `reads_split_alt`. -/
theorem reads_boundaries_partial (s : Input) (hs : s.buf = []) (hse : s.ateof = false) (hsf : s.full = false)
    (l : List Chunk) (h : ∀ k, SafeCut (lastFull (l.take k)) (total (l.take k))) :
    ∃ (is : List InItem) (part : Bytes) (s' : Input), (∀ i ∈ is, InItem.Ok i) ∧ Held (lastFull l) part ∧
      total l = is.flatMap InItem.bytes ++ part ∧ reads s l = some (s', is.map InItem.event) := by
  have hb := h l.length
  rw [List.take_length] at hb
  obtain ⟨is, part, hok, hh, he⟩ := hb
  exact ⟨is, part, _, hok, hh, he, reads_state s hs hse hsf l h is part hok hh he⟩

/-- **C43** (part proved): two ways to cut the same input at such places give the same
events, and leave the input in the same state. -/
theorem reads_same_partial (s : Input) (hs : s.buf = []) (hse : s.ateof = false) (hsf : s.full = false)
    (l l' : List Chunk)
    (h : ∀ k, SafeCut (lastFull (l.take k)) (total (l.take k)))
    (h' : ∀ k, SafeCut (lastFull (l'.take k)) (total (l'.take k)))
    (ht : total l = total l') (hf : lastFull l = lastFull l') :
    (reads s l).isSome ∧ reads s l = reads s l' := by
  have hb := h l.length
  rw [List.take_length] at hb
  obtain ⟨is, part, hok, hh, he⟩ := hb
  rw [reads_state s hs hse hsf l h is part hok hh he,
    reads_state s hs hse hsf l' h' is part hok (hf ▸ hh) (ht ▸ he), hf]
  exact ⟨rfl, rfl⟩

/-- A key, an arrow key in two reads, a title whose character `é` is cut in two, and a key
pressed with Alt. -/
example : reads {} [(0x61, [0x1B, 0x5B], false), (0x31, [], false), (0x41, [0x1B, 0x5D, 0x41, 0xC3], false),
      (0xA9, [0x1B], false), (0x5C, [0x1B, 0x62], false)] =
    some ({}, [(0x61, []), (0xEFC1, [0x31]), (0x9D, [0x41, 0xC3, 0xA9]), (0xEF62, [])]) := by decide +kernel
example : SafeCut false [0x61, 0x1B, 0x5B, 0x31, 0x41, 0x1B, 0x5D, 0x41, 0xC3, 0xA9, 0x1B] := by
  refine ⟨[.rune 0x61, .csi false [0x31] 0x41], [0x1B, 0x5D, 0x41, 0xC3, 0xA9, 0x1B], ?_, ?_, by decide⟩
  · simp only [List.mem_cons, List.not_mem_nil, or_false, forall_eq_or_imp, forall_eq]
    exact ⟨(by decide : plainRune 0x61), by decide, by decide⟩
  · exact Or.inr (Or.inr ⟨.str false 0x9D [0x41, 0xE9] false, [0x1B, 0x5D], ⟨by decide, by decide⟩, rfl,
      by decide, by decide, by decide⟩)

/-- Negation for **C43**: an arrow key cut after its ESC is read as three keys, unless the
ESC fills the room there was. -/
theorem reads_split_intro :
    (reads {} [(0x1B, [], false), (0x5B, [0x41], false)]).map (·.2) = some [(0x1B, []), (0x5B, []), (0x41, [])] ∧
    (reads {} [(0x1B, [], true), (0x5B, [0x41], false)]).map (·.2) = some [(0xEFC1, [])] ∧
    (reads {} [(0x1B, [0x5B, 0x41], false)]).map (·.2) = some [(0xEFC1, [])] := by decide +kernel

/-- Negation for **C43**: a character cut in two is read as two invalid ones. -/
theorem reads_split_rune :
    (reads {} [(0xC3, [], false), (0xA9, [], false)]).map (·.2) = some [(0xFFFD, []), (0xFFFD, [])] ∧
    (reads {} [(0xC3, [0xA9], false)]).map (·.2) = some [(0xE9, [])] := by decide +kernel

/-- Negation for **C43**: so is a sequence of ESC, an intermediate byte and a final byte. -/
theorem reads_split_alt :
    (reads {} [(0x1B, [0x28], false), (0x42, [], false)]).map (·.2) = some [(0x1B, []), (0x28, []), (0x42, [])] ∧
    (reads {} [(0x1B, [0x28, 0x42], false)]).map (·.2) = some [(0xEF28, [0x42])] := by decide +kernel

end Inp
end Anansi
