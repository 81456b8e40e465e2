import Verif.Lemmas.DecodeBounds
/-
C12, C13: bounds and progress of `DecodeEscape`, and what it may do to the
caller's buffer.
-/
set_option autoImplicit false

namespace Anansi

/-- Every outcome of `DecodeEscape` on a non-empty buffer. -/
theorem decodeEscape_master (p : Bytes) (h : p ≠ []) :
    (∃ e a n, e ≠ 0 ∧ 1 ≤ n ∧ n ≤ p.length ∧ a <:+: p.take n ∧ decodeEscape p = ⟨e, a, n, p⟩) ∨
    (p.head? ≠ some 0x1B ∧ decodeEscape p = ⟨0, [], 0, p⟩) ∨
    (∃ b t, p = 0x1B :: b :: t ∧ 0x40 ≤ b.toNat ∧ b.toNat ≤ 0x5F ∧
      decodeEscape p = ⟨0, [], 0, encodeRune (0x80 + b.toNat % 32) ++ t⟩) ∨
    (∃ d i x t, p = 0x1B :: (x ++ t) ∧ Shuffle d i x ∧ RunesOf delRune d ∧ RunesOf intermRune i ∧
      ¬ intermRune (decodeRune t).1 ∧ ¬ delRune (decodeRune t).1 ∧
      decodeEscape p = escFinish d (0x1B :: i) t) := by
  rcases decodeEscape_cases p with ⟨h1, h2⟩ | ⟨_, e, a, n, h1, h2, h3, h4, h5⟩ | ⟨h1, h2⟩
  · right; right; right
    have hp := ansiDecodeRune_esc_head h1
    obtain ⟨d, i, x, t, k1, k2, k3, k4, k5, k6, k7⟩ := decodeESC_scan (p.drop 1)
    rw [← hp] at k7
    exact ⟨d, i, x, t, by rw [← k1]; exact hp, k2, k3, k4, k5, k6, by rw [h2, k7]⟩
  · left
    have := ansiDecodeRune_width p h
    rw [List.length_drop] at h3
    exact ⟨e, a, _, h1, by omega, by omega, h4, h5⟩
  · rw [h2]
    rcases decodeEscapeNone_cases p h1 with ⟨k1, k2⟩ | ⟨b, t, k1, k2, k3, k4⟩
    · right; left; exact ⟨k1, k2⟩
    · right; right; left; exact ⟨b, t, k1, k2, k3, k4⟩

/-- **C12**: decoding any non-empty buffer succeeds, reports no more bytes than
there are, keeps the buffer's length, and a recognised escape uses at least one
byte and has its argument inside the bytes it used. -/
theorem decodeEscape_bounds (p : Bytes) (h : p ≠ []) :
    ∃ d, decodeEscape? p = some d ∧ d.buf.length = p.length ∧ d.n ≤ p.length ∧
      (d.e ≠ 0 → 1 ≤ d.n ∧ d.arg <:+: d.buf.take d.n) := by
  refine ⟨decodeEscape p, by simp [decodeEscape?, h], ?_⟩
  rcases decodeEscape_master p h with ⟨e, a, n, h1, h2, h3, h4, h5⟩ | ⟨_, h5⟩ | ⟨b, t, hp, h1, h2, h5⟩ |
      ⟨d, i, x, t, hp, hs, _, _, _, _, h5⟩
  · rw [h5]; exact ⟨rfl, h3, fun _ => ⟨h2, h4⟩⟩
  · rw [h5]; exact ⟨rfl, by simp, fun h => absurd rfl h⟩
  · rw [h5]; refine ⟨?_, by simp, fun h => absurd rfl h⟩
    subst hp
    simp [encodeRune_length_two (show 0x80 ≤ 0x80 + b.toNat % 32 by omega) (by omega)]; omega
  · rw [h5]
    have hl := hs.length
    subst hp
    rcases escFinish_cases d i t with ⟨_, e⟩ | ⟨r, u, _, ht, _, _, e⟩ | ⟨r, u, _, ht, _, _, e⟩ |
        ⟨r, u, e0, a, _, ht, _, _, _, _, _, ha, e⟩
    · rw [e]; refine ⟨by simp; omega, by simp; omega, fun h => absurd rfl h⟩
    · rw [e]; subst ht; refine ⟨by simp; omega, by simp; omega, fun h => absurd rfl h⟩
    · rw [e]; subst ht; refine ⟨by simp; omega, by simp; omega, fun h => absurd rfl h⟩
    · rw [e]; subst ht; refine ⟨by simp; omega, by simp; omega, fun _ => ⟨by simp; omega, ?_⟩⟩
      rw [List.take_left' rfl]
      refine ha.trans ?_
      have : d ++ 0x1B :: i ++ encodeRune r = (d ++ [0x1B]) ++ (i ++ encodeRune r) := by simp
      rw [this]; exact (List.suffix_append _ _).isInfix

/-- A pending ESC and a complete CSI, for the hypothesis of `decodeEscape_bounds`
and its non-trivial conclusion. -/
example : decodeEscape? [0x1B, 0x5B, 0x31, 0x3B, 0x32, 0x48, 0x41] =
    some ⟨0xEFC8, [0x31, 0x3B, 0x32], 6, [0x1B, 0x5B, 0x31, 0x3B, 0x32, 0x48, 0x41]⟩ := by
  decide +kernel

/-- The precondition is needed: an empty buffer panics. -/
theorem decodeEscape_empty_panics : decodeEscape? [] = none := rfl

/-- **C13**: what decoding does to the buffer.  Either a two-byte C1 introducer at
its front is replaced by the encoding of the same control, or some bytes of an
examined part `x` have been moved in front of the escape sequence they
interrupted, each group keeping its order; all bytes after `x` stay in place. -/
theorem decode_preserves (p : Bytes) (h : p ≠ []) :
    (∃ b t, p = 0x1B :: b :: t ∧ 0x40 ≤ b.toNat ∧ b.toNat ≤ 0x5F ∧
      (decodeEscape p).buf = encodeRune (0x80 + b.toNat % 32) ++ t) ∨
    (decodeEscape p).buf = p ∨
    (∃ moved seq x t, p = x ++ t ∧ (decodeEscape p).buf = moved ++ seq ++ t ∧
      Shuffle moved seq x ∧ seq.head? = some 0x1B ∧ x.head? = some 0x1B) := by
  rcases decodeEscape_master p h with ⟨e, a, n, h1, h2, h3, h4, h5⟩ | ⟨_, h5⟩ | ⟨b, t, hp, h1, h2, h5⟩ |
      ⟨d, i, x, t, hp, hs, _, _, _, _, h5⟩
  · right; left; rw [h5]
  · right; left; rw [h5]
  · left; exact ⟨b, t, hp, h1, h2, by rw [h5]⟩
  · right; right
    rw [h5]
    have hs' : ∀ r, Shuffle (d ++ encodeRune r) (0x1B :: i) (0x1B :: (x ++ encodeRune r)) := by
      intro r
      have : Shuffle (encodeRune r) [] (encodeRune r) := by
        have := Shuffle.appendLeft (encodeRune r) (Shuffle.nil (α := UInt8)); simpa using this
      have := hs.append this
      rw [List.append_nil] at this
      exact .right this
    have hs'' : ∀ r, Shuffle d (0x1B :: (i ++ encodeRune r)) (0x1B :: (x ++ encodeRune r)) := by
      intro r
      have : Shuffle [] (encodeRune r) (encodeRune r) := by
        have := Shuffle.appendRight (encodeRune r) (Shuffle.nil (α := UInt8)); simpa using this
      have := hs.append this
      rw [List.append_nil] at this
      exact .right this
    rcases escFinish_cases d i t with ⟨_, e⟩ | ⟨r, u, _, ht, _, _, e⟩ | ⟨r, u, _, ht, _, _, e⟩ |
        ⟨r, u, e0, a, _, ht, _, _, _, _, _, ha, e⟩
    · rw [e]; exact ⟨d, 0x1B :: i, 0x1B :: x, t, by simpa using hp, by simp, .right hs, rfl, rfl⟩
    · rw [e]; subst ht
      exact ⟨d ++ encodeRune r, 0x1B :: i, 0x1B :: (x ++ encodeRune r), u, by simpa using hp, by simp,
        hs' r, rfl, rfl⟩
    · rw [e]; subst ht
      exact ⟨d, 0x1B :: (i ++ encodeRune r), 0x1B :: (x ++ encodeRune r), u, by simpa using hp, by simp,
        hs'' r, rfl, rfl⟩
    · rw [e]; subst ht
      exact ⟨d, 0x1B :: (i ++ encodeRune r), 0x1B :: (x ++ encodeRune r), u, by simpa using hp, by simp,
        hs'' r, rfl, rfl⟩

/-- **C13**, no byte lost: when no escape is reported, the bytes declared
processed are only deletes that interrupted an escape sequence, or an escape
sequence that was cancelled. -/
theorem decode_drops_only_deletes_and_cancelled (p : Bytes) (h : p ≠ []) (he : (decodeEscape p).e = 0) :
    RunesOf delRune ((decodeEscape p).buf.take (decodeEscape p).n) ∨
    ∃ d i r, RunesOf delRune d ∧ RunesOf intermRune i ∧ r ≤ 0xFF ∧ r % 128 = 0x18 ∧
      (decodeEscape p).buf.take (decodeEscape p).n = d ++ 0x1B :: i ++ encodeRune r := by
  rcases decodeEscape_master p h with ⟨e, a, n, h1, h2, h3, h4, h5⟩ | ⟨_, h5⟩ | ⟨b, t, hp, h1, h2, h5⟩ |
      ⟨d, i, x, t, hp, hs, hd, hi, _, _, h5⟩
  · rw [h5] at he; exact absurd he h1
  · rw [h5]; left; simpa using RunesOf.nil
  · rw [h5]; left; simpa using RunesOf.nil
  · rw [h5] at he ⊢
    rcases escFinish_cases d i t with ⟨_, e⟩ | ⟨r, u, _, ht, _, _, e⟩ | ⟨r, u, _, ht, hr, hc, e⟩ |
        ⟨r, u, e0, a, _, ht, _, _, _, hE, _, ha, e⟩
    · rw [e]; left; simpa using hd
    · rw [e]; left; simpa using hd
    · rw [e]; right; refine ⟨d, i, r, hd, hi, hr, hc, ?_⟩
      rw [List.take_left' rfl]
    · rw [e] at he; have : e0 = 0 := he; omega

/-- ESC, a space intermediate, a DEL and a newline: the DEL and the newline are
moved in front of the pending sequence. -/
example : (decodeEscape [0x1B, 0x20, 0x7F, 0x0A, 0x46]) =
    ⟨0, [], 1, [0x7F, 0x0A, 0x1B, 0x20, 0x46]⟩ := by decide +kernel
/-- A pending CSI introducer becomes its one-rune form. -/
example : (decodeEscape [0x1B, 0x5B, 0x31]).buf = [0xC2, 0x9B, 0x31] := by decide +kernel

end Anansi
