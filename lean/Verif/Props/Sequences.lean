import Verif.Lemmas.Seq
import Verif.Lemmas.Num
import Verif.Lemmas.Decode
/-
C06 Points and cursor addresses round trip.
C07 Control sequence codec round trip.
C08 Escape and charset sequences round trip.
C09 Sequence builder keeps arguments in order.
C10 Sequence Size is an upper bound.
-/
set_option autoImplicit false

namespace Anansi
open Spec

/-- The builder calls of the API, applied in order to a fresh sequence. -/
def build (id : Nat) (calls : List Call) : Option Seq :=
  calls.foldl (fun s c => s.bind fun s =>
    match c with
    | .bytes bs => some (s.with bs)
    | .ints is => s.withInts is) (escSeq id)

theorem build_rep_csi {id : Nat} (hid : 0xEF80 < id ∧ id < 0xEFFF) (calls : List Call) :
    ∃ s, build id calls = some s ∧ SeqRep s id (allBytes calls) (allInts calls) := by
  have aux : ∀ (calls : List Call) (s : Seq) (bs : List UInt8) (is : List Int), SeqRep s id bs is →
      ∃ s', calls.foldl (fun s c => s.bind fun s =>
        match c with
        | .bytes bs => some (s.with bs)
        | .ints is => s.withInts is) (some s) = some s' ∧
        SeqRep s' id (bs ++ allBytes calls) (is ++ allInts calls) := by
    intro calls
    induction calls with
    | nil => intro s bs is h; exact ⟨s, rfl, by simpa [allBytes, allInts] using h⟩
    | cons c t ih =>
      intro s bs is h
      cases c with
      | bytes b =>
        obtain ⟨s', h1, h2⟩ := ih _ _ _ (h.with b)
        exact ⟨s', h1, by simpa [allBytes, allInts] using h2⟩
      | ints l =>
        obtain ⟨s1, e1, r1⟩ := h.withInts hid l
        obtain ⟨s', h1, h2⟩ := ih _ _ _ r1
        refine ⟨s', ?_, by simpa [allBytes, allInts] using h2⟩
        simp only [List.foldl_cons, Option.bind_some, e1]; exact h1
  obtain ⟨s, hs, hr⟩ := escSeq_rep (id := id) (by omega)
  obtain ⟨s', h1, h2⟩ := aux calls s [] [] hr
  refine ⟨s', ?_, by simpa using h2⟩
  rw [build, hs]; exact h1

theorem build_rep_bytes {id : Nat}
    (hid : (0x0000 < id ∧ id < 0x001F) ∨ (0xEF00 < id ∧ id < 0xEFFF)) (bss : List (List UInt8)) :
    ∃ s, build id (bss.map .bytes) = some s ∧ SeqRep s id bss.flatten [] := by
  have aux : ∀ (bss : List (List UInt8)) (s : Seq) (bs : List UInt8), SeqRep s id bs [] →
      ∃ s', (bss.map Call.bytes).foldl (fun s c => s.bind fun s =>
        match c with
        | .bytes bs => some (s.with bs)
        | .ints is => s.withInts is) (some s) = some s' ∧ SeqRep s' id (bs ++ bss.flatten) [] := by
    intro bss
    induction bss with
    | nil => intro s bs h; exact ⟨s, rfl, by simpa using h⟩
    | cons b t ih =>
      intro s bs h
      obtain ⟨s', h1, h2⟩ := ih _ _ (h.with b)
      exact ⟨s', h1, by simpa using h2⟩
  obtain ⟨s, hs, hr⟩ := escSeq_rep hid
  obtain ⟨s', h1, h2⟩ := aux bss s [] hr
  refine ⟨s', ?_, by simpa using h2⟩
  rw [build, hs]; exact h1

/-- **C09** for control sequences: whatever the builder calls, the encoding is
the introducer, all argument bytes in order, all numbers in order separated by
semicolons, and the final byte. -/
theorem seq_build_csi {id : Nat} (hid : 0xEF80 < id ∧ id < 0xEFFF) (calls : List Call) :
    (build id calls).bind Seq.append =
      some ([0x1B, 0x5B] ++ allBytes calls ++ joinInts (allInts calls) ++
        [UInt8.ofNat (id % 128)]) := by
  obtain ⟨s, h1, h2⟩ := build_rep_csi hid calls
  rw [h1, Option.bind_some, Seq.append, h2.id, if_neg (by omega), if_neg (by omega), if_pos hid,
    h2.argNums, h2.argByteList]
  rfl

/-- **C09** for escape sequences, which take argument bytes only. -/
theorem seq_build_esc {id : Nat} (hid : 0xEF00 < id ∧ id < 0xEF7F) (bss : List (List UInt8)) :
    (build id (bss.map .bytes)).bind Seq.append =
      some ([0x1B] ++ bss.flatten ++ [UInt8.ofNat (id % 128)]) := by
  obtain ⟨s, h1, h2⟩ := build_rep_bytes (id := id) (Or.inr (by omega)) bss
  rw [h1, Option.bind_some, Seq.append, h2.id, if_neg (by omega), if_neg (by omega),
    if_neg (by omega), if_pos hid, h2.argByteList]

/-- **C09** for C0 controls, which take argument bytes after the control. -/
theorem seq_build_c0 {id : Nat} (hid : 0x0000 < id ∧ id < 0x001F) (bss : List (List UInt8)) :
    (build id (bss.map .bytes)).bind Seq.append = some (UInt8.ofNat id :: bss.flatten) := by
  obtain ⟨s, h1, h2⟩ := build_rep_bytes (Or.inl hid) bss
  rw [h1, Option.bind_some, Seq.append, h2.id, if_neg (by omega), if_pos hid, h2.argByteList]

/-- A concrete case: five numbers and four bytes over several calls. -/
example : (build SGR [.ints [38, 2], .bytes [0x3F], .ints [1, -20], .bytes [0x3E, 0x21, 0x22],
    .ints [300]]).bind Seq.append =
    some ([0x1B, 0x5B, 0x3F, 0x3E, 0x21, 0x22] ++
      [0x33, 0x38, 0x3B, 0x32, 0x3B, 0x31, 0x3B, 0x2D, 0x32, 0x30, 0x3B, 0x33, 0x30, 0x30] ++
      [0x6D]) := by decide +kernel

/-- Two identifiers are accepted by the builder but cannot be encoded: the
encoder panics on them (the malformed-sequence markers U+EF7F and U+EF80). -/
theorem seq_build_panics (id : Nat) (hid : id = 0xEF7F ∨ id = 0xEF80) :
    (build id []).isSome ∧ (build id []).bind Seq.append = none := by
  rcases hid with rfl | rfl <;> decide

/-- **C06**: the position sequence built for a point is the introducer, an
argument and the final byte, and `DecodePoint` on that argument gives the point
back and uses all of it. -/
theorem point_roundtrip {id : Nat} (hid : 0xEF80 < id ∧ id < 0xEFFF) (p : Pt)
    (hx : 1 ≤ p.x ∧ p.x ≤ 2 ^ 32 - 1) (hy : 1 ≤ p.y ∧ p.y ≤ 2 ^ 32 - 1) :
    ∃ arg, ((escSeq id).bind (·.withPoint p)).bind Seq.append =
        some ([0x1B, 0x5B] ++ arg ++ [UInt8.ofNat (id % 128)]) ∧
      decodePoint arg = ⟨p, arg.length, none⟩ := by
  obtain ⟨x, y⟩ := p
  simp only at hx hy
  obtain ⟨nx, rfl⟩ : ∃ n : Nat, x = n := ⟨x.toNat, by omega⟩
  obtain ⟨ny, rfl⟩ : ∃ n : Nat, y = n := ⟨y.toNat, by omega⟩
  have hb := seq_build_csi hid [.ints [(ny : Int), (nx : Int)]]
  have he : build id [.ints [(ny : Int), (nx : Int)]] =
      (escSeq id).bind (·.withPoint ⟨(nx : Int), (ny : Int)⟩) := rfl
  rw [he] at hb
  refine ⟨joinInts [(ny : Int), (nx : Int)], by rw [hb]; simp [allBytes, allInts], ?_⟩
  have hj : joinInts [(ny : Int), (nx : Int)] = itoaNat ny ++ 0x3B :: itoaNat nx := by
    simp [joinInts, itoa_natCast]
  rw [hj]
  have hn1 : noDigit (0x3B :: itoaNat nx) := by intro d h; simp at h; subst h; simp
  have hn2 : noDigit [] := by intro d h; simp at h
  simp only [decodePoint]
  rw [decodeNumber_itoa ny _ (by simp only [numMaxVal]; omega) hn1]
  simp only [if_true, List.drop_left]
  have := decodeNumber_sep_itoa nx [] (by simp only [numMaxVal]; omega) hn2
  rw [List.append_nil] at this
  rw [this]; simp; omega

/-- A concrete case: column 7, row 12 is written `ESC [ 12 ; 7 H`. -/
example : ((escSeq CUP).bind (·.withPoint ⟨7, 12⟩)).bind Seq.append =
    some [0x1B, 0x5B, 0x31, 0x32, 0x3B, 0x37, 0x48] := by decide +kernel

/-- **C07**: a CSI sequence with any parameter and intermediate bytes decodes,
whatever follows it, to the same identifier and argument, using exactly its own
bytes and leaving the buffer as it is. -/
theorem csi_roundtrip (f : UInt8) (hf : 0x40 ≤ f.toNat ∧ f.toNat ≤ 0x7E) (arg rest : Bytes)
    (ha : ∀ b ∈ arg, 0x20 ≤ b.toNat ∧ b.toNat ≤ 0x3F) :
    let enc := escAppendWith (csiId f) arg
    decodeEscape? (enc ++ rest) = some ⟨csiId f, arg, enc.length, enc ++ rest⟩ := by
  have hmod : f.toNat % 128 = f.toNat := Nat.mod_eq_of_lt (by omega)
  have henc : escAppendWith (csiId f) arg = [0x1B, 0x5B] ++ arg ++ [f] := by
    have hfin : UInt8.ofNat ((0xEF80 + f.toNat) % 128) = f :=
      u8_ofNat_eq (b := f) (by omega)
    simp only [escAppendWith, csiId, hmod, hfin]
    rw [if_neg (by omega), if_neg (by omega), if_neg (by omega), if_pos (by omega)]
  simp only [henc, decodeEscape?]
  rw [if_neg (by simp)]
  have := decodeEscape_csi arg f rest ha hf
  simp only [List.append_assoc, List.cons_append, List.nil_append] at this ⊢
  rw [this]; simp

/-- **C07** with the C1 introducer U+009B in place of `ESC [`. -/
theorem csi_roundtrip_c1 (f : UInt8) (hf : 0x40 ≤ f.toNat ∧ f.toNat ≤ 0x7E) (arg rest : Bytes)
    (ha : ∀ b ∈ arg, 0x20 ≤ b.toNat ∧ b.toNat ≤ 0x3F) :
    let enc := encodeRune 0x9B ++ arg ++ [f]
    decodeEscape? (enc ++ rest) = some ⟨csiId f, arg, enc.length, enc ++ rest⟩ := by
  have he : encodeRune 0x9B = [0xC2, 0x9B] := by decide
  simp only [he, decodeEscape?]
  rw [if_neg (by simp)]
  have := decodeEscape_csi_c1 arg f rest ha hf
  simp only [List.append_assoc, List.cons_append, List.nil_append] at this ⊢
  rw [this]; simp

example : decodeEscape? ([0x1B, 0x5B, 0x3F, 0x32, 0x35, 0x20, 0x68] ++ [0x1B, 0xFF]) =
    some ⟨csiId 0x68, [0x3F, 0x32, 0x35, 0x20], 7, [0x1B, 0x5B, 0x3F, 0x32, 0x35, 0x20, 0x68, 0x1B, 0xFF]⟩ := by
  decide +kernel

/-- **C08** (part proved): an escape sequence with a final byte from `0x30` to
`0x7D` and intermediates as arguments decodes to the same identifier and
argument, whatever follows, unless it has exactly one argument byte, or has none
and its final byte is an upper-case one (which is a C1 control by definition).
Missing: character-set sequences (one intermediate), see
`charset_not_roundtrip`; and the identifier U+EF7E, see `esc_tilde_lost`. -/
theorem esc_roundtrip_partial (f : UInt8) (hf : 0x30 ≤ f.toNat ∧ f.toNat ≤ 0x7D)
    (arg rest : Bytes) (ha : ∀ b ∈ arg, 0x20 ≤ b.toNat ∧ b.toNat ≤ 0x2F)
    (h1 : arg.length ≠ 1) (h0 : arg = [] → f.toNat < 0x40 ∨ 0x5F < f.toNat) :
    let enc := escAppendWith (escId f) arg
    decodeEscape? (enc ++ rest) = some ⟨escId f, arg, enc.length, enc ++ rest⟩ := by
  have hmod : f.toNat % 128 = f.toNat := Nat.mod_eq_of_lt (by omega)
  have henc : escAppendWith (escId f) arg = [0x1B] ++ arg ++ [f] := by
    have hfin : UInt8.ofNat ((0xEF00 + f.toNat) % 128) = f :=
      u8_ofNat_eq (b := f) (by omega)
    simp only [escAppendWith, escId, hmod, hfin]
    rw [if_neg (by omega), if_neg (by omega), if_pos (by omega)]
  have hesc : escId f = 0xEF00 + f.toNat := by simp only [escId, hmod]
  simp only [henc, decodeEscape?]
  rw [if_neg (by simp)]
  have hdec : decodeEscape ([0x1B] ++ arg ++ [f] ++ rest) = decodeESC ([0x1B] ++ arg ++ [f] ++ rest) := by
    cases arg with
    | nil => exact decodeEscape_esc f (h0 rfl) (by omega)
    | cons b t =>
      have := ha b (by simp)
      exact decodeEscape_esc b (by omega) (by omega)
  rw [hdec]
  have hloop := decodeESCLoop_interm arg ha (rest.length + 3) [0x1B] (f :: rest)
  have hlen : ([0x1B] ++ arg ++ [f] ++ rest).length + 1 = arg.length + (rest.length + 3) := by
    simp; omega
  unfold decodeESC
  rw [hlen]
  have hshape : ([0x1B] ++ arg ++ [f] ++ rest : Bytes) = 0x1B :: (arg ++ f :: rest) := by simp
  rw [hshape, List.take_succ_cons, List.take_zero, List.drop_succ_cons, List.drop_zero, hloop]
  simp only [decodeESCLoop, decodeRune_ascii f rest (by omega)]
  rw [if_neg (by simp [runeError]; omega), if_neg (by omega), hmod, if_pos (by omega)]
  match arg, h1 with
  | [], _ => simp [hesc]
  | [b], h1 => simp at h1
  | a :: b :: t, _ => simp [hesc]

example : decodeEscape? ([0x1B, 0x20, 0x23, 0x46] ++ [0x41]) =
    some ⟨escId 0x46, [0x20, 0x23], 4, [0x1B, 0x20, 0x23, 0x46, 0x41]⟩ := by decide +kernel

/-- Negation for **C08**: no character-set designation round trips.  For every
designation byte and every set byte, the sequence built for them does not decode
to them, because the encoder writes the two bytes in the wrong order. -/
theorem charset_not_roundtrip (i c : UInt8) (hi : 0x21 ≤ i.toNat ∧ i.toNat ≤ 0x2E)
    (hc : 0x30 ≤ c.toNat ∧ c.toNat ≤ 0x7E) (rest : Bytes) :
    ∃ enc, (build (escId i) [.bytes [c]]).bind Seq.append = some enc ∧
      enc = [0x1B, c, i] ∧ (decodeEscape (enc ++ rest)).e ≠ escId i := by
  have hmod : i.toNat % 128 = i.toNat := Nat.mod_eq_of_lt (by omega)
  have hb := seq_build_esc (id := escId i) (by simp only [escId]; omega) [[c]]
  have hfin : UInt8.ofNat (escId i % 128) = i := u8_ofNat_eq (b := i) (by simp only [escId]; omega)
  refine ⟨[0x1B, c, i], ?_, rfl, ?_⟩
  · have : (List.map Call.bytes [[c]]) = [Call.bytes [c]] := rfl
    rw [this] at hb; rw [hb, hfin]; simp
  · have hid : escId i = 0xEF00 + i.toNat := by simp only [escId, hmod]
    rw [hid]
    by_cases hcc : 0x40 ≤ c.toNat ∧ c.toNat ≤ 0x5F
    · -- decoded as a C1 control, or as a CSI sequence or control string
      simp only [List.cons_append, decodeEscape, ansiDecodeRune_esc_c1 c _ hcc]
      rw [if_neg (by omega)]
      have hnone : ∀ (p : Bytes) (r m : Nat), (decodeEscapeNone p r m).e ≠ 0xEF00 + i.toNat := by
        intro p r m; unfold decodeEscapeNone; split <;> simp <;> omega
      split
      · split
        · rename_i e a n hd
          simp only [decodeCSI] at hd
          split at hd
          · simp at hd
          · simp at hd; obtain ⟨rfl, _⟩ := hd
            simp only [csiId]; omega
        · exact hnone _ _ _
      · split
        · split
          · simp only; omega
          · exact hnone _ _ _
        · exact hnone _ _ _
    · simp only [List.cons_append, List.nil_append]
      rw [decodeEscape_esc c (by omega) (by omega)]
      simp only [decodeESC, List.take_succ_cons, List.take_zero, List.drop_succ_cons,
        List.drop_zero, decodeESCLoop, decodeRune_ascii c _ (by omega)]
      rw [if_neg (by simp [runeError]; omega), if_neg (by omega),
        Nat.mod_eq_of_lt (show c.toNat < 128 by omega), if_pos (by omega)]
      simp only [List.tail_cons]; omega

/-- `ESC ( B` (US ASCII into G0) is written as `ESC B (`. -/
example : (build (escId 0x28) [.bytes [0x42]]).bind Seq.append = some [0x1B, 0x42, 0x28] := by
  decide +kernel

/-- Negation for **C08**: the decoder produces U+EF7E for `ESC ~`, but the
encoder emits nothing for it. -/
theorem esc_tilde_lost (arg : Bytes) :
    (decodeEscape [0x1B, 0x7E]).e = 0xEF7E ∧ escAppend 0xEF7E = [] ∧
      escAppendWith 0xEF7E arg = [] := by
  refine ⟨by decide +kernel, by decide, rfl⟩

/-- **C10** for escapes: the size is never below the encoded length. -/
theorem escSize_ge (id : Nat) : (escAppend id).length ≤ escSize id := by
  unfold escAppend escSize
  repeat' split
  all_goals first | (simp; done) | omega | (simp only [List.length_nil]; omega)

example : escSize CUP = 3 ∧ (escAppend CUP).length = 3 := by decide

theorem itoaNat_length_le (n k : Nat) (hk : 1 ≤ k) (h : n < 10 ^ k) : (itoaNat n).length ≤ k := by
  induction k generalizing n with
  | zero => omega
  | succ k ih =>
    rw [itoaNat]; split
    · simp
    · rename_i hn
      have : 1 ≤ k := by
        rcases k with _ | k
        · simp at h; omega
        · omega
      have := ih (n / 10) this (by rw [Nat.pow_succ] at h; omega)
      simp; omega

/-- **C10** for sequences (part proved): the size is never below the encoded
length as long as every number takes at most nine characters, however many
arguments there are.
Missing: longer numbers, see `seq_size_too_small`. -/
theorem seqSize_ge_partial {id : Nat} (hid : 0xEF80 < id ∧ id < 0xEFFF) (calls : List Call)
    (hi : ∀ i ∈ allInts calls, -99999999 ≤ i ∧ i ≤ 999999999) :
    ∃ s enc, build id calls = some s ∧ s.append = some enc ∧ enc.length ≤ s.size := by
  obtain ⟨s, h1, h2⟩ := build_rep_csi hid calls
  have he := seq_build_csi hid calls
  rw [h1] at he
  refine ⟨s, _, h1, he, ?_⟩
  have hb := h2.b.count
  have hn := h2.i.count
  rw [Seq.size, h2.id, if_neg (by omega), hb, hn]
  have hj : (joinInts (allInts calls)).length ≤ 10 * (allInts calls).length := by
    generalize allInts calls = is at hi
    have hlen : ∀ i : Int, -99999999 ≤ i ∧ i ≤ 999999999 → (itoa i).length ≤ 9 := by
      intro i h
      unfold itoa
      split
      · have := itoaNat_length_le i.natAbs 8 (by omega) (by omega)
        simp; omega
      · exact itoaNat_length_le i.natAbs 9 (by omega) (by omega)
    cases is with
    | nil => simp [joinInts]
    | cons a t =>
      rw [joinInts_cons]
      have ha := hlen a (hi a (by simp))
      have ht : (t.flatMap (fun v => 0x3B :: itoa v)).length ≤ 10 * t.length := by
        have hi' : ∀ i ∈ t, -99999999 ≤ i ∧ i ≤ 999999999 := fun i h => hi i (by simp [h])
        clear hi
        induction t with
        | nil => simp
        | cons b t ih =>
          have := hlen b (hi' b (by simp))
          have := ih (fun i h => hi' i (by simp [h]))
          simp at *; omega
      simp at *; omega
  simp; omega

example : (build SGR [.ints [999999999, -99999999]]).bind
    (fun s => s.append.map (fun e => (e.length, s.size))) = some (22, 24) := by decide +kernel

/-- Negation for **C10**: three ten-digit numbers need more bytes than `Size`. -/
theorem seq_size_too_small :
    (build SGR [.ints [1000000000, 1000000000, 1000000000]]).bind
      (fun s => s.append.map (fun e => (e.length, s.size))) = some (35, 34) := by decide +kernel

end Anansi
