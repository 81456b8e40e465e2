import Verif.Model.DecodeCmd
import Verif.Props.SgrDecode
import Verif.Props.SgrName
import Verif.Props.InputDecode
/-
C102: what the decode command prints.
-/
set_option autoImplicit false

namespace Anansi
namespace Dcm
open Sgr Vt Anansi.Spec Inp

namespace Spec

/-- The name of a string's introducer. -/
def introName : Nat → String
  | 0x90 => "<DCS>" | 0x9D => "<OSC>" | 0x9E => "<PM>" | _ => "<APC>"

/-- A note: a name and, quoted, what comes with it. -/
def noted (fm : Fmt) (nm : Bytes) (a : Bytes) : Bytes :=
  ascii "[ansi:" ++ nm ++ (if a = [] then [] else ascii " " ++ fm.quote a) ++ ascii "]"

/-- What an SGR sequence with the given parameters is printed as. -/
def sgrNote (fm : Fmt) (a : Bytes) : Bytes :=
  match (decode a).err with
  | none => ascii "[ansi:SGR " ++ attrString (decode a).val ++ ascii "]"
  | some x => ascii "[ansi:SGR ERR:" ++ fm.err x ++ ascii " " ++ fm.quote a ++ ascii "]"

/-- What is to be printed for an item: characters as they are, and notes, unless those are stripped.
A C1 control that begins nothing, sent as two bytes, is printed as a character. -/
def shown (fm : Fmt) (strip : Bool) : InItem → Bytes
  | .rune r => encodeRune r
  | .csi _ arg f => if strip then [] else if f = 0x6D then sgrNote fm arg else noted fm (ascii "CSI+" ++ [f]) arg
  | .str _ r body _ => if strip then [] else noted fm (ascii (introName r)) (encodeRunes body)
  | .esc f => if 0x40 ≤ f.toNat ∧ f.toNat ≤ 0x5F then encodeRune (0x40 + f.toNat)
    else if strip then [] else noted fm (ascii "ESC+" ++ [f]) []

end Spec

/-! ### The loop -/

theorem step_progress (fm : Fmt) (strip full : Bool) (p q o : Bytes) (hp : p ≠ [])
    (h : step fm strip full p = (q, some o)) : q.length < p.length := by
  obtain ⟨h1, h2, h3, h4⟩ := decodeEscape_progress p hp
  have hpos : 0 < p.length := List.length_pos_iff.mpr hp
  unfold step at h
  simp only at h
  split at h
  · split at h
    · simp at h
    · split at h
      · simp at h
      · injection h with h _; subst h
        have := decodeRune_width_le ((decodeEscape p).buf.drop (decodeEscape p).n)
        simp only [List.length_drop] at this ⊢; omega
  · rename_i he
    injection h with h _; subst h
    have := h3 he
    simp only [List.length_drop]; omega

theorem loop_fuel (fm : Fmt) (strip full : Bool) (n : Nat) : ∀ (p : Bytes) (f : Nat), p.length ≤ n → p.length ≤ f →
    loop fm strip full f p = loop fm strip full n p := by
  induction n with
  | zero =>
    intro p f h _
    obtain rfl : p = [] := List.length_eq_zero_iff.mp (by omega)
    cases f <;> rfl
  | succ n ih =>
    intro p f h1 h2
    by_cases hp : p = []
    · subst hp; cases f <;> rfl
    · have hpos : 0 < p.length := List.length_pos_iff.mpr hp
      obtain ⟨f, rfl⟩ : ∃ g, f = g + 1 := ⟨f - 1, by omega⟩
      simp only [loop, if_neg hp]
      cases hs : step fm strip full p with
      | mk q o =>
        cases o with
        | none => rfl
        | some ev =>
          have := step_progress fm strip full p q ev hp hs
          simp only
          rw [ih q f (by omega) (by omega)]

theorem batch_out (fm : Fmt) (strip full : Bool) (p q o : Bytes) (hp : p ≠ []) (h : step fm strip full p = (q, some o)) :
    batch fm strip full p = (o ++ (batch fm strip full q).1, (batch fm strip full q).2) := by
  have hq := step_progress fm strip full p q o hp h
  obtain ⟨n, hn⟩ : ∃ n, p.length = n + 1 := ⟨p.length - 1, by omega⟩
  rw [batch, hn, loop, if_neg hp, h]
  simp only
  rw [batch, loop_fuel fm strip full q.length q n (Nat.le_refl _) (by omega)]

theorem batch_stop (fm : Fmt) (strip full : Bool) (p q : Bytes) (hp : p ≠ []) (h : step fm strip full p = (q, none)) :
    batch fm strip full p = ([], q) := by
  obtain ⟨n, hn⟩ : ∃ n, p.length = n + 1 := ⟨p.length - 1, by have := List.length_pos_iff.mpr hp; omega⟩
  rw [batch, hn, loop, if_neg hp, h]

/-! ### Items -/

theorem name_csi (fm : Fmt) (f : UInt8) (h : 0x40 ≤ f.toNat ∧ f.toNat ≤ 0x7E) :
    name fm (0xEF80 + f.toNat) = ascii "CSI+" ++ [f] := by
  unfold name escString
  rw [if_neg (by omega), if_neg (by omega), if_neg (by omega), if_neg (by omega), if_pos (by omega)]
  have : UInt8.ofNat ((0xEF80 + f.toNat) % 128) = f := by
    apply UInt8.toNat_inj.mp; rw [UInt8.toNat_ofNat']; omega
  rw [this]; rfl

theorem name_esc (fm : Fmt) (f : UInt8) (h : 0x30 ≤ f.toNat ∧ f.toNat ≤ 0x7E) :
    name fm (0xEF00 + f.toNat) = ascii "ESC+" ++ [f] := by
  unfold name escString
  rw [if_neg (by omega), if_neg (by omega), if_neg (by omega), if_pos (by omega)]
  have : UInt8.ofNat ((0xEF00 + f.toNat) % 256) = f := by
    apply UInt8.toNat_inj.mp; rw [UInt8.toNat_ofNat']; omega
  rw [this]; rfl

theorem name_str (fm : Fmt) (r : Nat) (h : r = 0x90 ∨ r = 0x9D ∨ r = 0x9E ∨ r = 0x9F) :
    name fm r = ascii (Spec.introName r) := by
  have hc : ∀ r ∈ [0x90, 0x9D, 0x9E, 0x9F], (c1Names[r - 0x80]?).getD [] = ascii (Spec.introName r) := by decide +kernel
  have := hc r (by simpa using h)
  unfold name escString
  rw [if_neg (by omega), if_neg (by omega), if_pos (by omega), this]

theorem note_noted (fm : Fmt) (strip : Bool) (e : Nat) (a : Bytes) (he : e ≠ csiId 0x6D) :
    note fm strip e a = if strip then [] else Spec.noted fm (name fm e) a := by
  unfold note Spec.noted
  cases strip
  · simp only [Bool.false_eq_true, if_false, if_neg he]
    by_cases ha : a = []
    · simp [ha]
    · simp [ha]
  · rfl

/-- An item at the front is taken and printed. -/
theorem step_item (fm : Fmt) (strip full : Bool) (i : InItem) (h : i.Ok) (rest : Bytes) :
    i.bytes ++ rest ≠ [] ∧ step fm strip full (i.bytes ++ rest) = (rest, some (Spec.shown fm strip i)) := by
  have hdec := Inp.decode_item i h { buf := i.bytes ++ rest, ateof := true } rest rfl
  have hne : i.bytes ++ rest ≠ [] := by
    intro hh
    rw [Input.decode] at hdec
    simp [hh] at hdec
  refine ⟨hne, ?_⟩
  cases i with
  | rune r =>
    obtain ⟨h1, h2, h3⟩ := plain_intro h
    have hd := decodeRune_encodeRune r h1 rest
    have ha : ansiDecodeRune (encodeRune r ++ rest) = (r, (encodeRune r).length) :=
      ansiDecodeRune_not_esc hd h2
    have hhead : (encodeRune r ++ rest).head? ≠ some 0x1B := by
      intro h; rw [head_esc_decode h] at hd; simp at hd; exact h2 hd.1.symm
    have he : decodeEscape (encodeRune r ++ rest) = ⟨0, [], 0, encodeRune r ++ rest⟩ := by
      unfold introducer at h3
      unfold decodeEscape
      rw [ha]
      simp only
      rw [if_neg h2, if_neg (by omega), if_neg (by omega)]
      unfold decodeEscapeNone; rw [if_neg hhead]
    unfold introducer at h3
    show step fm strip full (encodeRune r ++ rest) = _
    unfold step
    simp only [he, if_true, List.drop_zero, hd, List.drop_left]
    rw [if_neg (by omega), if_neg (by omega)]
    rfl
  | csi c1 arg f =>
    obtain ⟨ha, hf⟩ := h
    have hs : (InItem.csi c1 arg f).bytes ++ rest = c1Bytes c1 0x9B ++ ((arg ++ [f]) ++ rest) := by
      simp [InItem.bytes]
    have hd := decodeEscape_intro c1 0x9B (by decide) ((arg ++ [f]) ++ rest)
    have hc : decodeCSI ((arg ++ [f]) ++ rest) = some (csiId f, arg, arg.length + 1) := by
      have := decodeCSI_args arg f rest ha hf; simpa using this
    have hai : afterIntro 0x9B ((arg ++ [f]) ++ rest) = some (csiId f, arg, arg.length + 1) := by
      unfold afterIntro; rw [if_pos rfl, hc]
    rw [hai] at hd
    simp only at hd
    have hl := c1Bytes_length c1 0x9B (by decide)
    rw [hs]
    unfold step
    simp only [hd]
    rw [if_neg (by unfold csiId; omega)]
    rw [← List.append_assoc, List.drop_left' (by simp [hl])]
    have hid : csiId f = 0xEF80 + f.toNat := by unfold csiId; omega
    by_cases hm : f = 0x6D
    · subst hm
      simp only [note, Spec.shown, Spec.sgrNote, if_true]
      cases strip <;> rfl
    · have hfn : f.toNat ≠ 0x6D := fun k => hm (UInt8.toNat_inj.mp k)
      have hid2 : csiId f ≠ csiId 0x6D := by
        rw [hid]
        have : csiId 0x6D = 0xEF80 + 0x6D := rfl
        rw [this]; omega
      rw [note_noted fm strip _ _ hid2, hid, name_csi fm f hf]
      simp only [Spec.shown, if_neg hm]
  | str c1 r body st1 =>
    obtain ⟨hr, hb⟩ := h
    have hi : introducer r := by unfold introducer; tauto
    have hs : (InItem.str c1 r body st1).bytes ++ rest =
        c1Bytes c1 r ++ (encodeRunes body ++ (c1Bytes st1 0x9C ++ rest)) := by simp [InItem.bytes]
    have hd := decodeEscape_intro c1 r hi (encodeRunes body ++ (c1Bytes st1 0x9C ++ rest))
    have hai : afterIntro r (encodeRunes body ++ (c1Bytes st1 0x9C ++ rest)) =
        some (r, encodeRunes body, (encodeRunes body).length + 2) := by
      unfold afterIntro; rw [if_neg (by omega), decodeString_body st1 rest body hb]; rfl
    rw [hai] at hd
    simp only at hd
    have hl := c1Bytes_length c1 r hi
    have hl2 : (c1Bytes st1 0x9C).length = 2 := by cases st1 <;> rfl
    rw [hs]
    unfold step
    simp only [hd]
    rw [if_neg (by omega)]
    rw [← List.append_assoc, ← List.append_assoc, List.drop_left' (by simp [hl, hl2])]
    have hid2 : r ≠ csiId 0x6D := by
      have : csiId 0x6D = 0xEF80 + 0x6D := rfl
      rw [this]; omega
    rw [note_noted fm strip _ _ hid2, name_str fm r hr]
    rfl
  | esc f =>
    obtain ⟨hf, hn⟩ := h
    simp only [List.mem_cons, List.not_mem_nil, or_false, not_or] at hn
    show step fm strip full (0x1B :: f :: rest) = _
    by_cases hc : 0x40 ≤ f.toNat ∧ f.toNat ≤ 0x5F
    · have ha := ansiDecodeRune_esc_c1 f rest hc
      have hd : decodeEscape (0x1B :: f :: rest) = ⟨0, [], 0, encodeRune (0x80 + f.toNat % 32) ++ rest⟩ := by
        unfold decodeEscape
        rw [ha]
        simp only
        rw [if_neg (by omega), if_neg (by omega), if_neg (by omega)]
        rfl
      have hr := decodeRune_encodeRune (0x80 + f.toNat % 32) (by unfold validRune; simp; omega) rest
      unfold step
      simp only [hd, if_true, List.drop_zero, hr, List.drop_left]
      rw [if_neg (by omega), if_neg (by omega)]
      simp only [Spec.shown, if_pos hc]
      rw [show 0x80 + f.toNat % 32 = 0x40 + f.toNat by omega]
    · have hd := decodeEscape_esc (p := rest) f (by omega) (by omega)
      have he : decodeESC (0x1B :: f :: rest) = ⟨0xEF00 + f.toNat, [], 2, 0x1B :: f :: rest⟩ := by
        simp only [decodeESC, List.take_succ_cons, List.take_zero, List.drop_succ_cons, List.drop_zero,
          List.length_cons, decodeESCLoop, decodeRune_ascii f rest (by omega)]
        rw [if_neg (by simp [runeError]; omega), if_neg (by omega),
          if_pos (by omega)]
        simp only [List.tail_cons, List.length_nil, List.nil_append]
        congr 1
        omega
      unfold step
      rw [hd, he]
      simp only
      rw [if_neg (by omega)]
      have hid2 : 0xEF00 + f.toNat ≠ csiId 0x6D := by
        have : csiId 0x6D = 0xEF80 + 0x6D := rfl
        rw [this]; omega
      rw [note_noted fm strip _ _ hid2, name_esc fm f hf]
      simp only [Spec.shown, if_neg hc, List.drop_succ_cons, List.drop_zero]

theorem batch_items (fm : Fmt) (strip full : Bool) (is : List InItem) (h : ∀ i ∈ is, i.Ok) (rest : Bytes) :
    batch fm strip full (is.flatMap InItem.bytes ++ rest) =
      (is.flatMap (Spec.shown fm strip) ++ (batch fm strip full rest).1, (batch fm strip full rest).2) := by
  induction is with
  | nil => rfl
  | cons i l ih =>
    obtain ⟨h1, h2⟩ := step_item fm strip full i (h i (by simp)) (l.flatMap InItem.bytes ++ rest)
    rw [List.flatMap_cons, List.append_assoc, batch_out _ _ _ _ _ _ h1 h2, ih (fun j hj => h j (by simp [hj]))]
    simp

/-! ### Reads -/

/-- A beginning of an item stays in the buffer, in its short form. -/
theorem batch_held (fm : Fmt) (strip full : Bool) (part : Bytes) (h : Held full part) :
    batch fm strip full part = ([], norm part) := by
  rcases h with rfl | ⟨hf, rfl⟩ | ⟨i, intro, hok, hi, h1, h2, h3⟩
  · rfl
  · subst hf
    apply batch_stop _ _ _ _ _ (by simp)
    unfold step
    rw [show decodeEscape [0x1B] = ⟨0, [], 0, [0x1B]⟩ by decide +kernel]
    simp [decodeRune_ascii (0x1B : UInt8) [] (by decide), norm]
  · obtain ⟨c1, r, t, hr, rfl, hb, hcut⟩ := intro_of i hok intro hi
    obtain ⟨q, rfl⟩ := h1
    rw [hb] at h2 h3
    have hq : q <+: t := (List.prefix_append_right_inj _).mp h2
    have hn := hcut q hq (fun hx => h3 (by rw [hx]))
    have hd := decodeEscape_intro c1 r hr q
    rw [hn] at hd
    simp only at hd
    have hl := c1Bytes_length c1 r hr
    have hv : validRune r = true := by unfold introducer at hr; unfold validRune; simp; omega
    have hdr := decodeRune_encodeRune r hv q
    apply batch_stop _ _ _ _ _ (by intro h; have := congrArg List.length h; simp [hl] at this)
    unfold step
    simp only [hd, if_true, List.drop_zero, hdr, norm_intro c1 r hr q]
    rw [if_pos]
    unfold introducer at hr
    tauto

/-- Both forms of an introducer are treated alike. -/
theorem batch_forms (fm : Fmt) (strip full : Bool) (c1 : Bool) (r : Nat) (h : introducer r) (t : Bytes) :
    batch fm strip full (c1Bytes c1 r ++ t) = batch fm strip full (encodeRune r ++ t) := by
  have h1 := decodeEscape_intro c1 r h t
  have h2 := decodeEscape_intro true r h t
  have e : c1Bytes true r = encodeRune r := rfl
  rw [e] at h2
  have l1 := c1Bytes_length c1 r h
  have l2 := c1Bytes_length true r h
  rw [e] at l2
  have n1 : c1Bytes c1 r ++ t ≠ [] := by intro h; have := congrArg List.length h; simp [l1] at this
  have n2 : encodeRune r ++ t ≠ [] := by intro h; have := congrArg List.length h; simp [l2] at this
  have hst : step fm strip full (c1Bytes c1 r ++ t) = step fm strip full (encodeRune r ++ t) := by
    cases ha : afterIntro r t with
    | none =>
      rw [ha] at h1 h2
      simp only at h1 h2
      unfold step
      rw [h1, h2]
    | some x =>
      obtain ⟨e', a, n⟩ := x
      rw [ha] at h1 h2
      simp only at h1 h2
      have d1 : (c1Bytes c1 r ++ t).drop (2 + n) = t.drop n := by
        rw [← List.drop_drop, ← l1, List.drop_left]
      have d2 : (encodeRune r ++ t).drop (2 + n) = t.drop n := by
        rw [← List.drop_drop, ← l2, List.drop_left]
      have he : e' ≠ 0 := by
        unfold afterIntro at ha
        split at ha
        · unfold decodeCSI at ha
          split at ha
          · simp at ha
          · injection ha with ha; injection ha with ha _; rw [← ha]; unfold csiId; omega
        · cases hs : decodeString t with
          | none => simp [hs] at ha
          | some y =>
            simp [hs] at ha
            rw [← ha.1]; unfold introducer at h; omega
      unfold step
      rw [h1, h2]
      simp only [if_neg he, d1, d2]
  cases hs : step fm strip full (encodeRune r ++ t) with
  | mk q o =>
    cases o with
    | none => rw [batch_stop _ _ _ _ _ n1 (hst.trans hs), batch_stop _ _ _ _ _ n2 hs]
    | some o => rw [batch_out _ _ _ _ _ _ n1 (hst.trans hs), batch_out _ _ _ _ _ _ n2 hs]

/-- Having been normalised makes no difference later. -/
theorem batch_norm (fm : Fmt) (strip full full' : Bool) (part c : Bytes) (h : Held full' part) :
    batch fm strip full (norm part ++ c) = batch fm strip full (part ++ c) := by
  rcases h with rfl | ⟨hf, rfl⟩ | ⟨i, intro, hok, hi, h1, h2, h3⟩
  · rfl
  · rfl
  · obtain ⟨c1, r, t, hr, rfl, hb, hcut⟩ := intro_of i hok intro hi
    obtain ⟨q, rfl⟩ := h1
    rw [norm_intro c1 r hr q, List.append_assoc, List.append_assoc]
    exact (batch_forms fm strip full c1 r hr (q ++ c)).symm

/-- Reads that end where items end, or with a beginning of an item that may end a read (`Held`):
`held` is what is left from before, `left` what is left at the end. -/
inductive Cuts : Bytes → List InItem → List Read → Bytes → Prop
  | last (held : Bytes) (r : Read) (is : List InItem) (left : Bytes)
      (h : held ++ r.data = is.flatMap InItem.bytes ++ left) (hh : Held r.full left) (he : r.err.isSome) :
      Cuts held is [r] left
  | more (held : Bytes) (r : Read) (is js : List InItem) (held' left : Bytes) (rs : List Read)
      (h : held ++ r.data = is.flatMap InItem.bytes ++ held') (hh : Held r.full held') (he : r.err = none)
      (rest : Cuts held' js rs left) : Cuts held (is ++ js) (r :: rs) left

theorem runs (fm : Fmt) (strip : Bool) {held left : Bytes} {is : List InItem} {rs : List Read}
    (hc : Cuts held is rs left) : (∀ i ∈ is, i.Ok) → ∀ full', Held full' held →
    runBatch fm strip (norm held) rs =
      some (is.flatMap (Spec.shown fm strip), norm left, rs.getLast?.bind (·.err)) := by
  induction hc with
  | last held r is left h hh he =>
    intro hok full' hp
    obtain ⟨e, hee⟩ := Option.isSome_iff_exists.mp he
    simp only [runBatch, hee, List.getLast?_singleton, Option.bind_some]
    rw [batch_norm fm strip r.full full' held _ hp, h, batch_items fm strip r.full is hok,
      batch_held fm strip r.full left hh]
    simp
  | more held r is js held' left rs h hh he rest ih =>
    intro hok full' hp
    have ih := ih (fun i hi => hok i (by simp [hi])) r.full hh
    simp only [runBatch, he]
    rw [batch_norm fm strip r.full full' held _ hp, h, batch_items fm strip r.full is (fun i hi => hok i (by simp [hi])),
      batch_held fm strip r.full held' hh]
    simp only [ih, Option.map_some, List.append_nil, List.flatMap_append]
    have : rs ≠ [] := by cases rest <;> simp
    rw [List.getLast?_cons_of_ne_nil this]

/-- **C102** (part proved): whatever items the input consists of, and however it is cut into reads —
between items, and anywhere inside control sequences and control strings once their introducer has
been read — everything is printed, in order: characters as they are, and a note in place of each
escape sequence, or nothing if those are to be stripped.  Only a beginning of an item at the end of
the input is left over.
Missing: the other cuts, for which it is false: `split_rune`, `split_escape`. -/
theorem decoded_partial (fm : Fmt) (strip : Bool) (is : List InItem) (rs : List Read) (left : Bytes)
    (hc : Cuts [] is rs left) (h : ∀ i ∈ is, i.Ok) :
    ∃ e, runBatch fm strip [] rs = some (is.flatMap (Spec.shown fm strip), norm left, e) :=
  ⟨_, runs fm strip hc h false (Or.inl rfl)⟩

/-- Two characters, a colour and a title, cut inside the colour and inside the title. -/
def sample : List InItem := [.rune 0x61, .csi false [0x31, 0x3B, 0x33, 0x31] 0x6D, .rune 0xE9, .str false 0x9D [0x68, 0x69] false]

def sampleReads : List Read := [⟨[0x61, 0x1B, 0x5B, 0x31], false, none⟩, ⟨[0x3B, 0x33, 0x31, 0x6D, 0xC3, 0xA9, 0x1B, 0x5D, 0x68], false, none⟩,
  ⟨[0x69, 0x1B, 0x5C], false, none⟩, ⟨[], false, some none⟩]

/-- A `fmt` for examples. -/
def plainFmt : Fmt := ⟨fun b => 0x22 :: b ++ [0x22], fun _ => [], fun _ => [], fun _ => [], fun _ _ => []⟩

example : Cuts [] sample sampleReads [] ∧ ∀ i ∈ sample, i.Ok := by
  refine ⟨.more [] _ [.rune 0x61] _ [0x1B, 0x5B, 0x31] [] _ (by decide +kernel)
    (Or.inr (Or.inr ⟨.csi false [0x31, 0x3B, 0x33, 0x31] 0x6D, [0x1B, 0x5B], ⟨by decide, by decide⟩, rfl, by decide, by decide, by decide⟩)) rfl
    (.more _ _ [.csi false [0x31, 0x3B, 0x33, 0x31] 0x6D, .rune 0xE9] _ [0x1B, 0x5D, 0x68] [] _ (by decide +kernel)
      (Or.inr (Or.inr ⟨.str false 0x9D [0x68, 0x69] false, [0x1B, 0x5D], ⟨by decide, by decide⟩, rfl, by decide, by decide, by decide⟩)) rfl
      (.more _ _ [.str false 0x9D [0x68, 0x69] false] [] [] [] _ (by decide +kernel) (Or.inl rfl) rfl
        (.last [] _ [] [] rfl (Or.inl rfl) rfl))), ?_⟩
  simp only [sample, List.mem_cons, List.not_mem_nil, or_false, forall_eq_or_imp, forall_eq]
  exact ⟨(by decide : plainRune 0x61), ⟨by decide, by decide⟩, (by decide : plainRune 0xE9), ⟨by decide, by decide⟩⟩

example : runBatch plainFmt false [] sampleReads =
    some (ascii "a[ansi:SGR bold fg:red]" ++ [0xC3, 0xA9] ++ ascii "[ansi:<OSC> \"hi\"]", [], some none) := by decide +kernel

/-- **C102**: an SGR sequence with any parameters that are understood is printed as the words for what
it sets. -/
theorem sgr_noted (fm : Fmt) (c1 : Bool) (l : List SgrParam) (h : ∀ p ∈ l, p.Known) :
    Spec.shown fm false (.csi c1 (params (sgrCodes l)) 0x6D) =
      ascii ("[ansi:SGR " ++ Sgr.Spec.spaced (Sgr.Spec.words (l.foldl stepStyle {})) ++ "]") := by
  simp only [Spec.shown, Bool.false_eq_true, if_false, if_true, Spec.sgrNote, decode_params l h]
  rw [attr_printed, ascii_append, ascii_append]

example : Sgr.Spec.spaced (Sgr.Spec.words ([SgrParam.plain 0, .plain 1, .plain 34].foldl stepStyle {})) =
    "clear bold fg:blue" := by decide +kernel

/-- **C102** (part proved): when escape sequences are stripped, just the characters are left.
Missing: C1 controls that begin nothing, sent as two bytes, which are kept (`c1_kept`). -/
theorem stripped_partial (fm : Fmt) (is : List InItem) (rs : List Read) (left : Bytes)
    (hc : Cuts [] is rs left) (h : ∀ i ∈ is, i.Ok) (hn : ∀ f, .esc f ∈ is → ¬ (0x40 ≤ f.toNat ∧ f.toNat ≤ 0x5F)) :
    ∃ e, runBatch fm true [] rs =
      some (encodeRunes (is.filterMap fun i => match i with | .rune r => some r | _ => none), norm left, e) := by
  obtain ⟨e, he⟩ := decoded_partial fm true is rs left hc h
  refine ⟨e, ?_⟩
  rw [he]
  congr 2
  clear he hc h
  induction is with
  | nil => rfl
  | cons i l ih =>
    have ih := ih (fun f hf => hn f (by simp [hf]))
    rw [List.flatMap_cons, ih]
    cases i with
    | rune r => simp [Spec.shown, encodeRunes]
    | csi c1 a f => simp [Spec.shown]
    | str c1 r b s => simp [Spec.shown]
    | esc f => simp [Spec.shown, hn f (by simp)]

/-! ### What goes wrong -/

/-- C102, negation: stripping keeps C1 controls: `ESC M` comes out as U+008D, not as nothing, and
without stripping there is no note of it. -/
theorem c1_kept (fm : Fmt) (strip : Bool) : batch fm strip false [0x1B, 0x4D] = (encodeRune 0x8D, []) := by
  have := batch_items fm strip false [.esc 0x4D] (by simp only [List.mem_singleton]; rintro i rfl; exact ⟨by decide, by decide⟩) []
  exact this

/-- C102, negation: a character split by two reads comes out as replacement characters. -/
theorem split_rune (fm : Fmt) (strip : Bool) :
    runBatch fm strip [] [⟨[0xC3], false, none⟩, ⟨[0xA9], false, none⟩, ⟨[], false, some none⟩] =
      some (encodeRune 0xFFFD ++ encodeRune 0xFFFD, [], some none) := by
  have e1 : decodeEscape [0xC3] = ⟨0, [], 0, [0xC3]⟩ := by decide +kernel
  have e2 : decodeEscape [0xA9] = ⟨0, [], 0, [0xA9]⟩ := by decide +kernel
  have d1 : decodeRune [0xC3] = (0xFFFD, 1) := by decide +kernel
  have d2 : decodeRune [0xA9] = (0xFFFD, 1) := by decide +kernel
  simp [runBatch, batch, loop, step, e1, e2, d1, d2]

/-- C102, negation: an escape sequence split after its ESC is not recognised, and its ESC is written
out, even when escape sequences are to be stripped — unless the ESC is the last byte there was room
for. -/
theorem split_escape (fm : Fmt) :
    runBatch fm true [] [⟨[0x1B], false, none⟩, ⟨[0x5B, 0x6D], false, none⟩, ⟨[], false, some none⟩] =
      some ([0x1B, 0x5B, 0x6D], [], some none) ∧
    runBatch fm true [] [⟨[0x1B], true, none⟩, ⟨[0x5B, 0x6D], false, none⟩, ⟨[], false, some none⟩] =
      some ([], [], some none) := by
  have e1 : decodeEscape [0x1B] = ⟨0, [], 0, [0x1B]⟩ := by decide +kernel
  have e2 : decodeEscape [0x5B, 0x6D] = ⟨0, [], 0, [0x5B, 0x6D]⟩ := by decide +kernel
  have e3 : decodeEscape [0x6D] = ⟨0, [], 0, [0x6D]⟩ := by decide +kernel
  have e4 : decodeEscape [0x1B, 0x5B, 0x6D] = ⟨csiId 0x6D, [], 3, [0x1B, 0x5B, 0x6D]⟩ := by decide +kernel
  have d1 : decodeRune [0x1B] = (0x1B, 1) := by decide +kernel
  have d2 : decodeRune [0x5B, 0x6D] = (0x5B, 1) := by decide +kernel
  have d3 : decodeRune [0x6D] = (0x6D, 1) := by decide +kernel
  have n1 : encodeRune 0x1B = [0x1B] := by decide +kernel
  have n2 : encodeRune 0x5B = [0x5B] := by decide +kernel
  have n3 : encodeRune 0x6D = [0x6D] := by decide +kernel
  have n4 : csiId 0x6D ≠ 0 := by decide
  constructor
  · simp [runBatch, batch, loop, step, e1, e2, e3, d1, d2, d3, n1, n2, n3]
  · simp [runBatch, batch, loop, step, e1, e4, d1, note, n4]

/-- C102, negation: an escape sequence that is cancelled at the end of what has been read gives a
replacement character that stands for nothing. -/
theorem cancel_replaced (fm : Fmt) (strip : Bool) : batch fm strip false [0x1B, 0x28, 0x18] = (encodeRune 0xFFFD, []) := by
  have e1 : decodeEscape [0x1B, 0x28, 0x18] = ⟨0, [], 3, [0x1B, 0x28, 0x18]⟩ := by decide +kernel
  have d1 : decodeRune [] = (0xFFFD, 0) := by decide +kernel
  simp [batch, loop, step, e1, d1]

/-- C102, negation: after a control string that has an invalid byte nothing more is printed, whatever
follows, be it the end of the string: all is kept in the buffer. -/
theorem bad_string_blocks (fm : Fmt) (strip full : Bool) (rest : Bytes) :
    batch fm strip full ([0x1B, 0x5D, 0xFF] ++ rest) = ([], [0xC2, 0x9D, 0xFF] ++ rest) := by
  have h := decodeEscape_intro false 0x9D (by decide) (0xFF :: rest)
  have hr : decodeRune (0xFF :: rest) = (0xFFFD, 1) := by simp [decodeRune, runeError]
  have hs : decodeString (0xFF :: rest) = none := by
    unfold decodeString
    rw [decodeStringFrom]
    simp only [List.drop_zero]
    rw [ansiDecodeRune_not_esc hr (by decide)]
    simp [runeError]
  have ha : afterIntro 0x9D (0xFF :: rest) = none := by
    unfold afterIntro; rw [if_neg (by decide), hs]; rfl
  rw [ha] at h
  simp only at h
  have e : encodeRune 0x9D = [0xC2, 0x9D] := by decide +kernel
  have hc : c1Bytes false 0x9D = [0x1B, 0x5D] := by decide +kernel
  rw [e, hc] at h
  apply batch_stop _ _ _ _ _ (by simp)
  unfold step
  have h' : decodeEscape ([0x1B, 0x5D, 0xFF] ++ rest) = ⟨0, [], 0, [0xC2, 0x9D] ++ 0xFF :: rest⟩ := h
  have hd : decodeRune ([0xC2, 0x9D] ++ 0xFF :: rest) = (0x9D, 2) := by
    have := decodeRune_encodeRune 0x9D (by decide) (0xFF :: rest)
    rw [e] at this; exact this
  simp only [h', if_true, List.drop_zero, hd]
  rw [if_pos (by decide)]
  rfl

/-- C102: the program never exits with success, if it reads to the end of its input: that end is
returned as an error, whatever the input. -/
theorem exit_fails (fm : Fmt) (strip : Bool) (buf : Bytes) (rs : List Read) (out left : Bytes)
    (err : Option (Option Int)) (h : runBatch fm strip buf rs = some (out, left, err)) :
    ∃ c, mustRun err = some c ∧ c ≠ 0 := by
  induction rs generalizing buf out left err with
  | nil => simp [runBatch] at h
  | cons r rs ih =>
    simp only [runBatch] at h
    cases he : r.err with
    | some e =>
      rw [he] at h
      simp only [Option.some.injEq, Prod.mk.injEq] at h
      rw [← h.2.2]
      cases e with
      | none => exact ⟨1, rfl, by decide⟩
      | some c =>
        by_cases hc : c = 0
        · exact ⟨1, by simp [mustRun, hc], by decide⟩
        · exact ⟨c, by simp [mustRun, hc], hc⟩
    | none =>
      rw [he] at h
      simp only [Option.map_eq_some_iff] at h
      obtain ⟨⟨o, l, e⟩, h1, h2⟩ := h
      simp only [Prod.mk.injEq] at h2
      rw [← h2.2.2]
      exact ih _ _ _ _ h1

example : (runBatch plainFmt false [] [⟨[0x61], false, none⟩, ⟨[], false, some none⟩]).map (·.1) = some [0x61] := by
  decide +kernel

/-- C102: `MustRun` goes on exactly when there is no error, and otherwise exits with the error's
code — but with 1 if that code is 0. -/
theorem must_run (err : Option (Option Int)) :
    (mustRun err = none ↔ err = none) ∧ mustRun err ≠ some 0 ∧
      (∀ c, c ≠ 0 → mustRun (some (some c)) = some c) ∧ mustRun (some (some 0)) = some 1 := by
  refine ⟨?_, ?_, fun c hc => by simp [mustRun, hc], rfl⟩
  · cases err with
    | none => simp [mustRun]
    | some e =>
      cases e with
      | none => simp [mustRun]
      | some c => by_cases hc : c = 0 <;> simp [mustRun, hc]
  · cases err with
    | none => simp [mustRun]
    | some e =>
      cases e with
      | none => simp [mustRun]
      | some c => by_cases hc : c = 0 <;> simp [mustRun, hc]

/-! ### Interactively -/

namespace Spec

/-- The keys among the things that happen; an interrupt counts as Ctrl-C. -/
def keys : List Ev → List Nat
  | [] => []
  | .interrupt :: l => 3 :: keys l
  | .input e _ :: l => e :: keys l
  | _ :: l => keys l

/-- What a key does, after another; `ok`: suspending works. -/
def act (ok : Bool) (p e : Nat) : Act :=
  if p = 3 ∧ e = 3 then .quit else if p = 0x0C ∧ e = 0x0C then .clear
  else if p = 0x1A ∧ e = 0x1A then (if ok then .suspend else .quit) else .go

/-- Keys that end the program: Ctrl-C twice in a row, and Ctrl-Z twice if suspending fails. -/
def Ends (ok : Bool) (ks : List Nat) : Prop := [3, 3] <:+: ks ∨ (ok = false ∧ [0x1A, 0x1A] <:+: ks)

/-- What is said about a key, after another: mouse reports in detail, and hints in colour. -/
def hint (fm : Fmt) (p e : Nat) (a : Bytes) : Bytes :=
  if e = 0xEF80 + 0x4D ∨ e = 0xEF80 + 0x6D then fm.mouse e a
  else if e = 3 then ascii " \x1b[91m<press Ctrl-C again to quit>\x1b[0m"
  else if e = 0x0C then
    (if p = 0x0C then ascii "\x1b[2J\x1b[H" else ascii " \x1b[93m<press Ctrl-L again to quit>\x1b[0m")
  else if e = 0x1A ∧ p ≠ 0x1A then ascii " \x1b[92m<press Ctrl-Z again to suspend>\x1b[0m"
  else []

/-- A line for a key: its code point, its name, its arguments if any, and what is said about it. -/
def line (fm : Fmt) (p e : Nat) (a : Bytes) : Bytes :=
  fm.point e ++ [0x20] ++ name fm e ++ (if a = [] then [] else [0x20] ++ fm.quote a) ++ hint fm p e a ++ [0x0D, 0x0A]

/-- The lines for all that happens. -/
def lines (fm : Fmt) : Nat → List Ev → Bytes
  | _, [] => []
  | p, .interrupt :: l => line fm p 3 [] ++ lines fm 3 l
  | p, .input e a :: l => line fm p e a ++ lines fm e l
  | p, .resize t :: l => t ++ lines fm p l
  | p, _ :: l => lines fm p l

end Spec

theorem act_quit (ok : Bool) (p e : Nat) :
    Spec.act ok p e = .quit ↔ (p = 3 ∧ e = 3) ∨ (ok = false ∧ p = 0x1A ∧ e = 0x1A) := by
  unfold Spec.act
  by_cases h : p = 3 ∧ e = 3
  · simp [h]
  · rw [if_neg h]
    by_cases h2 : p = 0x0C ∧ e = 0x0C
    · simp [h2]
    · rw [if_neg h2]
      by_cases h3 : p = 0x1A ∧ e = 0x1A
      · cases ok <;> simp [h3]
      · rw [if_neg h3]
        simp only [reduceCtorEq, false_iff]
        intro hh
        rcases hh with hh | hh
        · exact h hh
        · exact h3 hh.2

theorem handle_act (fm : Fmt) (ok : Bool) (p e : Nat) (a : Bytes) :
    (handle fm ok p e a).2.1 = Spec.act ok p e ∧
      (Spec.act ok p e ≠ .quit → (handle fm ok p e a).2.2 = e ∧ (handle fm ok p e a).1 = Spec.line fm p e a) := by
  have c1 : csiId 0x4D = 0xEFCD := rfl
  have c2 : csiId 0x6D = 0xEFED := rfl
  have hgo : e ≠ 3 → e ≠ 0x0C → e ≠ 0x1A → Spec.act ok p e = .go := by
    intro a b c; unfold Spec.act
    rw [if_neg (by omega), if_neg (by omega), if_neg (by omega)]
  have hq : (if a ≠ [] then 0x20 :: fm.quote a else []) = (if a = [] then [] else [0x20] ++ fm.quote a) := by
    by_cases ha : a = [] <;> simp [ha]
  unfold handle Spec.line
  simp only [c1, c2, hq]
  generalize (if a = [] then [] else [0x20] ++ fm.quote a) = qa
  by_cases h0 : e = 0xEFCD ∨ e = 0xEFED
  · rw [if_pos h0, hgo (by omega) (by omega) (by omega)]
    have : Spec.hint fm p e a = fm.mouse e a := by unfold Spec.hint; rw [if_pos (by omega)]
    simp [this]
  rw [if_neg h0]
  by_cases h1 : e = 3
  · subst h1
    by_cases hp : p = 3 <;> simp [Spec.act, Spec.hint, hp]
  rw [if_neg h1]
  by_cases h2 : e = 0x0C
  · subst h2
    by_cases hp : p = 0x0C <;> simp [Spec.act, Spec.hint, hp]
  rw [if_neg h2]
  by_cases h3 : e = 0x1A
  · subst h3
    by_cases hp : p = 0x1A <;> cases ok <;> simp [Spec.act, Spec.hint, hp]
  rw [if_neg h3, hgo h1 h2 h3]
  have : Spec.hint fm p e a = [] := by
    unfold Spec.hint
    rw [if_neg (by omega), if_neg h1, if_neg h2, if_neg (by omega)]
  simp [this]

theorem pair_infix (k p e : Nat) (l : List Nat) :
    [k, k] <:+: p :: e :: l ↔ (p = k ∧ e = k) ∨ [k, k] <:+: e :: l := by
  rw [List.infix_cons_iff]
  constructor
  · rintro (h | h)
    · left
      rw [List.cons_prefix_cons, List.cons_prefix_cons] at h
      exact ⟨h.1.symm, h.2.1.symm⟩
    · exact Or.inr h
  · rintro (⟨rfl, rfl⟩ | h)
    · left; exact ⟨l, rfl⟩
    · exact Or.inr h

theorem ends_cons (ok : Bool) (p e : Nat) (l : List Nat) :
    Spec.Ends ok (p :: e :: l) ↔ Spec.act ok p e = .quit ∨ Spec.Ends ok (e :: l) := by
  unfold Spec.Ends
  rw [act_quit, pair_infix, pair_infix]
  tauto

theorem ends_one (ok : Bool) (p : Nat) : ¬ Spec.Ends ok [p] := by
  rintro (h | ⟨_, h⟩) <;> · have := h.length_le; simp at this

theorem interact_from (fm : Fmt) (ok : Bool) (l : List Ev) (hs : .stop ∉ l) (he : .inputErr ∉ l) : ∀ p,
    ((interact fm ok p l).2.2 = true ↔ Spec.Ends ok (p :: Spec.keys l)) ∧
    (¬ Spec.Ends ok (p :: Spec.keys l) →
      (interact fm ok p l).2.1 = List.zipWith (Spec.act ok) (p :: Spec.keys l) (Spec.keys l) ∧
      (interact fm ok p l).1 = Spec.lines fm p l) := by
  induction l with
  | nil =>
    intro p
    simp [interact, Spec.keys, ends_one, Spec.lines]
  | cons x l ih =>
    intro p
    have ih := ih (fun h => hs (by simp [h])) (fun h => he (by simp [h]))
    have key : ∀ (e : Nat) (a : Bytes), let r : Bytes × List Act × Bool :=
        (let h := handle fm ok p e a
         if h.2.1 = .quit then (h.1, [.quit], true)
         else let r := interact fm ok h.2.2 l; (h.1 ++ r.1, h.2.1 :: r.2.1, r.2.2))
        (r.2.2 = true ↔ Spec.Ends ok (p :: e :: Spec.keys l)) ∧
        (¬ Spec.Ends ok (p :: e :: Spec.keys l) →
          r.2.1 = List.zipWith (Spec.act ok) (p :: e :: Spec.keys l) (e :: Spec.keys l) ∧
          r.1 = Spec.line fm p e a ++ Spec.lines fm e l) := by
      intro e a
      obtain ⟨h1, h2⟩ := handle_act fm ok p e a
      simp only
      by_cases hq : Spec.act ok p e = .quit
      · rw [if_pos (h1.trans hq)]
        have hi : Spec.Ends ok (p :: e :: Spec.keys l) := (ends_cons ok p e _).mpr (Or.inl hq)
        exact ⟨by simp [hi], fun h => absurd hi h⟩
      · obtain ⟨h3, h4⟩ := h2 hq
        rw [if_neg (fun h => hq (h1.symm.trans h)), h3, h4]
        obtain ⟨i1, i2⟩ := ih e
        simp only [ends_cons, hq, false_or]
        refine ⟨i1, fun h => ?_⟩
        rw [(i2 h).1, (i2 h).2, h1]; exact ⟨rfl, rfl⟩
    cases x with
    | stop => exact absurd (by simp) hs
    | inputErr => exact absurd (by simp) he
    | resize t =>
      obtain ⟨i1, i2⟩ := ih p
      refine ⟨i1, fun h => ⟨(i2 h).1, ?_⟩⟩
      simp only [interact, Spec.lines, (i2 h).2]
    | interrupt => exact key 3 []
    | input e a => exact key e a

/-- **C102**: interactively, as long as neither a signal nor an error ends it, the program ends when,
and only when, Ctrl-C comes twice in a row, as keys or as interrupts, or Ctrl-Z comes twice in a row
and suspending fails; until then a second Ctrl-L in a row clears the screen, a second Ctrl-Z suspends,
and nothing else does; and there is a line for every key. -/
theorem interactive (fm : Fmt) (ok : Bool) (l : List Ev) (hs : .stop ∉ l) (he : .inputErr ∉ l) :
    ((interact fm ok 0 l).2.2 = true ↔ Spec.Ends ok (Spec.keys l)) ∧
    (¬ Spec.Ends ok (Spec.keys l) →
      (interact fm ok 0 l).2.1 = List.zipWith (Spec.act ok) (0 :: Spec.keys l) (Spec.keys l) ∧
      (interact fm ok 0 l).1 = Spec.lines fm 0 l) := by
  have h := interact_from fm ok l hs he 0
  have : Spec.Ends ok (0 :: Spec.keys l) ↔ Spec.Ends ok (Spec.keys l) := by
    cases hk : Spec.keys l with
    | nil =>
      refine ⟨fun h => absurd h (ends_one ok 0), ?_⟩
      rintro (h | ⟨_, h⟩) <;> · have := h.length_le; simp at this
    | cons e t => rw [ends_cons, act_quit]; simp
  rwa [this] at h

example : (interact plainFmt true 0 [.input 0x1A [], .resize [], .input 0x1A [], .input 0x1A [], .interrupt, .input 0x61 [],
    .interrupt]).2 = ([.go, .suspend, .suspend, .go, .go, .go], false) := by decide +kernel

/-- **C102**: signals to stop and errors of the input end it at once. -/
theorem interactive_stops (fm : Fmt) (ok : Bool) (l t : List Ev) (x : Ev) (h : x = .stop ∨ x = .inputErr) : ∀ p,
    (interact fm ok p (l ++ x :: t)).2.2 = true := by
  induction l with
  | nil => intro p; rcases h with rfl | rfl <;> rfl
  | cons y l ih =>
    intro p
    cases y with
    | stop => rfl
    | inputErr => rfl
    | resize t => exact ih p
    | interrupt =>
      simp only [List.cons_append, interact]
      split
      · rfl
      · exact ih _
    | input e a =>
      simp only [List.cons_append, interact]
      split
      · rfl
      · exact ih _

/-- C102, negation: pressing Ctrl-L once announces that pressing it again will quit; it clears the
screen. -/
theorem clear_says_quit (fm : Fmt) (ok : Bool) :
    (∃ pre post, (handle fm ok 0 0x0C []).1 = pre ++ ascii "<press Ctrl-L again to quit>" ++ post) ∧
      (handle fm ok 0x0C 0x0C []).2.1 = .clear := by
  refine ⟨⟨fm.point 0x0C ++ 0x20 :: name fm 0x0C ++ ascii " \x1b[93m", ascii "\x1b[0m" ++ [0x0D, 0x0A], ?_⟩, rfl⟩
  have c1 : csiId 0x4D = 0xEFCD := rfl
  have c2 : csiId 0x6D = 0xEFED := rfl
  have e : ascii " \x1b[93m<press Ctrl-L again to quit>\x1b[0m" =
      ascii " \x1b[93m" ++ (ascii "<press Ctrl-L again to quit>" ++ ascii "\x1b[0m") := by decide +kernel
  unfold handle
  simp [c1, c2, e]

end Dcm
end Anansi
