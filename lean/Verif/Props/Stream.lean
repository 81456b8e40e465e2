import Verif.Lemmas.Process
import Verif.Props.Sgr
import Verif.Props.Sequences
import Verif.Spec.Stream
import Mathlib.Data.List.Induction
/-
C11 UTF-8 text is decoded faithfully.
C14 Output stream decodes to what was written.
C15 Processing is independent of write chunking.
C16 Processing never wedges or hangs.
C17 Buffer offset stays inside the buffer.
-/
set_option autoImplicit false

namespace Anansi
open Spec

theorem plain_intro {r : Nat} (h : plainRune r) : validRune r = true ∧ r ≠ 0x1B ∧ ¬ introducer r := by
  obtain ⟨h1, h2⟩ := h
  unfold startsEscape at h2
  refine ⟨h1, by omega, ?_⟩
  unfold introducer; omega

/-- **C11** for valid text: any string of plain runes is delivered rune by rune,
in order, and used up completely; the same holds in front of any further bytes. -/
theorem text_faithful (rs : List Nat) (h : ∀ r ∈ rs, plainRune r) :
    process (encodeRunes rs) = ⟨rs.map (·, []), encodeRunes rs, []⟩ := by
  induction rs with
  | nil => rfl
  | cons r t ih =>
    have ⟨h1, h2, h3⟩ := plain_intro (h r (by simp))
    have ih := ih (fun x hx => h x (by simp [hx]))
    have : encodeRunes (r :: t) = encodeRune r ++ encodeRunes t := rfl
    rw [this, process_rune r h1 h2 h3, ih]
    rfl

/-- `Aé漢😀` and a newline. -/
example : ∀ r ∈ [0x41, 0xE9, 0x6F22, 0x1F600, 0x0A], plainRune r := by decide
example : (process (encodeRunes [0x41, 0xE9, 0x6F22, 0x1F600, 0x0A])).events =
    [(0x41, []), (0xE9, []), (0x6F22, []), (0x1F600, []), (0x0A, [])] := by decide +kernel

/-- A piece of a byte string: an encoded rune, or one byte where none starts. -/
inductive Piece
  | good (r : Nat)
  | bad (b : UInt8)

def Piece.bytes : Piece → Bytes
  | .good r => encodeRune r
  | .bad b => [b]
def Piece.event : Piece → Event
  | .good r => (r, [])
  | .bad _ => (0xFFFD, [])

/-- A parse of a byte string: plain runes where one starts, bad bytes only where
no rune's encoding starts. -/
inductive Parsed : List Piece → Bytes → Prop
  | nil : Parsed [] []
  | good {r ps t} : plainRune r → Parsed ps t → Parsed (.good r :: ps) (encodeRune r ++ t)
  | bad {b ps t} : (∀ r, validRune r = true → ¬ encodeRune r <+: b :: t) → Parsed ps t →
      Parsed (.bad b :: ps) (b :: t)

theorem decodeRune_bad (b : UInt8) (t : Bytes) (h : ∀ r, validRune r = true → ¬ encodeRune r <+: b :: t) :
    decodeRune (b :: t) = (0xFFFD, 1) := by
  rcases decodeRune_cases (b :: t) with ⟨h', _⟩ | ⟨_, e⟩ | ⟨r, rest, hv, hp, _⟩
  · simp at h'
  · exact e
  · exact absurd ⟨rest, hp.symm⟩ (h r hv)

theorem process_bad (b : UInt8) (t : Bytes) (h : ∀ r, validRune r = true → ¬ encodeRune r <+: b :: t) :
    process (b :: t) = ⟨(0xFFFD, []) :: (process t).events, b :: (process t).done, (process t).rest⟩ := by
  have hd := decodeRune_bad b t h
  have hb : b ≠ 0x1B := by
    rintro rfl; rw [decodeRune_ascii _ _ (by decide)] at hd; simp at hd
  have ha : ansiDecodeRune (b :: t) = (0xFFFD, 1) := ansiDecodeRune_not_esc hd (by decide)
  have he : decodeEscape (b :: t) = ⟨0, [], 0, b :: t⟩ := by
    unfold decodeEscape
    rw [ha]
    simp only
    rw [if_neg (by decide), if_neg (by decide), if_neg (by decide)]
    unfold decodeEscapeNone; rw [if_neg (by simpa using hb)]
  rw [process_eq]
  unfold processStep
  rw [if_neg (by simp)]
  simp only [he, ne_eq, not_true_eq_false, if_false, List.drop_zero, hd, List.take_zero]
  rw [if_neg (by decide)]
  simp

/-- **C11** for any bytes: however a byte string parses into plain runes and bad
bytes, exactly those are delivered in order, each bad byte as one replacement
rune, and every byte is used. -/
theorem bytes_faithful {ps : List Piece} {p : Bytes} (h : Parsed ps p) :
    process p = ⟨ps.map Piece.event, p, []⟩ := by
  induction h with
  | nil => rfl
  | good hr _ ih =>
    have ⟨h1, h2, h3⟩ := plain_intro hr
    rw [process_rune _ h1 h2 h3, ih]; rfl
  | bad hb _ ih => rw [process_bad _ _ hb, ih]; rfl

/-- Bytes that begin an escape: ESC, or the two bytes of a C1 introducer. -/
def NoIntroducer (p : Bytes) : Prop := ∀ r, startsEscape r → ¬ encodeRune r <:+: p

/-- **C11**: every byte string without escape introducers has such a parse. -/
theorem bytes_parse (p : Bytes) (h : NoIntroducer p) : ∃ ps, Parsed ps p := by
  have key : ∀ n (p : Bytes), p.length = n → NoIntroducer p → ∃ ps, Parsed ps p := by
    intro n
    induction n using Nat.strongRecOn with
    | _ n ih =>
      intro p hn h
      have sub : ∀ a t, p = a ++ t → NoIntroducer t := by
        rintro a t rfl r hr hi
        exact h r hr (hi.trans (List.suffix_append _ _).isInfix)
      rcases decodeRune_cases p with ⟨h', _⟩ | ⟨h', e⟩ | ⟨r, rest, hv, hp, _⟩
      · exact ⟨[], h' ▸ .nil⟩
      · cases p with
        | nil => simp at h'
        | cons b t =>
          by_cases hx : ∃ r rest, validRune r = true ∧ b :: t = encodeRune r ++ rest
          · obtain ⟨r, rest, hv, hp⟩ := hx
            have hpos := encodeRune_length_pos r
            obtain ⟨ps, hps⟩ := ih rest.length (by rw [← hn, hp]; simp; omega) rest rfl (sub _ _ hp)
            refine ⟨.good r :: ps, hp ▸ .good ⟨hv, fun hr => ?_⟩ hps⟩
            exact h r hr (hp ▸ (List.prefix_append _ _).isInfix)
          · obtain ⟨ps, hps⟩ := ih t.length (by simp at hn; omega) t rfl (sub [b] t rfl)
            refine ⟨.bad b :: ps, .bad (fun r hv ⟨rest, hp⟩ => hx ⟨r, rest, hv, hp.symm⟩) hps⟩
      · have hpos := encodeRune_length_pos r
        obtain ⟨ps, hps⟩ := ih rest.length (by rw [← hn, hp]; simp; omega) rest rfl (sub _ _ hp)
        refine ⟨.good r :: ps, hp ▸ .good ⟨hv, fun hr => ?_⟩ hps⟩
        exact h r hr (hp ▸ (List.prefix_append _ _).isInfix)
  exact key _ p rfl h

/-- A stray continuation byte, `A`, a truncated rune and `B`. -/
example : process [0x80, 0x41, 0xE2, 0x82, 0x42] =
    ⟨[(0xFFFD, []), (0x41, []), (0xFFFD, []), (0xFFFD, []), (0x42, [])], [0x80, 0x41, 0xE2, 0x82, 0x42], []⟩ := by
  decide +kernel

/-! ### C14 -/

/-- The bytes the code writes for an item; `none` would be a panic. -/
def Item.bytes : Item → Option Bytes
  | .rune r => some (encodeRune r)
  | .csi f arg => some (escAppendWith (csiId f) arg)
  | .seq f calls => (build (csiId f) calls).bind Seq.append
  | .sgr s => some (if s.build = 0 then [] else Sgr.append s.build)

/-- The bytes written for a list of items, one after the other. -/
def writeItems : List Item → Option Bytes
  | [] => some []
  | i :: t => i.bytes.bind fun b => (writeItems t).map (b ++ ·)

/-- The events that an item means: nothing for the empty style, otherwise
exactly one, with the item's own identifier and argument.  A style's argument
decodes to that style (unless concealed, see C01). -/
def Item.Means : Item → List Event → Prop
  | .rune r, ev => ev = [(r, [])]
  | .csi f arg, ev => ev = [(csiId f, arg)]
  | .seq f calls, ev => ev = [(csiId f, allBytes calls ++ joinInts (allInts calls))]
  | .sgr s, ev => if s = {} then ev = [] else
      ∃ arg, ev = [(csiId 0x6D, arg)] ∧
        (s.conceal = false → Sgr.decode arg = ⟨s.build, arg.length, none⟩)

/-- The events that a list of items means, in order. -/
inductive Mean : List Item → List Event → Prop
  | nil : Mean [] []
  | cons {i t a b} : i.Means a → Mean t b → Mean (i :: t) (a ++ b)

/-- `u` is always decoded to `ev`, whatever follows. -/
def Delivers (u : Bytes) (ev : List Event) : Prop :=
  ∀ rest, process (u ++ rest) =
    ⟨ev ++ (process rest).events, u ++ (process rest).done, (process rest).rest⟩

theorem Delivers.nil : Delivers [] [] := fun _ => rfl

theorem Delivers.append {u v : Bytes} {a b : List Event} (h1 : Delivers u a) (h2 : Delivers v b) :
    Delivers (u ++ v) (a ++ b) := by
  intro rest
  rw [List.append_assoc, h1, h2]; simp

theorem Delivers.all {u : Bytes} {a : List Event} (h : Delivers u a) : process u = ⟨a, u, []⟩ := by
  have := h []; rw [List.append_nil] at this; rw [this, process_nil]; simp

theorem delivers_csi (f : UInt8) (arg : Bytes) (hf : 0x40 ≤ f.toNat ∧ f.toNat ≤ 0x7E)
    (ha : ∀ b ∈ arg, 0x20 ≤ b.toNat ∧ b.toNat ≤ 0x3F) :
    Delivers (0x1B :: 0x5B :: (arg ++ [f])) [(csiId f, arg)] := by
  intro rest
  have h := decodeEscape_csi arg f rest ha hf
  have e : (0x1B :: 0x5B :: (arg ++ [f]) : Bytes) ++ rest = 0x1B :: 0x5B :: (arg ++ f :: rest) := by simp
  rw [process_escape (by simp) (e := csiId f) (a := arg) ?_ (by unfold csiId; omega)]
  · simp
  · rw [e]
    simpa using h

theorem csi_final {f : UInt8} (hf : 0x40 ≤ f.toNat ∧ f.toNat ≤ 0x7E) :
    0xEF80 < csiId f ∧ csiId f < 0xEFFF ∧ UInt8.ofNat (csiId f % 128) = f := by
  refine ⟨by unfold csiId; omega, by unfold csiId; omega, u8_ofNat_eq (b := f) (by unfold csiId; omega)⟩

theorem itoaNat_range (n : Nat) : ∀ b ∈ itoaNat n, 0x20 ≤ b.toNat ∧ b.toNat ≤ 0x3F := by
  intro b hb; have := itoaNat_digits n b hb; omega

theorem joinInts_range (is : List Int) : ∀ b ∈ joinInts is, 0x20 ≤ b.toNat ∧ b.toNat ≤ 0x3F := by
  have hi : ∀ i : Int, ∀ b ∈ itoa i, 0x20 ≤ b.toNat ∧ b.toNat ≤ 0x3F := by
    intro i b hb
    unfold itoa at hb
    split at hb
    · simp at hb; rcases hb with rfl | hb
      · decide
      · exact itoaNat_range _ b hb
    · exact itoaNat_range _ b hb
  cases is with
  | nil => simp [joinInts]
  | cons a t =>
    rw [joinInts_cons]
    intro b hb
    simp only [List.mem_append, List.mem_flatMap, List.mem_cons] at hb
    rcases hb with hb | ⟨v, _, rfl | hb⟩
    · exact hi a b hb
    · decide
    · exact hi v b hb

theorem sgr_frame (s : Sgr.Style) : ∃ arg, (∀ b ∈ arg, 0x20 ≤ b.toNat ∧ b.toNat ≤ 0x3F) ∧
    Sgr.append s.build = 0x1B :: 0x5B :: (arg ++ [0x6D]) := by
  by_cases h0 : s.build = 0
  · exact ⟨[0x30], by decide, by rw [h0]; decide⟩
  · by_cases h1 : s.build = Sgr.clear
    · exact ⟨[0x30], by decide, by rw [h1]; decide⟩
    · exact ⟨_, Sgr.join_range _ (Sgr.args_range s), Sgr.append_build s h0 h1⟩

theorem item_delivers (i : Item) (h : i.Ok) : ∃ u ev, i.bytes = some u ∧ i.Means ev ∧ Delivers u ev := by
  cases i with
  | rune r =>
    have ⟨h1, h2, h3⟩ := plain_intro h
    exact ⟨_, _, rfl, rfl, fun rest => process_rune r h1 h2 h3 rest⟩
  | csi f arg =>
    obtain ⟨hf, ha⟩ := h
    have ⟨h1, h2, h3⟩ := csi_final hf
    refine ⟨_, _, rfl, rfl, ?_⟩
    have : escAppendWith (csiId f) arg = 0x1B :: 0x5B :: (arg ++ [f]) := by
      unfold escAppendWith
      rw [if_neg (by omega), if_neg (by omega), if_neg (by omega), if_pos (by omega), h3]; simp
    rw [this]; exact delivers_csi f arg hf ha
  | seq f calls =>
    obtain ⟨hf, ha⟩ := h
    have ⟨h1, h2, h3⟩ := csi_final hf
    refine ⟨_, _, seq_build_csi ⟨h1, h2⟩ calls, rfl, ?_⟩
    have hd := delivers_csi f (allBytes calls ++ joinInts (allInts calls)) hf (by
      intro b hb; rw [List.mem_append] at hb
      exact hb.elim (ha b) (joinInts_range _ b))
    rw [h3]; simpa using hd
  | sgr s =>
    by_cases hs : s = {}
    · subst hs
      exact ⟨[], [], by decide, by simp [Item.Means], .nil⟩
    · have h0 : s.build ≠ 0 := fun h => hs (Sgr.build_eq_zero h)
      obtain ⟨arg, hr, ha⟩ := sgr_frame s
      refine ⟨_, [(csiId 0x6D, arg)], by rw [Item.bytes, if_neg h0], ?_, ?_⟩
      · simp only [Item.Means, if_neg hs]
        refine ⟨arg, rfl, fun hc => ?_⟩
        obtain ⟨arg', h1, h2⟩ := Sgr.sgr_roundtrip_partial s hc []
        rw [ha] at h1
        have h3 := decodeEscape_csi arg 0x6D [] hr (by decide)
        have : (0x1B :: 0x5B :: (arg ++ [0x6D]) ++ [] : Bytes) = [0x1B, 0x5B] ++ arg ++ [0x6D] ++ [] := by simp
        rw [this] at h1
        simp only [List.append_nil, List.cons_append, List.nil_append] at h1 h3
        rw [h3] at h1
        simp only [EscRes.mk.injEq] at h1
        rw [h1.2.1, h2, if_neg hs]
      · rw [ha]; exact delivers_csi 0x6D arg (by decide) hr

theorem items_deliver (is : List Item) (h : ∀ i ∈ is, i.Ok) :
    ∃ u ev, writeItems is = some u ∧ Mean is ev ∧ Delivers u ev := by
  induction is with
  | nil => exact ⟨[], [], rfl, .nil, .nil⟩
  | cons i t ih =>
    obtain ⟨u, a, h1, h2, h3⟩ := item_delivers i (h i (by simp))
    obtain ⟨v, b, h4, h5, h6⟩ := ih (fun x hx => h x (by simp [hx]))
    exact ⟨u ++ v, a ++ b, by simp [writeItems, h1, h4], .cons h2 h5, h3.append h6⟩

/-- **C14**: whatever items are written in whatever order, writing succeeds, and
processing the bytes delivers exactly the events the items mean, in order, and
uses up every byte without changing any. -/
theorem stream_decodes (is : List Item) (h : ∀ i ∈ is, i.Ok) :
    ∃ bytes ev, writeItems is = some bytes ∧ Mean is ev ∧ process bytes = ⟨ev, bytes, []⟩ := by
  obtain ⟨u, ev, h1, h2, h3⟩ := items_deliver is h
  exact ⟨u, ev, h1, h2, h3.all⟩

/-- Text directly after and before sequences. -/
def demoItems : List Item :=
  [.rune 0x6D, .sgr { bold := true, fg := some (.indexed 3) }, .rune 0x33, .seq 0x48 [.ints [12, 7]],
   .csi 0x68 [0x3F, 0x32, 0x35], .rune 0x48, .sgr {}]
example : ∀ i ∈ demoItems, i.Ok := by
  simp [demoItems, Item.Ok, Spec.allBytes]; decide
example : writeItems demoItems = some ([0x6D] ++ [0x1B, 0x5B, 0x31, 0x3B, 0x33, 0x33, 0x6D] ++ [0x33] ++
    [0x1B, 0x5B, 0x31, 0x32, 0x3B, 0x37, 0x48] ++ [0x1B, 0x5B, 0x3F, 0x32, 0x35, 0x68] ++ [0x48]) := by
  decide +kernel

/-! ### C15 -/

/-- Write one chunk and process, collecting events; `none` is a panic. -/
def feedStep (s : Option (List Event × Buffer)) (c : Bytes) : Option (List Event × Buffer) :=
  s.bind fun (ev, b) => (b.write c).process?.map fun (e, b') => (ev ++ e, b')

/-- Start with an empty buffer, write the chunks and process after each. -/
def feed (cs : List Bytes) : Option (List Event × Buffer) :=
  cs.foldl feedStep (some ([], Buffer.empty))

/-- The part of an escape sequence that has not reached its final byte. -/
def Pending (p : Bytes) : Prop := p = [] ∨ ∃ its, p = 0x1B :: its ∧ ∀ b ∈ its, 0x20 ≤ b.toNat ∧ b.toNat ≤ 0x2F

theorem process_pending {p : Bytes} (h : Pending p) : process p = ⟨[], [], p⟩ := by
  rcases h with rfl | ⟨its, rfl, hi⟩
  · rfl
  · have hd : decodeEscape (0x1B :: its) = ⟨0, [], 0, 0x1B :: its⟩ := by
      have hesc : decodeEscape (0x1B :: its) = decodeESC (0x1B :: its) := by
        cases its with
        | nil => decide +kernel
        | cons b t =>
          have := hi b (by simp)
          exact decodeEscape_esc b (by omega) (by omega)
      rw [hesc]
      unfold decodeESC
      have := decodeESCLoop_interm its hi 2 [0x1B] []
      simp only [List.append_nil] at this
      simp only [List.length_cons, List.take_succ_cons, List.take_zero, List.drop_succ_cons, List.drop_zero]
      rw [show its.length + 1 + 1 = its.length + 2 by omega, this]
      simp [decodeESCLoop, decodeRune]
    rw [process_eq]
    unfold processStep
    rw [if_neg (by simp)]
    simp [hd, decodeRune_ascii (0x1B : UInt8) its (by decide)]

theorem feed_snoc (cs : List Bytes) (c : Bytes) : feed (cs ++ [c]) = feedStep (feed cs) c := by
  unfold feed; rw [List.foldl_append]; rfl

/-- What has been written so far is whole items and possibly a pending ESC. -/
def AtBoundary (p : Bytes) : Prop :=
  ∃ is u pend, (∀ i ∈ is, i.Ok) ∧ writeItems is = some u ∧ Pending pend ∧ p = u ++ pend

theorem feed_state (cs : List Bytes) (h : ∀ k, AtBoundary (cs.take k).flatten) :
    ∀ u ev pend, Delivers u ev → Pending pend → cs.flatten = u ++ pend →
      feed cs = some (ev, ⟨cs.flatten, u.length⟩) := by
  induction cs using List.reverseRecOn with
  | nil =>
    intro u ev pend hd _ he
    have hu : u = [] := by simp at he; exact he.1
    subst hu
    have := hd []
    simp [process_nil] at this
    simp [feed, this, Buffer.empty]
  | append_singleton cs c ih =>
    intro u' ev' pend' hd' hp' he'
    have hb := h cs.length
    rw [List.take_left] at hb
    obtain ⟨is, u, pend, hok, hw, hp, he⟩ := hb
    obtain ⟨v, ev, h1, _, hd⟩ := items_deliver is hok
    have hv : v = u := by rw [h1] at hw; simpa using hw
    subst hv
    have hpre : ∀ k, AtBoundary (cs.take k).flatten := by
      intro k
      by_cases hk : k ≤ cs.length
      · have := h k
        rwa [List.take_append_of_le_length hk] at this
      · have := h cs.length
        rw [List.take_left] at this
        rwa [List.take_of_length_le (by omega)]
    have hs := ih hpre v ev pend hd hp he
    rw [feed_snoc, hs]
    have hflat : (cs ++ [c]).flatten = v ++ (pend ++ c) := by
      rw [List.flatten_append, he]; simp
    have e1 := hd (pend ++ c)
    have e2 := hd' pend'
    rw [← hflat, he', e2, process_pending hp'] at e1
    simp only [Processed.mk.injEq, List.append_nil] at e1
    have hbp : ((⟨cs.flatten, v.length⟩ : Buffer).write c).process? = some ((process ((cs.flatten ++ c).drop v.length)).events,
        ⟨(cs.flatten ++ c).take v.length ++ (process ((cs.flatten ++ c).drop v.length)).done ++
          (process ((cs.flatten ++ c).drop v.length)).rest,
          v.length + (process ((cs.flatten ++ c).drop v.length)).done.length⟩) := by
      unfold Buffer.process?
      exact if_pos (by simp [Buffer.write, he])
    simp only [feedStep, Option.bind_some, hbp]
    have hdrop : (cs.flatten ++ c).drop v.length = pend ++ c := by rw [he]; simp
    have htake : (cs.flatten ++ c).take v.length = v := by rw [he]; simp
    simp only [hdrop, htake, Option.map_some, ← e1.1, ← e1.2.2]
    rw [← e1.2.1, he']
    congr 3
    rw [e1.2.1]; simp

/-- **C15** (part proved): if every write ends at an item boundary, or inside an
escape sequence that has only got as far as its intermediate bytes, then writing
in chunks gives the same events and the same final buffer as one write.
Missing: other splits, for which it is false; see `chunking_splits_csi` and
`chunking_splits_rune`. -/
theorem chunking_partial (cs : List Bytes) (h : ∀ k, AtBoundary (cs.take k).flatten) :
    (feed cs).isSome ∧ feed cs = feed [cs.flatten] := by
  have hb := h cs.length
  rw [List.take_length] at hb
  obtain ⟨is, u, pend, hok, hw, hp, he⟩ := hb
  obtain ⟨v, ev, h1, _, hd⟩ := items_deliver is hok
  have hv : v = u := by rw [h1] at hw; simpa using hw
  subst hv
  have e1 := feed_state cs h v ev pend hd hp he
  have e2 := feed_state [cs.flatten] (by
    intro k
    cases k with
    | zero => exact ⟨[], [], [], by simp, rfl, Or.inl rfl, rfl⟩
    | succ k =>
      refine ⟨is, v, pend, hok, hw, hp, ?_⟩
      simp [he]) v ev pend hd hp (by simpa using he)
  rw [e1, e2]; simp

/-- Three writes: text and an unfinished escape, its intermediate, its end. -/
example : feed [[0x41, 0x1B], [0x20], [0x46, 0x42]] = feed [[0x41, 0x1B, 0x20, 0x46, 0x42]] := by
  decide +kernel

/-- Negation for **C15**: a control sequence split over two writes is taken apart
into text. -/
theorem chunking_splits_csi :
    feed [[0x1B, 0x5B], [0x6D]] = some ([(0x9B, []), (0x6D, [])], ⟨[0xC2, 0x9B, 0x6D], 3⟩) ∧
    feed [[0x1B, 0x5B, 0x6D]] = some ([(csiId 0x6D, [])], ⟨[0x1B, 0x5B, 0x6D], 3⟩) := by
  decide +kernel

/-- Negation for **C15**: so is a multi-byte character. -/
theorem chunking_splits_rune :
    feed [[0xC3], [0xA9]] = some ([(0xFFFD, []), (0xFFFD, [])], ⟨[0xC3, 0xA9], 2⟩) ∧
    feed [[0xC3, 0xA9]] = some ([(0xE9, [])], ⟨[0xC3, 0xA9], 2⟩) := by
  decide +kernel

/-! ### C16 -/

theorem process_esc_esc (q : Bytes) : process (0x1B :: 0x1B :: q) = ⟨[], [], 0x1B :: 0x1B :: q⟩ := by
  have hesc : decodeEscape (0x1B :: 0x1B :: q) = ⟨0, [], 0, 0x1B :: 0x1B :: q⟩ := by
    rw [decodeEscape_esc (0x1B : UInt8) (by decide) (by decide)]
    simp only [decodeESC, List.take_succ_cons, List.take_zero, List.drop_succ_cons,
      List.drop_zero, decodeESCLoop, decodeRune_ascii (0x1B : UInt8) q (by decide)]
    simp [runeError]
  rw [process_eq]
  unfold processStep
  rw [if_neg (by simp)]
  simp [hesc, decodeRune_ascii (0x1B : UInt8) _ (by decide)]

/-- Negation for **C16**: two ESC bytes in a row stop all processing for good.
Whatever is written afterwards, no event is ever delivered. -/
theorem wedged_forever (cs : List Bytes) :
    feed ([0x1B, 0x1B] :: cs) = some ([], ⟨0x1B :: 0x1B :: cs.flatten, 0⟩) := by
  induction cs using List.reverseRecOn with
  | nil => decide +kernel
  | append_singleton cs c ih =>
    rw [← List.cons_append, feed_snoc, ih]
    simp [feedStep, Buffer.write, Buffer.process?, process_esc_esc]

/-- Negation for **C16**: a complete escape right after a cancelled one is left
unprocessed when input stops there. -/
theorem cancelled_leaves_complete_escape :
    process [0x1B, 0x18, 0x1B, 0x5B, 0x6D] = ⟨[], [0x1B, 0x18], [0x1B, 0x5B, 0x6D]⟩ := by
  decide +kernel

/-- An escape whose final byte has not come yet: ESC and intermediates `i`, then
`t`, which is empty, does not start a rune, or starts another escape. -/
def Waiting (rest : Bytes) : Prop :=
  ∃ i t, rest = 0x1B :: (i ++ t) ∧ RunesOf intermRune i ∧ ¬ intermRune (decodeRune t).1 ∧
    (t = [] ∨ (decodeRune t).1 = 0xFFFD ∨ t.head? = some 0x1B)

/-- What was processed last was an escape cancelled by CAN. -/
def EndsCancelled (done : Bytes) : Prop :=
  ∃ pre i r, r ≤ 0xFF ∧ r % 128 = 0x18 ∧ done = pre ++ 0x1B :: (i ++ encodeRune r)

theorem not_interm_esc : ¬ intermRune 0x1B := by decide

/-- **C16** (part proved): processing any bytes terminates (`process` is total
and satisfies the loop's equation, `process_eq`), and it only leaves bytes over
when they are an escape still waiting for its final byte, or are an escape that
directly follows a cancelled one.
Missing: progress past the leftover, false by `wedged_forever` when it starts
with two ESC; true otherwise by `waiting_resumes_partial`. -/
theorem process_stops_partial (p : Bytes) :
    process p = processStep process p ∧
    ((process p).rest = [] ∨ Waiting (process p).rest ∨
      ((process p).rest.head? = some 0x1B ∧ EndsCancelled (process p).done)) := by
  refine ⟨process_eq p, ?_⟩
  apply process_induct (P := fun _ r => r.rest = [] ∨ Waiting r.rest ∨
      (r.rest.head? = some 0x1B ∧ EndsCancelled r.done))
  · left; rfl
  · rintro p hp he (h | h | ⟨h1, pre, i, r, h2, h3, h4⟩)
    · exact Or.inl h
    · exact Or.inr (Or.inl h)
    · refine Or.inr (Or.inr ⟨h1, (decodeEscape p).buf.take (decodeEscape p).n ++ pre, i, r, h2, h3, ?_⟩)
      simp only [h4, List.append_assoc]
  · intro p hp he hc
    rcases decodeEscape_master p hp with ⟨e, a, n, h1, h2, h3, h4, h5⟩ | ⟨h1, h5⟩ | ⟨b, t, _, h1, h2, h5⟩ |
      ⟨d, i, x, t, _, hs, hd, hi, hni, _, h5⟩
    · rw [h5] at he; exact absurd he h1
    · rw [h5] at hc
      simp only [List.drop_zero] at hc
      rw [(decodeRune_esc_head hc).1] at h1; exact absurd rfl h1
    · rw [h5] at hc
      simp only [List.drop_zero] at hc
      rw [decodeRune_encodeRune _ (by simp [validRune]; omega)] at hc
      simp only at hc; omega
    · rw [h5] at hc ⊢
      rcases escFinish_cases d i t with ⟨he, e⟩ | ⟨r, u, hv, ht, _, _, e⟩ | ⟨r, u, hv, ht, h1, h2, e⟩ |
          ⟨r, u, e0, a, _, ht, _, _, _, hE, _, ha, e⟩
      · rw [e]; right; left
        refine ⟨i, t, by simp, hi, hni, Or.inr (Or.inl he)⟩
      · rw [e] at hc ⊢
        simp only [List.append_assoc, List.drop_left] at hc ⊢
        rw [decodeRune_encodeRune _ hv] at hc
        simp only at hc; subst hc
        right; left
        have e1 : encodeRune 0x1B = [0x1B] := by decide
        refine ⟨[], 0x1B :: (i ++ u), by rw [e1]; simp, .nil, ?_, Or.inr (Or.inr rfl)⟩
        rw [decodeRune_ascii _ _ (by decide)]; exact not_interm_esc
      · rw [e] at hc ⊢
        rw [List.drop_left' rfl] at hc ⊢
        have := (decodeRune_esc_head hc).1
        right; right
        refine ⟨by rw [this]; rfl, d, i, r, h1, h2, ?_⟩
        rw [List.take_left' rfl]; simp
      · rw [h5, e] at he; have : e0 = 0 := he; omega
  · rintro p q m hp he hq hm hc (h | h | ⟨h1, pre, i, r, h2, h3, h4⟩)
    · exact Or.inl h
    · exact Or.inr (Or.inl h)
    · refine Or.inr (Or.inr ⟨h1, (decodeEscape p).buf.take (decodeEscape p).n ++ q.take m ++ pre, i, r, h2, h3, ?_⟩)
      simp only [h4, List.append_assoc]

theorem runes_unique {c : Nat → Prop} {i j t u : Bytes} (hi : RunesOf c i) (hj : RunesOf c j)
    (h : i ++ t = j ++ u) (ht : ¬ c (decodeRune t).1) (hu : ¬ c (decodeRune u).1) : i = j ∧ t = u := by
  induction hi generalizing j with
  | nil =>
    cases hj with
    | nil => exact ⟨rfl, h⟩
    | cons hv hc _ =>
      simp only [List.nil_append] at h
      rw [h, List.append_assoc, decodeRune_encodeRune _ hv] at ht
      exact absurd hc ht
  | cons hv hc _ ih =>
    cases hj with
    | nil =>
      simp only [List.nil_append] at h
      rw [← h, List.append_assoc, decodeRune_encodeRune _ hv] at hu
      exact absurd hc hu
    | cons hv' hc' hj' =>
      have h1 := congrArg decodeRune h
      rw [List.append_assoc, List.append_assoc, decodeRune_encodeRune _ hv, decodeRune_encodeRune _ hv'] at h1
      simp only [Prod.mk.injEq] at h1
      obtain ⟨rfl, _⟩ := h1
      rw [List.append_assoc, List.append_assoc, List.append_cancel_left_eq] at h
      obtain ⟨rfl, rfl⟩ := ih hj' h
      exact ⟨rfl, rfl⟩

theorem done_ne_nil (p : Bytes) (hp : p ≠ [])
    (h : 1 ≤ (decodeEscape p).n ∨
      (decodeRune ((decodeEscape p).buf.drop (decodeEscape p).n)).1 ≠ 0x1B) : (process p).done ≠ [] := by
  obtain ⟨h1, h2, h3, h4⟩ := decodeEscape_progress p hp
  have hpos : 0 < p.length := List.length_pos_iff.mpr hp
  have ht : 1 ≤ (decodeEscape p).n → (decodeEscape p).buf.take (decodeEscape p).n ≠ [] := by
    intro hn he
    have := congrArg List.length he
    simp only [List.length_take, List.length_nil] at this; omega
  rw [process_eq]
  unfold processStep
  rw [if_neg hp]
  simp only
  split
  · rename_i he
    have := ht (h3 he)
    simp [this]
  · split
    · rename_i hc
      exact ht (h.resolve_right (fun hx => hx hc))
    · rename_i hc
      intro he
      simp only [List.append_eq_nil_iff] at he
      by_cases hn : 1 ≤ (decodeEscape p).n
      · exact ht hn he.1.1
      · have hl := congrArg List.length he.1.2
        simp only [List.length_take, List.length_drop, List.length_nil] at hl
        omega

/-- **C16** (part proved): an escape waiting for its final byte is never stuck:
as soon as any rune other than ESC, an intermediate or U+FFFD follows, some bytes
are processed. -/
theorem waiting_resumes_partial (i q : Bytes) (hi : RunesOf intermRune i) (r : Nat)
    (hv : validRune r = true) (h1 : r ≠ 0x1B) (h2 : r ≠ 0xFFFD) (h3 : ¬ intermRune r) :
    (process (0x1B :: (i ++ (encodeRune r ++ q)))).done ≠ [] := by
  have hp : (0x1B :: (i ++ (encodeRune r ++ q)) : Bytes) ≠ [] := by simp
  generalize hpe : (0x1B :: (i ++ (encodeRune r ++ q)) : Bytes) = p at *
  apply done_ne_nil p hp
  rcases decodeEscape_master p hp with ⟨e, a, n, k1, k2, k3, k4, k5⟩ | ⟨k1, k5⟩ | ⟨b, t, _, k1, k2, k5⟩ |
      ⟨d, j, x, t, hp', hs, hd, hj, hnt, _, k5⟩
  · left; rw [k5]; exact k2
  · subst hpe; exact absurd rfl k1
  · right; rw [k5]
    simp only [List.drop_zero]
    rw [decodeRune_encodeRune _ (by simp [validRune]; omega)]
    simp only; omega
  · by_cases hdn : d = []
    · subst hdn
      have hx : x = j := by
        clear * - hs
        generalize hd0 : ([] : Bytes) = d at hs
        induction hs with
        | nil => rfl
        | left _ _ => simp at hd0
        | right _ ih => rw [ih hd0]
      subst hx
      rw [← hpe] at hp'
      simp only [List.cons.injEq, true_and] at hp'
      have hd0 := decodeRune_encodeRune r hv q
      obtain ⟨rfl, rfl⟩ := runes_unique hi hj hp' (by rw [hd0]; exact h3) hnt
      rw [k5]
      rcases escFinish_cases [] i (encodeRune r ++ q) with ⟨he, e⟩ | ⟨r', u, hv', ht, _, _, e⟩ |
          ⟨r', u, _, ht, _, _, e⟩ | ⟨r', u, e0, a, _, ht, _, _, _, hE, _, ha, e⟩
      · rw [hd0] at he; exact absurd he h2
      · rw [e]; right
        simp only [List.nil_append, List.length_nil, List.drop_zero, List.append_assoc]
        rw [decodeRune_encodeRune _ hv']
        have := congrArg decodeRune ht
        rw [hd0, decodeRune_encodeRune _ hv'] at this
        simp only [Prod.mk.injEq] at this
        simp only; omega
      · rw [e]; left; simp
      · rw [e]; left; simp
    · left
      rw [k5]
      have := List.length_pos_iff.mpr hdn
      rcases escFinish_cases d j t with ⟨he, e⟩ | ⟨r', u, hv', ht, _, _, e⟩ |
          ⟨r', u, _, ht, _, _, e⟩ | ⟨r', u, e0, a, _, ht, _, _, _, hE, _, ha, e⟩
      all_goals rw [e]; simp; omega

/-- ESC, space, then `F`: resumes; and a leftover that is waiting. -/
example : RunesOf intermRune [0x20] := by
  have : ([0x20] : Bytes) = encodeRune 0x20 ++ [] := by decide
  rw [this]; exact .cons (by decide) (by decide) .nil
example : process [0x41, 0x1B, 0x20] = ⟨[(0x41, [])], [0x41], [0x1B, 0x20]⟩ := by decide +kernel

/-! ### C17 -/

theorem process_length (p : Bytes) : (process p).done.length + (process p).rest.length = p.length := by
  apply process_induct (P := fun p r => r.done.length + r.rest.length = p.length)
  · rfl
  · intro p hp he ih
    obtain ⟨h1, h2, _, _⟩ := decodeEscape_progress p hp
    simp only [List.length_append, List.length_take, List.length_drop] at ih ⊢; omega
  · intro p hp he hc
    obtain ⟨h1, h2, _, _⟩ := decodeEscape_progress p hp
    simp only [List.length_take, List.length_drop]; omega
  · intro p q m hp he hq hm hc ih
    obtain ⟨h1, h2, _, _⟩ := decodeEscape_progress p hp
    have hw := decodeRune_width_le q
    have hl : q.length = (decodeEscape p).buf.length - (decodeEscape p).n := by rw [hq]; simp
    simp only [List.length_append, List.length_take, List.length_drop] at ih ⊢; omega

/-- Operations on a buffer.  `writeSkip p k` writes `p` and skips `k` of its
bytes; `flush n` is `WriteTo` with a destination that accepts at most `n`. -/
inductive BufOp
  | write (p : Bytes)
  | writeSkip (p : Bytes) (k : Nat)
  | process
  | discard
  | reset
  | flush (n : Nat)

/-- Only just-written bytes are skipped. -/
def BufOp.Ok : BufOp → Prop
  | .writeSkip p k => k ≤ p.length
  | _ => True

/-- A buffer together with the number of bytes that have left it and a record
of which bytes, counted from the first ever written, were processed when. -/
structure Traced where
  b : Buffer := Buffer.empty
  gone : Nat := 0
  spans : List (Nat × Nat) := []

/-- One operation; `none` is a panic. -/
def Traced.step (s : Traced) : BufOp → Option Traced
  | .write p => some { s with b := s.b.write p }
  | .writeSkip p k => some { s with b := (s.b.write p).skip k }
  | .process => s.b.process?.map fun (_, b') =>
      { s with b := b', spans := s.spans ++ [(s.gone + s.b.off, s.gone + b'.off)] }
  | .discard => some { s with b := s.b.discard, gone := s.gone + (s.b.buf.length - s.b.discard.buf.length) }
  | .reset => some { s with b := s.b.reset, gone := s.gone + s.b.buf.length }
  | .flush n =>
    let k := min n s.b.buf.length
    some { s with b := s.b.writeTo k, gone := s.gone + k }

def Traced.run (ops : List BufOp) : Option Traced :=
  ops.foldl (fun s op => s.bind (·.step op)) (some {})

theorem run_snoc (ops : List BufOp) (op : BufOp) :
    Traced.run (ops ++ [op]) = (Traced.run ops).bind (·.step op) := by
  unfold Traced.run; rw [List.foldl_append]; rfl

/-- **C17**: whatever the operations, none panics, the processed offset stays
inside the buffer, and the spans processed by successive calls never overlap and
only move forward, so no byte is processed twice. -/
theorem buffer_offset (ops : List BufOp) (h : ∀ op ∈ ops, op.Ok) :
    ∃ s, Traced.run ops = some s ∧ s.b.off ≤ s.b.buf.length ∧
      s.spans.Pairwise (fun x y => x.2 ≤ y.1) ∧
      ∀ x ∈ s.spans, x.1 ≤ x.2 ∧ x.2 ≤ s.gone + s.b.buf.length := by
  suffices hh : ∃ s, Traced.run ops = some s ∧ s.b.off ≤ s.b.buf.length ∧
      s.spans.Pairwise (fun x y => x.2 ≤ y.1) ∧
      ∀ x ∈ s.spans, x.1 ≤ x.2 ∧ x.2 ≤ s.gone + s.b.off by
    obtain ⟨s, h1, h2, h3, h4⟩ := hh
    exact ⟨s, h1, h2, h3, fun x hx => ⟨(h4 x hx).1, by have := (h4 x hx).2; omega⟩⟩
  induction ops using List.reverseRecOn with
  | nil => exact ⟨{}, rfl, by simp [Buffer.empty], .nil, by simp⟩
  | append_singleton ops op ih =>
    obtain ⟨s, h1, h2, h3, h4⟩ := ih (fun x hx => h x (by simp [hx]))
    have hok := h op (by simp)
    rw [run_snoc, h1, Option.bind_some]
    cases op with
    | write p => exact ⟨_, rfl, by simp [Buffer.write]; omega, h3, h4⟩
    | writeSkip p k =>
      simp only [BufOp.Ok] at hok
      refine ⟨_, rfl, by simp [Buffer.write, Buffer.skip]; omega, h3, fun x hx => ?_⟩
      have := h4 x hx
      simp only [Buffer.write, Buffer.skip]; omega
    | process =>
      simp only [Traced.step, Buffer.process?, if_pos h2, Option.map_some]
      have hl := process_length (s.b.buf.drop s.b.off)
      rw [List.length_drop] at hl
      refine ⟨_, rfl, ?_, ?_, ?_⟩
      · simp only [List.length_append, List.length_take]; omega
      · simp only [List.pairwise_append]
        refine ⟨h3, by simp, fun x hx y hy => ?_⟩
        simp only [List.mem_singleton] at hy; subst hy
        exact (h4 x hx).2
      · intro x hx
        simp only [List.mem_append, List.mem_singleton] at hx
        rcases hx with hx | rfl
        · have := h4 x hx; simp only; omega
        · simp only; omega
    | discard =>
      simp only [Traced.step, Buffer.discard]
      split
      · refine ⟨_, rfl, by simp, h3, fun x hx => ?_⟩
        have := h4 x hx
        simp only [List.length_drop]; omega
      · refine ⟨_, rfl, h2, h3, fun x hx => ?_⟩
        have := h4 x hx
        simp only; omega
    | reset =>
      refine ⟨_, rfl, by simp [Buffer.reset], h3, fun x hx => ?_⟩
      have := h4 x hx
      simp only [Buffer.reset]; omega
    | flush n =>
      refine ⟨_, rfl, ?_, h3, fun x hx => ?_⟩
      · simp only [Buffer.writeTo, List.length_drop]; omega
      · have := h4 x hx
        simp only [Buffer.writeTo]; omega

/-- A history with a skip, a short flush and a pending escape. -/
example : (Traced.run [.write [0x41, 0x42], .process, .writeSkip [0x43, 0x44] 2, .write [0x45, 0x1B],
    .flush 3, .process, .write [0x4D], .discard, .process]).map (fun s => (s.b, s.gone, s.spans)) =
    some (⟨[0xC2, 0x8D], 2⟩, 5, [(0, 2), (4, 5), (5, 7)]) := by decide +kernel

end Anansi
