import Verif.Model.To24
import Verif.Props.SgrDecode
import Verif.Props.Colors
import Verif.Props.InputDecode
import Verif.Model.EscName
/-
C76: the filter that makes colours 24-bit keeps everything else.
-/
set_option autoImplicit false

namespace Anansi
namespace T24
open Sgr Vt Anansi.Spec

/-! ### The loop -/

theorem step_progress (eof : Bool) (p q : Bytes) (ev : Event) (hp : p ≠ [])
    (h : step eof p = (q, some ev)) : q.length < p.length := by
  obtain ⟨h1, h2, h3, h4⟩ := decodeEscape_progress p hp
  have hpos : 0 < p.length := List.length_pos_iff.mpr hp
  unfold step at h
  simp only at h
  split at h
  · split at h
    · simp at h
    · injection h with h _; subst h
      have := decodeRune_width_le ((decodeEscape p).buf.drop (decodeEscape p).n)
      simp only [List.length_drop] at this ⊢; omega
  · rename_i he
    injection h with h _; subst h
    have := h3 he
    simp only [List.length_drop]; omega

theorem loop_fuel (eof : Bool) (n : Nat) : ∀ (p : Bytes) (f : Nat), p.length ≤ n → p.length ≤ f →
    loop eof f p = loop eof n p := by
  induction n with
  | zero =>
    intro p f h _
    obtain rfl : p = [] := List.length_eq_zero_iff.mp (by omega)
    cases f <;> rfl
  | succ n ih =>
    intro p f h1 h2
    by_cases hp : p = []
    · subst hp; cases f <;> rfl
    · have hpos : 0 < p.length := List.length_pos_iff.mpr hp
      obtain ⟨f, rfl⟩ : ∃ g, f = g + 1 := ⟨f - 1, by omega⟩
      simp only [loop, if_neg hp]
      cases hs : step eof p with
      | mk q o =>
        cases o with
        | none => rfl
        | some ev =>
          have := step_progress eof p q ev hp hs
          simp only
          rw [ih q f (by omega) (by omega)]

theorem loop_event (eof : Bool) (p q : Bytes) (ev : Event) (hp : p ≠ []) (h : step eof p = (q, some ev)) :
    processMore eof p = (convert ev ++ (processMore eof q).1, (processMore eof q).2) := by
  have hq := step_progress eof p q ev hp h
  obtain ⟨n, hn⟩ : ∃ n, p.length = n + 1 := ⟨p.length - 1, by omega⟩
  rw [processMore, hn, loop, if_neg hp, h]
  simp only
  rw [processMore, loop_fuel eof q.length q n (Nat.le_refl _) (by omega)]

/-- What input decoding at the end of a file takes, the filter takes. -/
theorem step_of_decode (eof : Bool) (p q : Bytes) (ev : Event) (s : Inp.Input) (hb : s.buf = p)
    (he : s.ateof = true) (h : s.decode = ({ s with buf := q }, some ev)) (h1 : ev.1 ≠ 0x1B)
    (ha : ∀ d, d = decodeEscape p → d.e = 0 → d.arg = []) :
    p ≠ [] ∧ step eof p = (q, some ev) := by
  subst hb
  unfold Inp.Input.decode at h
  split at h
  · simp at h
  · rename_i hp
    refine ⟨hp, ?_⟩
    simp only at h
    unfold step
    simp only
    split at h
    · rename_i h0
      rw [if_neg h0]
      injection h with h2 h3
      injection h2 with _ _ _ _ _ h4 _ _
      rw [h4, ← Option.some.inj h3]
    · rename_i h0
      have h0 : (decodeEscape s.buf).e = 0 := Classical.not_not.mp h0
      rw [if_pos h0]
      split at h
      · simp at h
      · simp only [he, Bool.not_true, Bool.false_and, Bool.false_eq_true, if_false] at h
        injection h with h2 h3
        injection h2 with _ _ _ _ _ h4 _ _
        have h3 := Option.some.inj h3
        rw [← h3] at h1
        rw [if_neg (fun k => h1 k.1), h4, ha _ rfl h0, h3]

theorem esc_loop_arg (f : Nat) : ∀ pre mid rest, (decodeESCLoop f pre mid rest).e = 0 →
    (decodeESCLoop f pre mid rest).arg = [] := by
  induction f with
  | zero => intro pre mid rest _; rfl
  | succ f ih =>
    intro pre mid rest
    unfold decodeESCLoop
    simp only
    split
    · simp
    split
    · simp
    split
    · split
      · simp
      · split
        · simp [escId]
        · simp
      · simp
    split
    · exact ih _ _ _
    split
    · exact ih _ _ _
    split <;> simp

theorem none_arg (p : Bytes) (r m : Nat) : (decodeEscapeNone p r m).arg = [] := by
  unfold decodeEscapeNone; split <;> rfl

theorem decode_arg_nil (p : Bytes) (h : (decodeEscape p).e = 0) : (decodeEscape p).arg = [] := by
  unfold decodeEscape at h ⊢
  simp only at h ⊢
  split
  · rename_i h1
    rw [if_pos h1] at h
    exact esc_loop_arg _ _ _ _ h
  rename_i h1
  rw [if_neg h1] at h
  split
  · rename_i h2
    rw [if_pos h2] at h
    cases hd : decodeCSI (p.drop (ansiDecodeRune p).2) with
    | none => exact none_arg _ _ _
    | some x =>
      obtain ⟨e, a, n⟩ := x
      rw [hd] at h
      simp only at h
      subst h
      unfold decodeCSI at hd
      split at hd
      · simp at hd
      · simp [csiId] at hd
  rename_i h2
  rw [if_neg h2] at h
  split
  · rename_i h3
    rw [if_pos h3] at h
    cases hd : decodeString (p.drop (ansiDecodeRune p).2) with
    | none => exact none_arg _ _ _
    | some x =>
      rw [hd] at h
      simp only at h
      omega
  · exact none_arg _ _ _

theorem event_ne_esc (i : InItem) (h : i.Ok) : i.event.1 ≠ 0x1B := by
  cases i with
  | rune r => exact fun k => h.2 (Or.inl k)
  | csi c1 arg f => simp [InItem.event]; omega
  | str c1 r body st1 => obtain ⟨hr, _⟩ := h; simp [InItem.event]; omega
  | esc f => simp only [InItem.event]; split <;> omega

/-- Items at the front are taken one by one. -/
theorem items_converted (eof : Bool) (is : List InItem) (h : ∀ i ∈ is, i.Ok) (rest : Bytes) :
    processMore eof (is.flatMap InItem.bytes ++ rest) =
      (is.flatMap (fun i => convert i.event) ++ (processMore eof rest).1, (processMore eof rest).2) := by
  induction is with
  | nil => rfl
  | cons i l ih =>
    have hi := h i (by simp)
    have hd := Inp.decode_item i hi { buf := (i :: l).flatMap InItem.bytes ++ rest, ateof := true }
      (l.flatMap InItem.bytes ++ rest) (by simp)
    obtain ⟨hp, hs⟩ := step_of_decode eof _ _ _ _ rfl rfl hd (event_ne_esc i hi)
      (fun d hd he => by subst hd; exact decode_arg_nil _ he)
    rw [loop_event eof _ _ _ hp hs, ih (fun j hj => h j (by simp [hj]))]
    simp

/-- Reads that end where things end, or with a lone ESC (of a thing still to come); `held`
is what was kept before. -/
inductive Cuts {α : Type} (bytes : α → Bytes) : Bytes → List α → List Bytes → Prop
  | done : Cuts bytes [] [] []
  | read (held c : Bytes) (is js : List α) (cs : List Bytes) (held' : Bytes)
      (h : held ++ c = is.flatMap bytes ++ held') (hh : held' = [] ∨ held' = [0x1B])
      (rest : Cuts bytes held' js cs) : Cuts bytes held (is ++ js) (c :: cs)

theorem lone_esc : processMore false [0x1B] = ([], [0x1B]) := by decide +kernel

theorem reads_converted {held : Bytes} {is : List InItem} {cs : List Bytes} (hc : Cuts InItem.bytes held is cs)
    (h : ∀ i ∈ is, i.Ok) : readMore cs held = is.flatMap fun i => convert i.event := by
  induction hc with
  | done => rfl
  | read held c is js cs held' he hh _ ih =>
    have h1 := items_converted false is (fun i hi => h i (by simp [hi])) held'
    have h2 : processMore false held' = ([], held') := by
      rcases hh with rfl | rfl
      · rfl
      · exact lone_esc
    rw [h2] at h1
    simp only [readMore, he, h1, ih (fun i hi => h i (by simp [hi])), List.append_nil, List.flatMap_append]

/-! ### Items -/

/-- The same as seen by an input decoder. -/
def Same (out : Bytes) (i : InItem) : Prop := ∃ o : InItem, o.Ok ∧ out = o.bytes ∧ o.event = i.event

/-- Items that the filter keeps: characters other than those it takes for escape
identifiers, control sequences other than SGR, and two-byte escapes other than `ESC ~`. -/
def Kept : InItem → Prop
  | .rune r => ¬ (0xEF00 ≤ r ∧ r ≤ 0xEFFF)
  | .csi _ _ f => f ≠ 0x6D
  | .str _ _ _ _ => False
  | .esc f => f ≠ 0x7E

theorem convert_other (id : Nat) (a : Bytes) (h : isEscape id = true) (hn : id ≠ csiId 0x6D) :
    convert (id, a) = escAppendWith id a := by
  unfold convert
  simp only [h, Bool.not_true, Bool.false_eq_true, if_false, if_neg hn, if_true]

theorem kept_same (i : InItem) (h : i.Ok) (hk : Kept i) : Same (convert i.event) i := by
  cases i with
  | rune r =>
    refine ⟨.rune r, h, ?_, rfl⟩
    have : isEscape r = false := by
      simp only [Kept] at hk
      simp only [isEscape]
      by_contra hh
      simp at hh; omega
    simp [convert, InItem.event, this, InItem.bytes]
  | csi c1 arg f =>
    obtain ⟨ha, hf⟩ := h
    refine ⟨.csi false arg f, ⟨ha, hf⟩, ?_, rfl⟩
    have hfn : f.toNat ≠ 0x6D := fun k => hk (UInt8.toNat_inj.mp k)
    have : isEscape (0xEF80 + f.toNat) = true := by simp [isEscape]; omega
    have hid : (0xEF80 + f.toNat) ≠ csiId 0x6D := by
      have : csiId 0x6D = 0xEF80 + 0x6D := rfl
      rw [this]; omega
    show convert (0xEF80 + f.toNat, arg) = _
    rw [convert_other _ _ this hid]
    unfold escAppendWith
    rw [if_neg (by omega), if_neg (by omega), if_neg (by omega), if_pos (by omega)]
    have : UInt8.ofNat ((0xEF80 + f.toNat) % 128) = f := by
      apply UInt8.toNat_inj.mp
      rw [UInt8.toNat_ofNat']; omega
    rw [this]
    simp [InItem.bytes, c1Bytes]
  | str c1 r body st1 => exact absurd hk (by simp [Kept])
  | esc f =>
    obtain ⟨hf, hn⟩ := h
    have hn' := hn
    simp only [List.mem_cons, List.not_mem_nil, or_false, not_or] at hn'
    have hfn : f.toNat ≠ 0x7E := fun k => hk (UInt8.toNat_inj.mp k)
    by_cases hc : 0x40 ≤ f.toNat ∧ f.toNat ≤ 0x5F
    · have hp : plainRune (0x40 + f.toNat) := by
        refine ⟨by unfold validRune; simp; omega, ?_⟩
        unfold startsEscape; omega
      refine ⟨.rune (0x40 + f.toNat), hp, ?_, by simp [InItem.event, hc]⟩
      have : isEscape (0x40 + f.toNat) = false := by simp [isEscape]; omega
      simp [convert, InItem.event, hc, this, InItem.bytes]
    · refine ⟨.esc f, ⟨hf, hn⟩, ?_, rfl⟩
      have : isEscape (0xEF00 + f.toNat) = true := by simp [isEscape]; omega
      have hid : (0xEF00 + f.toNat) ≠ csiId 0x6D := by
        have : csiId 0x6D = 0xEF80 + 0x6D := rfl
        rw [this]; omega
      have he : (InItem.esc f).event = (0xEF00 + f.toNat, []) := by simp only [InItem.event, if_neg hc]
      rw [he, convert_other _ _ this hid]
      unfold escAppendWith
      rw [if_neg (by omega), if_neg (by omega), if_pos (by omega)]
      have : UInt8.ofNat ((0xEF00 + f.toNat) % 128) = f := by
        apply UInt8.toNat_inj.mp
        rw [UInt8.toNat_ofNat']; omega
      rw [this]; rfl

/-- C76: when the input consists of kept items, and reads end where items end or with
a lone ESC, the output consists of items with the same meanings, in order. -/
theorem filter_keeps_partial (is : List InItem) (cs : List Bytes) (hc : Cuts InItem.bytes [] is cs)
    (h : ∀ i ∈ is, i.Ok) (hk : ∀ i ∈ is, Kept i) :
    ∃ os : List InItem, (∀ o ∈ os, o.Ok) ∧ readMore cs [] = os.flatMap InItem.bytes ∧
      os.map InItem.event = is.map InItem.event := by
  rw [reads_converted hc h]
  clear hc
  induction is with
  | nil => exact ⟨[], by simp, rfl, rfl⟩
  | cons i l ih =>
    obtain ⟨os, h1, h2, h3⟩ := ih (fun j hj => h j (by simp [hj])) (fun j hj => hk j (by simp [hj]))
    obtain ⟨o, g1, g2, g3⟩ := kept_same i (h i (by simp)) (hk i (by simp))
    refine ⟨o :: os, ?_, by simp [h2, g2], by simp [h3, g3]⟩
    intro x hx
    rcases List.mem_cons.mp hx with rfl | hx
    · exact g1
    · exact h1 x hx

example : Cuts InItem.bytes [] [InItem.rune 0x41, InItem.csi false [0x32] 0x4A]
    [[0x41, 0x1B], [0x5B, 0x32, 0x4A]] :=
  .read [] [0x41, 0x1B] [InItem.rune 0x41] [InItem.csi false [0x32] 0x4A] [[0x5B, 0x32, 0x4A]] [0x1B]
    (by decide) (Or.inr rfl)
    (.read [0x1B] [0x5B, 0x32, 0x4A] [InItem.csi false [0x32] 0x4A] [] [] [] (by decide) (Or.inl rfl) .done)

/-! ### Colours -/

/-- A colour made 24-bit: an indexed one is looked up in the table of definitions, which
has xterm's cube and grays (`Col.table_standard`). -/
def deep : Colour → Colour
  | .indexed i => let x := Col.table.getD i.toNat (0, 0, 0); .direct x.1 x.2.1 x.2.2
  | .direct r g b => .direct r g b

/-- A style with its foreground made 24-bit. -/
def deepFg (s : Style) : Style := { s with fg := s.fg.map deep }

/-- A terminal with all foregrounds made 24-bit. -/
def deepTerm (t : Term) : Term :=
  { t with style := deepFg t.style, cell := fun x y => ⟨(t.cell x y).rune, deepFg (t.cell x y).style⟩ }

theorem to24_value (c : Colour) : Col.to24 c.value = (deep c).value := by
  cases c with
  | direct r g b =>
    show Col.to24 (rgb r g b) = rgb r g b
    unfold Col.to24
    rw [if_pos (rgb_is24 r g b)]
  | indexed i =>
    have hi := i.toNat_lt
    have e : (Colour.indexed i).value = BitVec.ofNat 32 i.toNat := by
      apply BitVec.eq_of_toNat_eq
      simp [Colour.value]
    rw [e]
    unfold Col.to24
    rw [if_neg (by simp [Col.index_not24 i.toNat hi]), Col.comps_index i.toNat hi]; rfl

theorem deep_ne (c : Colour) : (Col.to24 c.value ≠ c.value) ↔ ∃ i, c = .indexed i := by
  rw [to24_value]
  cases c with
  | direct r g b => simp [deep]
  | indexed i =>
    simp only [Colour.indexed.injEq, exists_eq', iff_true]
    intro h
    have h1 := indexed_not24 i
    have h2 := rgb_is24 (Col.table.getD i.toNat (0, 0, 0)).1 (Col.table.getD i.toNat (0, 0, 0)).2.1
      (Col.table.getD i.toNat (0, 0, 0)).2.2
    simp only [deep, Colour.value] at h
    rw [h] at h2
    exact h1 h2

theorem convertAttr_style (s : Style) : convertAttr s.build =
    match s.fg with
    | some (.indexed _) => some (deepFg s).build
    | _ => none := by
  unfold convertAttr
  simp only [build_fg, ne_eq, not_true_eq_false, if_false]
  cases hf : s.fg with
  | none => simp only [Option.map_none]; cases bg s.build <;> rfl
  | some c =>
    simp only [Option.map_some]
    cases c with
    | direct r g b =>
      have : ¬ (¬ Col.to24 (Colour.direct r g b).value = (Colour.direct r g b).value) := by
        rw [← ne_eq, deep_ne]; simp
      simp only [if_neg this]
      cases bg s.build <;> rfl
    | indexed i =>
      have : ¬ Col.to24 (Colour.indexed i).value = (Colour.indexed i).value := by
        rw [← ne_eq, deep_ne]; exact ⟨i, rfl⟩
      simp only [if_pos this]
      rw [to24_value, build_set_fg]
      have : ({ s with fg := some (deep (.indexed i)) } : Style) = deepFg s := by
        unfold deepFg; rw [hf]; rfl
      rw [this]
      cases bg (deepFg s).build <;> rfl

theorem deepFg_over (s st : Style) : (deepFg s).over (deepFg st) = deepFg (s.over st) := by
  unfold deepFg Style.over
  simp only
  cases hc : s.clear <;> cases hf : s.fg <;> simp

theorem sgr_bytes_eq (ps : List Nat) : (Op.sgr ps).bytes = [0x1B, 0x5B] ++ params ps ++ [0x6D] := by
  simp [Op.bytes, csi]

/-- C76: an SGR sequence comes out as one that does to a terminal with 24-bit foregrounds
what the given one does to a terminal with the given ones. -/
theorem sgr_converted (l : List SgrParam) (h : ∀ p ∈ l, p.Known) :
    ∃ ps, convert (csiId 0x6D, params (sgrCodes l)) = (Op.sgr ps).bytes ∧
      ∀ st, rendition ps (deepFg st) = deepFg (rendition (sgrCodes l) st) := by
  have hd := decode_params l h
  have hr : ∀ st, rendition (sgrCodes l) st = if l = [] then {} else (l.foldl stepStyle {}).over st := by
    intro st
    by_cases hl : l = []
    · subst hl; rfl
    · have hn : sgrCodes l ≠ [] := by
        cases l with
        | nil => exact absurd rfl hl
        | cons p l => simp [sgrCodes, codes_ne]
      have := rend_steps l h st {}
      rw [empty_over] at this
      rw [rendition, if_neg hn, if_neg hl, this]
  have hpass : escAppendWith (csiId 0x6D) (params (sgrCodes l)) = (Op.sgr (sgrCodes l)).bytes := by
    rw [sgr_bytes_eq]; rfl
  have hes : isEscape (csiId 0x6D) = true := by decide
  unfold convert
  simp only [hes, Bool.not_true, Bool.false_eq_true, if_false, if_true, hd, convertAttr_style]
  generalize hs : l.foldl stepStyle {} = s at *
  by_cases hi : ∃ i, s.fg = some (.indexed i)
  · obtain ⟨i, hi⟩ := hi
    have hl : l ≠ [] := by rintro rfl; rw [← hs] at hi; simp at hi
    have h0 : (deepFg s).build ≠ 0 := by
      intro h0
      have := build_eq_zero h0
      have := congrArg Style.fg this
      simp [deepFg, hi] at this
    obtain ⟨ps, g1, g2⟩ := append_meaning (deepFg s) h0
    have hne : append (deepFg s).build ≠ [] := by rw [g1, sgr_bytes_eq]; simp
    refine ⟨ps, ?_, fun st => ?_⟩
    · simp only [hi, Option.map_some, Option.getD_some]
      rw [if_neg hne, g1]
    · rw [g2, deepFg_over, hr, if_neg hl]
  · refine ⟨sgrCodes l, ?_, fun st => ?_⟩
    · have : (match s.fg with
        | some (.indexed _) => some (deepFg s).build
        | _ => none) = none := by
        split
        · rename_i i hh; exact absurd ⟨i, hh⟩ hi
        · rfl
      rw [this]
      simp [hpass]
    · rw [hr, hr]
      split
      · rfl
      · have : s = deepFg s := by
          obtain ⟨a, b, c, d, e, f, g, x, y⟩ := s
          cases x with
          | none => rfl
          | some c =>
            cases c with
            | direct r g b => rfl
            | indexed i => exact absurd ⟨i, rfl⟩ hi
        conv => lhs; rw [this]
        exact deepFg_over s st

/-! ### Streams of terminal operations -/

/-- Operations that the filter understands. -/
def OpOk : Op → Prop
  | .put r => plainRune r ∧ ¬ (0xEF00 ≤ r ∧ r ≤ 0xEFFF)
  | .sgr ps => ∃ l : List SgrParam, (∀ p ∈ l, p.Known) ∧ ps = sgrCodes l
  | _ => True

/-- An operation as an item of a stream. -/
def itemOf : Op → InItem
  | .put r => .rune r
  | .cr => .rune 0x0D
  | .lf => .rune 0x0A
  | .up n => .csi false (params n.toList) 0x41
  | .down n => .csi false (params n.toList) 0x42
  | .forward n => .csi false (params n.toList) 0x43
  | .back n => .csi false (params n.toList) 0x44
  | .cup r c => .csi false (params [r, c]) 0x48
  | .eraseAll => .csi false (params [2]) 0x4A
  | .sgr ps => .csi false (params ps) 0x6D
  | .show_ => .csi false (0x3F :: params [25]) 0x68
  | .hide => .csi false (0x3F :: params [25]) 0x6C

theorem params_range (ps : List Nat) : ∀ b ∈ params ps, 0x20 ≤ b.toNat ∧ b.toNat ≤ 0x3F := by
  induction ps with
  | nil => simp [params]
  | cons n t ih =>
    intro b hb
    cases t with
    | nil => exact itoaNat_range n b hb
    | cons m t =>
      rw [params_cons n (m :: t) (by simp)] at hb
      rcases List.mem_append.mp hb with hb | hb
      · exact itoaNat_range n b hb
      · rcases List.mem_cons.mp hb with rfl | hb
        · decide
        · exact ih b hb

theorem item_bytes (o : Op) : (itemOf o).bytes = o.bytes := by
  have e : encodeRune 0x0D = [0x0D] := by decide +kernel
  have e' : encodeRune 0x0A = [0x0A] := by decide +kernel
  cases o <;> simp [itemOf, InItem.bytes, Op.bytes, csi, c1Bytes, e, e']

theorem item_ok (o : Op) (h : OpOk o) : (itemOf o).Ok := by
  have q : ∀ ps, ∀ b ∈ (0x3F :: params ps : Bytes), 0x20 ≤ b.toNat ∧ b.toNat ≤ 0x3F := by
    intro ps b hb
    rcases List.mem_cons.mp hb with rfl | hb
    · decide
    · exact params_range ps b hb
  cases o with
  | put r => exact h.1
  | cr => exact (by decide : plainRune 0x0D)
  | lf => exact (by decide : plainRune 0x0A)
  | show_ => exact ⟨q _, by decide⟩
  | hide => exact ⟨q _, by decide⟩
  | up n => exact ⟨params_range _, by decide⟩
  | down n => exact ⟨params_range _, by decide⟩
  | forward n => exact ⟨params_range _, by decide⟩
  | back n => exact ⟨params_range _, by decide⟩
  | cup r c => exact ⟨params_range _, by decide⟩
  | eraseAll => exact ⟨params_range _, by decide⟩
  | sgr ps => exact ⟨params_range _, by decide⟩

theorem deep_erased (t : Term) : (deepTerm t).erased = ⟨t.erased.rune, deepFg t.erased.style⟩ := by
  unfold Term.erased deepTerm deepFg
  simp only
  cases t.bce <;> simp [blank]

theorem deep_lineFeed (t : Term) : (deepTerm t).lineFeed = deepTerm t.lineFeed := by
  have he := deep_erased t
  unfold Term.lineFeed
  by_cases hy : t.y + 1 < t.h
  · rw [if_pos hy, if_pos (show (deepTerm t).y + 1 < (deepTerm t).h from hy)]; rfl
  · rw [if_neg hy, if_neg (show ¬ (deepTerm t).y + 1 < (deepTerm t).h from hy), he]
    unfold deepTerm
    simp only
    congr 1
    funext a b
    split <;> rfl

/-- Every operation but SGR does the same whatever the foregrounds. -/
theorem deep_step (t : Term) (o : Op) (h : ∀ ps, o ≠ .sgr ps) : (deepTerm t).step o = deepTerm (t.step o) := by
  cases o with
  | put r =>
    unfold Term.step
    simp only
    have hp : (if (deepTerm t).pend then ({ deepTerm t with x := 0 } : Term).lineFeed else deepTerm t) =
        deepTerm (if t.pend then ({ t with x := 0 } : Term).lineFeed else t) := by
      by_cases hpd : t.pend = true
      · rw [if_pos hpd, if_pos (show (deepTerm t).pend = true from hpd), ← deep_lineFeed]; rfl
      · rw [if_neg hpd, if_neg (show ¬ (deepTerm t).pend = true from hpd)]
    rw [hp]
    generalize (if t.pend then ({ t with x := 0 } : Term).lineFeed else t) = u
    unfold deepTerm
    simp only
    congr 1
    funext a b
    split <;> rfl
  | lf => exact deep_lineFeed t
  | eraseAll =>
    unfold Term.step
    simp only
    rw [deep_erased]; rfl
  | sgr ps => exact absurd rfl (h ps)
  | _ => rfl

theorem pass_csi (arg : Bytes) (f : UInt8) (hf : 0x40 ≤ f.toNat ∧ f.toNat ≤ 0x7E) (hn : f ≠ 0x6D) :
    convert (InItem.csi false arg f).event = csi arg f := by
  have hfn : f.toNat ≠ 0x6D := fun k => hn (UInt8.toNat_inj.mp k)
  have h1 : isEscape (0xEF80 + f.toNat) = true := by simp [isEscape]; omega
  have hid : (0xEF80 + f.toNat) ≠ csiId 0x6D := by
    have : csiId 0x6D = 0xEF80 + 0x6D := rfl
    rw [this]; omega
  show convert (0xEF80 + f.toNat, arg) = _
  rw [convert_other _ _ h1 hid]
  unfold escAppendWith
  rw [if_neg (by omega), if_neg (by omega), if_neg (by omega), if_pos (by omega)]
  have : UInt8.ofNat ((0xEF80 + f.toNat) % 128) = f := by
    apply UInt8.toNat_inj.mp
    rw [UInt8.toNat_ofNat']; omega
  rw [this]; simp [csi]

theorem op_converted (o : Op) (h : OpOk o) :
    ∃ o', convert (itemOf o).event = Op.bytes o' ∧ ∀ t, (deepTerm t).step o' = deepTerm (t.step o) := by
  have hc := pass_csi
  cases o with
  | sgr ps =>
    obtain ⟨l, hl, rfl⟩ := h
    obtain ⟨ps', h1, h2⟩ := sgr_converted l hl
    refine ⟨.sgr ps', h1, fun t => ?_⟩
    simp only [Term.step]
    have := h2 t.style
    unfold deepTerm at *
    simp only
    rw [this]
  | put r =>
    refine ⟨.put r, ?_, fun t => deep_step t _ (by simp)⟩
    obtain ⟨o, _, h2, h3⟩ := kept_same (.rune r) h.1 h.2
    have : isEscape r = false := by
      have := h.2
      simp only [isEscape]
      by_contra hh
      simp at hh; omega
    simp [itemOf, convert, InItem.event, this, Op.bytes]
  | cr => exact ⟨.cr, by decide +kernel, fun t => deep_step t _ (by simp)⟩
  | lf => exact ⟨.lf, by decide +kernel, fun t => deep_step t _ (by simp)⟩
  | up n => exact ⟨.up n, hc _ _ (by decide) (by decide), fun t => deep_step t _ (by simp)⟩
  | down n => exact ⟨.down n, hc _ _ (by decide) (by decide), fun t => deep_step t _ (by simp)⟩
  | forward n => exact ⟨.forward n, hc _ _ (by decide) (by decide), fun t => deep_step t _ (by simp)⟩
  | back n => exact ⟨.back n, hc _ _ (by decide) (by decide), fun t => deep_step t _ (by simp)⟩
  | cup r c => exact ⟨.cup r c, hc _ _ (by decide) (by decide), fun t => deep_step t _ (by simp)⟩
  | eraseAll => exact ⟨.eraseAll, hc _ _ (by decide) (by decide), fun t => deep_step t _ (by simp)⟩
  | show_ => exact ⟨.show_, hc _ _ (by decide) (by decide), fun t => deep_step t _ (by simp)⟩
  | hide => exact ⟨.hide, hc _ _ (by decide) (by decide), fun t => deep_step t _ (by simp)⟩

theorem cuts_map {held : Bytes} {os : List Op} {cs : List Bytes} (h : Cuts Op.bytes held os cs) :
    Cuts InItem.bytes held (os.map itemOf) cs := by
  induction h with
  | done => exact .done
  | read held c is js cs held' he hh _ ih =>
    rw [List.map_append]
    refine .read held c _ _ cs held' ?_ hh ih
    rw [he, List.flatMap_map]
    congr 1
    exact congrArg (List.flatMap · is) (funext fun o => (item_bytes o).symm)

/-- C76: filtering the bytes of any terminal operations, read in pieces that end where
operations end or with a lone ESC, gives the bytes of operations that show on a terminal
exactly what the given ones show, with every foreground colour made 24-bit.  The
backgrounds stay as they are: see `background_unconverted`. -/
theorem filter_shows_partial (ops : List Op) (h : ∀ o ∈ ops, OpOk o) (cs : List Bytes)
    (hc : Cuts Op.bytes [] ops cs) :
    ∃ ops', readMore cs [] = text ops' ∧ ∀ t, (deepTerm t).run ops' = deepTerm (t.run ops) := by
  rw [reads_converted (cuts_map hc) (fun i hi => by
    obtain ⟨o, ho, rfl⟩ := List.mem_map.mp hi; exact item_ok o (h o ho))]
  clear hc
  induction ops with
  | nil => exact ⟨[], rfl, fun t => rfl⟩
  | cons o l ih =>
    obtain ⟨os, h1, h2⟩ := ih (fun x hx => h x (by simp [hx]))
    obtain ⟨o', g1, g2⟩ := op_converted o (h o (by simp))
    refine ⟨o' :: os, ?_, fun t => ?_⟩
    · simp only [List.map_cons, List.flatMap_cons, h1, g1, text]
    · simp only [Term.run, List.foldl_cons, g2]
      exact h2 _

example : (∀ o ∈ [Op.sgr [1, 31], .put 0x41, .cup 1 1], OpOk o) ∧
    Cuts Op.bytes [] [Op.sgr [1, 31], .put 0x41, .cup 1 1] [text [Op.sgr [1, 31], .put 0x41, .cup 1 1]] := by
  refine ⟨?_, .read [] _ [Op.sgr [1, 31], .put 0x41, .cup 1 1] [] [] [] (by decide +kernel) (Or.inl rfl) .done⟩
  intro o ho
  simp only [List.mem_cons, List.not_mem_nil, or_false] at ho
  rcases ho with rfl | rfl | rfl
  · exact ⟨[.plain 1, .plain 31], by simp [SgrParam.Known], rfl⟩
  · exact ⟨by decide, by decide⟩
  · trivial

/-! ### What goes wrong -/

/-- C76, negation: the filter converts no background: an SGR sequence that sets only a
background is written as it came, and one whose foreground is converted keeps its legacy
background. -/
theorem background_unconverted :
    convert (csiId 0x6D, ascii "41") = [0x1B, 0x5B] ++ ascii "41m" ∧
    convert (csiId 0x6D, ascii "31;44") = [0x1B, 0x5B] ++ ascii "38;2;128;0;0;44m" := by
  decide +kernel

/-- C76, negation: of a control string (a window title, say) only the introducer is
written; its text and its end are lost. -/
theorem strings_lost (c1 : Bool) (r : Nat) (body : List Nat) (st1 : Bool)
    (h : (InItem.str c1 r body st1).Ok) : convert (InItem.str c1 r body st1).event = encodeRune r := by
  obtain ⟨hr, _⟩ := h
  have : isEscape r = false := by
    simp only [isEscape]
    by_contra hh
    simp at hh; omega
  simp [convert, InItem.event, this]

/-- C76, negation: a character from U+EF01 to U+EFFE is taken for an escape: U+EFC1 comes
out as cursor up. -/
theorem private_rune_mangled : readMore [encodeRune 0xEFC1] [] = [0x1B, 0x5B, 0x41] := by decide +kernel

/-- C76, negation: `ESC ~` is lost, and `ESC ( B` comes out as `ESC B (`. -/
theorem charset_mangled : readMore [[0x1B, 0x7E]] [] = [] ∧
    readMore [[0x1B, 0x28, 0x42]] [] = [0x1B, 0x42, 0x28] := by decide +kernel

/-- C76, negation: a character split by two reads comes out as replacement characters. -/
theorem split_rune_mangled :
    readMore [[0xC3], [0xA9]] [] = encodeRune 0xFFFD ++ encodeRune 0xFFFD := by decide +kernel

/-- C76, negation: conceal, in a sequence whose foreground is converted, is lost. -/
theorem conceal_lost :
    convert (csiId 0x6D, ascii "8;31") = [0x1B, 0x5B] ++ ascii "38;2;128;0;0m" := by decide +kernel

/-- C76: what is held back at the end of the file is written then: input ending in an
escape character comes out with it. -/
theorem end_flushed {is : List InItem} (h : ∀ i ∈ is, i.Ok) :
    readMore [is.flatMap InItem.bytes ++ [0x1B]] [] = is.flatMap (fun i => convert i.event) ++ [0x1B] := by
  have h1 := items_converted false is h [0x1B]
  simp only [readMore, List.nil_append, h1, lone_esc, List.append_nil]
  congr 1

example : readMore [[0x61, 0x1B]] [] = [0x61, 0x1B] := by decide +kernel

end T24
end Anansi
