import Verif.Lemmas.SgrCodec
import Verif.Spec.Sgr
/-
C01-C04: SGR attributes.
-/
set_option autoImplicit false

namespace Anansi.Sgr

theorem build_eq_zero {s : Style} (h : s.build = 0) : s = {} := by
  have hb : ∀ i, i < 7 → s.flag i = false := by
    intro i hi; rw [← build_bit s i hi, h]; simp
  have hf : s.fg = none := by
    have := build_fg s; rw [h] at this
    have h0 : fg 0 = none := by decide
    rw [h0] at this; simpa using this.symm
  have hg : s.bg = none := by
    have := build_bg s; rw [h] at this
    have h0 : bg 0 = none := by decide
    rw [h0] at this; simpa using this.symm
  have := hb 0 (by decide); have := hb 1 (by decide); have := hb 2 (by decide)
  have := hb 3 (by decide); have := hb 4 (by decide); have := hb 5 (by decide)
  have := hb 6 (by decide)
  cases s; simp_all [Style.flag]

theorem build_eq_clear {s : Style} (h : s.build = Sgr.clear) : s = { clear := true } := by
  have hb : ∀ i, i < 7 → s.flag i = (Sgr.clear).getLsbD i := by
    intro i hi; rw [← build_bit s i hi, h]
  have hf : s.fg = none := by
    have := build_fg s; rw [h] at this
    have h0 : fg Sgr.clear = none := by decide
    rw [h0] at this; simpa using this.symm
  have hg : s.bg = none := by
    have := build_bg s; rw [h] at this
    have h0 : bg Sgr.clear = none := by decide
    rw [h0] at this; simpa using this.symm
  have := hb 0 (by decide); have := hb 1 (by decide); have := hb 2 (by decide)
  have := hb 3 (by decide); have := hb 4 (by decide); have := hb 5 (by decide)
  have := hb 6 (by decide)
  cases s; simp_all [Style.flag, Sgr.clear]

/-- C01 (all styles but concealed ones, see `sgr_conceal_lost`): the encoding of
any style's attribute, followed by any bytes, decodes to the SGR escape and
consumes exactly the encoding; its argument decodes without error to the same
attribute.  The empty style is encoded as a reset, so it decodes to `Clear`. -/
theorem sgr_roundtrip_partial (s : Style) (hc : s.conceal = false) (rest : Bytes) :
    ∃ arg, decodeEscape (append s.build ++ rest) =
        ⟨SGR, arg, (append s.build).length, append s.build ++ rest⟩ ∧
      decode arg = ⟨if s = {} then Sgr.clear else s.build, arg.length, none⟩ := by
  have hm : csiId 0x6D = SGR := by decide
  have zero : ∃ arg, decodeEscape ([0x1B, 0x5B, 0x30, 0x6D] ++ rest) =
        ⟨SGR, arg, 4, [0x1B, 0x5B, 0x30, 0x6D] ++ rest⟩ ∧
      decode arg = ⟨Sgr.clear, arg.length, none⟩ := by
    refine ⟨[0x30], ?_, ?_⟩
    · have := decodeEscape_csi [0x30] 0x6D rest (by decide) (by decide)
      rw [hm] at this; exact this
    · have := good_digit 0x30 (by decide) 0 0 [] (Or.inl rfl)
      unfold decode
      rw [List.append_nil] at this; rw [this, decodeLoop.eq_def]; rfl
  by_cases h0 : s.build = 0
  · have hs := build_eq_zero h0
    have ha : append s.build = [0x1B, 0x5B, 0x30, 0x6D] := by rw [h0]; decide
    rw [ha, if_pos hs]; exact zero
  · have hs : s ≠ {} := by rintro rfl; exact h0 (by decide)
    rw [if_neg hs]
    by_cases h1 : s.build = Sgr.clear
    · have ha : append s.build = [0x1B, 0x5B, 0x30, 0x6D] := by rw [h1]; decide
      rw [ha, h1]; exact zero
    · rw [append_build s h0 h1]
      refine ⟨joinArgs s.args, ?_, ?_⟩
      · have := decodeEscape_csi (joinArgs s.args) 0x6D rest (join_range _ (args_range s)) (by decide)
        rw [hm] at this
        simpa using this
      · have := decode_join s.items (items_good s)
        rw [args_items, fold_items s hc] at this
        exact this

/-- A style with flags, an indexed colour and a direct one. -/
def demo : Style :=
  { bold := true, negative := true, fg := some (.indexed 9), bg := some (.direct 1 20 255) }
example : demo.conceal = false := rfl
/-- Its encoding is `ESC [1;7;91;48;2;1;20;255m`. -/
example : append demo.build =
    [0x1B, 0x5B, 0x31, 0x3B, 0x37, 0x3B, 0x39, 0x31, 0x3B, 0x34, 0x38, 0x3B, 0x32, 0x3B, 0x31, 0x3B,
     0x32, 0x30, 0x3B, 0x32, 0x35, 0x35, 0x6D] := by decide +kernel

/-- C01 fails for concealed text: `SGRAttrConceal` encodes as code 8, which
`DecodeSGR` drops. -/
theorem sgr_conceal_lost :
    ∃ arg n buf, decodeEscape (append ({ conceal := true } : Style).build) = ⟨SGR, arg, n, buf⟩ ∧
      decode arg ≠ ⟨({ conceal := true } : Style).build, arg.length, none⟩ :=
  ⟨[0x38], 4, [0x1B, 0x5B, 0x38, 0x6D], by decide +kernel, by decide +kernel⟩

/-- C02, for every style pair: merging the difference gives the target style; the
`Clear` bit, which is an instruction and not a display attribute, is never left
set unless the receiver already carried it. -/
theorem sgr_merge_diff (s t : Style) :
    ∃ c, merge s.build (diff s.build t.build) = { t with clear := c }.build ∧
      (s.clear = false → c = false) := by
  obtain ⟨h1, h2, h3, h4, h5⟩ := merge_diff s.build t.build (build_wf t)
  have hj : ∀ c, { t with clear := c }.build &&& attrMask = t.build &&& attrMask ∧
      { t with clear := c }.build &&& fgMask = t.build &&& fgMask ∧
      { t with clear := c }.build &&& bgMask = t.build &&& bgMask := by
    intro c
    refine ⟨?_, ?_, ?_⟩
    · rw [build_flags, build_flags]
    · rw [build_fgMask, build_fgMask]
    · rw [build_bgMask, build_bgMask]
  have hcl : merge s.build (diff s.build t.build) &&& Sgr.clear = 0 ∨
      merge s.build (diff s.build t.build) &&& Sgr.clear = Sgr.clear := by
    rw [merge_clear]; split
    · left; rfl
    · rw [build_clear]; cases s.clear
      · left; rfl
      · right; rfl
  have hext : ∀ c, merge s.build (diff s.build t.build) &&& Sgr.clear = flagIf c Sgr.clear →
      merge s.build (diff s.build t.build) = { t with clear := c }.build := by
    intro c hc
    have ⟨j1, j2, j3⟩ := hj c
    apply attr_ext
    · rw [hc, build_clear]
    · rw [h1, j1]
    · rw [h2, j2]
    · rw [h3, j3]
    · rw [h5 (build_junk s), build_junk]
  rcases hcl with h | h
  · exact ⟨false, hext false (by rw [h]; rfl), fun _ => rfl⟩
  · refine ⟨true, hext true (by rw [h]; rfl), ?_⟩
    intro hs
    have := h4 (by rw [build_clear, hs]; rfl)
    rw [this] at h; revert h; decide

/-- Dropping a flag while changing a colour. -/
example : merge ({ bold := true, fg := some (.indexed 1) } : Style).build
    (diff ({ bold := true, fg := some (.indexed 1) } : Style).build
      ({ fg := some (.direct 1 2 3) } : Style).build) =
    ({ fg := some (.direct 1 2 3) } : Style).build := by decide +kernel

/-- C02, second half: the difference between an attribute and itself is nothing
to send, so an unchanged style costs no output. -/
theorem sgr_diff_self (s : Style) (hc : s.clear = false) : diff s.build s.build = 0 := by
  unfold diff
  have : ¬ (s.build &&& Sgr.clear ≠ 0) := by rw [build_clear, hc]; decide
  rw [if_neg this]
  have hx : ∀ x : Attr, x ^^^ x = 0 := fun x => BitVec.xor_self
  simp only [hx, and_z]
  rw [if_neg]
  · simp
  · simp only [not_or]
    refine ⟨by simp, ?_, ?_⟩ <;> · rintro ⟨h1, h2⟩; exact h2 h1

example : ({ bold := true, bg := some (.indexed 200) } : Style).clear = false := rfl

/-- The flag fields of an attribute (`Clear` and the six display flags). -/
def flagsOf (a : Attr) : List Bool := (List.range 7).map (fun i => a.getLsbD i)

theorem flagsOf_congr {a b : Attr} (h0 : a &&& Sgr.clear = b &&& Sgr.clear)
    (h1 : a &&& attrMask = b &&& attrMask) : flagsOf a = flagsOf b := by
  unfold flagsOf
  apply List.map_congr_left
  intro i hi
  rw [List.mem_range] at hi
  have e0 := congrArg (fun z => BitVec.getLsbD z i) h0
  have e1 := congrArg (fun z => BitVec.getLsbD z i) h1
  simp only [BitVec.getLsbD_and, clear_val, attrMask_val] at e0 e1
  interval_cases i <;> revert e0 e1 <;> simp

/-- C03: replacing the foreground of any attribute with any colour is read back,
and leaves background and flags alone. -/
theorem set_fg (a : Attr) (c : Colour) :
    fg (sansFG a ||| colorFG c.value) = some c.value ∧
    bg (sansFG a ||| colorFG c.value) = bg a ∧
    flagsOf (sansFG a ||| colorFG c.value) = flagsOf a := by
  refine ⟨?_, ?_, ?_⟩
  · rw [fg_congr (b := colorFG c.value) (by masks), fg_colorFG, value_mask]
  · apply bg_congr; masks; rw [colorFG_bgm, or_z]
  · apply flagsOf_congr
    · masks; rw [colorFG_cl, or_z]
    · masks; rw [colorFG_at, or_z]

/-- C03: the same for the background. -/
theorem set_bg (a : Attr) (c : Colour) :
    bg (sansBG a ||| colorBG c.value) = some c.value ∧
    fg (sansBG a ||| colorBG c.value) = fg a ∧
    flagsOf (sansBG a ||| colorBG c.value) = flagsOf a := by
  refine ⟨?_, ?_, ?_⟩
  · rw [bg_congr (b := colorBG c.value) (by masks), bg_colorBG, value_mask]
  · apply fg_congr; masks; rw [colorBG_fgm, or_z]
  · apply flagsOf_congr
    · masks; rw [colorBG_cl, or_z]
    · masks; rw [colorBG_at, or_z]

/-- C03: removing a colour removes that colour only. -/
theorem sans_fg (a : Attr) :
    fg (sansFG a) = none ∧ bg (sansFG a) = bg a ∧ flagsOf (sansFG a) = flagsOf a := by
  refine ⟨fg_none_of_zero (by masks), bg_congr (by masks), flagsOf_congr (by masks) (by masks)⟩

/-- Taking the background off leaves none, and keeps foreground and flags. -/
theorem sans_bg (a : Attr) :
    bg (sansBG a) = none ∧ fg (sansBG a) = fg a ∧ flagsOf (sansBG a) = flagsOf a := by
  refine ⟨bg_none_of_zero (by masks), fg_congr (by masks), flagsOf_congr (by masks) (by masks)⟩

/-- C03: an attribute written as an OR of fields reads back exactly those fields,
and none where none was set. -/
theorem build_reads_back (s : Style) :
    fg s.build = s.fg.map Colour.value ∧ bg s.build = s.bg.map Colour.value ∧
    flagsOf s.build = [s.clear, s.bold, s.dim, s.italic, s.underscore, s.negative, s.conceal] := by
  refine ⟨build_fg s, build_bg s, ?_⟩
  have h : ∀ i ∈ List.range 7, s.build.getLsbD i = s.flag i :=
    fun i hi => build_bit s i (List.mem_range.mp hi)
  unfold flagsOf
  rw [List.map_congr_left h]; rfl

/-- C03: different colours have different values, so a colour read back names the
colour that was set. -/
theorem colour_value_injective (c d : Colour) (h : c.value = d.value) : c = d := by
  cases c with
  | indexed i =>
    cases d with
    | indexed j =>
      have := congrArg (fun v => chan v 0) h
      simp only [Colour.value, chan0_indexed] at this
      rw [this]
    | direct r g b =>
      exfalso
      exact indexed_not24 i (by rw [show i.toBitVec.setWidth 32 = rgb r g b from h]; exact rgb_is24 r g b)
  | direct r g b =>
    cases d with
    | indexed j =>
      exfalso
      exact indexed_not24 j (by rw [show j.toBitVec.setWidth 32 = rgb r g b from h.symm]; exact rgb_is24 r g b)
    | direct r' g' b' =>
      have h0 := congrArg (fun v => chan v 0) h
      have h1 := congrArg (fun v => chan v 1) h
      have h2 := congrArg (fun v => chan v 2) h
      simp only [Colour.value, chan_rgb] at h0 h1 h2
      rw [h0, h1, h2]

theorem join_length (l : List Bytes) (h : l ≠ []) :
    (joinArgs l).length + 1 = (l.map (fun a => a.length + 1)).sum := by
  cases l with
  | nil => exact absurd rfl h
  | cons x xs =>
    have : ∀ ys : List Bytes, (ys.flatMap (fun b => 0x3B :: b)).length =
        (ys.map (fun a => a.length + 1)).sum := by
      intro ys; induction ys with
      | nil => rfl
      | cons y ys ih => simp [ih]; omega
    simp [joinArgs, this]; omega

theorem flagArgs_length (s : Style) : (s.flagArgs.map (fun a => a.length + 1)).sum =
      (if s.clear then 2 else 0) + (if s.bold then 2 else 0) + (if s.dim then 2 else 0) +
      (if s.italic then 2 else 0) + (if s.underscore then 2 else 0) +
      (if s.negative then 2 else 0) + (if s.conceal then 2 else 0) := by
  have h : ∀ (l : List (Nat × UInt8)),
      ((l.filterMap (fun ib => if s.flag ib.1 then some [ib.2] else none)).map
        (fun a => a.length + 1)).sum = (l.map (fun ib => if s.flag ib.1 then 2 else 0)).sum := by
    intro l
    induction l with
    | nil => rfl
    | cons x xs ih =>
      simp only [List.filterMap_cons, List.map_cons, List.sum_cons, ← ih]
      cases s.flag x.1 <;> simp
  unfold Style.flagArgs
  rw [h]
  simp only [flagCodes, List.map_cons, List.map_nil, List.sum_cons, List.sum_nil, Style.flag]
  omega

/-- C04: `Size` is exactly the encoded length, for every style. -/
theorem sgr_size_exact (s : Style) : size s.build = (append s.build).length := by
  by_cases h0 : s.build = 0
  · rw [h0]; decide
  by_cases h1 : s.build = Sgr.clear
  · rw [h1]; decide
  rw [append_build s h0 h1]
  have hne : s.args ≠ [] := by
    intro hnil
    apply h0
    unfold Style.args at hnil
    simp only [List.append_eq_nil_iff] at hnil
    obtain ⟨⟨hf, hfg⟩, hbg⟩ := hnil
    have e1 : s.fg = none := by cases h : s.fg <;> simp [h] at hfg ⊢
    have e2 : s.bg = none := by cases h : s.bg <;> simp [h] at hbg ⊢
    have e3 : ∀ p ∈ flagCodes, s.flag p.1 = false := by
      intro p hp
      unfold Style.flagArgs at hf
      rw [List.filterMap_eq_nil_iff] at hf
      have := hf p hp
      cases hx : s.flag p.1 <;> simp [hx] at this ⊢
    have : s = {} := by
      have := e3 (0, 0x30) (by decide); have := e3 (1, 0x31) (by decide)
      have := e3 (2, 0x32) (by decide); have := e3 (3, 0x33) (by decide)
      have := e3 (4, 0x34) (by decide); have := e3 (5, 0x37) (by decide)
      have := e3 (6, 0x38) (by decide)
      cases s; simp_all [Style.flag]
    rw [this]; decide
  have hlen := join_length s.args hne
  have hfl := flagArgs_length s
  have hargs : (s.args.map (fun a => a.length + 1)).sum =
      (s.flagArgs.map (fun a => a.length + 1)).sum +
      (match s.fg with | some c => fgSize c.value + 1 | none => 0) +
      (match s.bg with | some c => bgSize c.value + 1 | none => 0) := by
    unfold Style.args
    cases s.fg <;> cases s.bg <;> simp [appendFG_length, appendBG_length, Nat.add_assoc]
  rw [hfl] at hargs
  have t0 := build_test s 0 (by decide)
  have t1 := build_test s 1 (by decide)
  have t2 := build_test s 2 (by decide)
  have t3 := build_test s 3 (by decide)
  have t4 := build_test s 4 (by decide)
  have t5 := build_test s 5 (by decide)
  have t6 := build_test s 6 (by decide)
  have step : ∀ (b : Bool), (if b = true then 2 else 0 : Int) =
      ((if b = true then 2 else 0 : Nat) : Int) := by
    intro b; cases b <;> simp
  unfold size
  rw [show Sgr.clear = 1#64 <<< 0 by decide]
  simp only [Sgr.bold, Sgr.dim, Sgr.italic, Sgr.underscore, Sgr.negative, Sgr.conceal, t0, t1, t2, t3,
    t4, t5, t6, Style.flag, build_fg, build_bg, step]
  simp only [List.length_cons, List.length_append, List.length_nil]
  rw [hargs] at hlen
  generalize (joinArgs s.args).length = N at hlen ⊢
  clear t0 t1 t2 t3 t4 t5 t6 hfl hargs step
  generalize (if s.clear = true then 2 else 0) = f0 at *
  generalize (if s.bold = true then 2 else 0) = f1 at *
  generalize (if s.dim = true then 2 else 0) = f2 at *
  generalize (if s.italic = true then 2 else 0) = f3 at *
  generalize (if s.underscore = true then 2 else 0) = f4 at *
  generalize (if s.negative = true then 2 else 0) = f5 at *
  generalize (if s.conceal = true then 2 else 0) = f6 at *
  cases hfg : s.fg <;> cases hbg : s.bg <;>
    simp only [hfg, hbg, Option.map_none, Option.map_some] at hlen ⊢ <;>
    · rw [if_neg (by omega)]; omega

/-- 24-bit colours with one-, two- and three-digit channels. -/
example : size ({ fg := some (.direct 7 42 255), conceal := true } : Style).build = 18 := by
  decide +kernel

/-- C04 needs the bits to belong to fields: an attribute with a stray high bit
encodes to `ESC [ m`, three bytes, but reports four. -/
theorem sgr_size_stray_bit : (append (1#64 <<< 63)).length = 3 ∧ size (1#64 <<< 63) = 4 := by
  decide +kernel

end Anansi.Sgr
