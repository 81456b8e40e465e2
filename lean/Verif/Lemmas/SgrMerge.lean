import Verif.Lemmas.SgrBits
import Verif.Spec.Sgr
/-
Helper lemmas: fields of merged, differenced and built attributes.
-/
set_option linter.unusedSimpArgs false
set_option linter.unusedTactic false
set_option linter.unreachableTactic false
set_option autoImplicit false

namespace Anansi.Sgr

/-- Bits outside every field. -/
def junkMask : Attr := 0xF800000000000000#64

theorem mask_fg_jk : fgMask &&& junkMask = 0 := by decide
theorem mask_bg_jk : bgMask &&& junkMask = 0 := by decide
theorem mask_at_jk : attrMask &&& junkMask = 0 := by decide
theorem mask_cl_jk : clear &&& junkMask = 0 := by decide
theorem mask_nfg_jk : ~~~fgMask &&& junkMask = junkMask := by decide
theorem mask_nbg_jk : ~~~bgMask &&& junkMask = junkMask := by decide

theorem attr_ext {x y : Attr} (h0 : x &&& clear = y &&& clear) (h1 : x &&& attrMask = y &&& attrMask)
    (h2 : x &&& fgMask = y &&& fgMask) (h3 : x &&& bgMask = y &&& bgMask)
    (h4 : x &&& junkMask = y &&& junkMask) : x = y := by
  have e : ∀ z : Attr, z = (z &&& clear) ||| (z &&& attrMask) ||| (z &&& fgMask) ||| (z &&& bgMask)
      ||| (z &&& junkMask) := by
    intro z
    have : clear ||| attrMask ||| fgMask ||| bgMask ||| junkMask = 0xFFFFFFFFFFFFFFFF#64 := by decide
    have hz : ∀ m n : Attr, (z &&& m) ||| (z &&& n) = z &&& (m ||| n) := by
      intro m n
      apply BitVec.eq_of_getLsbD_eq; intro i hi
      simp only [BitVec.getLsbD_or, BitVec.getLsbD_and]
      cases z.getLsbD i <;> simp
    rw [hz, hz, hz, hz, this]
    exact (BitVec.and_allOnes (x := z)).symm
  rw [e x, e y, h0, h1, h2, h3, h4]

theorem merge_clear (a o : Attr) :
    merge a o &&& clear = if o &&& clear ≠ 0 then 0 else a &&& clear := by
  unfold merge
  cases hf : fg o <;> cases hb : bg o <;> simp only <;> split <;>
    masks <;> simp only [colorFG_cl, colorBG_cl, or_z, z_or]

theorem merge_junk (a o : Attr) :
    merge a o &&& junkMask = if o &&& clear ≠ 0 then 0 else a &&& junkMask := by
  have f : ∀ c, colorFG c &&& junkMask = 0 := by
    intro c; rw [← colorFG_fgMask, and_mask_comm, mask_fg_jk, and_z]
  have b : ∀ c, colorBG c &&& junkMask = 0 := by
    intro c; rw [← colorBG_bgMask, and_mask_comm, mask_bg_jk, and_z]
  unfold merge
  cases hf : fg o <;> cases hb : bg o <;> simp only <;> split <;>
    masks <;> simp only [f, b, or_z, z_or, mask_at_jk, mask_nfg_jk, mask_nbg_jk, and_z]

theorem merge_flags (a o : Attr) :
    merge a o &&& attrMask = (if o &&& clear ≠ 0 then 0 else a &&& attrMask) ||| (o &&& attrMask) := by
  unfold merge
  cases hf : fg o <;> cases hb : bg o <;> simp only <;> split <;>
    masks <;> simp only [colorFG_at, colorBG_at, or_z, z_or]

theorem merge_fg (a o : Attr) :
    merge a o &&& fgMask =
      if fg o = none then (if o &&& clear ≠ 0 then 0 else a &&& fgMask) else o &&& fgMask := by
  unfold merge
  cases hf : fg o <;> cases hb : bg o <;> simp only [reduceCtorEq, if_true, if_false] <;>
    first
    | (split <;> masks <;> simp only [colorBG_fgm, or_z, z_or]; done)
    | (rw [← colorFG_of_fg hf]; split <;> masks <;>
        simp only [colorBG_fgm, colorFG_fgMask, or_z, z_or])

theorem merge_bg (a o : Attr) :
    merge a o &&& bgMask =
      if bg o = none then (if o &&& clear ≠ 0 then 0 else a &&& bgMask) else o &&& bgMask := by
  unfold merge
  cases hf : fg o <;> cases hb : bg o <;> simp only [reduceCtorEq, if_true, if_false] <;>
    first
    | (split <;> masks <;> simp only [colorFG_bgm, or_z, z_or]; done)
    | (rw [← colorBG_of_bg hb]; split <;> masks <;>
        simp only [colorFG_bgm, colorBG_bgMask, or_z, z_or])

/-- Colour bits appear only with the field's set bit. -/
def WF (a : Attr) : Prop :=
  (fg a = none → a &&& fgMask = 0) ∧ (bg a = none → a &&& bgMask = 0)

theorem and_xor_zero {x y : Attr} (h : ¬ x &&& (x ^^^ y) ≠ 0) : x ||| (y &&& (x ^^^ y)) = y := by
  have h : x &&& (x ^^^ y) = 0 := by simpa using h
  apply BitVec.eq_of_getLsbD_eq; intro i hi
  have := congrArg (fun z => BitVec.getLsbD z i) h
  simp only [BitVec.getLsbD_and, BitVec.getLsbD_xor, BitVec.getLsbD_or, BitVec.ofNat_eq_ofNat,
    BitVec.getLsbD_zero] at this ⊢
  cases hx : x.getLsbD i <;> cases hy : y.getLsbD i <;> simp_all

/-- What merging a difference gives, field by field. -/
theorem merge_diff (a b : Attr) (hb : WF b) :
    merge a (diff a b) &&& attrMask = b &&& attrMask ∧
    merge a (diff a b) &&& fgMask = b &&& fgMask ∧
    merge a (diff a b) &&& bgMask = b &&& bgMask ∧
    (a &&& clear = 0 → merge a (diff a b) &&& clear = 0) ∧
    (a &&& junkMask = 0 → merge a (diff a b) &&& junkMask = 0) := by
  -- whenever the difference clears, the merge shows the difference
  have key : ∀ d : Attr, d &&& clear ≠ 0 → d &&& attrMask = b &&& attrMask →
      d &&& fgMask = b &&& fgMask → d &&& bgMask = b &&& bgMask →
      merge a d &&& attrMask = b &&& attrMask ∧
      merge a d &&& fgMask = b &&& fgMask ∧
      merge a d &&& bgMask = b &&& bgMask ∧
      (a &&& clear = 0 → merge a d &&& clear = 0) ∧
      (a &&& junkMask = 0 → merge a d &&& junkMask = 0) := by
    intro d hc h1 h2 h3
    rw [merge_flags, merge_fg, merge_bg, merge_clear, merge_junk]
    simp only [hc, ne_eq, not_false_eq_true, if_true, h1, h2, h3, z_or, fg_congr h2, bg_congr h3,
      implies_true, and_true, true_and]
    refine ⟨?_, ?_⟩
    · split
      · rename_i h; exact (hb.1 h).symm
      · rfl
    · split
      · rename_i h; exact (hb.2 h).symm
      · rfl
  unfold diff
  split
  · rename_i hc
    exact key b hc rfl rfl rfl
  · rename_i hc
    simp only [fgM_val, bgM_val]
    split
    · apply key
      · rw [or_and]
        intro h0
        have := congrArg (fun z => BitVec.getLsbD z 0) h0
        simp only [BitVec.getLsbD_or, BitVec.getLsbD_and, clear_val] at this
        simp at this
      · masks
      · masks
      · masks
    · rename_i hn
      simp only [not_or] at hn
      obtain ⟨hg, hfg, hbg⟩ := hn
      have hx := and_xor_zero hg
      have m1 : ∀ x y : Attr, (x &&& attrMask ^^^ y &&& attrMask) &&& attrMask =
          (x &&& attrMask ^^^ y &&& attrMask) := by
        intro x y
        apply BitVec.eq_of_getLsbD_eq; intro i hi
        simp only [BitVec.getLsbD_and, BitVec.getLsbD_xor]
        cases attrMask.getLsbD i <;> simp
      generalize hd0 : (b &&& attrMask) &&& (a &&& attrMask ^^^ b &&& attrMask) = d0 at hx ⊢
      have hd0' : d0 = d0 &&& attrMask := by
        rw [← hd0, and_mask_comm (b &&& attrMask), m1]
      -- the two optional colour parts
      generalize hF : (if b &&& fgMask ≠ a &&& fgMask then d0 ||| (b &&& fgMask) else d0) = d1
      generalize hB : (if b &&& bgMask ≠ a &&& bgMask then d1 ||| (b &&& bgMask) else d1) = d2
      have z1 : d0 &&& clear = 0 := by rw [hd0']; masks
      have z2 : d0 &&& fgMask = 0 := by rw [hd0']; masks
      have z3 : d0 &&& bgMask = 0 := by rw [hd0']; masks
      have c1 : d2 &&& clear = 0 := by
        rw [← hB, ← hF]; repeat' split
        all_goals ((try masks); try simp only [z1, or_z])
      have c2 : d2 &&& attrMask = d0 := by
        rw [← hB, ← hF]; repeat' split
        all_goals ((try masks); exact hd0'.symm)
      have c3 : d2 &&& fgMask = if b &&& fgMask ≠ a &&& fgMask then b &&& fgMask else 0 := by
        rw [← hB, ← hF]
        split <;> split <;> ((try masks); simp only [z2, z_or])
      have c4 : d2 &&& bgMask = if b &&& bgMask ≠ a &&& bgMask then b &&& bgMask else 0 := by
        rw [← hB, ← hF]
        split <;> split <;> ((try masks); simp only [z3, z_or])
      rw [merge_flags, merge_fg, merge_bg, merge_clear, merge_junk]
      simp only [c1, ne_eq, not_true_eq_false, if_false, c2, hx, true_and, imp_self, and_true]
      refine ⟨?_, ?_⟩
      · by_cases he : b &&& fgMask = a &&& fgMask
        · have : fg d2 = none := fg_none_of_zero (by rw [c3]; simp [he])
          rw [if_pos this, he]
        · rw [if_pos he] at c3
          have hne : fg d2 ≠ none := by
            rw [fg_congr (b := b) c3]
            intro h
            have h0 := hb.1 h
            apply hfg
            refine ⟨h0, ?_⟩
            rw [h0] at he; exact fun h => he h.symm
          rw [if_neg hne, c3]
      · by_cases he : b &&& bgMask = a &&& bgMask
        · have : bg d2 = none := bg_none_of_zero (by rw [c4]; simp [he])
          rw [if_pos this, he]
        · rw [if_pos he] at c4
          have hne : bg d2 ≠ none := by
            rw [bg_congr (b := b) c4]
            intro h
            have h0 := hb.2 h
            apply hbg
            refine ⟨h0, ?_⟩
            rw [h0] at he; exact fun h => he h.symm
          rw [if_neg hne, c4]

/-! ### Fields of `Style.build` -/

theorem flagIf_and (b : Bool) (x m : Attr) : flagIf b x &&& m = flagIf b (x &&& m) := by
  cases b <;> simp [flagIf, z_and]

theorem flagIf_zero (b : Bool) : flagIf b 0 = 0 := by cases b <;> rfl

theorem value_mask (c : Colour) : c.value &&& colorMask = c.value := by
  cases c with
  | indexed i => simp only [Colour.value, colorMask]; bits32
  | direct r g b => simp only [Colour.value, rgb, colorMask, color24]; bits32

private theorem fm : Sgr.bold &&& fgMask = 0 ∧ dim &&& fgMask = 0 ∧ italic &&& fgMask = 0 ∧
    underscore &&& fgMask = 0 ∧ negative &&& fgMask = 0 ∧ conceal &&& fgMask = 0 ∧
    Sgr.bold &&& bgMask = 0 ∧ dim &&& bgMask = 0 ∧ italic &&& bgMask = 0 ∧
    underscore &&& bgMask = 0 ∧ negative &&& bgMask = 0 ∧ conceal &&& bgMask = 0 ∧
    Sgr.bold &&& attrMask = Sgr.bold ∧ dim &&& attrMask = dim ∧ italic &&& attrMask = italic ∧
    underscore &&& attrMask = underscore ∧ negative &&& attrMask = negative ∧
    conceal &&& attrMask = conceal ∧
    Sgr.bold &&& clear = 0 ∧ dim &&& clear = 0 ∧ italic &&& clear = 0 ∧
    underscore &&& clear = 0 ∧ negative &&& clear = 0 ∧ conceal &&& clear = 0 ∧
    Sgr.bold &&& junkMask = 0 ∧ dim &&& junkMask = 0 ∧ italic &&& junkMask = 0 ∧
    underscore &&& junkMask = 0 ∧ negative &&& junkMask = 0 ∧ conceal &&& junkMask = 0 ∧
    clear &&& clear = clear := by
  decide

theorem build_fgMask (s : Style) :
    s.build &&& fgMask = match s.fg with | some c => colorFG c.value | none => 0 := by
  have ⟨h1, h2, h3, h4, h5, h6, _⟩ := fm
  unfold Style.build
  simp only [or_and, flagIf_and, h1, h2, h3, h4, h5, h6, mask_cl_fg, flagIf_zero, or_z, z_or]
  cases s.fg <;> cases s.bg <;> simp only [z_and, z_or, or_z, colorFG_fgMask, colorBG_fgm]

theorem build_bgMask (s : Style) :
    s.build &&& bgMask = match s.bg with | some c => colorBG c.value | none => 0 := by
  have ⟨_, _, _, _, _, _, h1, h2, h3, h4, h5, h6, _⟩ := fm
  unfold Style.build
  simp only [or_and, flagIf_and, h1, h2, h3, h4, h5, h6, mask_cl_bg, flagIf_zero, or_z, z_or]
  cases s.fg <;> cases s.bg <;> simp only [z_and, z_or, or_z, colorBG_bgMask, colorFG_bgm]

theorem build_clear (s : Style) : s.build &&& clear = flagIf s.clear clear := by
  have ⟨_, _, _, _, _, _, _, _, _, _, _, _, _, _, _, _, _, _, h1, h2, h3, h4, h5, h6, _, _, _, _, _, _, h7⟩ := fm
  unfold Style.build
  simp only [or_and, flagIf_and, h1, h2, h3, h4, h5, h6, h7, flagIf_zero, or_z, z_or]
  cases s.fg <;> cases s.bg <;> simp only [z_and, or_z, colorBG_cl, colorFG_cl]

theorem build_junk (s : Style) : s.build &&& junkMask = 0 := by
  have f : ∀ c, colorFG c &&& junkMask = 0 := by
    intro c; rw [← colorFG_fgMask, and_mask_comm, mask_fg_jk, and_z]
  have b : ∀ c, colorBG c &&& junkMask = 0 := by
    intro c; rw [← colorBG_bgMask, and_mask_comm, mask_bg_jk, and_z]
  have ⟨_, _, _, _, _, _, _, _, _, _, _, _, _, _, _, _, _, _, _, _, _, _, _, _, h1, h2, h3, h4, h5, h6, _⟩ := fm
  unfold Style.build
  simp only [or_and, flagIf_and, h1, h2, h3, h4, h5, h6, mask_cl_jk, flagIf_zero, or_z, z_or]
  cases s.fg <;> cases s.bg <;> simp only [z_and, or_z, f, b]

theorem build_flags (s : Style) : s.build &&& attrMask =
    flagIf s.bold Sgr.bold ||| flagIf s.dim Sgr.dim ||| flagIf s.italic Sgr.italic |||
    flagIf s.underscore Sgr.underscore ||| flagIf s.negative Sgr.negative |||
    flagIf s.conceal Sgr.conceal := by
  have ⟨_, _, _, _, _, _, _, _, _, _, _, _, h1, h2, h3, h4, h5, h6, _⟩ := fm
  unfold Style.build
  simp only [or_and, flagIf_and, h1, h2, h3, h4, h5, h6, mask_cl_at, flagIf_zero, z_or]
  cases s.fg <;> cases s.bg <;> simp only [z_and, or_z, colorBG_at, colorFG_at]

theorem build_fg (s : Style) : fg s.build = s.fg.map Colour.value := by
  cases h : s.fg with
  | none => exact fg_none_of_zero (by rw [build_fgMask, h])
  | some c =>
    rw [fg_congr (b := colorFG c.value) (by rw [build_fgMask, h, colorFG_fgMask]), fg_colorFG,
      value_mask]; rfl

theorem build_bg (s : Style) : bg s.build = s.bg.map Colour.value := by
  cases h : s.bg with
  | none => exact bg_none_of_zero (by rw [build_bgMask, h])
  | some c =>
    rw [bg_congr (b := colorBG c.value) (by rw [build_bgMask, h, colorBG_bgMask]), bg_colorBG,
      value_mask]; rfl

theorem build_wf (s : Style) : WF s.build := by
  refine ⟨?_, ?_⟩
  · rw [build_fg, build_fgMask]; cases s.fg <;> simp
  · rw [build_bg, build_bgMask]; cases s.bg <;> simp

end Anansi.Sgr
