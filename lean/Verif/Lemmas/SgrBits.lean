import Verif.Model.Sgr
import Mathlib.Tactic.IntervalCases
/-
Helper lemmas about the bit layout of SGR attributes.
-/
set_option autoImplicit false

namespace Anansi.Sgr

theorem fgSet_val : fgSet = 0x100000000#64 := by decide
theorem bgSet_val : bgSet = 0x400000000000000#64 := by decide
theorem fgMask_val : fgMask = 0x1FFFFFF80#64 := by decide
theorem bgMask_val : bgMask = 0x7FFFFFE00000000#64 := by decide
theorem attrMask_val : attrMask = 0x7E#64 := by decide
theorem clear_val : clear = 1#64 := rfl
theorem fgM_val : fgSet ||| (colorMask.setWidth 64 <<< fgShift) = fgMask := by decide
theorem bgM_val : bgSet ||| (colorMask.setWidth 64 <<< bgShift) = bgMask := by decide

/-- Prove a 64-bit identity bit by bit. -/
macro "bits64" : tactic => `(tactic| (
  apply BitVec.eq_of_getLsbD_eq; intro i hi
  simp only [BitVec.getLsbD_or, BitVec.getLsbD_and, BitVec.getLsbD_xor, BitVec.getLsbD_shiftLeft,
    BitVec.getLsbD_setWidth, BitVec.getLsbD_ushiftRight, BitVec.getLsbD_not]
  interval_cases i <;> simp))

/-- Prove a 32-bit identity bit by bit. -/
macro "bits32" : tactic => `(tactic| (
  apply BitVec.eq_of_getLsbD_eq; intro i hi
  simp only [BitVec.getLsbD_or, BitVec.getLsbD_and, BitVec.getLsbD_xor, BitVec.getLsbD_shiftLeft,
    BitVec.getLsbD_setWidth, BitVec.getLsbD_ushiftRight, BitVec.getLsbD_not]
  interval_cases i <;> simp))

theorem and_bit_ne_zero (a : BitVec 64) (k : Nat) (hk : k < 64) :
    a &&& (1#64 <<< k) ≠ 0 ↔ a.getLsbD k = true := by
  constructor
  · intro h
    by_cases hb : a.getLsbD k = true
    · exact hb
    · exfalso; apply h
      apply BitVec.eq_of_getLsbD_eq; intro i hi
      simp only [BitVec.getLsbD_and, BitVec.getLsbD_shiftLeft]
      by_cases hik : i = k
      · subst hik; simp [hb]
      · by_cases hlt : i < k
        · simp [hlt]
        · have : (1#64).getLsbD (i - k) = false := by
            rw [BitVec.getLsbD_one]; simp; omega
          simp [this]
  · intro h h0
    have := congrArg (fun x => BitVec.getLsbD x k) h0
    rw [BitVec.getLsbD_and, h] at this
    simp [hk] at this

theorem fgSet_shift : fgSet = 1#64 <<< 32 := by decide
theorem bgSet_shift : bgSet = 1#64 <<< 58 := by decide
theorem clear_shift : clear = 1#64 <<< 0 := by decide

theorem fgSet_iff (a : Attr) : a &&& fgSet ≠ 0 ↔ a.getLsbD 32 = true := by
  rw [fgSet_shift]; exact and_bit_ne_zero a 32 (by decide)
theorem bgSet_iff (a : Attr) : a &&& bgSet ≠ 0 ↔ a.getLsbD 58 = true := by
  rw [bgSet_shift]; exact and_bit_ne_zero a 58 (by decide)
theorem clear_iff (a : Attr) : a &&& clear ≠ 0 ↔ a.getLsbD 0 = true := by
  rw [clear_shift]; exact and_bit_ne_zero a 0 (by decide)

/-- The foreground colour depends on the foreground field only. -/
theorem fg_congr {a b : Attr} (h : a &&& fgMask = b &&& fgMask) : fg a = fg b := by
  have hb : ∀ i, 7 ≤ i → i < 33 → a.getLsbD i = b.getLsbD i := by
    intro i h1 h2
    have := congrArg (fun x => BitVec.getLsbD x i) h
    simp only [BitVec.getLsbD_and, fgMask_val] at this
    have hm : (0x1FFFFFF80#64).getLsbD i = true := by interval_cases i <;> rfl
    simpa [hm] using this
  unfold fg
  have e1 : (a &&& fgSet ≠ 0) ↔ (b &&& fgSet ≠ 0) := by
    rw [fgSet_iff, fgSet_iff, hb 32 (by omega) (by omega)]
  have e2 : (a >>> fgShift).setWidth 32 &&& colorMask = (b >>> fgShift).setWidth 32 &&& colorMask := by
    apply BitVec.eq_of_getLsbD_eq; intro i hi
    simp only [BitVec.getLsbD_and, BitVec.getLsbD_setWidth, BitVec.getLsbD_ushiftRight, fgShift,
      colorMask]
    by_cases h25 : i < 25
    · rw [hb (7 + i) (by omega) (by omega)]
    · have : (0x01ffffff#32).getLsbD i = false := by
        have : 25 ≤ i := by omega
        interval_cases i <;> rfl
      simp [this]
  rw [e2]; simp only [e1]

theorem bg_congr {a b : Attr} (h : a &&& bgMask = b &&& bgMask) : bg a = bg b := by
  have hb : ∀ i, 33 ≤ i → i < 59 → a.getLsbD i = b.getLsbD i := by
    intro i h1 h2
    have := congrArg (fun x => BitVec.getLsbD x i) h
    simp only [BitVec.getLsbD_and, bgMask_val] at this
    have hm : (0x7FFFFFE00000000#64).getLsbD i = true := by interval_cases i <;> rfl
    simpa [hm] using this
  unfold bg
  have e1 : (a &&& bgSet ≠ 0) ↔ (b &&& bgSet ≠ 0) := by
    rw [bgSet_iff, bgSet_iff, hb 58 (by omega) (by omega)]
  have e2 : (a >>> bgShift).setWidth 32 &&& colorMask = (b >>> bgShift).setWidth 32 &&& colorMask := by
    apply BitVec.eq_of_getLsbD_eq; intro i hi
    simp only [BitVec.getLsbD_and, BitVec.getLsbD_setWidth, BitVec.getLsbD_ushiftRight, bgShift,
      colorMask]
    by_cases h25 : i < 25
    · rw [hb (7 + 26 + i) (by omega) (by omega)]
    · have : (0x01ffffff#32).getLsbD i = false := by
        have : 25 ≤ i := by omega
        interval_cases i <;> rfl
      simp [this]
  rw [e2]; simp only [e1]

theorem fg_colorFG (c : Color) : fg (colorFG c) = some (c &&& colorMask) := by
  unfold fg
  rw [if_pos]
  · congr 1
    unfold colorFG
    rw [fgSet_val]; unfold colorMask fgShift
    bits32
  · rw [fgSet_iff]; unfold colorFG; rw [fgSet_val]
    simp

theorem bg_colorBG (c : Color) : bg (colorBG c) = some (c &&& colorMask) := by
  unfold bg
  rw [if_pos]
  · congr 1
    unfold colorBG
    rw [bgSet_val]; unfold colorMask bgShift
    bits32
  · rw [bgSet_iff]; unfold colorBG; rw [bgSet_val]
    simp

/-- The foreground field of an attribute whose colour is set is that colour's. -/
theorem colorFG_of_fg {a : Attr} {c : Color} (h : fg a = some c) : colorFG c = a &&& fgMask := by
  unfold fg at h
  split at h
  · rename_i hs
    simp at h; subst h
    rw [fgSet_iff] at hs
    unfold colorFG
    rw [fgSet_val, fgMask_val]; unfold colorMask fgShift
    apply BitVec.eq_of_getLsbD_eq; intro i hi
    simp only [BitVec.getLsbD_or, BitVec.getLsbD_and, BitVec.getLsbD_shiftLeft,
      BitVec.getLsbD_setWidth, BitVec.getLsbD_ushiftRight]
    interval_cases i <;> simp [hs]
  · simp at h

theorem colorBG_of_bg {a : Attr} {c : Color} (h : bg a = some c) : colorBG c = a &&& bgMask := by
  unfold bg at h
  split at h
  · rename_i hs
    simp at h; subst h
    rw [bgSet_iff] at hs
    unfold colorBG
    rw [bgSet_val, bgMask_val]; unfold colorMask bgShift
    apply BitVec.eq_of_getLsbD_eq; intro i hi
    simp only [BitVec.getLsbD_or, BitVec.getLsbD_and, BitVec.getLsbD_shiftLeft,
      BitVec.getLsbD_setWidth, BitVec.getLsbD_ushiftRight]
    interval_cases i <;> simp [hs]
  · simp at h

theorem colorFG_fgMask (c : Color) : colorFG c &&& fgMask = colorFG c := by
  unfold colorFG; rw [fgSet_val, fgMask_val]; unfold colorMask fgShift; bits64
theorem colorBG_bgMask (c : Color) : colorBG c &&& bgMask = colorBG c := by
  unfold colorBG; rw [bgSet_val, bgMask_val]; unfold colorMask bgShift; bits64

theorem fg_none_of_zero {a : Attr} (h : a &&& fgMask = 0) : fg a = none := by
  rw [fg_congr (b := 0) (by rw [h]; rfl)]; decide
theorem bg_none_of_zero {a : Attr} (h : a &&& bgMask = 0) : bg a = none := by
  rw [bg_congr (b := 0) (by rw [h]; rfl)]; decide

/-- Distribute a mask over a disjunction and evaluate constant masks. -/
theorem and_mask_comm (x m n : Attr) : (x &&& m) &&& n = x &&& (m &&& n) := BitVec.and_assoc x m n

theorem or_and (x y m : Attr) : (x ||| y) &&& m = (x &&& m) ||| (y &&& m) := by
  apply BitVec.eq_of_getLsbD_eq; intro i hi
  simp only [BitVec.getLsbD_or, BitVec.getLsbD_and]
  cases x.getLsbD i <;> cases y.getLsbD i <;> simp

theorem and_z (x : Attr) : x &&& 0 = 0 := BitVec.and_zero
theorem z_and (x : Attr) : 0 &&& x = 0 := BitVec.zero_and
theorem or_z (x : Attr) : x ||| 0 = x := BitVec.or_zero
theorem z_or (x : Attr) : 0 ||| x = x := BitVec.zero_or

theorem mask_fg_bg : fgMask &&& bgMask = 0 := by decide
theorem mask_bg_fg : bgMask &&& fgMask = 0 := by decide
theorem mask_fg_at : fgMask &&& attrMask = 0 := by decide
theorem mask_at_fg : attrMask &&& fgMask = 0 := by decide
theorem mask_bg_at : bgMask &&& attrMask = 0 := by decide
theorem mask_at_bg : attrMask &&& bgMask = 0 := by decide
theorem mask_fg_cl : fgMask &&& clear = 0 := by decide
theorem mask_bg_cl : bgMask &&& clear = 0 := by decide
theorem mask_at_cl : attrMask &&& clear = 0 := by decide
theorem mask_cl_fg : clear &&& fgMask = 0 := by decide
theorem mask_cl_bg : clear &&& bgMask = 0 := by decide
theorem mask_cl_at : clear &&& attrMask = 0 := by decide
theorem mask_nfg_fg : ~~~fgMask &&& fgMask = 0 := by decide
theorem mask_nfg_bg : ~~~fgMask &&& bgMask = bgMask := by decide
theorem mask_nfg_at : ~~~fgMask &&& attrMask = attrMask := by decide
theorem mask_nfg_cl : ~~~fgMask &&& clear = clear := by decide
theorem mask_nbg_bg : ~~~bgMask &&& bgMask = 0 := by decide
theorem mask_nbg_fg : ~~~bgMask &&& fgMask = fgMask := by decide
theorem mask_nbg_at : ~~~bgMask &&& attrMask = attrMask := by decide
theorem mask_nbg_cl : ~~~bgMask &&& clear = clear := by decide
theorem mask_fg_fg : fgMask &&& fgMask = fgMask := by decide
theorem mask_bg_bg : bgMask &&& bgMask = bgMask := by decide
theorem mask_at_at : attrMask &&& attrMask = attrMask := by decide

/-- Simplify masked expressions to their fields. -/
macro "masks" : tactic => `(tactic| simp only [or_and, and_mask_comm, mask_fg_bg, mask_bg_fg,
  mask_fg_at, mask_at_fg, mask_bg_at, mask_at_bg, mask_fg_cl, mask_bg_cl, mask_at_cl, mask_cl_fg,
  mask_cl_bg, mask_cl_at, mask_nfg_fg, mask_nfg_bg, mask_nfg_at, mask_nfg_cl, mask_nbg_bg,
  mask_nbg_fg, mask_nbg_at, mask_nbg_cl, mask_fg_fg, mask_bg_bg, mask_at_at,
  and_z, or_z, z_or, z_and, sansFG, sansBG])

theorem colorFG_at (c : Color) : colorFG c &&& attrMask = 0 := by
  rw [← colorFG_fgMask]; masks
theorem colorFG_bgm (c : Color) : colorFG c &&& bgMask = 0 := by
  rw [← colorFG_fgMask]; masks
theorem colorFG_cl (c : Color) : colorFG c &&& clear = 0 := by
  rw [← colorFG_fgMask]; masks
theorem colorBG_at (c : Color) : colorBG c &&& attrMask = 0 := by
  rw [← colorBG_bgMask]; masks
theorem colorBG_fgm (c : Color) : colorBG c &&& fgMask = 0 := by
  rw [← colorBG_bgMask]; masks
theorem colorBG_cl (c : Color) : colorBG c &&& clear = 0 := by
  rw [← colorBG_bgMask]; masks

end Anansi.Sgr
