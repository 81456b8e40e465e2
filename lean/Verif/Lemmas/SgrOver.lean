import Verif.Lemmas.SgrTerm
/-
Merging attributes is putting one style over another.
-/
set_option autoImplicit false

namespace Anansi.Sgr

theorem word_or (b d i u n c b' d' i' u' n' c' : Bool) :
    word b d i u n c ||| word b' d' i' u' n' c' =
      word (b || b') (d || d') (i || i') (u || u') (n || n') (c || c') := by
  apply BitVec.eq_of_getLsbD_eq
  intro k _
  rw [BitVec.getLsbD_or, word_bit, word_bit, word_bit]
  by_cases h1 : k = 1
  · subst h1; simp
  by_cases h2 : k = 2
  · subst h2; simp
  by_cases h3 : k = 3
  · subst h3; simp
  by_cases h4 : k = 4
  · subst h4; simp
  by_cases h5 : k = 5
  · subst h5; simp
  by_cases h6 : k = 6
  · subst h6; simp
  simp only [beq_eq_false_iff_ne.mpr h1, beq_eq_false_iff_ne.mpr h2, beq_eq_false_iff_ne.mpr h3,
    beq_eq_false_iff_ne.mpr h4, beq_eq_false_iff_ne.mpr h5, beq_eq_false_iff_ne.mpr h6, Bool.and_false, Bool.or_false]

theorem merge_over (s st : Style) : merge st.build s.build = (s.over st).build := by
  have hc : (s.build &&& clear ≠ 0) ↔ s.clear = true := by
    rw [build_clear]; cases s.clear <;> decide
  apply attr_ext
  · rw [merge_clear, build_clear (s.over st), build_clear st]
    unfold Style.over
    by_cases h : s.clear = true
    · rw [if_pos (hc.mpr h)]; simp [h, flagIf]
    · rw [if_neg (fun x => h (hc.mp x))]; simp [h]
  · rw [merge_flags, build_word, build_word, build_word]
    unfold Style.over
    by_cases h : s.clear = true
    · rw [if_pos (hc.mpr h), z_or]; simp [h]
    · rw [if_neg (fun x => h (hc.mp x)), word_or]; simp [h]
  · rw [merge_fg, build_fg, build_fgMask, build_fgMask, build_fgMask]
    unfold Style.over
    by_cases h : s.clear = true
    · rw [if_pos (hc.mpr h)]; cases hf : s.fg <;> simp [h]
    · rw [if_neg (fun x => h (hc.mp x))]; cases hf : s.fg <;> simp [h]
  · rw [merge_bg, build_bg, build_bgMask, build_bgMask, build_bgMask]
    unfold Style.over
    by_cases h : s.clear = true
    · rw [if_pos (hc.mpr h)]; cases hf : s.bg <;> simp [h]
    · rw [if_neg (fun x => h (hc.mp x))]; cases hf : s.bg <;> simp [h]
  · rw [merge_junk, build_junk, build_junk]; simp

end Anansi.Sgr
