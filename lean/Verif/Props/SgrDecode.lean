import Verif.Lemmas.SgrOver
import Verif.Model.State
import Mathlib.Tactic.IntervalCases
/-
C74: an SGR sequence read by the library's cursor has the meaning that it has on a
terminal.
-/
set_option autoImplicit false

namespace Anansi
open Vt

namespace Spec

/-- One SGR parameter group as a program may send it. -/
inductive SgrParam
  /-- A single code. -/
  | plain (n : Nat)
  /-- `38;5;i` and `48;5;i`. -/
  | fgIndex (i : UInt8)
  | bgIndex (i : UInt8)
  /-- `38;2;r;g;b` and `48;2;r;g;b`. -/
  | fgRGB (r g b : UInt8)
  | bgRGB (r g b : UInt8)
deriving DecidableEq, Repr

/-- The parameter numbers of a group. -/
def SgrParam.codes : SgrParam → List Nat
  | .plain n => [n]
  | .fgIndex i => [38, 5, i.toNat]
  | .bgIndex i => [48, 5, i.toNat]
  | .fgRGB r g b => [38, 2, r.toNat, g.toNat, b.toNat]
  | .bgRGB r g b => [48, 2, r.toNat, g.toNat, b.toNat]

/-- The groups covered: reset, the flags 1 to 7, the 16 named colours in either
place, all indexed colours and all 24-bit colours. -/
def SgrParam.Known : SgrParam → Prop
  | .plain n => n ≤ 7 ∨ (30 ≤ n ∧ n ≤ 37) ∨ (40 ≤ n ∧ n ≤ 47) ∨ (90 ≤ n ∧ n ≤ 97) ∨
      (100 ≤ n ∧ n ≤ 107)
  | _ => True

/-- All the parameter numbers of a sequence. -/
def sgrCodes (l : List SgrParam) : List Nat := l.flatMap SgrParam.codes

end Spec

open Spec

namespace Sgr

/-- What a group does to a style being decoded. -/
def stepStyle (s : Style) : SgrParam → Style
  | .plain n =>
    if n = 0 then { clear := true }
    else if n = 1 then { s with bold := true }
    else if n = 2 then { s with dim := true }
    else if n = 3 then { s with italic := true }
    else if n = 4 then { s with underscore := true }
    else if n = 7 then { s with negative := true }
    else if 30 ≤ n ∧ n ≤ 37 then { s with fg := some (.indexed (UInt8.ofNat (n - 30))) }
    else if 40 ≤ n ∧ n ≤ 47 then { s with bg := some (.indexed (UInt8.ofNat (n - 40))) }
    else if 90 ≤ n ∧ n ≤ 97 then { s with fg := some (.indexed (UInt8.ofNat (n - 90 + 8))) }
    else if 100 ≤ n ∧ n ≤ 107 then { s with bg := some (.indexed (UInt8.ofNat (n - 100 + 8))) }
    else s
  | .fgIndex i => { s with fg := some (.indexed i) }
  | .bgIndex i => { s with bg := some (.indexed i) }
  | .fgRGB r g b => { s with fg := some (.direct r g b) }
  | .bgRGB r g b => { s with bg := some (.direct r g b) }

theorem good_fg_index (i : UInt8) :
    Good ([0x33, 0x38, 0x3B, 0x35] ++ colorString i)
      (fun a => sansFG a ||| colorFG (Colour.indexed i).value) := by
  intro attr n rest hr
  have hd := number_dec i rest hr
  have e : [0x33, 0x38, 0x3B, 0x35] ++ colorString i ++ rest =
    0x33 :: (([0x38, 0x3B, 0x35] ++ colorString i) ++ rest) := by simp
  rw [e, decodeLoop_cons, if_neg (by decide), if_neg (by simp), if_neg (by simp), if_pos (by decide)]
  simp only [hd.1, ne_eq, not_true_eq_false, if_false, hd.2.1]
  rw [cont hd]; simp [Colour.value]; congr 1; omega

theorem good_bg_index (i : UInt8) :
    Good ([0x34, 0x38, 0x3B, 0x35] ++ colorString i)
      (fun a => sansBG a ||| colorBG (Colour.indexed i).value) := by
  intro attr n rest hr
  have hd := number_dec i rest hr
  have e : [0x34, 0x38, 0x3B, 0x35] ++ colorString i ++ rest =
    0x34 :: (([0x38, 0x3B, 0x35] ++ colorString i) ++ rest) := by simp
  rw [e, decodeLoop_cons, if_neg (by decide), if_neg (by simp), if_neg (by simp), if_neg (by decide),
    if_pos (by decide)]
  simp only [hd.1, ne_eq, not_true_eq_false, if_false, hd.2.1]
  rw [cont hd]; simp [Colour.value]; congr 1; omega

theorem build_set_fg (s : Style) (c : Colour) :
    sansFG s.build ||| colorFG c.value = { s with fg := some c }.build := by
  apply attr_ext <;> simp only [or_and, sansFG, and_mask_comm, mask_nfg_cl, mask_nfg_at, mask_nfg_fg,
    mask_nfg_bg, mask_nfg_jk, and_z]
  · rw [build_clear, build_clear, colorFG_cl, or_z]
  · rw [build_word, build_word, colorFG_at, or_z]
  · rw [build_fgMask, z_or, colorFG_fgMask]
  · rw [build_bgMask, build_bgMask, colorFG_bgm, or_z]
  · rw [build_junk, build_junk, ← colorFG_fgMask, and_mask_comm, mask_fg_jk, and_z, or_z]

theorem build_set_bg (s : Style) (c : Colour) :
    sansBG s.build ||| colorBG c.value = { s with bg := some c }.build := by
  apply attr_ext <;> simp only [or_and, sansBG, and_mask_comm, mask_nbg_cl, mask_nbg_at, mask_nbg_fg,
    mask_nbg_bg, mask_nbg_jk, and_z]
  · rw [build_clear, build_clear, colorBG_cl, or_z]
  · rw [build_word, build_word, colorBG_at, or_z]
  · rw [build_fgMask, build_fgMask, colorBG_fgm, or_z]
  · rw [build_bgMask, z_or, colorBG_bgMask]
  · rw [build_junk, build_junk, ← colorBG_bgMask, and_mask_comm, mask_bg_jk, and_z, or_z]

theorem build_or_word (s : Style) (b d i u n : Bool) :
    s.build ||| word b d i u n false =
      { s with bold := s.bold || b, dim := s.dim || d, italic := s.italic || i,
               underscore := s.underscore || u, negative := s.negative || n }.build := by
  apply attr_ext <;> simp only [or_and]
  · rw [build_clear, build_clear, word_cl, or_z]
  · rw [build_word, build_word, word_at, word_or]; simp
  · rw [build_fgMask, build_fgMask, word_fgm, or_z]
  · rw [build_bgMask, build_bgMask, word_bgm, or_z]
  · rw [build_junk, build_junk, word_jk, or_z]

theorem build_digit (s : Style) (n : Nat) (h : n ≤ 7) :
    applyDigit s.build (digitByte n) = (stepStyle s (.plain n)).build := by
  have w1 : bold = word true false false false false false := by decide
  have w2 : dim = word false true false false false false := by decide
  have w3 : italic = word false false true false false false := by decide
  have w4 : underscore = word false false false true false false := by decide
  have w7 : negative = word false false false false true false := by decide
  interval_cases n
  · show clear = ({ clear := true } : Style).build; decide
  · show s.build ||| bold = _; rw [w1, build_or_word]; simp [stepStyle]
  · show s.build ||| dim = _; rw [w2, build_or_word]; simp [stepStyle]
  · show s.build ||| italic = _; rw [w3, build_or_word]; simp [stepStyle]
  · show s.build ||| underscore = _; rw [w4, build_or_word]; simp [stepStyle]
  · show s.build = _; simp [stepStyle]
  · show s.build = _; simp [stepStyle]
  · show s.build ||| negative = _; rw [w7, build_or_word]; simp [stepStyle]

/-- A group's text decodes to the group's effect. -/
theorem good_param (p : SgrParam) (h : p.Known) :
    ∃ e, Good (params p.codes) e ∧ ∀ s : Style, e s.build = (stepStyle s p).build := by
  have fgc : ∀ c : Colour, ∃ e, Good (params (fgCodes c)) e ∧
      ∀ s : Style, e s.build = { s with fg := some c }.build := fun c =>
    ⟨_, by rw [← fg_params]; exact good_fg c, fun s => build_set_fg s c⟩
  have bgc : ∀ c : Colour, ∃ e, Good (params (bgCodes c)) e ∧
      ∀ s : Style, e s.build = { s with bg := some c }.build := fun c =>
    ⟨_, by rw [← bg_params]; exact good_bg c, fun s => build_set_bg s c⟩
  cases p with
  | plain n =>
    rcases h with h | h | h | h | h
    · refine ⟨fun a => applyDigit a (digitByte n), ?_, fun s => build_digit s n h⟩
      show Good (itoaNat n) _
      rw [itoa_small n (by omega)]
      apply good_digit
      unfold digitByte
      interval_cases n <;> decide
    · obtain ⟨e, h1, h2⟩ := fgc (.indexed (UInt8.ofNat (n - 30)))
      have ht : (UInt8.ofNat (n - 30)).toNat = n - 30 := by simp; omega
      refine ⟨e, ?_, fun s => ?_⟩
      · have : fgCodes (.indexed (UInt8.ofNat (n - 30))) = [n] := by
          simp only [fgCodes, ht]; rw [if_pos (by omega)]; congr 1; omega
        rw [this] at h1; exact h1
      · rw [h2]; simp only [stepStyle]
        repeat rw [if_neg (by omega)]
        rw [if_pos h]
    · obtain ⟨e, h1, h2⟩ := bgc (.indexed (UInt8.ofNat (n - 40)))
      have ht : (UInt8.ofNat (n - 40)).toNat = n - 40 := by simp; omega
      refine ⟨e, ?_, fun s => ?_⟩
      · have : bgCodes (.indexed (UInt8.ofNat (n - 40))) = [n] := by
          simp only [bgCodes, ht]; rw [if_pos (by omega)]; congr 1; omega
        rw [this] at h1; exact h1
      · rw [h2]; simp only [stepStyle]
        repeat rw [if_neg (by omega)]
        rw [if_pos h]
    · obtain ⟨e, h1, h2⟩ := fgc (.indexed (UInt8.ofNat (n - 90 + 8)))
      have ht : (UInt8.ofNat (n - 90 + 8)).toNat = n - 90 + 8 := by
        rw [UInt8.toNat_ofNat']; omega
      refine ⟨e, ?_, fun s => ?_⟩
      · have : fgCodes (.indexed (UInt8.ofNat (n - 90 + 8))) = [n] := by
          simp only [fgCodes, ht]; rw [if_neg (by omega), if_pos (by omega)]; congr 1; omega
        rw [this] at h1; exact h1
      · rw [h2]; simp only [stepStyle]
        repeat rw [if_neg (by omega)]
        rw [if_pos h]
    · obtain ⟨e, h1, h2⟩ := bgc (.indexed (UInt8.ofNat (n - 100 + 8)))
      have ht : (UInt8.ofNat (n - 100 + 8)).toNat = n - 100 + 8 := by
        rw [UInt8.toNat_ofNat']; omega
      refine ⟨e, ?_, fun s => ?_⟩
      · have : bgCodes (.indexed (UInt8.ofNat (n - 100 + 8))) = [n] := by
          simp only [bgCodes, ht]; rw [if_neg (by omega), if_pos (by omega)]; congr 1; omega
        rw [this] at h1; exact h1
      · rw [h2]; simp only [stepStyle]
        repeat rw [if_neg (by omega)]
        rw [if_pos h]
  | fgIndex i =>
    refine ⟨fun a => sansFG a ||| colorFG (Colour.indexed i).value, ?_,
      fun s => build_set_fg s (.indexed i)⟩
    have e1 : itoaNat 38 = [0x33, 0x38] := by decide +kernel
    have e2 : itoaNat 5 = [0x35] := by decide +kernel
    have : params (SgrParam.codes (.fgIndex i)) = [0x33, 0x38, 0x3B, 0x35] ++ colorString i := by
      simp [SgrParam.codes, params, e1, e2, colorString]
    rw [this]; exact good_fg_index i
  | bgIndex i =>
    refine ⟨fun a => sansBG a ||| colorBG (Colour.indexed i).value, ?_,
      fun s => build_set_bg s (.indexed i)⟩
    have e1 : itoaNat 48 = [0x34, 0x38] := by decide +kernel
    have e2 : itoaNat 5 = [0x35] := by decide +kernel
    have : params (SgrParam.codes (.bgIndex i)) = [0x34, 0x38, 0x3B, 0x35] ++ colorString i := by
      simp [SgrParam.codes, params, e1, e2, colorString]
    rw [this]; exact good_bg_index i
  | fgRGB r g b => exact fgc (.direct r g b)
  | bgRGB r g b => exact bgc (.direct r g b)

/-- The decoded style on top of what was shown is what the terminal shows. -/
theorem rend_step (p : SgrParam) (h : p.Known) (s st : Style) (t : List Nat) :
    rend (p.codes ++ t) (s.over st) = rend t ((stepStyle s p).over st) := by
  cases p with
  | plain n =>
    simp only [SgrParam.codes, List.singleton_append]
    rw [rend_simple _ _ _ (by rintro rfl; simp [SgrParam.Known] at h) (by rintro rfl; simp [SgrParam.Known] at h)]
    congr 1
    rcases h with h | h | h | h | h
    · interval_cases n <;> simp [stepStyle, Style.over]
    · simp only [stepStyle]
      repeat rw [if_neg (by omega)]
      rw [if_pos h]
      repeat rw [if_neg (by omega)]
      rw [if_pos h]; simp [Style.over]
    · simp only [stepStyle]
      repeat rw [if_neg (by omega)]
      rw [if_pos h]
      repeat rw [if_neg (by omega)]
      rw [if_pos h]; simp [Style.over]
    · simp only [stepStyle]
      repeat rw [if_neg (by omega)]
      rw [if_pos h]
      repeat rw [if_neg (by omega)]
      rw [if_pos h]; simp [Style.over]
    · simp only [stepStyle]
      repeat rw [if_neg (by omega)]
      rw [if_pos h]
      repeat rw [if_neg (by omega)]
      rw [if_pos h]; simp [Style.over]
  | fgIndex i =>
    simp only [SgrParam.codes, List.cons_append, List.nil_append, rend, ofNat_self, stepStyle, Style.over]
    rfl
  | bgIndex i =>
    simp only [SgrParam.codes, List.cons_append, List.nil_append, rend, ofNat_self, stepStyle, Style.over]
    rfl
  | fgRGB r g b =>
    simp only [SgrParam.codes, List.cons_append, List.nil_append, rend, ofNat_self, stepStyle, Style.over]
    rfl
  | bgRGB r g b =>
    simp only [SgrParam.codes, List.cons_append, List.nil_append, rend, ofNat_self, stepStyle, Style.over]
    rfl

theorem rend_steps (l : List SgrParam) (h : ∀ p ∈ l, p.Known) (st : Style) :
    ∀ s : Style, rend (sgrCodes l) (s.over st) = (l.foldl stepStyle s).over st := by
  induction l with
  | nil => intro s; simp [sgrCodes, rend]
  | cons p l ih =>
    intro s
    have := rend_step p (h p (by simp)) s st (sgrCodes l)
    rw [show sgrCodes (p :: l) = p.codes ++ sgrCodes l by simp [sgrCodes], this,
      ih (fun q hq => h q (by simp [hq]))]
    rfl

theorem codes_ne (p : SgrParam) : p.codes ≠ [] := by cases p <;> simp [SgrParam.codes]

theorem decode_params (l : List SgrParam) (h : ∀ p ∈ l, p.Known) :
    decode (params (sgrCodes l)) =
      ⟨(l.foldl stepStyle {}).build, (params (sgrCodes l)).length, none⟩ := by
  have key : ∀ l : List SgrParam, (∀ p ∈ l, p.Known) → ∃ its : List (Bytes × (Attr → Attr)),
      its.map Prod.fst = l.map (fun p => params p.codes) ∧ (∀ q ∈ its, Good q.1 q.2) ∧
      ∀ s : Style, its.foldl (fun a q => q.2 a) s.build = (l.foldl stepStyle s).build := by
    intro l
    induction l with
    | nil => exact fun _ => ⟨[], rfl, by simp, fun s => rfl⟩
    | cons p l ih =>
      intro h
      obtain ⟨its, h1, h2, h3⟩ := ih (fun q hq => h q (by simp [hq]))
      obtain ⟨e, g1, g2⟩ := good_param p (h p (by simp))
      refine ⟨(params p.codes, e) :: its, by simp [h1], ?_, fun s => ?_⟩
      · intro q hq
        rcases List.mem_cons.mp hq with rfl | hq
        · exact g1
        · exact h2 q hq
      · simp only [List.foldl_cons, g2]; exact h3 _
  obtain ⟨its, h1, h2, h3⟩ := key l h
  have hj : joinArgs (its.map Prod.fst) = params (sgrCodes l) := by
    rw [h1]
    have := join_params (l.map SgrParam.codes) (by
      intro g hg; obtain ⟨p, _, rfl⟩ := List.mem_map.mp hg; exact codes_ne p)
    rw [List.map_map] at this
    rw [show (fun p : SgrParam => params p.codes) = params ∘ SgrParam.codes from rfl, this]
    simp [sgrCodes, List.flatMap]
  have hd := decode_join its h2
  rw [hj] at hd
  rw [hd, ← h3 {}]
  rfl

theorem empty_over (st : Style) : ({} : Style).over st = st := by
  obtain ⟨a, b, c, d, e, f, g, x, y⟩ := st
  simp [Style.over]

end Sgr

/-- C74: reading an SGR sequence whose parameters are any non-empty list of reset,
flag, named, indexed and 24-bit colour groups, in any order and with any repetitions,
a cursor holding some style comes to hold exactly the style that a terminal showing
that style shows after the sequence.  Missing: code 8 and the codes that switch single
things off (`sgr_codes_unread`), and the empty list (`sgr_reset_unread`). -/
theorem sgr_read_meaning_partial (clamp : Pt → Pt) (cs : Cursor) (st : Sgr.Style)
    (hs : cs.attr = st.build) (l : List SgrParam) (hl : l ≠ []) (h : ∀ p ∈ l, p.Known) :
    cs.processEscape clamp SGR (params (sgrCodes l)) =
      some { cs with attr := (rendition (sgrCodes l) st).build } := by
  have hn : sgrCodes l ≠ [] := by
    cases l with
    | nil => exact absurd rfl hl
    | cons p l => simp [sgrCodes, Sgr.codes_ne]
  have hd := Sgr.decode_params l h
  unfold Cursor.processEscape
  rw [if_neg (by decide), if_neg (by decide), if_pos rfl]
  simp only [hd, if_true, hs, Sgr.merge_over, rendition, if_neg hn]
  have := Sgr.rend_steps l h st {}
  rw [Sgr.empty_over] at this
  rw [this]

example : ∀ p ∈ [SgrParam.plain 1, .plain 0, .plain 31, .bgRGB 1 2 3, .fgIndex 3], p.Known := by
  simp [SgrParam.Known]

/-- C74, negation: `ESC [ m`, a reset on a terminal, leaves the cursor's attribute
as it was. -/
theorem sgr_reset_unread : ∃ (cs : Cursor) (st : Sgr.Style), cs.attr = st.build ∧
    ∀ clamp, cs.processEscape clamp SGR (params []) ≠
      some { cs with attr := (rendition [] st).build } := by
  refine ⟨{ pt := ⟨1, 1⟩, attr := Sgr.bold, visible := true }, { bold := true }, by decide, ?_⟩
  intro clamp h
  have he : ∀ c : Cursor, c.processEscape clamp SGR (params []) =
      some { c with attr := Sgr.merge c.attr (Sgr.decode []).val } := fun c => by
    unfold Cursor.processEscape
    rw [if_neg (by decide), if_neg (by decide), if_pos rfl]
    simp [params, Sgr.decode, Sgr.decodeLoop.eq_def]
  rw [he, Option.some.injEq] at h
  have := congrArg Cursor.attr h
  revert this
  decide +kernel

/-- C74, negation: each of the codes 8 (conceal), 22, 23, 24, 27, 28 (flags off), 39 and
49 (default colours) changes what a terminal shows, but leaves the cursor's attribute
as it was. -/
theorem sgr_codes_unread : ∀ n ∈ [8, 22, 23, 24, 27, 28, 39, 49],
    ∃ (cs : Cursor) (st : Sgr.Style), cs.attr = st.build ∧ rendition [n] st ≠ st ∧
      ∀ clamp, cs.processEscape clamp SGR (params [n]) = some cs := by
  have key : ∀ n ∈ [8, 22, 23, 24, 27, 28, 39, 49], ∀ st : Sgr.Style, st.clear = false →
      rendition [n] st ≠ st →
      (Sgr.decode (params [n])).err ≠ none ∨ (Sgr.decode (params [n])).val = 0 →
      ∃ (cs : Cursor) (st : Sgr.Style), cs.attr = st.build ∧ rendition [n] st ≠ st ∧
      ∀ clamp, cs.processEscape clamp SGR (params [n]) = some cs := by
    intro n _ st _ hne hd
    refine ⟨{ pt := ⟨1, 1⟩, attr := st.build, visible := true }, st, rfl, hne, fun clamp => ?_⟩
    unfold Cursor.processEscape
    rw [if_neg (by decide), if_neg (by decide), if_pos rfl]
    simp only
    split
    · rename_i he
      rcases hd with hd | hd
      · exact absurd he hd
      · have := Sgr.merge_over {} st
        rw [show ({} : Sgr.Style).build = 0 by decide, Sgr.empty_over] at this
        rw [hd, this]
    · rfl
  intro n hn
  have hall : ∀ n ∈ [8, 22, 23, 24, 27, 28, 39, 49],
      (Sgr.decode (params [n])).err ≠ none ∨ (Sgr.decode (params [n])).val = 0 := by decide +kernel
  by_cases h8 : n = 8
  · exact key n hn {} rfl (by subst h8; decide +kernel) (hall n hn)
  · refine key n hn
      ⟨false, true, true, true, true, true, true, some (.indexed 1), some (.indexed 1)⟩ rfl ?_ (hall n hn)
    revert n
    decide +kernel

end Anansi
