import Verif.Spec.Terminal
import Verif.Props.Sgr
import Mathlib.Tactic.Ring
/-
Attribute text as read by the independent terminal, and attribute differences as
styles.
-/
set_option linter.unusedSimpArgs false
set_option autoImplicit false

namespace Anansi.Sgr
open Vt

/-- The codes of a foreground colour. -/
def fgCodes : Colour → List Nat
  | .indexed i => if i.toNat ≤ 7 then [30 + i.toNat]
    else if i.toNat ≤ 15 then [90 + (i.toNat - 8)] else [38, 5, i.toNat]
  | .direct r g b => [38, 2, r.toNat, g.toNat, b.toNat]

def bgCodes : Colour → List Nat
  | .indexed i => if i.toNat ≤ 7 then [40 + i.toNat]
    else if i.toNat ≤ 15 then [100 + (i.toNat - 8)] else [48, 5, i.toNat]
  | .direct r g b => [48, 2, r.toNat, g.toNat, b.toNat]

theorem params_cons (n : Nat) (t : List Nat) (h : t ≠ []) :
    params (n :: t) = itoaNat n ++ 0x3B :: params t := by
  cases t with
  | nil => exact absurd rfl h
  | cons a t => rfl

theorem params_append (l m : List Nat) (hl : l ≠ []) (hm : m ≠ []) :
    params (l ++ m) = params l ++ 0x3B :: params m := by
  induction l with
  | nil => exact absurd rfl hl
  | cons a t ih =>
    cases t with
    | nil => rw [List.singleton_append, params_cons _ _ hm]; rfl
    | cons b t =>
      rw [List.cons_append, params_cons a (b :: t ++ m) (by simp), ih (by simp),
        params_cons a (b :: t) (by simp)]
      simp

theorem join_params : ∀ gs : List (List Nat), (∀ g ∈ gs, g ≠ []) →
    joinArgs (gs.map params) = params gs.flatten
  | [], _ => rfl
  | [g], _ => by simp [joinArgs]
  | g :: g' :: t, h => by
    have ih := join_params (g' :: t) (fun x hx => h x (by simp [hx]))
    have hne : (g' :: t).flatten ≠ [] := by
      have := h g' (by simp)
      simp [this]
    rw [List.flatten_cons, params_append g _ (h g (by simp)) hne, ← ih]
    simp [joinArgs]

theorem itoa_small (n : Nat) (h : n < 10) : itoaNat n = [digitByte n] := by
  rw [itoaNat, if_pos h]

theorem itoa_two (n : Nat) (h : n < 10) (k : Nat) (hk : 1 ≤ k ∧ k < 10) :
    itoaNat (k * 10 + n) = [digitByte k, digitByte n] := by
  rw [itoaNat, if_neg (by omega)]
  have h1 : (k * 10 + n) / 10 = k := by omega
  have h2 : (k * 10 + n) % 10 = n := by omega
  rw [h1, h2, itoa_small k hk.2]; rfl

theorem digit_add (i : UInt8) (h : i.toNat ≤ 9) : 0x30 + i = digitByte i.toNat := by
  unfold digitByte
  apply UInt8.toNat_inj.mp
  rw [UInt8.toNat_add]
  simp only [UInt8.toNat_ofNat']
  rfl

theorem fg_params (c : Colour) : appendFG c.value = params (fgCodes c) := by
  cases c with
  | direct r g b =>
    simp only [Colour.value, appendFG, rgb_is24, ne_eq, not_false_eq_true, if_true, appendRGB,
      chan_rgb, colorString, fgCodes, params]
    have e1 : itoaNat 38 = [0x33, 0x38] := by decide +kernel
    have e2 : itoaNat 2 = [0x32] := by decide +kernel
    rw [e1, e2]; simp
  | indexed i =>
    have hi := i.toNat_lt
    simp only [Colour.value, appendFG, indexed_not24, if_false, chan0_indexed, fgCodes]
    have l7 : (i.toBitVec.setWidth 32 : Color) ≤ 7 ↔ i.toNat ≤ 7 := (indexed_le i 7 (by norm_num)).to_iff
    have l15 : (i.toBitVec.setWidth 32 : Color) ≤ 15 ↔ i.toNat ≤ 15 := (indexed_le i 15 (by norm_num)).to_iff
    have l255 : (i.toBitVec.setWidth 32 : Color) ≤ 255 ↔ i.toNat ≤ 255 := (indexed_le i 255 (by norm_num)).to_iff
    by_cases h7 : i.toNat ≤ 7
    · rw [if_pos (l7.2 h7), if_pos h7, params, show 30 + i.toNat = 3 * 10 + i.toNat by ring,
        itoa_two _ (by omega) 3 (by omega), digit_add i (by omega)]
      rfl
    · rw [if_neg (fun k => h7 (l7.1 k)), if_neg h7]
      by_cases h15 : i.toNat ≤ 15
      · obtain ⟨b1, b2⟩ := bright_byte i (by omega)
        rw [if_pos (l15.2 h15), if_pos h15, params,
          show 90 + (i.toNat - 8) = 9 * 10 + (i.toNat - 8) by ring,
          itoa_two _ (by omega) 9 (by omega), b1, digit_add _ (by omega), b2]
        rfl
      · rw [if_neg (fun k => h15 (l15.1 k)), if_neg h15, if_pos (l255.2 (by omega))]
        have e1 : itoaNat 38 = [0x33, 0x38] := by decide +kernel
        have e2 : itoaNat 5 = [0x35] := by decide +kernel
        simp only [params, e1, e2, colorString]; simp

theorem bg_params (c : Colour) : appendBG c.value = params (bgCodes c) := by
  cases c with
  | direct r g b =>
    simp only [Colour.value, appendBG, rgb_is24, ne_eq, not_false_eq_true, if_true, appendRGB,
      chan_rgb, colorString, bgCodes, params]
    have e1 : itoaNat 48 = [0x34, 0x38] := by decide +kernel
    have e2 : itoaNat 2 = [0x32] := by decide +kernel
    rw [e1, e2]; simp
  | indexed i =>
    have hi := i.toNat_lt
    simp only [Colour.value, appendBG, indexed_not24, if_false, chan0_indexed, bgCodes]
    have l7 : (i.toBitVec.setWidth 32 : Color) ≤ 7 ↔ i.toNat ≤ 7 := (indexed_le i 7 (by norm_num)).to_iff
    have l15 : (i.toBitVec.setWidth 32 : Color) ≤ 15 ↔ i.toNat ≤ 15 := (indexed_le i 15 (by norm_num)).to_iff
    have l255 : (i.toBitVec.setWidth 32 : Color) ≤ 255 ↔ i.toNat ≤ 255 := (indexed_le i 255 (by norm_num)).to_iff
    by_cases h7 : i.toNat ≤ 7
    · rw [if_pos (l7.2 h7), if_pos h7, params, show 40 + i.toNat = 4 * 10 + i.toNat by ring,
        itoa_two _ (by omega) 4 (by omega), digit_add i (by omega)]
      rfl
    · rw [if_neg (fun k => h7 (l7.1 k)), if_neg h7]
      by_cases h15 : i.toNat ≤ 15
      · obtain ⟨b1, b2⟩ := bright_byte i (by omega)
        rw [if_pos (l15.2 h15), if_pos h15, params, itoaNat, if_neg (by omega),
          show (100 + (i.toNat - 8)) / 10 = 1 * 10 + 0 by omega,
          show (100 + (i.toNat - 8)) % 10 = i.toNat - 8 by omega,
          itoa_two 0 (by omega) 1 (by omega), b1, digit_add _ (by omega), b2]
        rfl
      · rw [if_neg (fun k => h15 (l15.1 k)), if_neg h15, if_pos (l255.2 (by omega))]
        have e1 : itoaNat 48 = [0x34, 0x38] := by decide +kernel
        have e2 : itoaNat 5 = [0x35] := by decide +kernel
        simp only [params, e1, e2, colorString]; simp

/-- The groups of codes of a style. -/
def Style.groups (s : Style) : List (List Nat) :=
  (if s.clear then [[0]] else []) ++ (if s.bold then [[1]] else []) ++
  (if s.dim then [[2]] else []) ++ (if s.italic then [[3]] else []) ++
  (if s.underscore then [[4]] else []) ++ (if s.negative then [[7]] else []) ++
  (if s.conceal then [[8]] else []) ++ (s.fg.map fgCodes).toList ++ (s.bg.map bgCodes).toList

theorem args_groups (s : Style) : s.args = s.groups.map params := by
  unfold Style.args Style.groups
  have e : ∀ n, n < 10 → params [n] = [digitByte n] := fun n h => by rw [params, itoa_small n h]
  have hf : s.flagArgs =
    ((if s.clear then [[0]] else []) ++ (if s.bold then [[1]] else []) ++
    (if s.dim then [[2]] else []) ++ (if s.italic then [[3]] else []) ++
    (if s.underscore then [[4]] else []) ++ (if s.negative then [[7]] else []) ++
    (if s.conceal then [[8]] else [])).map params := by
    unfold Style.flagArgs flagCodes
    simp only [List.filterMap_cons, List.filterMap_nil, Style.flag]
    have d0 : digitByte 0 = 0x30 := rfl
    have d1 : digitByte 1 = 0x31 := rfl
    have d2 : digitByte 2 = 0x32 := rfl
    have d3 : digitByte 3 = 0x33 := rfl
    have d4 : digitByte 4 = 0x34 := rfl
    have d7 : digitByte 7 = 0x37 := rfl
    have d8 : digitByte 8 = 0x38 := rfl
    cases s.clear <;> cases s.bold <;> cases s.dim <;> cases s.italic <;> cases s.underscore <;>
      cases s.negative <;> cases s.conceal <;> simp [e, d0, d1, d2, d3, d4, d7, d8]
  rw [hf]
  cases s.fg <;> cases s.bg <;> simp [fg_params, bg_params]

theorem groups_ne (s : Style) : ∀ g ∈ s.groups, g ≠ [] := by
  intro g hg
  unfold Style.groups at hg
  simp only [List.mem_append, Option.mem_toList] at hg
  have hi : ∀ (b : Bool) (n : Nat), g ∈ (if b then [[n]] else []) → g ≠ [] := by
    intro b n h; cases b <;> simp at h; rw [h]; simp
  rcases hg with (((((((h | h) | h) | h) | h) | h) | h) | h) | h
  · exact hi _ _ h
  · exact hi _ _ h
  · exact hi _ _ h
  · exact hi _ _ h
  · exact hi _ _ h
  · exact hi _ _ h
  · exact hi _ _ h
  · simp only [Option.mem_def, Option.map_eq_some_iff] at h
    obtain ⟨c, _, rfl⟩ := h
    cases c <;> simp only [fgCodes] <;> (repeat' split) <;> simp
  · simp only [Option.mem_def, Option.map_eq_some_iff] at h
    obtain ⟨c, _, rfl⟩ := h
    cases c <;> simp only [bgCodes] <;> (repeat' split) <;> simp

theorem rend_simple (p : Nat) (t : List Nat) (s : Style) (h1 : p ≠ 38) (h2 : p ≠ 48) :
    rend (p :: t) s = rend t (
    if p = 0 then {}
    else if p = 1 then { s with bold := true }
    else if p = 2 then { s with dim := true }
    else if p = 3 then { s with italic := true }
    else if p = 4 then { s with underscore := true }
    else if p = 7 then { s with negative := true }
    else if p = 8 then { s with conceal := true }
    else if p = 22 then { s with bold := false, dim := false }
    else if p = 23 then { s with italic := false }
    else if p = 24 then { s with underscore := false }
    else if p = 27 then { s with negative := false }
    else if p = 28 then { s with conceal := false }
    else if 30 ≤ p ∧ p ≤ 37 then { s with fg := some (.indexed (UInt8.ofNat (p - 30))) }
    else if p = 39 then { s with fg := none }
    else if 40 ≤ p ∧ p ≤ 47 then { s with bg := some (.indexed (UInt8.ofNat (p - 40))) }
    else if p = 49 then { s with bg := none }
    else if 90 ≤ p ∧ p ≤ 97 then { s with fg := some (.indexed (UInt8.ofNat (p - 90 + 8))) }
    else if 100 ≤ p ∧ p ≤ 107 then { s with bg := some (.indexed (UInt8.ofNat (p - 100 + 8))) }
    else s) := by
  rw [rend] <;> simp_all

theorem ofNat_self (i : UInt8) : UInt8.ofNat i.toNat = i := by simp

theorem rend_fg (c : Colour) (t : List Nat) (s : Style) :
    rend (fgCodes c ++ t) s = rend t { s with fg := some c } := by
  cases c with
  | direct r g b => simp only [fgCodes, List.cons_append, List.nil_append, rend, ofNat_self]
  | indexed i =>
    have hi := i.toNat_lt
    simp only [fgCodes]
    split
    · rw [List.singleton_append, rend_simple _ _ _ (by omega) (by omega)]
      have n : ∀ k, k < 30 → ¬ (30 + i.toNat = k) := fun k hk => by omega
      simp only [n 0 (by omega), n 1 (by omega), n 2 (by omega), n 3 (by omega), n 4 (by omega),
        n 7 (by omega), n 8 (by omega), n 22 (by omega), n 23 (by omega), n 24 (by omega),
        n 27 (by omega), n 28 (by omega), if_false]
      rw [if_pos (by omega), show 30 + i.toNat - 30 = i.toNat by omega, ofNat_self]
    · split
      · rw [List.singleton_append, rend_simple _ _ _ (by omega) (by omega)]
        have n : ∀ k, k < 90 → ¬ (90 + (i.toNat - 8) = k) := fun k hk => by omega
        simp only [n 0 (by omega), n 1 (by omega), n 2 (by omega), n 3 (by omega), n 4 (by omega),
          n 7 (by omega), n 8 (by omega), n 22 (by omega), n 23 (by omega), n 24 (by omega),
          n 27 (by omega), n 28 (by omega), n 39 (by omega), n 49 (by omega), if_false]
        rw [if_neg (by omega), if_neg (by omega), if_pos (by omega),
          show 90 + (i.toNat - 8) - 90 + 8 = i.toNat by omega, ofNat_self]
      · simp only [List.cons_append, List.nil_append, rend, ofNat_self]

theorem rend_bg (c : Colour) (t : List Nat) (s : Style) :
    rend (bgCodes c ++ t) s = rend t { s with bg := some c } := by
  cases c with
  | direct r g b => simp only [bgCodes, List.cons_append, List.nil_append, rend, ofNat_self]
  | indexed i =>
    have hi := i.toNat_lt
    simp only [bgCodes]
    split
    · rw [List.singleton_append, rend_simple _ _ _ (by omega) (by omega)]
      have n : ∀ k, k < 40 → ¬ (40 + i.toNat = k) := fun k hk => by omega
      simp only [n 0 (by omega), n 1 (by omega), n 2 (by omega), n 3 (by omega), n 4 (by omega),
        n 7 (by omega), n 8 (by omega), n 22 (by omega), n 23 (by omega), n 24 (by omega),
        n 27 (by omega), n 28 (by omega), n 39 (by omega), if_false]
      rw [if_neg (by omega), if_pos (by omega), show 40 + i.toNat - 40 = i.toNat by omega, ofNat_self]
    · split
      · rw [List.singleton_append, rend_simple _ _ _ (by omega) (by omega)]
        have n : ∀ k, k < 100 → ¬ (100 + (i.toNat - 8) = k) := fun k hk => by omega
        simp only [n 0 (by omega), n 1 (by omega), n 2 (by omega), n 3 (by omega), n 4 (by omega),
          n 7 (by omega), n 8 (by omega), n 22 (by omega), n 23 (by omega), n 24 (by omega),
          n 27 (by omega), n 28 (by omega), n 39 (by omega), n 49 (by omega), if_false]
        rw [if_neg (by omega), if_neg (by omega), if_neg (by omega), if_pos (by omega),
          show 100 + (i.toNat - 8) - 100 + 8 = i.toNat by omega, ofNat_self]
      · simp only [List.cons_append, List.nil_append, rend, ofNat_self]

theorem rend_groups (s st : Style) (h : s.groups ≠ []) : rendition s.groups.flatten st = s.over st := by
  have hne : s.groups.flatten ≠ [] := by
    intro k
    rw [List.flatten_eq_nil_iff] at k
    cases hg : s.groups with
    | nil => exact h hg
    | cons g t => exact groups_ne s g (by simp [hg]) (k g (by simp [hg]))
  rw [rendition, if_neg hne]
  have f0 : ∀ (b : Bool) (l : List Nat) (u : Style),
      rend (((if b then [[0]] else []) : List (List Nat)).flatten ++ l) u =
        rend l (if b then {} else u) := by
    intro b l u
    cases b
    · simp
    · simp only [if_true, List.flatten_cons, List.flatten_nil, List.append_nil, List.singleton_append]
      rw [rend_simple _ _ _ (by decide) (by decide)]; simp
  have f1 : ∀ (b : Bool) (l : List Nat) (u : Style),
      rend (((if b then [[1]] else []) : List (List Nat)).flatten ++ l) u =
        rend l { u with bold := u.bold || b } := by
    intro b l u
    cases b
    · simp
    · simp only [if_true, List.flatten_cons, List.flatten_nil, List.append_nil, List.singleton_append]
      rw [rend_simple _ _ _ (by decide) (by decide)]; simp
  have f2 : ∀ (b : Bool) (l : List Nat) (u : Style),
      rend (((if b then [[2]] else []) : List (List Nat)).flatten ++ l) u =
        rend l { u with dim := u.dim || b } := by
    intro b l u
    cases b
    · simp
    · simp only [if_true, List.flatten_cons, List.flatten_nil, List.append_nil, List.singleton_append]
      rw [rend_simple _ _ _ (by decide) (by decide)]; simp
  have f3 : ∀ (b : Bool) (l : List Nat) (u : Style),
      rend (((if b then [[3]] else []) : List (List Nat)).flatten ++ l) u =
        rend l { u with italic := u.italic || b } := by
    intro b l u
    cases b
    · simp
    · simp only [if_true, List.flatten_cons, List.flatten_nil, List.append_nil, List.singleton_append]
      rw [rend_simple _ _ _ (by decide) (by decide)]; simp
  have f4 : ∀ (b : Bool) (l : List Nat) (u : Style),
      rend (((if b then [[4]] else []) : List (List Nat)).flatten ++ l) u =
        rend l { u with underscore := u.underscore || b } := by
    intro b l u
    cases b
    · simp
    · simp only [if_true, List.flatten_cons, List.flatten_nil, List.append_nil, List.singleton_append]
      rw [rend_simple _ _ _ (by decide) (by decide)]; simp
  have f7 : ∀ (b : Bool) (l : List Nat) (u : Style),
      rend (((if b then [[7]] else []) : List (List Nat)).flatten ++ l) u =
        rend l { u with negative := u.negative || b } := by
    intro b l u
    cases b
    · simp
    · simp only [if_true, List.flatten_cons, List.flatten_nil, List.append_nil, List.singleton_append]
      rw [rend_simple _ _ _ (by decide) (by decide)]; simp
  have f8 : ∀ (b : Bool) (l : List Nat) (u : Style),
      rend (((if b then [[8]] else []) : List (List Nat)).flatten ++ l) u =
        rend l { u with conceal := u.conceal || b } := by
    intro b l u
    cases b
    · simp
    · simp only [if_true, List.flatten_cons, List.flatten_nil, List.append_nil, List.singleton_append]
      rw [rend_simple _ _ _ (by decide) (by decide)]; simp
  have ffg : ∀ (o : Option Colour) (l : List Nat) (u : Style),
      rend ((o.map fgCodes).toList.flatten ++ l) u = rend l { u with fg := o.orElse fun _ => u.fg } := by
    intro o l u; cases o <;> simp [rend_fg]
  have fbg : ∀ (o : Option Colour) (u : Style),
      rend ((o.map bgCodes).toList.flatten) u = { u with bg := o.orElse fun _ => u.bg } := by
    intro o u
    cases o with
    | none => simp [rend]
    | some c => have := rend_bg c [] u; simp [rend] at this; simp [this]
  unfold Style.groups Style.over
  simp only [List.flatten_append, List.append_assoc]
  rw [f0, f1, f2, f3, f4, f7, f8, ffg, fbg]

theorem groups_nil (s : Style) (h : s.groups = []) : s = {} := by
  unfold Style.groups at h
  simp only [List.append_eq_nil_iff] at h
  obtain ⟨c, b, d, i, u, n, k, f, g⟩ := s
  obtain ⟨⟨⟨⟨⟨⟨⟨⟨h0, h1⟩, h2⟩, h3⟩, h4⟩, h5⟩, h6⟩, h7⟩, h8⟩ := h
  simp only at *
  cases c <;> cases b <;> cases d <;> cases i <;> cases u <;> cases n <;> cases k <;>
    cases f <;> cases g <;> simp_all

/-- The text of a style is an SGR operation that puts it over the current one. -/
theorem append_meaning (s : Style) (h : s.build ≠ 0) :
    ∃ ps, append s.build = (Op.sgr ps).bytes ∧ ∀ st, rendition ps st = s.over st := by
  by_cases hc : s.build = clear
  · refine ⟨[0], ?_, ?_⟩
    · rw [hc]; decide +kernel
    · have bits : ∀ i, i < 7 → s.flag i = clear.getLsbD i := fun i hi => by rw [← build_bit s i hi, hc]
      have hfg : s.fg = none := by
        have := build_fg s; rw [hc] at this
        have e : fg clear = none := by decide
        rw [e] at this; cases hf : s.fg <;> simp_all
      have hbg : s.bg = none := by
        have := build_bg s; rw [hc] at this
        have e : bg clear = none := by decide
        rw [e] at this; cases hf : s.bg <;> simp_all
      have b0 : s.clear = true := bits 0 (by omega)
      have b1 : s.bold = false := bits 1 (by omega)
      have b2 : s.dim = false := bits 2 (by omega)
      have b3 : s.italic = false := bits 3 (by omega)
      have b4 : s.underscore = false := bits 4 (by omega)
      have b5 : s.negative = false := bits 5 (by omega)
      have b6 : s.conceal = false := bits 6 (by omega)
      intro st
      rw [rendition, if_neg (by simp), rend_simple _ _ _ (by decide) (by decide)]
      simp [rend, Style.over, b0, b1, b2, b3, b4, b5, b6, hfg, hbg]
  · refine ⟨s.groups.flatten, ?_, ?_⟩
    · rw [append_build s h hc, args_groups, join_params _ (groups_ne s)]; rfl
    · intro st
      apply rend_groups
      intro hg
      rw [groups_nil s hg] at h
      exact h (by decide)

/-! ### Differences -/

/-- The style to send to go from `u` to `t`. -/
def Style.delta (u t : Style) : Style :=
  if (u.bold && !t.bold) || (u.dim && !t.dim) || (u.italic && !t.italic) ||
      (u.underscore && !t.underscore) || (u.negative && !t.negative) ||
      (u.conceal && !t.conceal) || (t.fg.isNone && u.fg.isSome) || (t.bg.isNone && u.bg.isSome) then
    { t with clear := true }
  else
    { bold := t.bold && !u.bold, dim := t.dim && !u.dim, italic := t.italic && !u.italic,
      underscore := t.underscore && !u.underscore, negative := t.negative && !u.negative,
      conceal := t.conceal && !u.conceal,
      fg := if t.fg = u.fg then none else t.fg, bg := if t.bg = u.bg then none else t.bg }

theorem delta_over (u t : Style) (hu : u.clear = false) (ht : t.clear = false) :
    (u.delta t).over u = t := by
  unfold Style.delta
  split
  · obtain ⟨c, b, d, i, n, k, m, f, g⟩ := t
    simp only at ht; subst ht
    cases f <;> cases g <;> simp [Style.over]
  · rename_i h
    obtain ⟨c, b, d, i, n, k, m, f, g⟩ := t
    obtain ⟨c', b', d', i', n', k', m', f', g'⟩ := u
    simp only at ht hu h; subst ht; subst hu
    simp only [Bool.or_eq_true, not_or, Bool.and_eq_true, Bool.not_eq_true', not_and] at h
    obtain ⟨⟨⟨⟨⟨⟨⟨h1, h2⟩, h3⟩, h4⟩, h5⟩, h6⟩, h7⟩, h8⟩ := h
    simp only [Style.over, Bool.false_eq_true, if_false, Style.mk.injEq, true_and]
    refine ⟨?_, ?_, ?_, ?_, ?_, ?_, ?_, ?_⟩
    · revert h1; cases b <;> cases b' <;> simp
    · revert h2; cases d <;> cases d' <;> simp
    · revert h3; cases i <;> cases i' <;> simp
    · revert h4; cases n <;> cases n' <;> simp
    · revert h5; cases k <;> cases k' <;> simp
    · revert h6; cases m <;> cases m' <;> simp
    · by_cases e : f = f'
      · subst e; cases f <;> simp
      · rw [if_neg e]; cases f with
        | none => cases f' <;> simp_all
        | some c => simp
    · by_cases e : g = g'
      · subst e; cases g <;> simp
      · rw [if_neg e]; cases g with
        | none => cases g' <;> simp_all
        | some c => simp

theorem value_inj {a d : Colour} (h : a.value = d.value) : a = d := by
  cases a with
  | indexed i =>
    cases d with
    | indexed j =>
      have := congrArg (fun v => chan v 0) h
      simp only [Colour.value, chan0_indexed] at this
      rw [this]
    | direct r g b =>
      exfalso
      have h1 := rgb_is24 r g b
      have h2 := indexed_not24 i
      simp only [Colour.value] at h
      rw [← h] at h1
      exact h2 h1
  | direct r g b =>
    cases d with
    | indexed i =>
      exfalso
      have h1 := rgb_is24 r g b
      have h2 := indexed_not24 i
      simp only [Colour.value] at h
      rw [h] at h1
      exact h2 h1
    | direct r' g' b' =>
      simp only [Colour.value] at h
      have c0 := congrArg (fun v => chan v 0) h
      have c1 := congrArg (fun v => chan v 1) h
      have c2 := congrArg (fun v => chan v 2) h
      obtain ⟨p0, p1, p2⟩ := chan_rgb r g b
      obtain ⟨q0, q1, q2⟩ := chan_rgb r' g' b'
      simp only [p0, p1, p2, q0, q1, q2] at c0 c1 c2
      rw [c0, c1, c2]

theorem fgMask_inj {u t : Style} (h : t.build &&& fgMask = u.build &&& fgMask) : t.fg = u.fg := by
  have := fg_congr h
  rw [build_fg, build_fg] at this
  cases ht : t.fg <;> cases hu : u.fg <;> simp_all
  exact value_inj this

theorem bgMask_inj {u t : Style} (h : t.build &&& bgMask = u.build &&& bgMask) : t.bg = u.bg := by
  have := bg_congr h
  rw [build_bg, build_bg] at this
  cases ht : t.bg <;> cases hu : u.bg <;> simp_all
  exact value_inj this

theorem fgMask_zero (s : Style) : s.build &&& fgMask = 0 ↔ s.fg = none := by
  constructor
  · intro h
    have := build_fg s
    rw [fg_none_of_zero h] at this
    cases hs : s.fg <;> simp_all
  · intro h; rw [build_fgMask, h]

theorem bgMask_zero (s : Style) : s.build &&& bgMask = 0 ↔ s.bg = none := by
  constructor
  · intro h
    have := build_bg s
    rw [bg_none_of_zero h] at this
    cases hs : s.bg <;> simp_all
  · intro h; rw [build_bgMask, h]

/-- The six display flags as a word. -/
def word (b d i u n c : Bool) : Attr :=
  flagIf b Sgr.bold ||| flagIf d Sgr.dim ||| flagIf i Sgr.italic ||| flagIf u Sgr.underscore |||
    flagIf n Sgr.negative ||| flagIf c Sgr.conceal

theorem word_bit (b d i u n c : Bool) (k : Nat) : (word b d i u n c).getLsbD k =
    ((b && k == 1) || (d && k == 2) || (i && k == 3) || (u && k == 4) || (n && k == 5) || (c && k == 6)) := by
  by_cases hk : k < 7
  · interval_cases k <;> cases b <;> cases d <;> cases i <;> cases u <;> cases n <;> cases c <;> decide
  · have fb : ∀ (b : Bool) (j : Nat), j < 7 → (flagIf b (1#64 <<< j)).getLsbD k = false := by
      intro b j hj
      cases b
      · simp [flagIf]
      · simp only [flagIf, if_true, BitVec.getLsbD_shiftLeft]
        have : ¬ (k - j = 0) := by omega
        simp [this]
    have e1 : Sgr.bold = 1#64 <<< 1 := by decide
    have e2 : Sgr.dim = 1#64 <<< 2 := by decide
    have e3 : Sgr.italic = 1#64 <<< 3 := by decide
    have e4 : Sgr.underscore = 1#64 <<< 4 := by decide
    have e5 : Sgr.negative = 1#64 <<< 5 := by decide
    have e6 : Sgr.conceal = 1#64 <<< 6 := by decide
    unfold word
    rw [e1, e2, e3, e4, e5, e6]
    simp only [BitVec.getLsbD_or, fb _ _ (by omega : 1 < 7), fb _ _ (by omega : 2 < 7),
      fb _ _ (by omega : 3 < 7), fb _ _ (by omega : 4 < 7), fb _ _ (by omega : 5 < 7),
      fb _ _ (by omega : 6 < 7)]
    have n : ∀ j, j < 7 → (k == j) = false := fun j hj => by simp; omega
    simp [n 1 (by omega), n 2 (by omega), n 3 (by omega), n 4 (by omega), n 5 (by omega), n 6 (by omega)]

theorem word_new (b d i u n c b' d' i' u' n' c' : Bool) :
    word b d i u n c &&& (word b' d' i' u' n' c' ^^^ word b d i u n c) =
      word (b && !b') (d && !d') (i && !i') (u && !u') (n && !n') (c && !c') := by
  apply BitVec.eq_of_getLsbD_eq
  intro k hk
  simp only [BitVec.getLsbD_and, BitVec.getLsbD_xor, word_bit]
  by_cases h : k < 7
  · interval_cases k <;> simp
    · cases b <;> cases b' <;> rfl
    · cases d <;> cases d' <;> rfl
    · cases i <;> cases i' <;> rfl
    · cases u <;> cases u' <;> rfl
    · cases n <;> cases n' <;> rfl
    · cases c <;> cases c' <;> rfl
  · have n : ∀ j, j < 7 → (k == j) = false := fun j hj => by simp; omega
    simp [n 1 (by omega), n 2 (by omega), n 3 (by omega), n 4 (by omega), n 5 (by omega), n 6 (by omega)]

theorem word_zero (b d i u n c : Bool) : word b d i u n c = 0 ↔
    (b || d || i || u || n || c) = false := by
  revert b d i u n c; decide

theorem build_word (s : Style) : s.build &&& attrMask =
    word s.bold s.dim s.italic s.underscore s.negative s.conceal := build_flags s

theorem word_at (b d i u n c : Bool) : word b d i u n c &&& attrMask = word b d i u n c := by
  revert b d i u n c; decide
theorem word_fgm (b d i u n c : Bool) : word b d i u n c &&& fgMask = 0 := by
  revert b d i u n c; decide
theorem word_bgm (b d i u n c : Bool) : word b d i u n c &&& bgMask = 0 := by
  revert b d i u n c; decide
theorem word_cl (b d i u n c : Bool) : word b d i u n c &&& clear = 0 := by
  revert b d i u n c; decide
theorem word_jk (b d i u n c : Bool) : word b d i u n c &&& junkMask = 0 := by
  revert b d i u n c; decide

theorem build_or_clear (t : Style) : t.build ||| clear = { t with clear := true }.build := by
  apply attr_ext <;> simp only [or_and]
  · rw [build_clear, build_clear]; simp only; cases t.clear <;> decide
  · rw [build_flags, build_flags]; rw [show clear &&& attrMask = 0 by decide, or_z]
  · rw [build_fgMask, build_fgMask, mask_cl_fg, or_z]
  · rw [build_bgMask, build_bgMask, mask_cl_bg, or_z]
  · rw [build_junk, build_junk, mask_cl_jk, or_z]

theorem diff_delta (u t : Style) (ht : t.clear = false) :
    diff u.build t.build = (u.delta t).build := by
  unfold diff
  have hcl : ¬ (t.build &&& clear ≠ 0) := by rw [build_clear, ht]; decide
  rw [if_neg hcl]
  simp only [fgM_val, bgM_val, build_word]
  have hg : ∀ b d i u n c b' d' i' u' n' c' : Bool,
      word b d i u n c &&& (word b d i u n c ^^^ word b' d' i' u' n' c') =
      word (b && !b') (d && !d') (i && !i') (u && !u') (n && !n') (c && !c') := by
    intros; rw [BitVec.xor_comm, word_new]
  rw [hg, word_new]
  simp only [fgMask_zero, bgMask_zero, ne_eq, word_zero]
  unfold Style.delta
  have cond : (¬ ((u.bold && !t.bold || u.dim && !t.dim || u.italic && !t.italic ||
        u.underscore && !t.underscore || u.negative && !t.negative ||
        u.conceal && !t.conceal) = false) ∨ (t.fg = none ∧ ¬u.fg = none) ∨ (t.bg = none ∧ ¬u.bg = none)) ↔
      ((u.bold && !t.bold) || (u.dim && !t.dim) || (u.italic && !t.italic) ||
      (u.underscore && !t.underscore) || (u.negative && !t.negative) ||
      (u.conceal && !t.conceal) || (t.fg.isNone && u.fg.isSome) || (t.bg.isNone && u.bg.isSome)) = true := by
    generalize (u.bold && !t.bold || u.dim && !t.dim || u.italic && !t.italic ||
        u.underscore && !t.underscore || u.negative && !t.negative ||
        u.conceal && !t.conceal) = q
    cases q <;> cases t.fg <;> cases u.fg <;> cases t.bg <;> cases u.bg <;> simp
  by_cases hc : ((u.bold && !t.bold) || (u.dim && !t.dim) || (u.italic && !t.italic) ||
      (u.underscore && !t.underscore) || (u.negative && !t.negative) ||
      (u.conceal && !t.conceal) || (t.fg.isNone && u.fg.isSome) || (t.bg.isNone && u.bg.isSome)) = true
  · rw [if_pos (cond.2 hc), if_pos hc, build_or_clear]
  · rw [if_neg (fun k => hc (cond.1 k)), if_neg hc]
    have hfg : (t.build &&& fgMask = u.build &&& fgMask) ↔ t.fg = u.fg :=
      ⟨fgMask_inj, fun h => by rw [build_fgMask, build_fgMask, h]⟩
    have hbg : (t.build &&& bgMask = u.build &&& bgMask) ↔ t.bg = u.bg :=
      ⟨bgMask_inj, fun h => by rw [build_bgMask, build_bgMask, h]⟩
    simp only [hfg, hbg, ite_not]
    have fat : ∀ s : Style, s.build &&& fgMask &&& attrMask = 0 := fun s => by
      rw [and_mask_comm, mask_fg_at, and_z]
    have fbt : ∀ s : Style, s.build &&& bgMask &&& attrMask = 0 := fun s => by
      rw [and_mask_comm, mask_bg_at, and_z]
    have ffb : ∀ s : Style, s.build &&& fgMask &&& bgMask = 0 := fun s => by
      rw [and_mask_comm, mask_fg_bg, and_z]
    have fbf : ∀ s : Style, s.build &&& bgMask &&& fgMask = 0 := fun s => by
      rw [and_mask_comm, mask_bg_fg, and_z]
    have ffc : ∀ s : Style, s.build &&& fgMask &&& clear = 0 := fun s => by
      rw [and_mask_comm, mask_fg_cl, and_z]
    have fbc : ∀ s : Style, s.build &&& bgMask &&& clear = 0 := fun s => by
      rw [and_mask_comm, mask_bg_cl, and_z]
    have ffj : ∀ s : Style, s.build &&& fgMask &&& junkMask = 0 := fun s => by
      rw [and_mask_comm, mask_fg_jk, and_z]
    have fbj : ∀ s : Style, s.build &&& bgMask &&& junkMask = 0 := fun s => by
      rw [and_mask_comm, mask_bg_jk, and_z]
    have fff : ∀ s : Style, s.build &&& fgMask &&& fgMask = s.build &&& fgMask := fun s => by
      rw [and_mask_comm, mask_fg_fg]
    have fbb : ∀ s : Style, s.build &&& bgMask &&& bgMask = s.build &&& bgMask := fun s => by
      rw [and_mask_comm]; rfl
    apply attr_ext
    · rw [build_clear]
      by_cases e1 : t.fg = u.fg <;> by_cases e2 : t.bg = u.bg <;>
        simp only [e1, e2, if_true, if_false, or_and, word_cl, ffc, fbc, or_z] <;> rfl
    · rw [build_flags]
      by_cases e1 : t.fg = u.fg <;> by_cases e2 : t.bg = u.bg <;>
        simp only [e1, e2, if_true, if_false, or_and, word_at, fat, fbt, or_z] <;> rfl
    · by_cases e1 : t.fg = u.fg <;> by_cases e2 : t.bg = u.bg <;>
        simp only [e1, e2, if_true, if_false, or_and, word_fgm, fff, fbf, or_z, z_or] <;>
        simp only [build_fgMask]
    · by_cases e1 : t.fg = u.fg <;> by_cases e2 : t.bg = u.bg <;>
        simp only [e1, e2, if_true, if_false, or_and, word_bgm, ffb, fbb, or_z, z_or] <;>
        simp only [build_bgMask]
    · rw [build_junk]
      by_cases e1 : t.fg = u.fg <;> by_cases e2 : t.bg = u.bg <;>
        simp only [e1, e2, if_true, if_false, or_and, word_jk, ffj, fbj, or_z]

end Anansi.Sgr
