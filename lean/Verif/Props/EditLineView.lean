import Verif.Props.EditLine
import Verif.Props.Screen
import Verif.Props.Stream
import Mathlib.Tactic.SplitIfs
/-
C66 The edit line is drawn in its box with the cursor in view.
-/
set_option autoImplicit false

namespace Anansi
namespace Screen
open Geom

/-- A character that is printed as itself. -/
structure Printable (gr : Nat → Bool) (r : Nat) : Prop where
  plain : plainRune r
  graphic : gr r = true
  escape : isEscape r = false
  lf : r ≠ 0x0A
  cr : r ≠ 0x0D

/-- Printing a text that does not reach the last column: it stands in consecutive cells
from the cursor on, in the current style, all other cells are as before, and the cursor is
after it. -/
theorem print_text (gr : Nat → Bool) {w h : Nat} (rs : List Nat) (hp : ∀ r ∈ rs, Printable gr r) :
    ∀ (sc : Screen) (x y : Nat), sc.Whole w h → y < h → sc.CurAt x y → x + rs.length < w →
    ∃ sc', sc.processAll gr (rs.map (·, [])) = .ok sc' ∧ sc'.Whole w h ∧ sc'.CurAt (x + rs.length) y ∧
      sc'.cur = { sc.cur with pt := sc'.cur.pt } ∧
      ∀ a b, a < w → b < h → sc'.look w a b =
        if b = y ∧ x ≤ a ∧ a < x + rs.length then some ⟨rs.getD (a - x) 0, sc.cur.attr⟩ else sc.look w a b := by
  induction rs with
  | nil =>
    intro sc x y W _ hc _
    refine ⟨sc, rfl, W, hc, rfl, ?_⟩
    intro a b _ _
    rw [if_neg (by simp)]
  | cons r rs ih =>
    intro sc x y W hy hc hx
    simp only [List.length_cons] at hx
    have pr := hp r (by simp)
    have hpt : sc.cur.pt = ⟨(x : Int) + 1, (y : Int) + 1⟩ := hc
    have hhome : sc.home = sc := by
      unfold home
      rw [if_neg]
      intro hz
      rw [hpt] at hz
      have := congrArg Pt.x hz
      simp [zp] at this; omega
    have hstep : sc.processANSI gr (r, []) = sc.print r := by
      unfold processANSI
      simp only [hhome, pr.escape, pr.lf, pr.cr, pr.graphic, if_false, if_true, Bool.false_eq_true]
    have hprint := print_ok W (x := x) (y := y) (by omega) hy hc r
    rw [if_pos (by omega)] at hprint
    have hidx : y * w + x < w * h := idx_lt (by omega) hy
    have hcl : w * h ≤ sc.grid.cells.length := W.cap
    obtain ⟨sc', e1, W', C', A', L'⟩ := ih (fun q hq => hp q (by simp [hq]))
      { cur := { sc.cur with pt := ⟨x + 1 + 1, y + 1⟩ },
        grid := { sc.grid with cells := sc.grid.cells.set (y * w + x) ⟨r, sc.cur.attr⟩ } } (x + 1) y
      ((W.cells (by simp)).cur _) hy (by unfold CurAt; push_cast; rfl) (by omega)
    refine ⟨sc', ?_, W', ?_, ?_, ?_⟩
    · rw [List.map_cons, processAll, hstep, hprint]
      exact e1
    · have : x + 1 + rs.length = x + (rs.length + 1) := by omega
      rw [this] at C'
      exact C'
    · rw [A']
    · intro a b ha hb
      rw [L' a b ha hb]
      simp only [look]
      have hinj : y * w + x = b * w + a ↔ (b = y ∧ a = x) := by
        constructor
        · intro he
          have hxw : x < w := by omega
          have h1 : (y * w + x) / w = y := by
            rw [Nat.mul_comm, Nat.mul_add_div (by omega), Nat.div_eq_of_lt hxw]; omega
          have h2 : (b * w + a) / w = b := by
            rw [Nat.mul_comm, Nat.mul_add_div (by omega), Nat.div_eq_of_lt ha]; omega
          have hby : b = y := by rw [← h2, ← he, h1]
          subst hby
          exact ⟨rfl, by omega⟩
        · rintro ⟨rfl, rfl⟩; rfl
      rw [List.getElem?_set]
      by_cases hxy : b = y ∧ a = x
      · obtain ⟨rfl, rfl⟩ := hxy
        rw [if_neg (by omega), if_pos rfl, if_pos (by omega), if_pos (by simp)]
        simp
      · have hne : ¬ (y * w + x = b * w + a) := fun he => hxy (hinj.mp he)
        rw [if_neg hne]
        by_cases hin : b = y ∧ x + 1 ≤ a ∧ a < x + 1 + rs.length
        · rw [if_pos hin, if_pos (by simp; omega)]
          have : a - x = (a - (x + 1)) + 1 := by omega
          rw [this, List.getD_cons_succ]
        · rw [if_neg hin, if_neg (by simp only [List.length_cons]; omega)]

end Screen

namespace VScreen

/-- Writing a text on a screen with nothing pending processes its runes. -/
theorem write_text (gr : Nat → Bool) (v : VScreen) (rs : List Nat) (hp : ∀ r ∈ rs, plainRune r) (hb : v.buf = .empty)
    (hne : rs ≠ []) :
    v.write gr (encodeRunes rs) = (v.sc.processAll gr (rs.map (·, []))).map fun sc => { sc, buf := .empty } := by
  unfold write process
  simp only [hb]
  have hpos : 0 < (encodeRunes rs).length := by
    have := encodeRunes_len rs
    have := List.length_pos_iff.mpr hne
    omega
  have e : (Buffer.write .empty (encodeRunes rs)).process? =
      some (rs.map (·, []), ⟨encodeRunes rs, (encodeRunes rs).length⟩) := by
    unfold Buffer.process? Buffer.write Buffer.empty
    simp only [List.nil_append, List.drop_zero, Nat.zero_le, if_true, text_faithful rs hp, List.append_nil,
      Nat.zero_add]
    simp
  rw [e]
  simp only
  have ed : Buffer.discard ⟨encodeRunes rs, (encodeRunes rs).length⟩ = .empty := by
    unfold Buffer.discard
    rw [if_pos hpos]
    simp [Buffer.empty]
  rw [ed]
  cases v.sc.processAll gr (rs.map (·, [])) <;> rfl

end VScreen

namespace Edl
open Evq Spec Screen

/-! ### The window -/

/-- **C66**: the shown part of the text.  In a box of `w ≥ 1` columns at most `w`
characters are shown, all of them if they fit; the cursor is never left of the part shown,
and on a character of it unless it is at the end of the text, when it is right after the
part shown or (then one column may be missing) within the box. -/
theorem window_ok (l : EditLine) (s : Line) (w : Nat) (h : Holds l s) (hw : 1 ≤ w) (hbox : Geom.dx l.box = w)
    (hv : 0 ≤ l.view) : ∃ lo hi : Nat, l.window.1 = lo ∧ (min l.window.2 s.text.length : Int) = hi ∧
      lo ≤ hi ∧ hi ≤ s.text.length ∧ hi - lo ≤ w ∧ lo ≤ s.cur ∧ s.cur ≤ lo + w ∧
      (s.text.length ≤ w → lo = 0 ∧ hi = s.text.length) ∧
      (s.cur < s.text.length → s.cur < hi) ∧ (s.cur = s.text.length → hi = s.text.length) ∧
      (w < s.text.length → w ≤ hi - lo + 1) := by
  have hn : (runeCount l.buf : Int) = s.text.length := by
    rw [h.buf, runeCount_encodeRunes _ h.valid]
  have hc := h.cur
  have hok : s.cur ≤ s.text.length := h.ok
  have key : ∃ lo hi : Int, l.window = (lo, hi) ∧ 0 ≤ lo ∧ lo ≤ s.cur ∧ lo ≤ min hi s.text.length ∧
      min hi s.text.length - lo ≤ w ∧ (s.cur : Int) ≤ lo + w ∧
      (s.text.length ≤ w → lo = 0 ∧ hi = s.text.length) ∧
      (s.cur < s.text.length → (s.cur : Int) < hi) ∧ (s.cur = s.text.length → (s.text.length : Int) ≤ hi) ∧
      (w < s.text.length → (w : Int) ≤ min hi s.text.length - lo + 1) := by
    refine ⟨l.window.1, l.window.2, rfl, ?_⟩
    unfold EditLine.window
    simp only [hn, hbox, hc]
    split_ifs <;> simp only [true_and] <;> omega
  obtain ⟨lo, hi, e, k1, k2, k3, k4, k5, k6, k7, k8, k9⟩ := key
  refine ⟨lo.toNat, (min hi s.text.length).toNat, by rw [e]; simp; omega, by rw [e]; simp only; omega, ?_⟩
  refine ⟨by omega, by omega, by omega, by omega, by omega, ?_, ?_, ?_, ?_⟩
  · intro hh; have := k6 hh; omega
  · intro hh; have := k7 hh; omega
  · intro hh; have := k8 hh; omega
  · intro hh; have := k9 hh; omega

/-- The bytes shown are those of the characters of the window. -/
theorem shown_text (l : EditLine) (s : Line) (h : Holds l s) (lo hi : Nat) (loI hiI : Int) (h1 : loI = lo)
    (h2 : (min hiI s.text.length : Int) = hi) (hle : lo ≤ hi) (hle2 : hi ≤ s.text.length) :
    l.shown loI hiI = encodeRunes ((s.text.take hi).drop lo) := by
  have hn : (runeCount l.buf : Int) = s.text.length := by
    rw [h.buf, runeCount_encodeRunes _ h.valid]
  unfold EditLine.shown
  have hs := skipRunes_encodeRunes lo s.text [] h.valid (by omega)
  rw [List.append_nil, List.append_nil] at hs
  rw [hn, h1, h.buf, Int.toNat_natCast, hs, dropLastRunes_encodeRunes _ _
    (fun r hr => h.valid r (List.mem_of_mem_drop hr)) (by simp; omega)]
  congr 1
  rw [List.drop_take]
  congr 1
  simp only [List.length_drop]; omega

/-! ### Drawing -/

/-- A line drawn on a screen, in all detail: see `draw_shows_partial`. -/
theorem draw_shows_full (gr : Nat → Bool) (hsp : gr 0x20 = true) (l : EditLine) (s : Line) (es : Events)
    (v : VScreen) (u : Cursor) {w h bx by_ bw : Nat} (hold : Holds l s)
    (hp : ∀ r ∈ s.text, Printable gr r) (W : v.sc.Whole w h) (hb : v.buf = .empty)
    (hmin : l.box.min = ⟨bx + 1, by_ + 1⟩) (hdx : Geom.dx l.box = bw) (hbw : 1 ≤ bw) (hy : by_ < h)
    (hv : 0 ≤ l.view) (hne : s.text ≠ []) (hfit : bx + min s.text.length bw < w) (hbw2 : bw = 1 → s.text.length ≤ 1) :
    ∃ (f : Frame) (lo hi : Nat), l.draw gr es v u = .ok f ∧ f.line.view = lo ∧ 0 < hi - lo ∧ hi - lo ≤ bw ∧
      lo ≤ s.cur ∧ s.cur ≤ hi ∧ hi ≤ s.text.length ∧ (s.text.length ≤ bw → lo = 0 ∧ hi = s.text.length) ∧
      f.user = { u with visible := true, pt := ⟨bx + 1 + (s.cur - lo : Nat), by_ + 1⟩ } ∧
      f.line = { l with view := lo } ∧ f.out.sc.Whole w h ∧ f.out.buf = .empty ∧
      ∀ a b, a < w → b < h → f.out.sc.look w a b =
        if b = by_ ∧ bx ≤ a ∧ a < bx + (hi - lo) then some ⟨s.text.getD (lo + (a - bx)) 0, v.sc.cur.attr⟩
        else if b = by_ ∧ a = bx + (hi - lo) ∧ s.cur = hi then some ⟨0x20, v.sc.cur.attr⟩
        else v.sc.look w a b := by
  obtain ⟨lo, hi, w1, w2, w3, w4, w5, w6, w7, w8, w9, w10, w11⟩ := window_ok l s bw hold hbw hdx hv
  have hlen : 0 < s.text.length := List.length_pos_iff.mpr hne
  have hok : s.cur ≤ s.text.length := hold.ok
  have hshown := shown_text l s hold lo hi _ _ w1 w2 w3 w4
  have hpos : 0 < hi - lo := by
    by_cases hc : s.text.length ≤ bw
    · have := w8 hc; omega
    · have := w11 (by omega)
      by_cases h1 : bw = 1
      · have := hbw2 h1; omega
      · omega
  have hcur : s.cur ≤ hi := by
    by_cases hc : s.cur < s.text.length
    · have := w9 hc; omega
    · have := w10 (by omega); omega
  have hk : hi - lo ≤ min s.text.length bw := by omega
  generalize hseg : (s.text.take hi).drop lo = seg at hshown
  have hseglen : seg.length = hi - lo := by rw [← hseg]; simp; omega
  have hsegp : ∀ r ∈ seg, Printable gr r := by
    intro r hr
    rw [← hseg] at hr
    exact hp r (List.mem_of_mem_take (List.mem_of_mem_drop hr))
  have hsegget : ∀ k, k < hi - lo → seg.getD k 0 = s.text.getD (lo + k) 0 := by
    intro k hk
    rw [← hseg, List.getD_eq_getElem?_getD, List.getD_eq_getElem?_getD, List.getElem?_drop, List.getElem?_take,
      if_pos (by omega)]
  have hsegne : seg ≠ [] := by
    intro hc; rw [hc] at hseglen; simp at hseglen; omega
  -- the cursor is put at the corner of the box
  have hclamp : v.sc.clamp l.box.min = ⟨bx + 1, by_ + 1⟩ := by
    unfold Screen.clamp
    rw [hmin, W.rect]
    unfold clampPointTo
    simp only
    repeat' split
    all_goals (first | rfl | (simp only [Pt.mk.injEq]; omega) | omega)
  have W1 : (v.sc.to l.box.min).Whole w h := W.cur _
  have C1 : (v.sc.to l.box.min).CurAt bx by_ := hclamp
  obtain ⟨sc1, e1, W2, C2, A2, L2⟩ := print_text gr seg hsegp (v.sc.to l.box.min) bx by_ W1 hy C1 (by omega)
  have hput : ({ l with view := l.window.1 } : EditLine).put gr (encodeRunes seg) v = .ok { sc := sc1, buf := .empty } := by
    unfold EditLine.put
    rw [if_pos (by
      have := encodeRunes_len seg
      omega)]
    have hwt := VScreen.write_text gr { v with sc := v.sc.to l.box.min } seg (fun r hr => (hsegp r hr).plain) hb hsegne
    simp only at hwt
    rw [e1] at hwt
    exact hwt
  have hattr : sc1.cur.attr = v.sc.cur.attr := by rw [A2]; rfl
  have hlook0 : ∀ a b, (v.sc.to l.box.min).look w a b = v.sc.look w a b := fun _ _ => rfl
  generalize hu : ({ l with view := l.window.1 } : EditLine).mark u = u'
  have hu' : u' = { u with visible := true, pt := ⟨bx + 1 + (s.cur - lo : Nat), by_ + 1⟩ } := by
    rw [← hu]
    unfold EditLine.mark
    simp only [hmin, hold.cur, w1]
    congr 2
    omega
  have hdraw : l.draw gr es v u = ((.ok { sc := sc1, buf := .empty } : Except Fault VScreen).bind (blank gr u')).map
      fun v => ⟨{ l with view := l.window.1 }, es, v, u'⟩ := by
    unfold EditLine.draw
    simp only
    rw [hshown, hput, hu]
  have hx1 : sc1.cur.pt.x = bx + (hi - lo : Nat) + 1 := by
    have : sc1.cur.pt = ⟨((bx + seg.length : Nat) : Int) + 1, (by_ : Int) + 1⟩ := C2
    rw [this, hseglen]; push_cast; rfl
  by_cases hend : s.cur = hi
  · -- a blank follows
    have hsp' : ∀ r ∈ [0x20], Printable gr r := by
      intro r hr
      rw [List.mem_singleton] at hr
      subst hr
      exact ⟨by decide, hsp, by decide, by decide, by decide⟩
    have hblank : blank gr u' { sc := sc1, buf := .empty } =
        (sc1.processAll gr ([0x20].map (·, []))).map fun sc => { sc, buf := .empty } := by
      unfold blank
      rw [if_pos (by rw [hu', hx1]; simp only; omega)]
      have := VScreen.write_text gr { sc := sc1, buf := .empty } [0x20] (fun r hr => (hsp' r hr).plain) rfl (by simp)
      rw [← this]
      simp [encodeRunes]
    have hidx : bx + (hi - lo) < w := by omega
    -- the blank is put at the cursor, which may then wrap
    have hc2 : sc1.CurAt (bx + (hi - lo)) by_ := by rw [← hseglen]; exact C2
    have hstep : ∃ sc2, sc1.processAll gr ([0x20].map (·, [])) = .ok sc2 ∧
        sc2.grid = { sc1.grid with cells := sc1.grid.cells.set (by_ * w + (bx + (hi - lo))) ⟨0x20, sc1.cur.attr⟩ } := by
      have hhome : sc1.home = sc1 := by
        unfold home
        rw [if_neg]
        intro hz
        have := congrArg Pt.x hz
        rw [hx1] at this
        simp [Geom.zp] at this; omega
      have hpr : ∃ sc2, sc1.print 0x20 = .ok sc2 ∧ sc2.grid = { sc1.grid with
          cells := sc1.grid.cells.set (by_ * w + (bx + (hi - lo))) ⟨0x20, sc1.cur.attr⟩ } :=
        ⟨_, print_ok W2 hidx hy hc2 0x20, rfl⟩
      obtain ⟨sc2, p2, g2⟩ := hpr
      refine ⟨sc2, ?_, g2⟩
      show sc1.processAll gr [(0x20, [])] = _
      rw [processAll]
      unfold processANSI
      rw [hhome]
      simp only [show isEscape 0x20 = false by decide, Bool.false_eq_true, if_false, hsp, if_true,
        show ¬ (0x20 = 0x0A) by decide, show ¬ (0x20 = 0x0D) by decide, p2]
      rfl
    obtain ⟨sc2, e2, g2⟩ := hstep
    have WH : sc2.Whole w h := by
      refine ⟨W2.hw, W2.hh, by rw [g2]; exact W2.rect, by rw [g2]; exact W2.stride, by rw [g2]; exact W2.len, ?_⟩
      rw [g2, List.length_set]
      exact W2.cap
    refine ⟨⟨{ l with view := l.window.1 }, es, { sc := sc2, buf := .empty }, u'⟩, lo, hi, ?_, w1, hpos, w5, w6, hcur, w4, w8, hu', by rw [w1], WH, rfl, ?_⟩
    · rw [hdraw]
      simp only [Except.bind]
      rw [hblank, e2]
      rfl
    · intro a b ha hb
      have hl1 := L2 a b ha hb
      simp only [look] at hl1 ⊢
      rw [g2]
      simp only
      have hcl : w * h ≤ sc1.grid.cells.length := W2.cap
      have hii : by_ * w + (bx + (hi - lo)) < w * h := idx_lt hidx hy
      have hinj : by_ * w + (bx + (hi - lo)) = b * w + a ↔ (b = by_ ∧ a = bx + (hi - lo)) := by
        constructor
        · intro he
          have h1 : (by_ * w + (bx + (hi - lo))) / w = by_ := by
            rw [Nat.mul_comm, Nat.mul_add_div (by omega), Nat.div_eq_of_lt hidx]; omega
          have h2 : (b * w + a) / w = b := by
            rw [Nat.mul_comm, Nat.mul_add_div (by omega), Nat.div_eq_of_lt ha]; omega
          have hby : b = by_ := by rw [← h2, ← he, h1]
          subst hby
          exact ⟨rfl, by omega⟩
        · rintro ⟨rfl, rfl⟩; rfl
      rw [List.getElem?_set]
      by_cases hxy : b = by_ ∧ a = bx + (hi - lo)
      · rw [if_pos (hinj.mpr hxy), if_pos (by rw [hinj.mpr hxy]; rw [← hinj.mpr hxy]; omega), if_neg (by omega), if_pos ⟨hxy.1, hxy.2, hend⟩, hattr]
      · rw [if_neg (fun he => hxy (hinj.mp he)), hl1, hseglen]
        by_cases hin : b = by_ ∧ bx ≤ a ∧ a < bx + (hi - lo)
        · rw [if_pos hin, if_pos hin, hsegget _ (by omega)]
          rfl
        · rw [if_neg hin, if_neg hin, if_neg (fun hh => hxy ⟨hh.1, hh.2.1⟩)]
          rfl
  · have hblank : blank gr u' { sc := sc1, buf := .empty } = .ok { sc := sc1, buf := .empty } := by
      unfold blank
      rw [if_neg (by rw [hu', hx1]; simp only; omega)]
    have WH := W2
    refine ⟨⟨{ l with view := l.window.1 }, es, { sc := sc1, buf := .empty }, u'⟩, lo, hi, ?_, w1, hpos, w5, w6, hcur, w4, w8, hu', by rw [w1], WH, rfl, ?_⟩
    · rw [hdraw]
      simp only [Except.bind]
      rw [hblank]
      rfl
    · intro a b ha hb
      rw [L2 a b ha hb, hseglen]
      by_cases hin : b = by_ ∧ bx ≤ a ∧ a < bx + (hi - lo)
      · rw [if_pos hin, if_pos hin, hsegget _ (by omega)]
        rfl
      · rw [if_neg hin, if_neg hin, if_neg (fun hh => hend hh.2.2)]
        rfl

/-- **C66**: a line drawn on a screen, with its box on the screen, something to show, and
at least one column right of what is shown.  The characters of the window stand in the box
from its left edge on; a blank follows them if the cursor is at their end; every other
cell of the screen is as before; the user cursor is visible in the row of the box, as many
columns from its edge as there are characters of the window before the cursor. -/
theorem draw_shows_partial (gr : Nat → Bool) (hsp : gr 0x20 = true) (l : EditLine) (s : Line) (es : Events)
    (v : VScreen) (u : Cursor) {w h bx by_ bw : Nat} (hold : Holds l s)
    (hp : ∀ r ∈ s.text, Printable gr r) (W : v.sc.Whole w h) (hb : v.buf = .empty)
    (hmin : l.box.min = ⟨bx + 1, by_ + 1⟩) (hdx : Geom.dx l.box = bw) (hbw : 1 ≤ bw) (hy : by_ < h)
    (hv : 0 ≤ l.view) (hne : s.text ≠ []) (hfit : bx + min s.text.length bw < w) (hbw2 : bw = 1 → s.text.length ≤ 1) :
    ∃ (f : Frame) (lo hi : Nat), l.draw gr es v u = .ok f ∧ f.line.view = lo ∧ 0 < hi - lo ∧ hi - lo ≤ bw ∧
      lo ≤ s.cur ∧ s.cur ≤ hi ∧ hi ≤ s.text.length ∧ (s.text.length ≤ bw → lo = 0 ∧ hi = s.text.length) ∧
      f.user = { u with visible := true, pt := ⟨bx + 1 + (s.cur - lo : Nat), by_ + 1⟩ } ∧
      ∀ a b, a < w → b < h → f.out.sc.look w a b =
        if b = by_ ∧ bx ≤ a ∧ a < bx + (hi - lo) then some ⟨s.text.getD (lo + (a - bx)) 0, v.sc.cur.attr⟩
        else if b = by_ ∧ a = bx + (hi - lo) ∧ s.cur = hi then some ⟨0x20, v.sc.cur.attr⟩
        else v.sc.look w a b := by
  obtain ⟨f, lo, hi, h1, h2, h3, h4, h5, h6, h7, h8, h9, -, -, -, h10⟩ :=
    draw_shows_full gr hsp l s es v u hold hp W hb hmin hdx hbw hy hv hne hfit hbw2
  exact ⟨f, lo, hi, h1, h2, h3, h4, h5, h6, h7, h8, h9, h10⟩

/-! ### Where it fails -/

/-- ASCII graphic characters, for the examples. -/
def grA (r : Nat) : Bool := decide (0x20 ≤ r ∧ r < 0x7F)

/-- A screen of 4 columns and 2 rows full of "z". -/
def zs : VScreen :=
  { sc :=
      { cur := { pt := ⟨1, 2⟩ },
        grid := { rect := ⟨⟨1, 1⟩, ⟨5, 3⟩⟩, stride := 4, len := 8,
                  cells := List.replicate 8 ⟨0x7A, 0⟩ } },
    buf := .empty }

theorem zs_whole : zs.sc.Whole 4 2 := ⟨by decide, by decide, rfl, rfl, rfl, by decide⟩

/-- What is on the screen, as characters, and the user cursor. -/
def Frame.see (f : Frame) : List Nat × Pt := (f.out.sc.grid.cells.map (·.rune), f.user.pt)

/-- The theorem applies to this screen: "ab" with the cursor on "b". -/
example : ∃ f : Frame, ({ box := ⟨⟨1, 1⟩, ⟨4, 2⟩⟩, buf := [0x61, 0x62], cur := 1 } : EditLine).draw grA [] zs {} = .ok f ∧
    f.see = ([0x61, 0x62, 0x7A, 0x7A, 0x7A, 0x7A, 0x7A, 0x7A], ⟨2, 1⟩) := ⟨_, rfl, by decide +kernel⟩
example : ∃ (f : Frame) (lo hi : Nat),
    ({ box := ⟨⟨1, 1⟩, ⟨4, 2⟩⟩, buf := [0x61, 0x62], cur := 1 } : EditLine).draw grA [] zs {} = .ok f ∧ f.line.view = lo ∧ 0 < hi - lo := by
  obtain ⟨f, lo, hi, h1, h2, h3, _⟩ := draw_shows_partial grA (by decide)
    { box := ⟨⟨1, 1⟩, ⟨4, 2⟩⟩, buf := [0x61, 0x62], cur := 1 } ⟨[0x61, 0x62], 1⟩ [] zs {} (w := 4) (h := 2) (bx := 0) (by_ := 0) (bw := 3)
    ⟨by decide, by decide, rfl, by unfold Line.Ok; decide⟩
    (by
      intro r hr
      simp only [List.mem_cons, List.not_mem_nil, or_false] at hr
      rcases hr with rfl | rfl <;> exact ⟨by decide, by decide, by decide, by decide, by decide⟩)
    zs_whole rfl rfl rfl (by decide) (by decide) (by decide) (by decide) (by decide) (by decide)
  exact ⟨f, lo, hi, h1, h2, h3⟩

/-- Negation for **C66**: when the text fills its box and the cursor is at the end, the
cursor is right of the box, and a blank is written there over what belongs to others. -/
theorem full_line_leaves_box : ∃ (l : EditLine) (f : Frame), l.box = ⟨⟨1, 1⟩, ⟨3, 2⟩⟩ ∧
    Holds l ⟨[0x61, 0x62], 2⟩ ∧ l.draw grA [] zs {} = .ok f ∧ f.user.pt = ⟨3, 1⟩ ∧
    Geom.ptIn f.user.pt l.box = false ∧ f.out.sc.look 4 2 0 = some ⟨0x20, 0⟩ ∧ zs.sc.look 4 2 0 = some ⟨0x7A, 0⟩ :=
  ⟨{ box := ⟨⟨1, 1⟩, ⟨3, 2⟩⟩, buf := [0x61, 0x62], cur := 2 }, _, rfl,
    ⟨by decide, by decide, rfl, by unfold Line.Ok; decide⟩, rfl, by decide +kernel, by decide +kernel, by decide +kernel,
    by decide⟩

/-- The same for a text longer than the box: in one frame the cursor is in the box, in the
next, with nothing typed, it is right of it. -/
theorem long_line_flickers : ∃ (l : EditLine) (f g : Frame), l.box = ⟨⟨1, 1⟩, ⟨3, 2⟩⟩ ∧
    Holds l ⟨[0x61, 0x62, 0x63], 3⟩ ∧ l.draw grA [] zs {} = .ok f ∧ f.user.pt = ⟨2, 1⟩ ∧
    f.line.draw grA [] zs {} = .ok g ∧ g.user.pt = ⟨3, 1⟩ :=
  ⟨{ box := ⟨⟨1, 1⟩, ⟨3, 2⟩⟩, buf := [0x61, 0x62, 0x63], cur := 3 }, _, _, rfl,
    ⟨by decide, by decide, rfl, by unfold Line.Ok; decide⟩, rfl, by decide +kernel, rfl, by decide +kernel⟩

/-- Negation for **C66**: drawing an empty line writes a blank wherever the output cursor
happens to be, if that is in the first column of the box. -/
theorem empty_line_blanks : ∃ (l : EditLine) (f : Frame), l.box = ⟨⟨1, 1⟩, ⟨3, 2⟩⟩ ∧ Holds l ⟨[], 0⟩ ∧
    l.draw grA [] zs {} = .ok f ∧ f.out.sc.look 4 0 1 = some ⟨0x20, 0⟩ ∧ zs.sc.look 4 0 1 = some ⟨0x7A, 0⟩ :=
  ⟨{ box := ⟨⟨1, 1⟩, ⟨3, 2⟩⟩ }, _, rfl, ⟨by decide, by decide, rfl, by unfold Line.Ok; decide⟩, rfl, by decide +kernel, by decide⟩

/-- Negation for **C66**: a text that fills a box as wide as the screen, with the cursor at
its start, has a blank written into the next row. -/
theorem wide_line_blanks_next_row : ∃ (l : EditLine) (f : Frame), l.box = ⟨⟨1, 1⟩, ⟨5, 2⟩⟩ ∧
    Holds l ⟨[0x61, 0x62, 0x63, 0x64], 0⟩ ∧ l.draw grA [] zs {} = .ok f ∧
    f.out.sc.look 4 0 1 = some ⟨0x20, 0⟩ ∧ zs.sc.look 4 0 1 = some ⟨0x7A, 0⟩ :=
  ⟨{ box := ⟨⟨1, 1⟩, ⟨5, 2⟩⟩, buf := [0x61, 0x62, 0x63, 0x64], cur := 0 }, _, rfl,
    ⟨by decide, by decide, rfl, by unfold Line.Ok; decide⟩, rfl, by decide +kernel, by decide⟩

end Edl
end Anansi
