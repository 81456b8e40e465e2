import Verif.Model.LogDraw
import Verif.Props.HudRows
import Verif.Props.LogView
import Verif.Lemmas.Repr
/-
C98: the log viewer draws its lines at the bottom of the screen.
-/
set_option autoImplicit false

namespace Anansi.Hud
open Geom Evq Screen Lgv

namespace Spec

/-- Texts written at the beginnings of rows, one after the other: the character that is then in
column `a` of row `b`, if any of them is there. -/
def over (a b : Nat) : List (Nat × List Nat) → Option Nat
  | [] => none
  | (r, t) :: l => (over a b l).or (if b = r then t[a]? else none)

/-- Where lines go on a screen of `w` columns and `h` rows, each to the row after the cursor's,
which is row `y` first: the last row is as far as it goes, and a line as wide as the screen takes
the cursor to the next row. -/
def rows (w h : Nat) : Nat → List (List Nat) → List (Nat × List Nat)
  | _, [] => []
  | y, t :: l =>
    (min (h - 1) (y + 1), Lgv.Spec.fit w t) ::
      rows w h (if t.length < w then min (h - 1) (y + 1) else min (h - 1) (y + 2)) l

/-- The row of the title of a view of `n` lines on a log of `lines` lines. -/
def titleRow (h n lines : Nat) : Nat := min (h - 1) (h - 1 - n + (n + 3 - lines))

/-- The row that is clicked to open and close the view. -/
def clickRow (h n : Nat) (expanded : Bool) : Nat := if expanded then h - 1 - n else h - 1

end Spec

theorem fit_full (w : Nat) (t : List Nat) (hw : 1 ≤ w) : (Lgv.Spec.fit w t).length < w ↔ t.length < w := by
  unfold Lgv.Spec.fit
  split
  · rfl
  · simp only [List.length_append, List.length_take, List.length_singleton]; omega

/-- Lines drawn below the cursor. -/
theorem lines_drawn (gr : Nat → Bool) (hel : Screen.Printable gr 0x2026) {w h : Nat} : ∀ (ls : List (List Nat))
    (_ : ∀ t ∈ ls, ∀ r ∈ t, Screen.Printable gr r) (v : VScreen) (y : Nat) (_ : v.sc.Whole w h) (_ : Emu.Settled v)
    (_ : v.sc.cur.pt.y = y + 1),
    ∃ v', drawLines gr (w + 1) (ls.map encodeRunes) v = .ok v' ∧ v'.sc.Whole w h ∧ Emu.Settled v' ∧
      v'.sc.cur.attr = v.sc.cur.attr ∧
      ∀ a b, a < w → b < h → v'.sc.look w a b =
        match Spec.over a b (Spec.rows w h y ls) with
        | some r => some ⟨r, v.sc.cur.attr⟩
        | none => v.sc.look w a b
  | [], _, v, y, W, S, _ => ⟨v, rfl, W, S, rfl, fun a b _ _ => rfl⟩
  | t :: ls, hp, v, y, W, S, hy => by
    have hw := W.hw
    have hh := W.hh
    have R := goto_ready W S ⟨1, (y : Int) + 1 + 1⟩
    have e1 : min (w - 1) (((1 : Int)) - 1).toNat = 0 := by omega
    have e2 : min (h - 1) (((y : Int) + 1 + 1) - 1).toNat = min (h - 1) (y + 1) := by omega
    simp only [e1, e2] at R
    have hfl := Lgv.fit_length w t hw
    obtain ⟨v1, f1, D⟩ := drew_truncated gr hel w hw t (hp t (by simp)) _ R (by omega)
    have hy1 : v1.sc.cur.pt.y = ((if t.length < w then min (h - 1) (y + 1) else min (h - 1) (y + 2) : Nat) : Int) + 1 := by
      rw [D.cur]
      unfold after
      simp only
      have := fit_full w t hw
      by_cases hl : t.length < w
      · rw [if_pos hl, if_pos (by have := this.2 hl; omega)]
      · rw [if_neg hl, if_neg (by intro hx; exact hl (this.1 (by omega)))]
        simp only
        split <;> omega
    obtain ⟨v2, g1, W2, S2, A2, L2⟩ := lines_drawn gr hel ls (fun x hx => hp x (by simp [hx])) v1 _ D.whole D.settled hy1
    have ha : v1.sc.cur.attr = v.sc.cur.attr := by rw [D.cur]; rfl
    refine ⟨v2, ?_, W2, S2, by rw [A2, ha], fun a b hab hbb => ?_⟩
    · rw [List.map_cons, drawLines, hy, mkPt_ok (by omega) (by omega)]
      simp only [Except.bind]
      have hc : (goto v ⟨1, (y : Int) + 1 + 1⟩).sc.cur.pt.x = 1 := by rw [show _ = _ from R.cur]; simp
      rw [hc, show (w : Int) + 1 - 1 = w from by omega, f1]
      exact g1
    · rw [L2 a b hab hbb, Spec.rows, Spec.over, ha]
      generalize Spec.over a b (Spec.rows w h _ ls) = o
      cases o with
      | some r => rfl
      | none =>
        simp only [Option.none_or]
        rw [D.look a b hab hbb]
        by_cases hb : b = min (h - 1) (y + 1)
        · by_cases hal : a < (Lgv.Spec.fit w t).length
          · rw [if_pos ⟨hb, by omega, by omega⟩, if_pos hb]
            simp only [Nat.sub_zero, List.getD_eq_getElem?_getD, List.getElem?_eq_getElem hal, Option.getD_some]
            rfl
          · rw [if_neg (by omega), if_pos hb, List.getElem?_eq_none (by omega)]
            rfl
        · rw [if_neg (by omega), if_neg hb]
          rfl

theorem ascii_runes : ∀ (bs : Bytes), (∀ b ∈ bs, b.toNat < 0x80) → encodeRunes (bs.map UInt8.toNat) = bs
  | [], _ => rfl
  | b :: bs, h => by
    rw [List.map_cons, encodeRunes_cons, ascii_runes bs fun x hx => h x (by simp [hx])]
    have := h b (by simp)
    have e : encodeRune b.toNat = [b] := by
      unfold encodeRune
      rw [if_pos (by omega), UInt8.ofNat_toNat]
    rw [e]
    rfl

theorem itoaNat_digits (n : Nat) : ∀ b ∈ itoaNat n, 0x30 ≤ b.toNat ∧ b.toNat ≤ 0x39 := by
  induction n using Nat.strong_induction_on with
  | _ n ih =>
    have hd : ∀ d, d < 10 → 0x30 ≤ (digitByte d).toNat ∧ (digitByte d).toNat ≤ 0x39 := by decide
    intro b hb
    rw [itoaNat] at hb
    split at hb
    · rename_i hn
      rw [List.mem_singleton] at hb
      rw [hb]; exact hd n hn
    · rcases List.mem_append.1 hb with hb | hb
      · exact ih (n / 10) (by omega) b hb
      · rw [List.mem_singleton] at hb
        rw [hb]; exact hd _ (by omega)

theorem title_ascii (a b c : Nat) : ∀ x ∈ logTitle a b c, 0x20 ≤ x.toNat ∧ x.toNat < 0x7F := by
  have hi : ∀ n : Nat, ∀ x ∈ itoa n, 0x20 ≤ x.toNat ∧ x.toNat < 0x7F := by
    intro n x hx
    unfold itoa at hx
    rw [if_neg (by omega)] at hx
    have := itoaNat_digits _ x hx
    omega
  intro x hx
  unfold logTitle at hx
  simp only [List.mem_append] at hx
  have k1 : ∀ x ∈ ([0x4C, 0x6F, 0x67, 0x73, 0x20, 0x28] : Bytes), 0x20 ≤ x.toNat ∧ x.toNat < 0x7F := by decide
  have k2 : ∀ x ∈ ([0x2D] : Bytes), 0x20 ≤ x.toNat ∧ x.toNat < 0x7F := by decide
  have k3 : ∀ x ∈ ([0x2F] : Bytes), 0x20 ≤ x.toNat ∧ x.toNat < 0x7F := by decide
  have k4 : ∀ x ∈ ([0x29, 0x3A] : Bytes), 0x20 ≤ x.toNat ∧ x.toNat < 0x7F := by decide
  rcases hx with (((((hx | hx) | hx) | hx) | hx) | hx) | hx
  · exact k1 x hx
  · exact hi _ x hx
  · exact k2 x hx
  · exact hi _ x hx
  · exact k3 x hx
  · exact hi _ x hx
  · exact k4 x hx

/-- The title as runes: which lines are shown, and of how many. -/
def Spec.title (start e lines : Nat) : List Nat :=
  s!"Logs ({start}-{e}/{lines}):".toList.map Char.toNat

theorem title_runes (a b c : Nat) : (logTitle a b c).map UInt8.toNat = Spec.title a b c := by
  unfold logTitle Spec.title itoa
  have hi : ∀ n : Nat, ¬ ((n : Int) < 0) := fun n => by omega
  simp only [if_neg (hi _), Int.natAbs_natCast, List.map_append, itoaNat_repr]
  simp only [toString, String.toList_append, List.map_append, List.append_assoc]
  rfl

theorem title_bytes (a b c : Nat) : logTitle a b c = encodeRunes (Spec.title a b c) :=
  title_runes a b c ▸ (ascii_runes _ fun x hx => by have := title_ascii a b c x hx; omega).symm

theorem title_printable (gr : Nat → Bool) (hgr : ∀ r, 0x20 ≤ r → r < 0x7F → Screen.Printable gr r) (a b c : Nat) :
    ∀ r ∈ Spec.title a b c, Screen.Printable gr r := by
  intro r hr
  rw [← title_runes] at hr
  obtain ⟨x, hx, rfl⟩ := List.mem_map.1 hr
  have := title_ascii a b c x hx
  exact hgr _ this.1 this.2

theorem max_y {sc : Screen} {w h : Nat} (W : sc.Whole w h) : sc.grid.rect.max.y = h + 1 := by rw [W.rect]

/-- The number of lines of the open view. -/
def full (lv : View) : Nat := if lv.viewLines = 0 then 10 else lv.viewLines.toNat

/-- The box clicked. -/
def clickBox (w h n : Nat) (expanded : Bool) : Rect := Spec.box 0 (Spec.clickRow h n expanded) w

/-- Whether the view is open after the clicks of a frame. -/
def opened (w h : Nat) (lv : View) (es : Events) : Bool :=
  xor lv.expanded (es.countP (pressIn (clickBox w h (full lv) lv.expanded) 1) % 2 = 1)

/-- **C98**, exactly what a frame of the log viewer does, on a screen of more rows than the view
has lines and wide enough for the title, with a log of printable lines: it opens or closes when
clicked an odd number of times; consecutive lines of the log are chosen, as many as the view has
room for; and the title, if it is open, and the lines are written one under the other from the
title's row on, the last row taking all there is no room for. -/
theorem log_drawn (gr : Nat → Bool) (hgr : ∀ r, 0x20 ≤ r → r < 0x7F → Screen.Printable gr r)
    (hel : Screen.Printable gr 0x2026) {w h : Nat} (v : VScreen) (W : v.sc.Whole w h) (S : Emu.Settled v)
    (lv : View) (s : Logs.Sink) (hs : s.Exact) (hlv : lv.Good s.eols.length) (ls : List (List Nat))
    (hls : Anansi.Spec.linesOf s.buf = ls.map encodeRunes) (hp : ∀ t ∈ ls, ∀ r ∈ t, Screen.Printable gr r) (hne : ls ≠ [])
    (es : Events) (hh : full lv < h) (hw : ∀ a b, a ≤ ls.length → b ≤ ls.length → (Spec.title a b ls.length).length < w) :
    ∃ start e lv' es' v', logUpdate gr lv s es v = .ok (lv', es', v') ∧
      (1 ≤ start ∧ start ≤ e ∧ e ≤ ls.length ∧
        e + 1 - start = min (if opened w h lv es then full lv else 1) ls.length) ∧
      (lv'.expanded = opened w h lv es ∧ lv'.Good s.eols.length) ∧
      (v'.sc.Whole w h ∧ Emu.Settled v' ∧ v'.sc.cur.attr = v.sc.cur.attr) ∧
      ∀ a b, a < w → b < h → v'.sc.look w a b =
        match Spec.over a b (if opened w h lv es then
            (Spec.titleRow h (full lv) ls.length, Spec.title start e ls.length) ::
              Spec.rows w h (Spec.titleRow h (full lv) ls.length) ((ls.take e).drop (start - 1))
          else Spec.rows w h (h - 1) ((ls.take e).drop (start - 1))) with
        | some r => some ⟨r, v.sc.cur.attr⟩
        | none => v.sc.look w a b := by
  have hw1 := W.hw
  have hh1 := W.hh
  have hll : s.eols.length = ls.length := by
    have := congrArg List.length hls
    rw [linesOf_length, List.length_map] at this
    rw [hs]; exact this
  have hpos : 1 ≤ ls.length := List.length_pos_iff.mpr hne
  obtain ⟨hv0, hwi⟩ := hlv
  have hn : (if lv.viewLines = 0 then (10 : Int) else lv.viewLines) = full lv := by
    unfold full; split <;> omega
  have hn1 : 1 ≤ full lv := by unfold full; split <;> omega
  have htop : ∀ x : Bool, logTop ((h : Int) + 1 - 1) x (full lv) = (Spec.clickRow h (full lv) x : Nat) + 1 := by
    intro x
    unfold logTop Spec.clickRow
    cases x <;> simp <;> omega
  have hbox : mkRect 1 ((Spec.clickRow h (full lv) lv.expanded : Nat) + 1) (w + 1)
      ((Spec.clickRow h (full lv) lv.expanded : Nat) + 1 + 1) = .ok (clickBox w h (full lv) lv.expanded) := by
    unfold mkRect Geom.rect
    rw [if_neg (by omega)]
    simp only [if_neg (show ¬ ((1 : Int) > (w : Int) + 1) by omega),
      if_neg (show ¬ (((Spec.clickRow h (full lv) lv.expanded : Nat) : Int) + 1 > (Spec.clickRow h (full lv) lv.expanded : Nat) + 1 + 1) by omega)]
    simp [clickBox, Spec.box]
  have hop : (lv.begin (es.countP (pressIn (clickBox w h (full lv) lv.expanded) 1))).expanded = opened w h lv es := by
    unfold View.begin opened
    by_cases hc : es.countP (pressIn (clickBox w h (full lv) lv.expanded) 1) % 2 = 1 <;> cases lv.expanded <;> simp [hc]
  have hvl : (lv.begin (es.countP (pressIn (clickBox w h (full lv) lv.expanded) 1))).viewLines = full lv := hn
  have hbw : (lv.begin (es.countP (pressIn (clickBox w h (full lv) lv.expanded) 1))).Within s.eols.length := hwi
  unfold logUpdate
  simp only [max_x W, max_y W, hn]
  rw [mkPt_ok (by omega) (by omega)]
  simp only [Except.bind]
  rw [htop, hbox]
  simp only [countPressesIn_exact, Nat.zero_add]
  rw [hop, hvl, htop, if_neg (by omega)]
  generalize lv.begin _ = lv1 at *
  generalize hO : opened w h lv es = O at *
  generalize htp : (if ((h : Int) + 1 + 1 - ((Spec.clickRow h (full lv) O : Nat) + 1) - s.eols.length + 1) > 0 then
    (Spec.clickRow h (full lv) O : Nat) + 1 + ((h : Int) + 1 + 1 - ((Spec.clickRow h (full lv) O : Nat) + 1) - s.eols.length + 1)
    else ((Spec.clickRow h (full lv) O : Nat) : Int) + 1) = top
  generalize totalScrollIn _ 0 _ = d
  generalize hlv2 : (if d.2 ≠ 0 then lv1.scrollBy s.eols.length d.2 else lv1) = lv2
  have h2w : lv2.Within s.eols.length := by
    rw [← hlv2]; split
    · exact scroll_within _ _ _ (by omega)
    · exact hbw
  have h2e : lv2.expanded = O := by rw [← hlv2, ← hop]; split <;> rfl
  have h2v : lv2.viewLines = full lv := by rw [← hlv2, ← hvl]; split <;> rfl
  obtain ⟨w1, w2, w3, w4, _, _, w7⟩ := window_within lv2 s.eols.length (if O then (full lv : Int) else 1) (by omega)
    (by split <;> omega) h2w
  have hwv : (lv2.window s.eols.length (if O then (full lv : Int) else 1)).1.viewLines = lv2.viewLines ∧
      (lv2.window s.eols.length (if O then (full lv : Int) else 1)).1.expanded = lv2.expanded := by
    unfold View.window
    constructor <;> split_ifs <;> rfl
  generalize lv2.window s.eols.length (if O then (full lv : Int) else 1) = r at *
  have a1 : r.2.1 = ((r.2.1.toNat : Nat) : Int) := by omega
  have a2 : r.2.2 = ((r.2.2.toNat : Nat) : Int) := by omega
  have hsh := shown_lines s hs r.2.1.toNat r.2.2.toNat (by omega) (by omega) (by omega)
  rw [← a1, ← a2] at hsh
  have hsl : Anansi.Spec.window s.buf r.2.1.toNat r.2.2.toNat =
      ((ls.take r.2.2.toNat).drop (r.2.1.toNat - 1)).map encodeRunes := by
    unfold Anansi.Spec.window
    rw [hls, List.map_drop, List.map_take]
  rw [hsl] at hsh
  have hpw : ∀ t ∈ (ls.take r.2.2.toNat).drop (r.2.1.toNat - 1), ∀ r ∈ t, Screen.Printable gr r :=
    fun t ht => hp t (List.mem_of_mem_take (List.mem_of_mem_drop ht))
  refine ⟨r.2.1.toNat, r.2.2.toNat, r.1, d.1, ?_⟩
  have hcnt : r.2.2.toNat + 1 - r.2.1.toNat = min (if O then full lv else 1) ls.length := by
    have : (if O then (full lv : Int) else 1) = ((if O then full lv else 1 : Nat) : Int) := by split <;> rfl
    rw [this] at w4
    omega
  have R := goto_ready W S ⟨1, top⟩
  have e1 : min (w - 1) (((1 : Int)) - 1).toNat = 0 := by omega
  simp only [e1] at R
  cases O with
  | false =>
    have e2 : min (h - 1) (top - 1).toNat = h - 1 := by
      rw [← htp]; unfold Spec.clickRow; simp only [Bool.false_eq_true, if_false]; split <;> omega
    rw [e2] at R
    obtain ⟨v', f1, f2, f3, f4, f5⟩ := lines_drawn gr hel _ hpw (goto v ⟨1, top⟩) (h - 1) R.whole R.settled
      (by rw [show _ = _ from R.cur])
    refine ⟨v', ?_, ⟨by omega, by omega, by omega, hcnt⟩, ⟨by rw [hwv.2, h2e], by rw [hwv.1, h2v]; omega, w7⟩, ⟨f2, f3, f4⟩, ?_⟩
    · rw [h2e]
      simp only [Bool.false_eq_true, false_and, if_false, Except.bind, hsh, f1]
    · intro a b ha hb
      rw [f5 a b ha hb]
      rfl
  | true =>
    have e2 : min (h - 1) (top - 1).toNat = Spec.titleRow h (full lv) ls.length := by
      rw [← htp]; unfold Spec.clickRow Spec.titleRow; simp only [if_true]; split <;> omega
    rw [e2] at R
    have hty : Spec.titleRow h (full lv) ls.length < h := R.hy
    have htl := hw r.2.1.toNat r.2.2.toNat (by omega) (by omega)
    obtain ⟨v1, d1, D⟩ := drew_run gr (Spec.title r.2.1.toNat r.2.2.toNat ls.length)
      (title_printable gr hgr _ _ _) _ R (by omega)
    have R1 := D.ready (by omega) hty
    obtain ⟨v', f1, f2, f3, f4, f5⟩ := lines_drawn gr hel _ hpw v1 (Spec.titleRow h (full lv) ls.length) R1.whole R1.settled
      (by rw [show _ = _ from R1.cur])
    have hat : v1.sc.cur.attr = v.sc.cur.attr := by rw [D.cur]; rfl
    refine ⟨v', ?_, ⟨by omega, by omega, by omega, hcnt⟩, ⟨by rw [hwv.2, h2e], by rw [hwv.1, h2v]; omega, w7⟩,
      ⟨f2, f3, by rw [f4, hat]⟩, ?_⟩
    · rw [h2e, if_pos ⟨rfl, by omega⟩, a1, a2, hll, title_bytes, d1]
      simp only [Except.bind]
      rw [← a1, ← a2, hsh]
      simp only [f1]
    · intro a b ha hb
      rw [f5 a b ha hb, hat]
      simp only [if_true, Spec.over]
      generalize Spec.over a b (Spec.rows w h _ _) = o
      cases o with
      | some x => rfl
      | none =>
        simp only [Option.none_or]
        rw [D.look a b ha hb]
        by_cases hbt : b = Spec.titleRow h (full lv) ls.length
        · rw [if_pos hbt]
          by_cases hal : a < (Spec.title r.2.1.toNat r.2.2.toNat ls.length).length
          · rw [if_pos ⟨hbt, by omega, by omega⟩]
            simp only [Nat.sub_zero, List.getD_eq_getElem?_getD, List.getElem?_eq_getElem hal, Option.getD_some]
            rfl
          · rw [if_neg (by omega), List.getElem?_eq_none (by omega)]
            rfl
        · rw [if_neg (by omega), if_neg hbt]
          rfl

/-! ### The events and the state -/

/-- The rows in which turning the wheel scrolls: from the row of the view, or as many rows lower
as there are lines too few, on. -/
def scrollBox (w h n lines : Nat) (expanded : Bool) : Rect :=
  let y := Spec.clickRow h n expanded
  ⟨⟨1, (y + (h + 2 - y - lines) : Nat) + 1⟩, ⟨w + 1, h + 1 + 1⟩⟩

/-- The events after a frame of the log viewer: left presses on the row of the view are taken,
and turns of the wheel over its rows if there are any lines. -/
def logEvents (w h : Nat) (lv : View) (lines : Nat) (es : Events) : Events :=
  strikeIf (fun e => pressIn (clickBox w h (full lv) lv.expanded) 1 e ||
    (decide (lines ≠ 0) && (scrollIn (scrollBox w h (full lv) lines (opened w h lv es)) 4 e ||
        scrollIn (scrollBox w h (full lv) lines (opened w h lv es)) 5 e))) es

/-- How far the wheel was turned over the view. -/
def logDelta (w h : Nat) (lv : View) (lines : Nat) (es : Events) : Int :=
  let box := scrollBox w h (full lv) lines (opened w h lv es)
  es.countP (scrollIn box 5) - es.countP (scrollIn box 4)

theorem scroll_struck (box : Rect) (b : BitVec 8) (e : Ev) : scrollIn box b e.struck = false := by
  unfold scrollIn Ev.struck
  simp

/-- A press is not a turn of the wheel. -/
theorem press_not_scroll (r s : Rect) (b : BitVec 8) (hb : b ≠ 1) (e : Ev) (h : pressIn r 1 e = true) :
    scrollIn s b e = false := by
  unfold pressIn at h
  simp only [Bool.and_eq_true, decide_eq_true_eq] at h
  have hi := h.1.2
  unfold Mouse.isPress at hi
  have h1 : Mouse.buttonID e.ms = 1 := by
    split at hi
    · cases hi
    · exact Option.some.inj hi
  unfold scrollIn
  rw [h1]
  have : decide ((1 : BitVec 8) = b) = false := by simpa using fun hx => hb hx.symm
  rw [this, Bool.and_false]

theorem strike_strike (p q : Ev → Bool) (es : Events) (h : ∀ e : Ev, q e.struck = false) :
    strikeIf q (strikeIf p es) = strikeIf (fun e => p e || q e) es := by
  unfold strikeIf
  rw [List.map_map]
  apply List.map_congr_left
  intro e _
  simp only [Function.comp]
  by_cases hp : p e = true
  · simp [hp, h]
  · simp [hp]

theorem count_strike (p q : Ev → Bool) (es : Events) (h : ∀ e, p e = true → q e = false) (hs : ∀ e : Ev, q e.struck = false) :
    (strikeIf p es).countP q = es.countP q := by
  unfold strikeIf
  rw [List.countP_map]
  apply List.countP_congr
  intro e _
  simp only [Function.comp]
  by_cases hp : p e = true
  · simp [hp, h e hp, hs]
  · simp [hp]

theorem click_box {w h : Nat} (hw : 1 ≤ w) (lv : View) :
    mkRect 1 ((Spec.clickRow h (full lv) lv.expanded : Nat) + 1) (w + 1)
      ((Spec.clickRow h (full lv) lv.expanded : Nat) + 1 + 1) = .ok (clickBox w h (full lv) lv.expanded) := by
  unfold mkRect Geom.rect
  rw [if_neg (by omega)]
  simp only [if_neg (show ¬ ((1 : Int) > (w : Int) + 1) by omega),
    if_neg (show ¬ (((Spec.clickRow h (full lv) lv.expanded : Nat) : Int) + 1 > (Spec.clickRow h (full lv) lv.expanded : Nat) + 1 + 1) by omega)]
  simp [clickBox, Spec.box]

/-- **C98**: the state of the viewer after a frame, and the events taken by it: it is that of
`View.update` (C51) for the presses on its row and the turns of the wheel over its rows, and
exactly these are taken. -/
theorem log_taken (gr : Nat → Bool) {w h : Nat} (v : VScreen) (W : v.sc.Whole w h) (lv : View) (s : Logs.Sink) (es : Events)
    (h0 : 0 ≤ lv.viewLines) (hh : full lv < h) (q : View × Events × VScreen) (hq : logUpdate gr lv s es v = .ok q) :
    q.2.1 = logEvents w h lv s.eols.length es ∧
    ∃ lines, lv.update s (es.countP (pressIn (clickBox w h (full lv) lv.expanded) 1)) (logDelta w h lv s.eols.length es) =
      some (q.1, lines) := by
  have hw1 := W.hw
  have hn : (if lv.viewLines = 0 then (10 : Int) else lv.viewLines) = full lv := by
    unfold full; split <;> omega
  have htop : ∀ x : Bool, logTop ((h : Int) + 1 - 1) x (full lv) = (Spec.clickRow h (full lv) x : Nat) + 1 := by
    intro x
    unfold logTop Spec.clickRow
    cases x <;> simp <;> omega
  have hop : (lv.begin (es.countP (pressIn (clickBox w h (full lv) lv.expanded) 1))).expanded = opened w h lv es := by
    unfold View.begin opened
    by_cases hc : es.countP (pressIn (clickBox w h (full lv) lv.expanded) 1) % 2 = 1 <;> cases lv.expanded <;> simp [hc]
  unfold logUpdate at hq
  simp only [max_x W, max_y W, hn] at hq
  rw [mkPt_ok (by omega) (by omega)] at hq
  simp only [Except.bind] at hq
  rw [htop, click_box hw1] at hq
  simp only [countPressesIn_exact, Nat.zero_add] at hq
  rw [hop, htop] at hq
  unfold View.update
  simp only [hop]
  by_cases hl : (s.eols.length : Int) ≤ 0
  · rw [if_pos hl] at hq ⊢
    have hz : s.eols.length = 0 := by omega
    cases hq
    refine ⟨?_, [], rfl⟩
    unfold logEvents
    simp only [hz, ne_eq, not_true, decide_false, Bool.false_and, Bool.or_false]
  · rw [if_neg hl] at hq ⊢
    have hbx : (⟨⟨1, if (h : Int) + 1 + 1 - ((Spec.clickRow h (full lv) (opened w h lv es) : Nat) + 1) - s.eols.length + 1 > 0 then
        (Spec.clickRow h (full lv) (opened w h lv es) : Nat) + 1 +
          ((h : Int) + 1 + 1 - ((Spec.clickRow h (full lv) (opened w h lv es) : Nat) + 1) - s.eols.length + 1)
        else (Spec.clickRow h (full lv) (opened w h lv es) : Nat) + 1⟩, ⟨(w : Int) + 1, (h : Int) + 1 + 1⟩⟩ : Rect) =
        scrollBox w h (full lv) s.eols.length (opened w h lv es) := by
      unfold scrollBox
      have hcr : Spec.clickRow h (full lv) (opened w h lv es) ≤ h := by
        unfold Spec.clickRow; split <;> omega
      generalize Spec.clickRow h (full lv) (opened w h lv es) = y at *
      simp only [Rect.mk.injEq, Pt.mk.injEq, true_and, and_true]
      split <;> omega
    rw [hbx] at hq
    simp only [totalScrollIn_exact, Int.zero_add] at hq
    have hc : ∀ b : BitVec 8, b ≠ 1 →
        (strikeIf (pressIn (clickBox w h (full lv) lv.expanded) 1) es).countP
          (scrollIn (scrollBox w h (full lv) s.eols.length (opened w h lv es)) b) =
        es.countP (scrollIn (scrollBox w h (full lv) s.eols.length (opened w h lv es)) b) := fun b hb =>
      count_strike _ _ _ (press_not_scroll _ _ b hb) (scroll_struck _ b)
    rw [hc 5 (by decide), hc 4 (by decide)] at hq
    rw [show ((es.countP (scrollIn (scrollBox w h (full lv) s.eols.length (opened w h lv es)) 5) : Int) -
      es.countP (scrollIn (scrollBox w h (full lv) s.eols.length (opened w h lv es)) 4)) =
      logDelta w h lv s.eols.length es from rfl] at hq
    generalize (if logDelta w h lv s.eols.length es ≠ 0 then _ else lv.begin _) = lv2 at hq ⊢
    generalize lv2.window _ _ = r at hq ⊢
    split at hq
    · cases hq
    · split at hq
      · cases hq
      · rename_i l hs
        split at hq
        · cases hq
        · rw [hs]
          cases hq
          refine ⟨?_, l, rfl⟩
          simp only
          rw [strike_strike _ _ _ (fun e => by rw [scroll_struck, scroll_struck]; rfl)]
          unfold logEvents
          congr 1
          funext e
          rw [show decide (s.eols.length ≠ 0) = true from decide_eq_true (by omega), Bool.true_and]

/-- Lines shorter than the screen is wide, with a row for each. -/
theorem over_rows (a b : Nat) {w h : Nat} : ∀ (ls : List (List Nat)) (y : Nat), y + ls.length < h →
    (∀ t ∈ ls, t.length < w) →
    Spec.over a b (Spec.rows w h y ls) = if y < b then (ls[b - y - 1]?).bind (·[a]?) else none
  | [], y, _, _ => by simp [Spec.rows, Spec.over]
  | t :: ls, y, hy, hl => by
    have ht := hl t (by simp)
    simp only [List.length_cons] at hy
    have e1 : min (h - 1) (y + 1) = y + 1 := by omega
    rw [Spec.rows, Spec.over, e1, if_pos ht, over_rows a b ls (y + 1) (by omega) fun x hx => hl x (by simp [hx])]
    have hf : Lgv.Spec.fit w t = t := by unfold Lgv.Spec.fit; rw [if_pos (by omega)]
    rw [hf]
    by_cases hb : y + 1 < b
    · rw [if_pos hb, if_neg (by omega), if_pos (by omega), show b - y - 1 = (b - (y + 1) - 1) + 1 from by omega]
      simp
    · rw [if_neg hb]
      by_cases hb2 : b = y + 1
      · rw [if_pos hb2, if_pos (by omega), show b - y - 1 = 0 from by omega]
        simp
      · rw [if_neg hb2, if_neg (by omega)]
        rfl

/-- **C98**, the open view of a log of at least three lines more than it shows, all shorter than
the screen is wide: it has the title in its first row, which is the row to be clicked, and under
it, down to the last row, consecutive lines of the log, each in its row; no other cell changes. -/
theorem log_open_partial (gr : Nat → Bool) (hgr : ∀ r, 0x20 ≤ r → r < 0x7F → Screen.Printable gr r)
    (hel : Screen.Printable gr 0x2026) {w h : Nat} (v : VScreen) (W : v.sc.Whole w h) (S : Emu.Settled v)
    (lv : View) (s : Logs.Sink) (hs : s.Exact) (hlv : lv.Good s.eols.length) (ls : List (List Nat))
    (hls : Anansi.Spec.linesOf s.buf = ls.map encodeRunes) (hp : ∀ t ∈ ls, ∀ r ∈ t, Screen.Printable gr r)
    (es : Events) (hh : full lv < h) (hw : ∀ a b, a ≤ ls.length → b ≤ ls.length → (Spec.title a b ls.length).length < w)
    (hn : full lv + 3 ≤ ls.length) (hl : ∀ t ∈ ls, t.length < w) (ho : opened w h lv es = true) :
    ∃ start lv' es' v', logUpdate gr lv s es v = .ok (lv', es', v') ∧ lv'.expanded = true ∧
      1 ≤ start ∧ start + full lv - 1 ≤ ls.length ∧
      ∀ a b, a < w → b < h → v'.sc.look w a b =
        match (if b < Spec.clickRow h (full lv) true then none
          else if b = Spec.clickRow h (full lv) true then (Spec.title start (start + full lv - 1) ls.length)[a]?
          else (ls[start - 1 + (b - Spec.clickRow h (full lv) true - 1)]?).bind (·[a]?)) with
        | some r => some ⟨r, v.sc.cur.attr⟩
        | none => v.sc.look w a b := by
  obtain ⟨start, e, lv', es', v', h1, ⟨h2, h3, h4, h5⟩, ⟨h6, _⟩, _, h8⟩ := log_drawn gr hgr hel v W S lv s hs hlv ls hls hp
    (by intro h0; rw [h0] at hn; simp at hn) es hh hw
  rw [ho] at h5 h6
  simp only [if_true] at h5
  have he : e = start + full lv - 1 := by omega
  have htr : Spec.titleRow h (full lv) ls.length = Spec.clickRow h (full lv) true := by
    unfold Spec.titleRow Spec.clickRow; simp only [if_true]; omega
  refine ⟨start, lv', es', v', h1, h6, h2, by omega, fun a b ha hb => ?_⟩
  rw [h8 a b ha hb, ho]
  simp only [if_true, htr, Spec.over]
  have hc : Spec.clickRow h (full lv) true = h - 1 - full lv := rfl
  have hlen : ((ls.take e).drop (start - 1)).length = full lv := by
    rw [List.length_drop, List.length_take]; omega
  rw [over_rows a b _ _ (by rw [hlen, hc]; omega)
    (fun t ht => hl t (List.mem_of_mem_take (List.mem_of_mem_drop ht))), ← he]
  congr 1
  by_cases hb1 : b < Spec.clickRow h (full lv) true
  · rw [if_neg (by omega), if_neg (by omega), if_pos hb1]
    rfl
  · rw [if_neg hb1]
    by_cases hb2 : b = Spec.clickRow h (full lv) true
    · rw [if_neg (by omega), if_pos hb2, if_pos hb2]
      simp
    · rw [if_pos (by omega), if_neg hb2, if_neg hb2, List.getElem?_drop, List.getElem?_take, if_pos (by omega)]
      simp

/-- **C98**, the closed view: one line of the log in the last row, cut to its width; no other cell
changes. -/
theorem log_closed (gr : Nat → Bool) (hgr : ∀ r, 0x20 ≤ r → r < 0x7F → Screen.Printable gr r)
    (hel : Screen.Printable gr 0x2026) {w h : Nat} (v : VScreen) (W : v.sc.Whole w h) (S : Emu.Settled v)
    (lv : View) (s : Logs.Sink) (hs : s.Exact) (hlv : lv.Good s.eols.length) (ls : List (List Nat))
    (hls : Anansi.Spec.linesOf s.buf = ls.map encodeRunes) (hp : ∀ t ∈ ls, ∀ r ∈ t, Screen.Printable gr r) (hne : ls ≠ [])
    (es : Events) (hh : full lv < h) (hw : ∀ a b, a ≤ ls.length → b ≤ ls.length → (Spec.title a b ls.length).length < w)
    (ho : opened w h lv es = false) :
    ∃ t lv' es' v', t ∈ ls ∧ logUpdate gr lv s es v = .ok (lv', es', v') ∧ lv'.expanded = false ∧
      ∀ a b, a < w → b < h → v'.sc.look w a b =
        match (if b = h - 1 then (Lgv.Spec.fit w t)[a]? else none) with
        | some r => some ⟨r, v.sc.cur.attr⟩
        | none => v.sc.look w a b := by
  obtain ⟨start, e, lv', es', v', h1, ⟨h2, h3, h4, h5⟩, ⟨h6, _⟩, _, h8⟩ := log_drawn gr hgr hel v W S lv s hs hlv ls hls hp
    hne es hh hw
  rw [ho] at h5 h6
  simp only [Bool.false_eq_true, if_false] at h5
  have hpos : 1 ≤ ls.length := List.length_pos_iff.mpr hne
  have hse : start = e := by omega
  subst hse
  have hlt : start - 1 < ls.length := by omega
  have hone : (ls.take start).drop (start - 1) = [ls[start - 1]] := by
    apply List.ext_getElem?
    intro i
    rw [List.getElem?_drop, List.getElem?_take]
    cases i with
    | zero => rw [if_pos (by omega), Nat.add_zero, List.getElem?_eq_getElem hlt]; rfl
    | succ i => rw [if_neg (by omega)]; rfl
  refine ⟨ls[start - 1], lv', es', v', List.getElem_mem _, h1, h6, fun a b ha hb => ?_⟩
  rw [h8 a b ha hb, ho]
  simp only [Bool.false_eq_true, if_false, hone, Spec.rows, Spec.over, Option.none_or]
  rw [show min (h - 1) (h - 1 + 1) = h - 1 from by omega]

/-- Negation for **C98**: the open view panics on a screen that has not more rows than it has
lines, whatever is in the log. -/
theorem log_short_panics (gr : Nat → Bool) {w h : Nat} (v : VScreen) (W : v.sc.Whole w h) (lv : View) (he : lv.expanded = true)
    (s : Logs.Sink) (es : Events) (hh : h ≤ full lv) (h0 : 0 ≤ lv.viewLines) : logUpdate gr lv s es v = .error .panic := by
  have hh1 := W.hh
  have hn : (if lv.viewLines = 0 then (10 : Int) else lv.viewLines) = full lv := by
    unfold full; split <;> omega
  unfold logUpdate
  simp only [max_x W, max_y W, hn]
  rw [mkPt_ok (by omega) (by omega)]
  simp only [Except.bind, he, logTop, if_true]
  unfold mkRect Geom.rect
  rw [if_pos (by omega)]

/-! ### Examples and negations -/

/-- A log of the given lines. -/
def logOf (ls : List Bytes) : Logs.Sink := { buf := ls.flatMap (· ++ [0x0A]), eols := Logs.newlines (ls.flatMap (· ++ [0x0A])) }

/-- A row of the screen after a frame, as runes. -/
def rowOf (w : Nat) (r : Except Fault (View × Events × VScreen)) (b : Nat) : List Nat :=
  match r with
  | .ok q => (List.range w).map fun a => ((q.2.2.sc.look w a b).map (·.rune)).getD 0
  | .error _ => []

/-- The runes of a text with zeros up to a length. -/
def pad (w : Nat) (t : String) : List Nat := (t.toList.map Char.toNat) ++ List.replicate (w - t.length) 0

/-- Five lines in an open view of two: the last two under the title. -/
example : (List.range 4).map (rowOf 16 (logUpdate gr0 { viewLines := 2, expanded := true } (logOf [[0x61], [0x62], [0x63], [0x64], [0x65]])
    [] (blank 16 4))) = [pad 16 "", pad 16 "Logs (4-5/5):", pad 16 "d", pad 16 "e"] := by decide +kernel

/-- Negation for **C98**: two lines in an open view of two are written over each other and over
the title, in the last row. -/
theorem log_few_overlap : (List.range 4).map (rowOf 16 (logUpdate gr0 { viewLines := 2, expanded := true } (logOf [[0x61], [0x62]])
    [] (blank 16 4))) = [pad 16 "", pad 16 "", pad 16 "", pad 16 "bogs (1-2/2):"] := by decide +kernel

/-- Negation for **C98**: and a click on the title does not close it. -/
theorem log_few_title_dead :
    (logUpdate gr0 { viewLines := 2, expanded := true } (logOf [[0x61], [0x62]]) [entry (csiId 0x4D) (Mouse.reportArg 0 3 4)]
      (blank 16 4)).toOption.map (·.1.expanded) = some true ∧
    (logUpdate gr0 { viewLines := 2, expanded := true } (logOf [[0x61], [0x62]]) [entry (csiId 0x4D) (Mouse.reportArg 0 3 2)]
      (blank 16 4)).toOption.map (·.1.expanded) = some false := by decide +kernel

/-- Negation for **C98**: a line as wide as the screen leaves a row free, and the line after it
is written over by the next, or over it in the last row. -/
theorem log_wide_skips : (List.range 5).map (rowOf 14 (logUpdate gr0 { viewLines := 3, expanded := true }
    (logOf [[0x30], [0x31], [0x32], List.replicate 14 0x61, [0x62], [0x63]]) [] (blank 14 5))) =
    [pad 14 "", pad 14 "Logs (4-6/6):", pad 14 "aaaaaaaaaaaaaa", pad 14 "", pad 14 "c"] := by decide +kernel

end Anansi.Hud
