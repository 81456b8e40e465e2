import Verif.Model.HudPick
import Verif.Props.HudRows
/-
C94 The list of profiles adds the profile that is clicked.
-/
set_option autoImplicit false

namespace Anansi.Hud
open Geom Evq Screen

namespace Spec

/-- A row of the list of `k` columns: the name and blanks, one column short of the edge. -/
def pickRow (k : Nat) (name : List Nat) : List Nat := name ++ List.replicate (k - 1 - name.length) 0x20

/-- A left press. -/
def leftPress (e : Ev) : Prop := e.kind = .mouse ∧ Mouse.isPress e.ms = some 1

instance (e : Ev) : Decidable (leftPress e) := by unfold leftPress; infer_instance

/-- The cell in column `a` and row `b`, counted from zero, is where the event was. -/
def atCell (e : Ev) (a b : Nat) : Prop := e.pt = ⟨a + 1, b + 1⟩

/-- The box of `n` rows and `k` columns at column `x` of row `y`. -/
def boxOf (x y k n : Nat) : Rect := ⟨⟨x + 1, y + 1⟩, ⟨x + k + 1, y + n + 1⟩⟩

end Spec

/-- The style a row of the list is drawn in, when the list was begun with the cursor `c` and
the mouse is `rel` rows below its first row, `inX` telling if it is in its columns: the rows up
to the mouse have the style the list was begun with, that of the mouse has the button style over
it, and those below have the selection style over that again. -/
def pickStyle (t : Theme) (c : Cursor) (inX : Bool) (rel : Int) (k : Nat) : Attr :=
  if inX = false ∨ rel < 0 ∨ (k : Int) < rel then c.attr
  else if (k : Int) = rel then (c.mergeSGR t.button).1.attr
  else ((c.mergeSGR t.button).1.mergeSGR t.select).1.attr

theorem blanks_bytes : ∀ n : Nat, (List.replicate n 0x20 : Bytes) = encodeRunes (List.replicate n 0x20)
  | 0 => rfl
  | n + 1 => by
    rw [List.replicate_succ, List.replicate_succ, encodeRunes_cons, ← blanks_bytes n]
    rfl

theorem mkRect_ok {x0 y0 x1 y1 : Int} (hx0 : 1 ≤ x0) (hy0 : 1 ≤ y0) (hx : x0 ≤ x1) (hy : y0 ≤ y1) :
    mkRect x0 y0 x1 y1 = .ok ⟨⟨x0, y0⟩, ⟨x1, y1⟩⟩ := by
  unfold mkRect Geom.rect
  rw [if_neg (by omega)]
  simp only
  rw [if_neg (by omega), if_neg (by omega), if_neg (by omega), if_neg (by omega)]

/-- A style write, if at all. -/
theorem maybe_sgr {v : VScreen} {w h : Nat} (W : v.sc.Whole w h) (S : Emu.Settled v) (over : Bool) (a : Attr) (c : Cursor)
    (h1 : v.sc.cur.attr = c.attr) (h2 : v.sc.cur.attrKnown = c.attrKnown) :
    ∃ v', (if over = true then v.writeSGR [a] else v) = v' ∧ v'.sc.Whole w h ∧ Emu.Settled v' ∧
      v'.sc.cur.pt = v.sc.cur.pt ∧
      v'.sc.cur.attr = (if over then (c.mergeSGR a).1 else c).attr ∧
      v'.sc.cur.attrKnown = (if over then (c.mergeSGR a).1 else c).attrKnown ∧
      ∀ x y, v'.sc.look w x y = v.sc.look w x y := by
  cases over with
  | true =>
    obtain ⟨e, -⟩ := sgr_one v a S
    obtain ⟨W', S', L⟩ := sgr_whole W S a
    have m := merge_same h1 h2 a
    refine ⟨_, rfl, W', S', ?_, ?_, ?_, L⟩
    · show (v.writeSGR [a]).sc.cur.pt = _
      rw [e]; exact merge_pt _ _
    · show (v.writeSGR [a]).sc.cur.attr = _
      rw [e]; exact m.1
    · show (v.writeSGR [a]).sc.cur.attrKnown = _
      rw [e]; exact m.2
  | false => exact ⟨_, rfl, W, S, rfl, h1, h2, fun _ _ => rfl⟩

/-- The lower edge of the box after the list. -/
def pickEdge (h y n : Nat) (e : Int) : Int := if n = 0 then e else ((min h (y + n + 1) : Nat) : Int)

/-- The list, drawn. -/
theorem pickRows_ok (gr : Nat → Bool) (hsp : Screen.Printable gr 0x20) (t : Theme) {w h dw : Nat} (hdw : dw ≤ w) :
    ∀ (l : List (List Nat)) (v : VScreen) (y : Nat) (y0 e : Int) (c : Cursor)
    (_ : ∀ s ∈ l, s.length < dw ∧ ∀ r ∈ s, Screen.Printable gr r)
    (_ : Ready v w h (w - dw) y) (_ : v.sc.cur.attr = c.attr) (_ : v.sc.cur.attrKnown = c.attrKnown) (_ : y + l.length ≤ h),
    ∃ v', pickRows gr t ((w : Int) + 1) (l.map encodeRunes) ⟨⟨((w - dw : Nat) : Int) + 1, y0⟩, ⟨(w : Int) + 1, e⟩⟩ v =
        .ok (⟨⟨((w - dw : Nat) : Int) + 1, y0⟩, ⟨(w : Int) + 1, pickEdge h y l.length e⟩⟩, v') ∧
      Ready v' w h (w - dw) (min (h - 1) (y + l.length)) ∧
      ∀ a b, a < w → b < h → v'.sc.look w a b =
        if y ≤ b ∧ b < y + l.length ∧ w - dw ≤ a ∧ a < w - 1 then
          some ⟨(Spec.pickRow dw (l.getD (b - y) [])).getD (a - (w - dw)) 0,
            pickStyle t c (decide (((w - dw : Nat) : Int) + 1 ≤ t.mouse.x ∧ t.mouse.x < (w : Int) + 1)) (t.mouse.y - (y + 1)) (b - y)⟩
        else v.sc.look w a b := by
  intro l
  induction l with
  | nil =>
    intro v y y0 e c _ R _ _ _
    have hyh := R.hy
    refine ⟨v, rfl, ?_, fun a b _ _ => ?_⟩
    · rw [show min (h - 1) (y + ([] : List (List Nat)).length) = y from by simp; omega]
      exact R
    · rw [if_neg (by simp; omega)]
  | cons s l ih =>
    intro v y y0 e c hl R h1 h2 hn
    have hyh := R.hy
    have hxw := R.hx
    obtain ⟨hs, hp⟩ := hl s (by simp)
    have hc : v.sc.cur.pt = ⟨((w - dw : Nat) : Int) + 1, y + 1⟩ := R.cur
    simp only [List.length_cons] at hn
    rw [List.map_cons, pickRows, hc]
    simp only
    rw [mkRect_ok (by omega) (by omega) (by omega) (by omega)]
    simp only [Except.bind]
    generalize hov : ptIn t.mouse ⟨⟨((w - dw : Nat) : Int) + 1, (y : Int) + 1⟩, ⟨(w : Int) + 1, (y : Int) + 1 + 1⟩⟩ = over
    obtain ⟨v1, e1, W1, S1, p1, a1, k1, L1⟩ := maybe_sgr R.whole R.settled over t.button c h1 h2
    rw [e1]
    have R1 : Ready v1 w h (w - dw) y := ⟨W1, S1, by unfold CurAt; rw [p1]; exact hc, R.hx, R.hy⟩
    obtain ⟨v2, e2, D2⟩ := drew_run gr s hp v1 R1 (by omega)
    rw [e2]
    simp only
    have R2 := D2.ready (by omega) hyh
    have hc2 : v2.sc.cur.pt = ⟨((w - dw + s.length : Nat) : Int) + 1, y + 1⟩ := R2.cur
    have hcnt : (w : Int) + 1 - 1 - v2.sc.cur.pt.x = ((dw - 1 - s.length : Nat) : Int) := by
      rw [hc2]; simp only; omega
    rw [hcnt, if_neg (by omega), Int.toNat_natCast]
    obtain ⟨v3, e3, D3⟩ := drew_run gr (List.replicate (dw - 1 - s.length) 0x20)
      (fun r hr => by rw [(List.mem_replicate.1 hr).2]; exact hsp) v2 R2 (by simp; omega)
    rw [blanks_bytes, e3]
    simp only
    have D := D2.append D3
    have hlen : (s ++ List.replicate (dw - 1 - s.length) 0x20).length = dw - 1 := by simp; omega
    have a3 : v3.sc.cur.attr = (if over then (c.mergeSGR t.button).1 else c).attr := by rw [D.cur]; exact a1
    have k3 : v3.sc.cur.attrKnown = (if over then (c.mergeSGR t.button).1 else c).attrKnown := by rw [D.cur]; exact k1
    obtain ⟨v4, e4, W4, S4, p4, a4, k4, L4⟩ := maybe_sgr D.whole D.settled over t.select _ a3 k3
    rw [e4]
    have hc3 : v3.sc.cur.pt.y = y + 1 := by
      rw [D.cur, hlen]
      unfold after
      rw [if_pos (by omega)]
    rw [p4, hc3, mkPt_ok (by omega) (by omega)]
    simp only
    have R5 : Ready (goto v4 ⟨((w - dw : Nat) : Int) + 1, (y : Int) + 1 + 1⟩) w h (w - dw) (min (h - 1) (y + 1)) := by
      have := goto_ready W4 S4 ⟨((w - dw : Nat) : Int) + 1, (y : Int) + 1 + 1⟩
      have g1 : min (w - 1) (((w - dw : Nat) : Int) + 1 - 1).toNat = w - dw := by omega
      have g2 : min (h - 1) ((y : Int) + 1 + 1 - 1).toNat = min (h - 1) (y + 1) := by omega
      simp only [g1, g2] at this
      exact this
    have hc5 : (goto v4 ⟨((w - dw : Nat) : Int) + 1, (y : Int) + 1 + 1⟩).sc.cur.pt.y = ((min (h - 1) (y + 1) : Nat) : Int) + 1 := by
      have : (goto v4 ⟨((w - dw : Nat) : Int) + 1, (y : Int) + 1 + 1⟩).sc.cur.pt = _ := R5.cur
      rw [this]
    rw [hc5]
    -- what the first row looks like
    have hX : over = true ↔ (((w - dw : Nat) : Int) + 1 ≤ t.mouse.x ∧ t.mouse.x < (w : Int) + 1) ∧ t.mouse.y = y + 1 := by
      rw [← hov, ptIn_iff]
      unfold Geom.Mem
      simp only
      omega
    have hrow : ∀ a b, a < w → b < h →
        (goto v4 ⟨((w - dw : Nat) : Int) + 1, (y : Int) + 1 + 1⟩).sc.look w a b =
        if b = y ∧ w - dw ≤ a ∧ a < w - 1 then
          some ⟨(Spec.pickRow dw s).getD (a - (w - dw)) 0, (if over then (c.mergeSGR t.button).1 else c).attr⟩
        else v.sc.look w a b := by
      intro a b ha hb
      rw [goto_look, L4, D.look a b ha hb, hlen, a1, L1]
      by_cases hin : b = y ∧ w - dw ≤ a ∧ a < w - 1
      · rw [if_pos hin, if_pos (by omega)]
        rfl
      · rw [if_neg hin, if_neg (by omega)]
    generalize hcA : (if over = true then (c.mergeSGR t.button).1 else c) = cA at *
    generalize hcB : (if over = true then (cA.mergeSGR t.select).1 else cA) = cB at *
    by_cases hle : y + 1 < h
    · rw [show min (h - 1) (y + 1) = y + 1 from by omega] at R5 ⊢
      obtain ⟨v', e', R', L'⟩ := ih _ (y + 1) y0 (((y + 1 : Nat) : Int) + 1) cB
        (fun s hs => hl s (by simp [hs])) R5 a4 k4 (by omega)
      refine ⟨v', ?_, ?_, ?_⟩
      · rw [e']
        congr 4
        unfold pickEdge
        rw [List.length_cons, if_neg (show ¬ (l.length + 1 = 0) by omega)]
        split <;> omega
      · rw [List.length_cons, show y + (l.length + 1) = y + 1 + l.length from by omega]
        exact R'
      · intro a b ha hb
        rw [L' a b ha hb, hrow a b ha hb, List.length_cons]
        by_cases hin : y + 1 ≤ b ∧ b < y + 1 + l.length ∧ w - dw ≤ a ∧ a < w - 1
        · rw [if_pos hin, if_pos (by omega)]
          obtain ⟨k, hk⟩ : ∃ k, b = y + 1 + k := ⟨b - (y + 1), by omega⟩
          subst hk
          rw [show y + 1 + k - (y + 1) = k from by omega, show y + 1 + k - y = k + 1 from by omega]
          congr 2
          subst hcB
          subst hcA
          unfold pickStyle
          cases over with
          | true =>
            have := hX.1 rfl
            simp only [decide_eq_false_iff_not, if_true]
            rw [if_pos (by omega), if_neg (by omega), if_neg (by omega)]
          | false =>
            have : ¬ _ := fun h => Bool.false_ne_true (hX.2 h)
            simp only [decide_eq_false_iff_not, Bool.false_eq_true, if_false]
            by_cases hcase : ¬(((w - dw : Nat) : Int) + 1 ≤ t.mouse.x ∧ t.mouse.x < (w : Int) + 1) ∨
                t.mouse.y - (y + 1) < 0 ∨ ((k + 1 : Nat) : Int) < t.mouse.y - (y + 1)
            · rw [if_pos hcase, if_pos (by omega)]
            · rw [if_neg hcase, if_neg (by omega)]
              by_cases hk : ((k + 1 : Nat) : Int) = t.mouse.y - (y + 1)
              · rw [if_pos hk, if_pos (by omega)]
              · rw [if_neg hk, if_neg (by omega)]
        · rw [if_neg hin]
          by_cases h0 : b = y ∧ w - dw ≤ a ∧ a < w - 1
          · rw [if_pos h0, if_pos (by omega)]
            obtain ⟨rfl, -⟩ := h0
            rw [Nat.sub_self]
            congr 2
            subst hcA
            unfold pickStyle
            cases over with
            | true =>
              have := hX.1 rfl
              simp only [decide_eq_false_iff_not, if_true]
              rw [if_neg (by omega), if_pos (by omega)]
            | false =>
              have : ¬ _ := fun h => Bool.false_ne_true (hX.2 h)
              simp only [decide_eq_false_iff_not, Bool.false_eq_true, if_false]
              rw [if_pos (by omega)]
          · rw [if_neg h0, if_neg (by omega)]
    · have hnil : l = [] := List.length_eq_zero_iff.1 (by omega)
      subst hnil
      refine ⟨goto v4 ⟨((w - dw : Nat) : Int) + 1, (y : Int) + 1 + 1⟩, ?_, ?_, ?_⟩
      · rw [List.map_nil, pickRows]
        congr 4
        unfold pickEdge
        simp only [List.length_cons, List.length_nil]
        rw [if_neg (by omega)]
        omega
      · simp only [List.length_cons, List.length_nil]
        exact R5
      · intro a b ha hb
        rw [hrow a b ha hb]
        simp only [List.length_cons, List.length_nil]
        by_cases h0 : b = y ∧ w - dw ≤ a ∧ a < w - 1
        · rw [if_pos h0, if_pos (by omega)]
          obtain ⟨rfl, -⟩ := h0
          rw [Nat.sub_self]
          congr 2
          subst hcB
          subst hcA
          unfold pickStyle
          cases over with
          | true =>
            have := hX.1 rfl
            simp only [decide_eq_false_iff_not, if_true]
            rw [if_neg (by omega), if_pos (by omega)]
          | false =>
            have : ¬ _ := fun h => Bool.false_ne_true (hX.2 h)
            simp only [decide_eq_false_iff_not, Bool.false_eq_true, if_false]
            rw [if_pos (by omega)]
        · rw [if_neg h0, if_neg (by omega)]

/-! ### Clicks -/

/-- The clicks in a list as high as its box. -/
theorem pickClicks_exact (box : Rect) (l : List Bytes) (hb : box.max.y ≤ box.min.y + l.length) : ∀ es : Events,
    pickClicks box l es = .ok (strikeIf (pressIn box 1) es,
      es.filterMap (fun e => if pressIn box 1 e = true then l[(e.pt.y - box.min.y).toNat]? else none),
      es.any fun e => decide (Spec.leftPress e))
  | [] => rfl
  | e :: es => by
    rw [pickClicks, pickClicks_exact box l hb es]
    simp only [Except.bind, strikeIf, List.map_cons, List.any_cons]
    by_cases hl : e.kind = .mouse ∧ Mouse.isPress e.ms = some 1
    · have hd : decide (Spec.leftPress e) = true := decide_eq_true hl
      rw [if_pos hl, hd, Bool.true_or]
      by_cases hin : ptIn e.pt box = true
      · have hp : pressIn box 1 e = true := by
          unfold pressIn
          rw [hl.1, hl.2, hin]
          decide
        rw [if_pos hin, if_pos hp]
        have hm := (ptIn_iff _ _).1 hin
        unfold Geom.Mem at hm
        have hlt : (e.pt.y - box.min.y).toNat < l.length := by omega
        rw [List.getElem?_eq_getElem hlt]
        simp only
        rw [List.filterMap_cons_some (b := l[(e.pt.y - box.min.y).toNat])]
        rw [if_pos hp, List.getElem?_eq_getElem hlt]
      · have hp : pressIn box 1 e = false := by
          unfold pressIn
          rw [Bool.eq_false_iff.2 hin]
          simp
        rw [if_neg hin, hp]
        simp only [Bool.false_eq_true, if_false]
        rw [List.filterMap_cons_none]
        rw [if_neg (by rw [hp]; decide)]
    · have hd : decide (Spec.leftPress e) = false := decide_eq_false hl
      have hp : pressIn box 1 e = false := by
        rw [Bool.eq_false_iff]
        intro h
        apply hl
        unfold pressIn at h
        simp only [Bool.and_eq_true, decide_eq_true_eq] at h
        tauto
      rw [if_neg hl, hd, Bool.false_or, hp]
      simp only [Bool.false_eq_true, if_false]
      rw [List.filterMap_cons_none]
      rw [if_neg (by rw [hp]; decide)]

/-- **C94**: the list offers exactly the profiles that have not been added, in their order. -/
theorem offered_iff (all have_ : List Bytes) :
    (offered all have_).Sublist all ∧ ∀ p, p ∈ offered all have_ ↔ p ∈ all ∧ p ∉ have_ := by
  refine ⟨List.filter_sublist, fun p => ?_⟩
  unfold offered
  simp only [List.mem_filter, Bool.not_eq_true', List.any_eq_false, decide_eq_true_eq]
  constructor
  · rintro ⟨h1, h2⟩
    exact ⟨h1, fun h => h2 p h rfl⟩
  · rintro ⟨h1, h2⟩
    exact ⟨h1, fun q hq e => h2 (e ▸ hq)⟩

/-! ### The selector -/

/-- "PProf". -/
def pprofText : List Nat := [0x50, 0x50, 0x72, 0x6F, 0x66]

/-- The events as the list gets them: presses on the button are used up when it was closed. -/
def pickEvents (s : Pick) (id : Nat) (button : Rect) : Events :=
  if s.active = id then s.es else strikeIf (pressIn button 1) s.es

/-- **C94**, the open list: when the list was open, or is opened by an odd number of presses on
the button, and profiles are left whose names are shorter than the column, and there are rows
below the list: every profile left is shown on its own row, in order, and nothing else but the
name of the row changes; every left press on a row adds the profile of that row; these presses
are used up; and any left press closes the list. -/
theorem selector_list (gr : Nat → Bool) (hsp : Screen.Printable gr 0x20) (hk : ∀ r ∈ pprofText, Screen.Printable gr r)
    {w h c y : Nat} (dw : Nat) (hw : 6 + dw ≤ w) (t : Theme) (id : Nat) (all : List Bytes) (s : Pick)
    (R : Ready s.v w h c y) (l : List (List Nat)) (hl : offered all s.have_ = l.map encodeRunes) (h0 : l ≠ [])
    (hn : ∀ n ∈ l, n.length < dw ∧ ∀ r ∈ n, Screen.Printable gr r) (hrows : y + l.length < h)
    (hopen : s.active = id ∨ s.es.countP (pressIn (Spec.box (w - dw) y dw) 1) % 2 = 1) :
    ∃ v', drawSelector gr dw t id all s = .ok
        { active := if (pickEvents s id (Spec.box (w - dw) y dw)).any (fun e => decide (Spec.leftPress e)) then 0 else id
          have_ := s.have_ ++ (pickEvents s id (Spec.box (w - dw) y dw)).filterMap fun e =>
            if pressIn (Spec.boxOf (w - dw) y dw l.length) 1 e = true then (l.map encodeRunes)[(e.pt.y - (y + 1)).toNat]? else none
          es := strikeIf (pressIn (Spec.boxOf (w - dw) y dw l.length) 1) (pickEvents s id (Spec.box (w - dw) y dw))
          v := v' } ∧
      Ready v' w h (w - 1) (y + l.length) ∧
      ∀ a b, a < w → b < h → v'.sc.look w a b =
        if y ≤ b ∧ b < y + l.length ∧ w - dw ≤ a ∧ a < w - 1 then
          some ⟨(Spec.pickRow dw (l.getD (b - y) [])).getD (a - (w - dw)) 0,
            pickStyle t (s.v.sc.cur.mergeSGR t.select).1
              (decide (((w - dw : Nat) : Int) + 1 ≤ t.mouse.x ∧ t.mouse.x < (w : Int) + 1)) (t.mouse.y - (y + 1)) (b - y)⟩
        else if b = y ∧ w - dw - 6 ≤ a ∧ a < w - dw then
          some ⟨(pprofText ++ [0x20]).getD (a - (w - dw - 6)) 0, s.v.sc.cur.attr⟩
        else s.v.sc.look w a b := by
  have hyh := R.hy
  have hlen : 0 < l.length := List.length_pos_iff.2 h0
  obtain ⟨n0, hn0⟩ := List.exists_mem_of_ne_nil l h0
  have hdw : 1 ≤ dw := by have := (hn n0 hn0).1; omega
  have hb : pprofKey = encodeRunes pprofText := by decide
  have hb2 : pprofKey ++ [0x20] = encodeRunes (pprofText ++ [0x20]) := by decide
  have hkl : pprofText.length = 5 := rfl
  unfold drawSelector
  rw [hb2, hb, kv_ok gr s.v R dw pprofText hk (by rw [hkl]; omega)]
  simp only [Except.bind, hkl]
  have R1 := goto_at R.whole R.settled (x := w - dw - 1 - 5) (y := y) (by omega) hyh
  obtain ⟨v1, e1, D1⟩ := drew_run gr (pprofText ++ [0x20]) (by
    intro r hr
    rw [List.mem_append, List.mem_singleton] at hr
    rcases hr with hr | rfl
    · exact hk r hr
    · exact hsp) _ R1 (by simp [hkl]; omega)
  have e1' : (goto s.v (Spec.box (w - dw - 1 - 5) y 5).min).write gr (encodeRunes (pprofText ++ [0x20])) = .ok v1 := e1
  rw [e1']
  simp only [countPressesIn_exact, Nat.zero_add]
  have es1 : (if s.active ≠ id then
      (⟨if s.es.countP (pressIn (Spec.box (w - dw) y dw) 1) % 2 = 1 then id else s.active, s.have_,
        strikeIf (pressIn (Spec.box (w - dw) y dw) 1) s.es, s.v⟩ : Pick) else s) =
      ⟨id, s.have_, pickEvents s id (Spec.box (w - dw) y dw), s.v⟩ := by
    unfold pickEvents
    by_cases ha : s.active = id
    · rw [if_neg (by simpa using ha), if_pos ha, ← ha]
    · rw [if_pos ha, if_neg ha, if_pos (by tauto)]
  rw [es1]
  simp only [if_true]
  rw [hl, if_neg (by simpa using h0)]
  -- the list
  have R2 := goto_at D1.whole D1.settled (x := w - dw) (y := y) (by omega) hyh
  have hA : (goto v1 ⟨((w - dw : Nat) : Int) + 1, (y : Int) + 1⟩).sc.cur.attr = s.v.sc.cur.attr := by
    show v1.sc.cur.attr = _
    rw [D1.cur]; rfl
  have hK : (goto v1 ⟨((w - dw : Nat) : Int) + 1, (y : Int) + 1⟩).sc.cur.attrKnown = s.v.sc.cur.attrKnown := by
    show v1.sc.cur.attrKnown = _
    rw [D1.cur]; rfl
  have R3 := sgr_ready R2 t.select
  obtain ⟨s3, -⟩ := sgr_one _ t.select R2.settled
  have m3 := merge_same hA hK t.select
  have hA3 : ((goto v1 ⟨((w - dw : Nat) : Int) + 1, (y : Int) + 1⟩).writeSGR [t.select]).sc.cur.attr =
      (s.v.sc.cur.mergeSGR t.select).1.attr := by rw [s3]; exact m3.1
  have hK3 : ((goto v1 ⟨((w - dw : Nat) : Int) + 1, (y : Int) + 1⟩).writeSGR [t.select]).sc.cur.attrKnown =
      (s.v.sc.cur.mergeSGR t.select).1.attrKnown := by rw [s3]; exact m3.2
  obtain ⟨v4, e4, R4, L4⟩ := pickRows_ok gr hsp t (dw := dw) (by omega) l _ y ((y : Int) + 1) ((y : Int) + 1 + 1) _ hn R3 hA3 hK3
    (by omega)
  have hedge : pickEdge h y l.length ((y : Int) + 1 + 1) = (y : Int) + l.length + 1 := by
    unfold pickEdge
    rw [if_neg (by omega)]
    omega
  rw [hedge] at e4
  have hbox : Spec.box (w - dw) y dw = ⟨⟨((w - dw : Nat) : Int) + 1, (y : Int) + 1⟩, ⟨(w : Int) + 1, (y : Int) + 1 + 1⟩⟩ := by
    unfold Spec.box
    congr 2
    omega
  have hboxOf : (⟨⟨((w - dw : Nat) : Int) + 1, (y : Int) + 1⟩, ⟨(w : Int) + 1, (y : Int) + l.length + 1⟩⟩ : Rect) =
      Spec.boxOf (w - dw) y dw l.length := by
    unfold Spec.boxOf
    congr 2
    omega
  have hmx : s.v.sc.grid.rect.max.x = (w : Int) + 1 := max_x R.whole
  rw [hmx]
  have e4' : pickRows gr t ((w : Int) + 1) (l.map encodeRunes) (Spec.box (w - dw) y dw)
      ((goto v1 (Spec.box (w - dw) y dw).min).writeSGR [t.select]) = .ok (Spec.boxOf (w - dw) y dw l.length, v4) := by
    rw [hbox, ← hboxOf]
    exact e4
  rw [e4']
  simp only
  rw [pickClicks_exact _ _ (by unfold Spec.boxOf; simp only [List.length_map]; omega)]
  simp only
  obtain ⟨W5, S5, L5⟩ := sgr_whole R4.whole R4.settled Sgr.clear
  refine ⟨_, rfl, ?_, ?_⟩
  · have := goto_ready W5 S5 ⟨((w - dw : Nat) : Int) + dw + 1, (y : Int) + l.length + 1⟩
    have g1 : min (w - 1) (((w - dw : Nat) : Int) + dw + 1 - 1).toNat = w - 1 := by omega
    have g2 : min (h - 1) ((y : Int) + l.length + 1 - 1).toNat = y + l.length := by omega
    simp only [g1, g2] at this
    exact this
  · intro a b ha hb
    rw [goto_look, L5, L4 a b ha hb]
    by_cases hin : y ≤ b ∧ b < y + l.length ∧ w - dw ≤ a ∧ a < w - 1
    · rw [if_pos hin, if_pos hin]
    · rw [if_neg hin, if_neg hin, (sgr_whole R2.whole R2.settled t.select).2.2, goto_look, D1.look a b ha hb]
      have hll : (pprofText ++ [0x20]).length = 6 := rfl
      rw [hll]
      by_cases h2 : b = y ∧ w - dw - 6 ≤ a ∧ a < w - dw
      · rw [if_pos h2, if_pos (by omega), show w - dw - 1 - 5 = w - dw - 6 from by omega]
        rfl
      · rw [if_neg h2, if_neg (by omega)]
        rfl

/-- **C94**, the button: when the list is closed and an even number of presses was on the
button, it stays closed, nothing is added, and a button "Add" is shown beside the name. -/
theorem selector_button (gr : Nat → Bool) (hsp : Screen.Printable gr 0x20) (hk : ∀ r ∈ pprofText, Screen.Printable gr r)
    (hb1 : Screen.Printable gr 0x5B) (hb2 : Screen.Printable gr 0x5D) (hel : Screen.Printable gr 0x2026)
    (hadd : ∀ r ∈ [0x41, 0x64, 0x64], Screen.Printable gr r)
    {w h c y : Nat} (dw : Nat) (hdw : 5 ≤ dw) (hw : 6 + dw ≤ w) (t : Theme) (id : Nat) (all : List Bytes) (s : Pick)
    (R : Ready s.v w h c y) (ha : s.active ≠ id) (heven : s.es.countP (pressIn (Spec.box (w - dw) y dw) 1) % 2 = 0) :
    ∃ v', drawSelector gr dw t id all s = .ok
        { active := s.active, have_ := s.have_, es := strikeIf (pressIn (Spec.box (w - dw) y dw) 1) s.es, v := v' } ∧
      Ready v' w h (w - 1) (min (h - 1) (y + 1)) ∧
      ∀ a b, a < w → b < h → v'.sc.look w a b =
        if b = y ∧ w - dw ≤ a then
          some ⟨(Spec.button dw [0x41, 0x64, 0x64]).getD (a - (w - dw)) 0, (buttonCur t (Spec.box (w - dw) y dw) s.v.sc.cur).attr⟩
        else if b = y ∧ w - dw - 6 ≤ a ∧ a < w - dw then
          some ⟨(pprofText ++ [0x20]).getD (a - (w - dw - 6)) 0, s.v.sc.cur.attr⟩
        else s.v.sc.look w a b := by
  have hyh := R.hy
  have hb : pprofKey = encodeRunes pprofText := by decide
  have hb' : pprofKey ++ [0x20] = encodeRunes (pprofText ++ [0x20]) := by decide
  have hkl : pprofText.length = 5 := rfl
  unfold drawSelector
  rw [hb', hb, kv_ok gr s.v R dw pprofText hk (by rw [hkl]; omega)]
  simp only [Except.bind, hkl]
  have R1 := goto_at R.whole R.settled (x := w - dw - 1 - 5) (y := y) (by omega) hyh
  obtain ⟨v1, e1, D1⟩ := drew_run gr (pprofText ++ [0x20]) (by
    intro r hr
    rw [List.mem_append, List.mem_singleton] at hr
    rcases hr with hr | rfl
    · exact hk r hr
    · exact hsp) _ R1 (by simp [hkl]; omega)
  have e1' : (goto s.v (Spec.box (w - dw - 1 - 5) y 5).min).write gr (encodeRunes (pprofText ++ [0x20])) = .ok v1 := e1
  rw [e1']
  simp only [countPressesIn_exact, Nat.zero_add]
  rw [if_pos ha, if_neg (show ¬ (s.es.countP (pressIn (Spec.box (w - dw) y dw) 1) % 2 = 1) by omega)]
  rw [if_neg ha]
  have R2 := goto_at D1.whole D1.settled (x := w - dw) (y := y) (by omega) hyh
  obtain ⟨v2, e2, R3, -, -, L2⟩ := button_drawn gr hsp hb1 hb2 hel (goto v1 ⟨((w - dw : Nat) : Int) + 1, (y : Int) + 1⟩)
    R2.whole R2.settled t (w - dw) y dw hdw (by omega) hyh [0x41, 0x64, 0x64] hadd
  have hl : addLabel = encodeRunes [0x41, 0x64, 0x64] := by decide
  have e2' : drawButton gr t (Spec.box (w - dw) y dw) addLabel (goto v1 (Spec.box (w - dw) y dw).min) = .ok v2 := by
    rw [hl]; exact e2
  rw [e2']
  refine ⟨_, rfl, ?_, ?_⟩
  · have := goto_below (y := y) R3.whole R3.settled
    rw [show (w : Int) + 1 = ((w - dw : Nat) : Int) + dw + 1 from by omega] at this
    exact this
  · intro a b ha' hb'
    have hattr : (buttonCur t (Spec.box (w - dw) y dw) (goto v1 ⟨((w - dw : Nat) : Int) + 1, (y : Int) + 1⟩).sc.cur).attr =
        (buttonCur t (Spec.box (w - dw) y dw) s.v.sc.cur).attr := by
      have h1 : (goto v1 ⟨((w - dw : Nat) : Int) + 1, (y : Int) + 1⟩).sc.cur.attr = s.v.sc.cur.attr := by
        show v1.sc.cur.attr = _
        rw [D1.cur]; rfl
      have h2 : (goto v1 ⟨((w - dw : Nat) : Int) + 1, (y : Int) + 1⟩).sc.cur.attrKnown = s.v.sc.cur.attrKnown := by
        show v1.sc.cur.attrKnown = _
        rw [D1.cur]; rfl
      have m := merge_same h1 h2 t.select
      unfold buttonCur
      split
      · exact (merge_same m.1 m.2 t.button).1
      · exact m.1
    rw [goto_look, L2 a b ha' hb', hattr, goto_look, D1.look a b ha' hb']
    have hll : (pprofText ++ [0x20]).length = 6 := rfl
    rw [hll]
    by_cases h1 : b = y ∧ w - dw ≤ a
    · rw [if_pos h1, if_pos (by omega)]
    · rw [if_neg h1, if_neg (by omega)]
      by_cases h2 : b = y ∧ w - dw - 6 ≤ a ∧ a < w - dw
      · rw [if_pos h2, if_pos (by omega), show w - dw - 1 - 5 = w - dw - 6 from by omega]
        rfl
      · rw [if_neg h2, if_neg (by omega)]
        rfl

theorem filterMap_none {f : Ev → Option Bytes} : ∀ es : Events, (∀ e ∈ es, f e = none) → es.filterMap f = []
  | [], _ => rfl
  | e :: es, h => by
    rw [List.filterMap_cons_none (h e (by simp)), filterMap_none es fun e he => h e (by simp [he])]

theorem pressIn_left {box : Rect} {e : Ev} (h : pressIn box 1 e = true) : Spec.leftPress e := by
  unfold pressIn at h
  simp only [Bool.and_eq_true, decide_eq_true_eq] at h
  exact h.1

/-- **C94**: with the list open, a left press on a cell of a row, the only left press there is,
adds the profile shown on that row and no other, which was not there before, and closes the
list. -/
theorem picks_shown_partial (gr : Nat → Bool) (hsp : Screen.Printable gr 0x20) (hk : ∀ r ∈ pprofText, Screen.Printable gr r)
    {w h c y : Nat} (dw : Nat) (hw : 6 + dw ≤ w) (t : Theme) (all : List Bytes) (s : Pick)
    (R : Ready s.v w h c y) (l : List (List Nat)) (hl : offered all s.have_ = l.map encodeRunes)
    (hn : ∀ n ∈ l, n.length < dw ∧ ∀ r ∈ n, Screen.Printable gr r) (hrows : y + l.length < h)
    (es1 es2 : Events) (e : Ev) (hes : s.es = es1 ++ e :: es2) (h1 : ∀ e ∈ es1 ++ es2, ¬ Spec.leftPress e)
    (he : Spec.leftPress e) (k a : Nat) (hk' : k < l.length) (ha : w - dw ≤ a ∧ a < w) (hat : Spec.atCell e a (y + k)) :
    ∃ v', drawSelector gr dw t s.active all s = .ok ⟨0, s.have_ ++ [encodeRunes l[k]], es1 ++ e.struck :: es2, v'⟩ ∧
      encodeRunes l[k] ∉ s.have_ ∧
      ∀ x, x < (l[k]).length → ∃ st, v'.sc.look w (w - dw + x) (y + k) = some ⟨(l[k]).getD x 0, st⟩ := by
  have h0 : l ≠ [] := by rintro rfl; simp at hk'
  obtain ⟨v', ev, -, L⟩ := selector_list gr hsp hk dw hw t s.active all s R l hl h0 hn hrows (Or.inl rfl)
  have hin : pressIn (Spec.boxOf (w - dw) y dw l.length) 1 e = true := by
    unfold pressIn
    have : ptIn e.pt (Spec.boxOf (w - dw) y dw l.length) = true := by
      rw [ptIn_iff, hat]
      unfold Geom.Mem Spec.boxOf
      simp only
      omega
    rw [he.1, he.2, this]
    decide
  have hout : ∀ e ∈ es1 ++ es2, pressIn (Spec.boxOf (w - dw) y dw l.length) 1 e = false := fun e' he' =>
    Bool.eq_false_iff.2 fun hp => h1 e' he' (pressIn_left hp)
  refine ⟨v', ?_, ?_, ?_⟩
  · rw [ev]
    unfold pickEvents
    rw [if_pos rfl, hes]
    have hany : (es1 ++ e :: es2).any (fun e => decide (Spec.leftPress e)) = true := by
      rw [List.any_eq_true]
      exact ⟨e, by simp, decide_eq_true he⟩
    have hget : (l.map encodeRunes)[(e.pt.y - ((y : Int) + 1)).toNat]? = some (encodeRunes l[k]) := by
      rw [hat]
      have : ((⟨(a : Int) + 1, ((y + k : Nat) : Int) + 1⟩ : Pt).y - ((y : Int) + 1)).toNat = k := by
        simp only
        omega
      rw [this, List.getElem?_map, List.getElem?_eq_getElem hk']
      rfl
    have hmap : (es1 ++ e :: es2).filterMap (fun e =>
        if pressIn (Spec.boxOf (w - dw) y dw l.length) 1 e = true then (l.map encodeRunes)[(e.pt.y - ((y : Int) + 1)).toNat]? else none) =
        [encodeRunes l[k]] := by
      rw [List.filterMap_append, filterMap_none es1, List.nil_append, List.filterMap_cons_some (b := encodeRunes l[k]), filterMap_none es2]
      · intro e' he'
        rw [if_neg (by rw [hout e' (by simp [he'])]; decide)]
      · rw [if_pos hin, hget]
      · intro e' he'
        rw [if_neg (by rw [hout e' (by simp [he'])]; decide)]
    have hstr : strikeIf (pressIn (Spec.boxOf (w - dw) y dw l.length) 1) (es1 ++ e :: es2) = es1 ++ e.struck :: es2 := by
      have hno : ∀ l' : Events, (∀ e ∈ l', pressIn (Spec.boxOf (w - dw) y dw l.length) 1 e = false) →
          l'.map (fun e => if pressIn (Spec.boxOf (w - dw) y dw l.length) 1 e = true then e.struck else e) = l' := by
        intro l' hl'
        conv_rhs => rw [← List.map_id l']
        apply List.map_congr_left
        intro e' he'
        rw [hl' e' he']
        rfl
      unfold strikeIf
      rw [List.map_append, List.map_cons, if_pos hin, hno es1 fun e he => hout e (by simp [he]),
        hno es2 fun e he => hout e (by simp [he])]
    rw [hany, hmap, hstr]
    rfl
  · have : encodeRunes l[k] ∈ offered all s.have_ := by
      rw [hl]
      exact List.mem_map.2 ⟨_, List.getElem_mem hk', rfl⟩
    exact ((offered_iff all s.have_).2 _ |>.1 this).2
  · intro x hx
    have hlk := (hn _ (List.getElem_mem hk')).1
    rw [L _ _ (by omega) (by omega), if_pos (by omega), show y + k - y = k from by omega, show w - dw + x - (w - dw) = x from by omega]
    have hg : (Spec.pickRow dw (l.getD k [])).getD x 0 = (l[k]).getD x 0 := by
      unfold Spec.pickRow
      rw [List.getD_eq_getElem?_getD, List.getD_eq_getElem?_getD, List.getD_eq_getElem?_getD,
        List.getElem?_eq_getElem hk', Option.getD_some, List.getElem?_append_left hx]
    exact ⟨_, by rw [hg]⟩

/-- **C94**: with the list open, left presses all of which are elsewhere add nothing and are
not used up, and close the list; without any left press it stays open. -/
theorem elsewhere_closes (gr : Nat → Bool) (hsp : Screen.Printable gr 0x20) (hk : ∀ r ∈ pprofText, Screen.Printable gr r)
    {w h c y : Nat} (dw : Nat) (hw : 6 + dw ≤ w) (t : Theme) (all : List Bytes) (s : Pick)
    (R : Ready s.v w h c y) (l : List (List Nat)) (hl : offered all s.have_ = l.map encodeRunes) (h0 : l ≠ [])
    (hn : ∀ n ∈ l, n.length < dw ∧ ∀ r ∈ n, Screen.Printable gr r) (hrows : y + l.length < h)
    (hout : ∀ e ∈ s.es, Spec.leftPress e → ∀ a b, w - dw ≤ a → a < w → y ≤ b → b < y + l.length → ¬ Spec.atCell e a b) :
    ∃ v', drawSelector gr dw t s.active all s =
      .ok ⟨if s.es.any (fun e => decide (Spec.leftPress e)) then 0 else s.active, s.have_, s.es, v'⟩ := by
  obtain ⟨v', ev, -, -⟩ := selector_list gr hsp hk dw hw t s.active all s R l hl h0 hn hrows (Or.inl rfl)
  refine ⟨v', ?_⟩
  rw [ev]
  unfold pickEvents
  rw [if_pos rfl]
  have hno : ∀ e ∈ s.es, pressIn (Spec.boxOf (w - dw) y dw l.length) 1 e = false := by
    intro e he
    rw [Bool.eq_false_iff]
    intro hp
    have hm : ptIn e.pt (Spec.boxOf (w - dw) y dw l.length) = true := by
      unfold pressIn at hp
      simp only [Bool.and_eq_true, decide_eq_true_eq] at hp
      exact hp.2
    rw [ptIn_iff] at hm
    unfold Geom.Mem Spec.boxOf at hm
    simp only at hm
    refine hout e he (pressIn_left hp) (e.pt.x - 1).toNat (e.pt.y - 1).toNat (by omega) (by omega) (by omega) (by omega) ?_
    unfold Spec.atCell
    generalize e.pt = p at *
    obtain ⟨px, py⟩ := p
    simp only [Pt.mk.injEq] at *
    omega
  rw [filterMap_none s.es (fun e he => by rw [if_neg (by rw [hno e he]; decide)]), List.append_nil]
  congr 2
  unfold strikeIf
  conv_rhs => rw [← List.map_id s.es]
  apply List.map_congr_left
  intro e' he'
  rw [hno e' he']
  rfl

/-! ### Where it fails -/

/-- A left click at a place. -/
def clickAt (x y : Nat) : Ev := entry (csiId 0x4D) (Mouse.reportArg 0 x y)

/-- A screen of twelve columns and six rows, with the cursor at the right of the first row. -/
def twelve : VScreen := goto (blank 12 6) ⟨13, 1⟩

/-- Profiles "ab", "cde" and "f". -/
def three : List Bytes := [[0x61, 0x62], [0x63, 0x64, 0x65], [0x66]]

/-- What a run of the selector leaves, without the screen. -/
def sel (all : List Bytes) (s : Pick) : Option (Nat × List Bytes) :=
  (drawSelector gr0 5 { select := 1, button := 2 } 1 all s).toOption.map fun r => (r.active, r.have_)

/-- Negation for **C94**: two clicks on a row between two frames add the profile twice. -/
theorem clicks_add_twice : sel three ⟨1, [], [clickAt 9 2, clickAt 9 2], twelve⟩ =
    some (0, [[0x63, 0x64, 0x65], [0x63, 0x64, 0x65]]) := by decide +kernel

/-- Negation for **C94**: with a name as wide as the column, clicking on the row below the
list, which is blank, panics: the index is that of no profile; and the row of the second profile
adds the third. -/
theorem long_name_panics : drawSelector gr0 5 { select := 1, button := 2 } 1 [[0x61, 0x62, 0x63, 0x64, 0x65], [0x66], [0x67]]
    ⟨1, [], [clickAt 9 4], twelve⟩ = .error .panic ∧
    sel [[0x61, 0x62, 0x63, 0x64, 0x65], [0x66], [0x67]] ⟨1, [], [clickAt 9 3], twelve⟩ = some (0, [[0x67]]) ∧
    ((drawSelector gr0 5 { select := 1, button := 2 } 1 [[0x61, 0x62, 0x63, 0x64, 0x65], [0x66], [0x67]] ⟨1, [], [], twelve⟩).toOption.map
      fun r => (List.range 5).map fun b => (r.v.sc.look 12 7 b).map (·.rune)) =
    some [some 0x61, some 0x20, some 0x66, some 0x67, some 0] := by
  refine ⟨?_, by decide +kernel, by decide +kernel⟩
  have h : ((drawSelector gr0 5 { select := 1, button := 2 } 1 [[0x61, 0x62, 0x63, 0x64, 0x65], [0x66], [0x67]]
      ⟨1, [], [clickAt 9 4], twelve⟩).map fun _ => ()) = .error .panic := by decide +kernel
  generalize drawSelector gr0 5 { select := 1, button := 2 } 1 [[0x61, 0x62, 0x63, 0x64, 0x65], [0x66], [0x67]]
      ⟨1, [], [clickAt 9 4], twelve⟩ = x at h
  cases x with
  | ok _ => exact absurd h (by simp [Except.map])
  | error f => simp only [Except.map, Except.error.injEq] at h; rw [h]

/-- Negation for **C94**: when no profile is left the list is never closed again: no press
anywhere makes the control inactive. -/
theorem none_left_stays (gr : Nat → Bool) (dw : Int) (t : Theme) (all : List Bytes) (s r : Pick)
    (h : ∀ p ∈ all, p ∈ s.have_) (hr : drawSelector gr dw t s.active all s = .ok r) :
    r.active = s.active ∧ r.es = s.es := by
  have hnil : offered all s.have_ = [] := by
    rw [List.eq_nil_iff_forall_not_mem]
    intro p hp
    have := ((offered_iff all s.have_).2 p).1 hp
    exact this.2 (h p this.1)
  unfold drawSelector at hr
  cases h1 : calcKVBox dw s.v pprofKey with
  | error f => rw [h1] at hr; simp [Except.bind] at hr
  | ok b =>
    rw [h1] at hr
    simp only [Except.bind] at hr
    cases h2 : (goto s.v b.1.min).write gr (pprofKey ++ [0x20]) with
    | error f => rw [h2] at hr; simp at hr
    | ok v =>
      rw [h2] at hr
      simp only [ne_eq, not_true, if_false, if_true, hnil] at hr
      cases hr
      exact ⟨rfl, rfl⟩

/-- Such a run. -/
example : sel three ⟨1, three, [clickAt 1 5], twelve⟩ = some (1, three) := by decide +kernel

/-- Negation for **C94**: a list that reaches the bottom of the screen shows its last profile,
but a click on it adds nothing. -/
theorem last_row_dead : ((drawSelector gr0 5 { select := 1, button := 2 } 1 three ⟨1, [], [clickAt 9 3], goto (blank 12 3) ⟨13, 1⟩⟩).toOption.map
    fun r => (r.active, r.have_, (r.v.sc.look 12 7 2).map (·.rune))) = some (0, [], some 0x66) := by decide +kernel

/-! ### Examples -/

theorem printable12 : ∀ r ∈ [0x20, 0x50, 0x72, 0x6F, 0x66, 0x61, 0x62, 0x63, 0x64, 0x65], Screen.Printable gr0 r := by
  have : ∀ r ∈ [0x20, 0x50, 0x72, 0x6F, 0x66, 0x61, 0x62, 0x63, 0x64, 0x65],
      (plainRune r ∧ gr0 r = true ∧ isEscape r = false ∧ r ≠ 0x0A ∧ r ≠ 0x0D) := by decide +kernel
  exact fun r hr => printable_gr0 (this r hr)

/-- The list opened by a click, and a click on its second row. -/
example : sel three ⟨0, [], [clickAt 9 1], twelve⟩ = some (1, []) ∧
    sel three ⟨1, [[0x61, 0x62]], [clickAt 9 2], twelve⟩ = some (0, [[0x61, 0x62], [0x66]]) := by decide +kernel

/-- And by the theorem. -/
example : ∃ v', drawSelector gr0 5 {} 1 three ⟨1, [[0x61, 0x62]], [clickAt 9 2], twelve⟩ =
    .ok ⟨0, [[0x61, 0x62], [0x66]], [(clickAt 9 2).struck], v'⟩ := by
  have R : Ready twelve 12 6 11 0 := goto_ready (blank_whole 12 6 (by decide) (by decide)) (blank_settled 12 6) ⟨13, 1⟩
  obtain ⟨v', e, -⟩ := picks_shown_partial gr0 (printable12 _ (by simp)) (fun r hr => printable12 r (by
      simp only [pprofText, List.mem_cons, List.not_mem_nil] at hr ⊢; tauto)) 5 (by decide) {} three
    ⟨1, [[0x61, 0x62]], [clickAt 9 2], twelve⟩ R [[0x63, 0x64, 0x65], [0x66]] (by decide +kernel)
    (by
      intro n hn
      simp only [List.mem_cons, List.not_mem_nil, or_false] at hn
      rcases hn with rfl | rfl
      · exact ⟨by decide, fun r hr => printable12 r (by simp only [List.mem_cons, List.not_mem_nil] at hr ⊢; tauto)⟩
      · exact ⟨by decide, fun r hr => printable12 r (by simp only [List.mem_cons, List.not_mem_nil] at hr ⊢; tauto)⟩)
    (by decide) [] [] (clickAt 9 2) rfl (by simp) (by decide +kernel) 1 8 (by decide) (by decide) (by unfold Spec.atCell; decide +kernel)
  exact ⟨v', e⟩

end Anansi.Hud
