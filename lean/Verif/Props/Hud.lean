import Verif.Model.Hud
import Verif.Props.EditLineView
import Verif.Props.LogView
import Verif.Props.Emulate
/-
C91 The segments of the HUD's header line are clickable exactly where they are drawn.
-/
set_option autoImplicit false

namespace Anansi.Hud
open Geom Evq Screen

/-! ### Vocabulary -/

namespace Spec

/-- The box of `n` cells from column `x` of row `y` on, counted from zero. -/
def box (x y n : Nat) : Rect := ⟨⟨x + 1, y + 1⟩, ⟨x + n + 1, y + 1 + 1⟩⟩

/-- The left columns of texts set against column `e` from right to left, with one blank
column between them. -/
def lefts (e : Nat) : List (List Nat) → List Nat
  | [] => []
  | t :: l => (e - t.length) :: lefts (e - t.length - 1) l

/-- The columns needed by texts with one blank column on the right of each. -/
def room : List (List Nat) → Nat
  | [] => 0
  | t :: l => t.length + 1 + room l

/-- The boxes of such texts on the first row. -/
def boxes (e : Nat) (l : List (List Nat)) : List Rect :=
  (List.zip (lefts e l) l).map fun p => box p.1 0 p.2.length

/-- The character standing in column `a` of such texts. -/
def at_ (e a : Nat) : List (List Nat) → Option Nat
  | [] => none
  | t :: l => if e - t.length ≤ a ∧ a < e then t[a - (e - t.length)]? else at_ (e - t.length - 1) a l

end Spec

/-! ### Text on the screen -/

theorem delivers_text (rs : List Nat) (h : ∀ r ∈ rs, plainRune r) : Delivers (encodeRunes rs) (rs.map (·, [])) := by
  induction rs with
  | nil => exact Delivers.nil
  | cons r t ih =>
    exact (delivers_rune (h r (by simp))).append (ih fun x hx => h x (by simp [hx]))

/-- The state of a drawing: a whole screen with nothing pending and the cursor in a cell. -/
structure Ready (v : VScreen) (w h x y : Nat) : Prop where
  whole : v.sc.Whole w h
  settled : Emu.Settled v
  cur : v.sc.CurAt x y
  hx : x < w
  hy : y < h

theorem processAll_append (gr : Nat → Bool) : ∀ (a b : List Event) (sc : Screen),
    sc.processAll gr (a ++ b) = (sc.processAll gr a).bind fun sc => sc.processAll gr b
  | [], _, _ => rfl
  | e :: a, b, sc => by
    simp only [List.cons_append, processAll]
    cases sc.processANSI gr e with
    | error f => rfl
    | ok sc1 => exact processAll_append gr a b sc1

/-- Where the cursor is after `n` characters from column `x` of row `y` on, when they fit
on the row. -/
def after (w h x y n : Nat) : Pt :=
  if x + n < w then ⟨(x + n : Nat) + 1, y + 1⟩ else ⟨1, (if y + 1 < h then y + 1 else y : Nat) + 1⟩

/-- A text that fits on the row. -/
theorem print_run (gr : Nat → Bool) {w h x y : Nat} (rs : List Nat) (hp : ∀ r ∈ rs, Screen.Printable gr r) (sc : Screen)
    (W : sc.Whole w h) (hx : x < w) (hy : y < h) (hc : sc.CurAt x y) (hn : x + rs.length ≤ w) :
    ∃ sc', sc.processAll gr (rs.map (·, [])) = .ok sc' ∧ sc'.Whole w h ∧
      sc'.cur = { sc.cur with pt := after w h x y rs.length } ∧
      ∀ a b, a < w → b < h → sc'.look w a b =
        if b = y ∧ x ≤ a ∧ a < x + rs.length then some ⟨rs.getD (a - x) 0, sc.cur.attr⟩ else sc.look w a b := by
  by_cases hl : x + rs.length < w
  · obtain ⟨sc', e1, W', C', A', L'⟩ := print_text gr rs hp sc x y W hy hc hl
    refine ⟨sc', e1, W', ?_, L'⟩
    rw [A']
    unfold after
    rw [if_pos hl, C']
  · have hne : rs ≠ [] := by rintro rfl; simp at hn hl; omega
    obtain ⟨ini, r, rfl⟩ : ∃ ini r, rs = ini ++ [r] := ⟨rs.dropLast, rs.getLast hne, (List.dropLast_append_getLast hne).symm⟩
    simp only [List.length_append, List.length_singleton] at hn hl ⊢
    obtain ⟨sc1, e1, W1, C1, A1, L1⟩ := print_text gr ini (fun q hq => hp q (by simp [hq])) sc x y W hy hc (by omega)
    have pr := hp r (by simp)
    have hpt : sc1.cur.pt = ⟨((x + ini.length : Nat) : Int) + 1, (y : Int) + 1⟩ := C1
    have hhome : sc1.home = sc1 := by
      unfold home
      rw [if_neg]
      intro hz
      rw [hpt] at hz
      have := congrArg Pt.x hz
      simp [zp] at this; omega
    have hstep : sc1.processANSI gr (r, []) = sc1.print r := by
      unfold processANSI
      simp only [hhome, pr.escape, pr.lf, pr.cr, pr.graphic, if_false, if_true, Bool.false_eq_true]
    have hprint := print_ok W1 (x := x + ini.length) (y := y) (by omega) hy C1 r
    rw [if_neg (by omega)] at hprint
    have hidx : y * w + (x + ini.length) < w * h := idx_lt (by omega) hy
    have hcl : w * h ≤ sc1.grid.cells.length := W1.cap
    refine ⟨_, by
      rw [List.map_append, processAll_append, e1]
      simp only [Except.bind, List.map_cons, List.map_nil, processAll, hstep, hprint]
      rfl, (W1.cells (by simp)).cur _, ?_, ?_⟩
    · rw [A1]
      have e : after w h x y (ini.length + 1) = ⟨1, (if y + 1 < h then y + 1 else y : Nat) + 1⟩ := by
        unfold after
        rw [if_neg (by omega)]
      rw [e]
      by_cases h2 : y + 1 < h
      · simp [h2]
      · simp [h2]
    · intro a b ha hb
      have hattr : sc1.cur.attr = sc.cur.attr := by rw [A1]
      simp only [look, hattr]
      by_cases hab : b = y ∧ a = x + ini.length
      · obtain ⟨rfl, rfl⟩ := hab
        rw [List.getElem?_set_self (by omega), if_pos (by omega)]
        simp
      · have hne' : y * w + (x + ini.length) ≠ b * w + a := by
          intro he
          apply hab
          have h1 := (idx_le (a := x + ini.length) (b := y) (x := a) (y := b) (w := w) ha (by omega))
          have h2 := (idx_le (a := a) (b := b) (x := x + ini.length) (y := y) (w := w) (by omega) ha)
          have h1 := h1.mp (by omega)
          have h2 := h2.mp (by omega)
          unfold Upto at h1 h2
          omega
        rw [List.getElem?_set_ne hne']
        have := L1 a b ha hb
        simp only [look] at this
        rw [this]
        by_cases hin : b = y ∧ x ≤ a ∧ a < x + ini.length
        · rw [if_pos hin, if_pos (by omega)]
          simp only [List.getD_eq_getElem?_getD]
          rw [List.getElem?_append_left (by omega)]
        · rw [if_neg hin, if_neg (by omega)]

/-- Writing such a text. -/
theorem write_run (gr : Nat → Bool) {w h x y : Nat} (rs : List Nat) (hp : ∀ r ∈ rs, Screen.Printable gr r) (v : VScreen)
    (R : Ready v w h x y) (hn : x + rs.length ≤ w) :
    ∃ v', v.write gr (encodeRunes rs) = .ok v' ∧ v'.sc.Whole w h ∧ Emu.Settled v' ∧
      v'.sc.cur = { v.sc.cur with pt := after w h x y rs.length } ∧
      ∀ a b, a < w → b < h → v'.sc.look w a b =
        if b = y ∧ x ≤ a ∧ a < x + rs.length then some ⟨rs.getD (a - x) 0, v.sc.cur.attr⟩ else v.sc.look w a b := by
  obtain ⟨sc', e1, W', A', L'⟩ := print_run gr rs hp v.sc R.whole R.hx R.hy R.cur hn
  obtain ⟨v', f1, f2, f3⟩ := Emu.write_step gr R.settled (delivers_text rs fun r hr => (hp r hr).plain) e1
  subst f2
  exact ⟨v', f1, W', f3, A', L'⟩

/-- Moving the cursor. -/
theorem goto_ready {v : VScreen} {w h : Nat} (W : v.sc.Whole w h) (S : Emu.Settled v) (p : Pt) :
    Ready (goto v p) w h (min (w - 1) (p.x - 1).toNat) (min (h - 1) (p.y - 1).toNat) := by
  have hw := W.hw
  have hh := W.hh
  refine ⟨W.cur _, S, ?_, by omega, by omega⟩
  show ((v.sc.to p).cur.pt = _)
  unfold Screen.to
  exact Emu.clamp_eq W p

theorem goto_at {v : VScreen} {w h x y : Nat} (W : v.sc.Whole w h) (S : Emu.Settled v) (hx : x < w) (hy : y < h) :
    Ready (goto v ⟨x + 1, y + 1⟩) w h x y := by
  have := goto_ready W S ⟨x + 1, y + 1⟩
  have e1 : min (w - 1) (((x : Int) + 1) - 1).toNat = x := by omega
  have e2 : min (h - 1) (((y : Int) + 1) - 1).toNat = y := by omega
  simp only [e1, e2] at this
  exact this

/-- A text of any length does no harm. -/
theorem print_any (gr : Nat → Bool) {w h : Nat} : ∀ (rs : List Nat) (_ : ∀ r ∈ rs, Screen.Printable gr r) (sc : Screen)
    (_ : sc.Whole w h) (x y : Nat) (_ : x < w) (_ : y < h) (_ : sc.CurAt x y),
    ∃ sc', sc.processAll gr (rs.map (·, [])) = .ok sc' ∧ sc'.Whole w h
  | [], _, sc, W, _, _, _, _, _ => ⟨sc, rfl, W⟩
  | r :: rs, hp, sc, W, x, y, hx, hy, hc => by
    obtain ⟨sc1, e1, W1, A1, _⟩ := print_run gr [r] (fun q hq => hp q (by simp at hq; simp [hq])) sc W hx hy hc
      (by simp; omega)
    obtain ⟨x', y', hx', hy', hc'⟩ : ∃ x' y', x' < w ∧ y' < h ∧ sc1.CurAt x' y' := by
      unfold CurAt
      rw [A1]
      unfold after
      simp only [List.length_singleton]
      by_cases hl : x + 1 < w
      · exact ⟨x + 1, y, hl, hy, by rw [if_pos hl]⟩
      · refine ⟨0, if y + 1 < h then y + 1 else y, W.hw, by split <;> omega, ?_⟩
        rw [if_neg hl]
        simp
    obtain ⟨sc2, e2, W2⟩ := print_any gr rs (fun q hq => hp q (by simp [hq])) sc1 W1 x' y' hx' hy' hc'
    refine ⟨sc2, ?_, W2⟩
    have e : (r :: rs).map (fun x : Nat => ((x, []) : Event)) = [r].map (·, []) ++ rs.map (·, []) := rfl
    rw [e, processAll_append, e1]
    exact e2

theorem write_any (gr : Nat → Bool) {w h x y : Nat} (rs : List Nat) (hp : ∀ r ∈ rs, Screen.Printable gr r) (v : VScreen)
    (R : Ready v w h x y) : ∃ v', v.write gr (encodeRunes rs) = .ok v' ∧ v'.sc.Whole w h ∧ Emu.Settled v' := by
  obtain ⟨sc', e1, W'⟩ := print_any gr rs hp v.sc R.whole x y R.hx R.hy R.cur
  obtain ⟨v', f1, f2, f3⟩ := Emu.write_step gr R.settled (delivers_text rs fun r hr => (hp r hr).plain) e1
  subst f2
  exact ⟨v', f1, W', f3⟩

theorem mkPt_ok {x y : Int} (hx : 1 ≤ x) (hy : 1 ≤ y) : mkPt x y = .ok ⟨x, y⟩ := by
  unfold mkPt Geom.pt
  rw [if_neg (by omega)]

theorem mkPt_panic {x y : Int} (h : x < 1 ∨ y < 1) : mkPt x y = .error .panic := by
  unfold mkPt Geom.pt
  rw [if_pos h]

/-! ### Segments -/

/-- The column before which the next segment ends, with the cursor in column `c`. -/
def ends (w c : Nat) : Nat := if c + 1 < w then c - 1 else c

theorem count_text (gr : Nat → Bool) (rs : List Nat) (hp : ∀ r ∈ rs, Screen.Printable gr r) :
    runeCount (encodeRunes rs) = rs.length :=
  runeCount_encodeRunes rs fun r hr => (hp r hr).plain.1

theorem max_x {sc : Screen} {w h : Nat} (W : sc.Whole w h) : sc.grid.rect.max.x = w + 1 := by rw [W.rect]

/-- With the cursor in the first column of a screen of several columns, a segment panics. -/
theorem segment_panics (gr : Nat → Bool) {w h y : Nat} (v : VScreen) (R : Ready v w h 0 y) (hw : 2 ≤ w) (s : Bytes) :
    rightSegment gr v s = .error .panic := by
  have hc : v.sc.cur.pt = ⟨(0 : Nat) + 1, y + 1⟩ := R.cur
  unfold rightSegment
  simp only
  rw [mkPt_panic]
  · rfl
  · left
    rw [hc, max_x R.whole]
    simp only
    rw [if_pos (by omega)]
    omega

/-- In every other case it does not; its box ends where `ends` says, and the cursor is in its
first column, or the first column of the screen if there is no room. -/
theorem segment_total (gr : Nat → Bool) {w h c y : Nat} (v : VScreen) (R : Ready v w h c y) (h0 : 1 ≤ c ∨ w = 1)
    (rs : List Nat) (hp : ∀ r ∈ rs, Screen.Printable gr r) :
    ∃ r v', rightSegment gr v (encodeRunes rs) = .ok (r, v') ∧ Ready v' w h (ends w c - rs.length) y := by
  have hc : v.sc.cur.pt = ⟨c + 1, y + 1⟩ := R.cur
  have hcw := R.hx
  have hyh := R.hy
  unfold rightSegment
  simp only
  have ex : (if v.sc.cur.pt.x + 1 < v.sc.grid.rect.max.x then v.sc.cur.pt.x - 1 else v.sc.cur.pt.x) = (ends w c : Int) + 1 := by
    rw [hc, max_x R.whole]
    unfold ends
    by_cases hl : c + 1 < w
    · rw [if_pos (by simp only; omega), if_pos hl]
      simp only
      omega
    · rw [if_neg (by simp only; omega), if_neg hl]
  rw [ex, mkPt_ok (by omega) (by rw [hc]; simp only; omega), count_text gr rs hp]
  simp only [Except.bind]
  have R1 := goto_ready R.whole R.settled ⟨(ends w c : Int) + 1 - rs.length, v.sc.cur.pt.y⟩
  obtain ⟨v1, e1, W1, S1⟩ := write_any gr rs hp _ R1
  rw [e1]
  simp only
  refine ⟨_, _, rfl, ?_⟩
  have R2 := goto_ready W1 S1 ⟨(ends w c : Int) + 1 - rs.length, v.sc.cur.pt.y⟩
  have hle : ends w c ≤ w - 1 := by unfold ends; split <;> omega
  have a1 : min (w - 1) ((ends w c : Int) + 1 - rs.length - 1).toNat = ends w c - rs.length := by omega
  have a2 : min (h - 1) (v.sc.cur.pt.y - 1).toNat = y := by rw [hc]; simp only; omega
  simp only [a1, a2] at R2
  exact R2

/-- With enough room, the text stands in the box. -/
theorem segment_ok (gr : Nat → Bool) {w h c y : Nat} (v : VScreen) (R : Ready v w h c y) (rs : List Nat)
    (hne : rs ≠ []) (hp : ∀ r ∈ rs, Screen.Printable gr r) (hn : rs.length ≤ ends w c) :
    ∃ v', rightSegment gr v (encodeRunes rs) = .ok (Spec.box (ends w c - rs.length) y rs.length, v') ∧
      Ready v' w h (ends w c - rs.length) y ∧ v'.sc.cur.attr = v.sc.cur.attr ∧
      ∀ a b, a < w → b < h → v'.sc.look w a b =
        if b = y ∧ ends w c - rs.length ≤ a ∧ a < ends w c then
          some ⟨rs.getD (a - (ends w c - rs.length)) 0, v.sc.cur.attr⟩ else v.sc.look w a b := by
  have hc : v.sc.cur.pt = ⟨c + 1, y + 1⟩ := R.cur
  have hcw := R.hx
  have hyh := R.hy
  have hpos := List.length_pos_iff.mpr hne
  unfold rightSegment
  simp only
  have ex : (if v.sc.cur.pt.x + 1 < v.sc.grid.rect.max.x then v.sc.cur.pt.x - 1 else v.sc.cur.pt.x) = (ends w c : Int) + 1 := by
    rw [hc, max_x R.whole]
    unfold ends at hn ⊢
    by_cases hl : c + 1 < w
    · rw [if_pos hl] at hn
      rw [if_pos (by simp only; omega), if_pos hl]
      simp only
      omega
    · rw [if_neg (by simp only; omega), if_neg hl]
  have hle : ends w c ≤ w - 1 := by unfold ends; split <;> omega
  rw [ex, mkPt_ok (by omega) (by rw [hc]; simp only; omega), count_text gr rs hp]
  simp only [Except.bind]
  have ep : (⟨(ends w c : Int) + 1 - rs.length, v.sc.cur.pt.y⟩ : Pt) =
      ⟨((ends w c - rs.length : Nat) : Int) + 1, (y : Int) + 1⟩ := by
    rw [hc]
    congr 1
    omega
  rw [ep]
  have R1 := goto_at R.whole R.settled (x := ends w c - rs.length) (y := y) (by omega) hyh
  obtain ⟨v1, e1, W1, S1, A1, L1⟩ := write_run gr rs hp _ R1 (by omega)
  rw [e1]
  simp only
  refine ⟨_, ?_, goto_at W1 S1 (by omega) hyh, ?_, ?_⟩
  · unfold Spec.box
    rw [hc]
    have : ends w c - rs.length + rs.length = ends w c := by omega
    congr 4
    show (ends w c : Int) + 1 = ((ends w c - rs.length : Nat) : Int) + (rs.length : Int) + 1
    omega
  · show v1.sc.cur.attr = _
    rw [A1]
    rfl
  · intro a b ha hb
    have := L1 a b ha hb
    have e2 : ends w c - rs.length + rs.length = ends w c := by omega
    rw [e2] at this
    exact this

theorem room_pos {l : List (List Nat)} (h : Spec.room l = 0) : l = [] := by
  cases l with
  | nil => rfl
  | cons t l => simp [Spec.room] at h

theorem at_lt (a : Nat) : ∀ (l : List (List Nat)) (e : Nat), e ≤ a → Spec.at_ e a l = none
  | [], _, _ => rfl
  | t :: l, e, h => by
    rw [Spec.at_, if_neg (by omega)]
    exact at_lt a l _ (by omega)

theorem segments_ok (gr : Nat → Bool) {w h : Nat} (hh : 1 ≤ h) : ∀ (l : List (List Nat))
    (_ : ∀ t ∈ l, t ≠ [] ∧ ∀ r ∈ t, Screen.Printable gr r) (v : VScreen) (c : Nat) (_ : Ready v w h c 0)
    (_ : Spec.room l ≤ ends w c + 1),
    ∃ v', segments gr v (l.map encodeRunes) = .ok (Spec.boxes (ends w c) l, v') ∧
      v'.sc.Whole w h ∧ Emu.Settled v' ∧ v'.sc.cur.attr = v.sc.cur.attr ∧
      ∀ a b, a < w → b < h → v'.sc.look w a b =
        match (if b = 0 then Spec.at_ (ends w c) a l else none) with
        | some r => some ⟨r, v.sc.cur.attr⟩
        | none => v.sc.look w a b
  | [], _, v, c, R, _ => ⟨v, rfl, R.whole, R.settled, rfl, fun a b _ _ => by simp [Spec.at_]⟩
  | t :: l, hp, v, c, R, hr => by
    obtain ⟨hne, ht⟩ := hp t (by simp)
    have hpos := List.length_pos_iff.mpr hne
    have hle : ends w c ≤ w - 1 := by have := R.hx; unfold ends; split <;> omega
    rw [Spec.room] at hr
    obtain ⟨v1, e1, R1, A1, L1⟩ := segment_ok gr v R t hne ht (by omega)
    by_cases hl : l = []
    · subst hl
      refine ⟨v1, ?_, R1.whole, R1.settled, A1, ?_⟩
      · simp only [List.map_cons, List.map_nil, segments, e1, Except.bind]
        rfl
      · intro a b ha hb
        rw [L1 a b ha hb]
        by_cases hin : b = 0 ∧ ends w c - t.length ≤ a ∧ a < ends w c
        · rw [if_pos hin, if_pos hin.1, Spec.at_, if_pos hin.2, List.getElem?_eq_getElem (by omega)]
          simp only
          rw [List.getD_eq_getElem?_getD, List.getElem?_eq_getElem (by omega)]
          rfl
        · rw [if_neg hin]
          by_cases hb0 : b = 0
          · rw [if_pos hb0, Spec.at_, if_neg (fun q => hin ⟨hb0, q⟩)]
            rfl
          · rw [if_neg hb0]
    · have hrl : Spec.room l ≠ 0 := fun q => hl (room_pos q)
      have ee : ends w (ends w c - t.length) = ends w c - t.length - 1 := by
        have := R1.hx
        rw [ends, if_pos (by omega)]
      obtain ⟨v2, e2, W2, S2, A2, L2⟩ := segments_ok gr hh l (fun q hq => hp q (by simp [hq])) v1 _ R1
        (by rw [ee]; omega)
      rw [ee] at e2 L2
      refine ⟨v2, ?_, W2, S2, A2.trans A1, ?_⟩
      · simp only [List.map_cons, segments, e1, Except.bind, e2]
        rfl
      · intro a b ha hb
        rw [L2 a b ha hb, L1 a b ha hb]
        by_cases hb0 : b = 0
        · subst hb0
          simp only [if_true, true_and]
          rw [Spec.at_]
          by_cases hin : ends w c - t.length ≤ a ∧ a < ends w c
          · rw [if_pos hin, if_pos hin, at_lt a l _ (by omega), List.getElem?_eq_getElem (by omega)]
            simp only
            rw [List.getD_eq_getElem?_getD, List.getElem?_eq_getElem (by omega)]
            rfl
          · rw [if_neg hin, if_neg hin, A1]
        · simp [hb0]

/-- **C91**: on a screen with room for all its segments and a blank column after each, the
header line is drawn without a panic: every segment's characters stand in the first row,
right to left with one blank column between them, in the style the screen had; no other cell
is changed; and the box returned for each segment, which is where clicks on it are looked for,
is exactly the place of its characters (`Spec.boxes`, `box_shows`).  Missing, because it fails:
screens without enough room (`header_panics_iff`, `narrow_panics`). -/
theorem header_drawn_partial (gr : Nat → Bool) {w h : Nat} (v : VScreen) (W : v.sc.Whole w h) (S : Emu.Settled v)
    (l : List (List Nat)) (hp : ∀ t ∈ l, t ≠ [] ∧ ∀ r ∈ t, Screen.Printable gr r) (hr : Spec.room l ≤ w) :
    ∃ v', header gr v (l.map encodeRunes) = .ok (Spec.boxes (w - 1) l, v') ∧
      v'.sc.Whole w h ∧ Emu.Settled v' ∧ v'.sc.cur.attr = v.sc.cur.attr ∧
      ∀ a b, a < w → b < h → v'.sc.look w a b =
        match (if b = 0 then Spec.at_ (w - 1) a l else none) with
        | some r => some ⟨r, v.sc.cur.attr⟩
        | none => v.sc.look w a b := by
  have hw := W.hw
  have R := goto_ready W S ⟨(w : Int) + 1, 1⟩
  have a1 : min (w - 1) ((w : Int) + 1 - 1).toNat = w - 1 := by omega
  have a2 : min (h - 1) ((1 : Int) - 1).toNat = 0 := by omega
  simp only [a1, a2] at R
  have ee : ends w (w - 1) = w - 1 := by rw [ends, if_neg (by omega)]
  have := segments_ok gr W.hh l hp _ _ R (by rw [ee]; omega)
  rw [ee] at this
  unfold header
  rw [max_x W, mkPt_ok (by omega) (by omega)]
  exact this

/-- **C91**: no two of these boxes share a cell. -/
theorem boxes_disjoint : ∀ (l : List (List Nat)) (e : Nat), Spec.room l ≤ e + 1 → (∀ t ∈ l, t ≠ []) →
    (Spec.boxes e l).Pairwise fun r s => ∀ p, ¬ (Geom.Mem p r ∧ Geom.Mem p s)
  | [], _, _, _ => List.Pairwise.nil
  | t :: l, e, hr, hne => by
    have key : ∀ (l : List (List Nat)) (e : Nat) (s : Rect), s ∈ Spec.boxes e l → s.max.x ≤ e + 1 ∨ Spec.room l > e + 1 := by
      intro l
      induction l with
      | nil => intro e s hs; simp [Spec.boxes, Spec.lefts] at hs
      | cons t l ih =>
        intro e s hs
        rw [Spec.room]
        simp only [Spec.boxes, Spec.lefts, List.zip_cons_cons, List.map_cons, List.mem_cons] at hs
        rcases hs with rfl | hs
        · simp only [Spec.box]
          omega
        · rcases ih (e - t.length - 1) s hs with h | h
          · left; omega
          · right
            have : Spec.room l ≠ 0 := by omega
            omega
    rw [Spec.room] at hr
    have hb : Spec.boxes e (t :: l) = Spec.box (e - t.length) 0 t.length :: Spec.boxes (e - t.length - 1) l := rfl
    rw [hb]
    by_cases hl : l = []
    · subst hl
      simp [Spec.boxes, Spec.lefts]
    have h0 : Spec.room l ≠ 0 := fun q => hl (room_pos q)
    refine List.Pairwise.cons ?_ (boxes_disjoint l _ (by omega) fun q hq => hne q (by simp [hq]))
    rintro s hs p ⟨⟨m1, -⟩, ⟨h2, -⟩⟩
    have := key l _ s hs
    simp only [Spec.box] at m1
    omega

/-- **C91**: each text stands in its place: from its left column on come its characters. -/
theorem box_shows : ∀ (l : List (List Nat)) (e i : Nat) (t : List Nat) (x : Nat), Spec.room l ≤ e + 1 →
    l[i]? = some t → (Spec.lefts e l)[i]? = some x →
    (Spec.boxes e l)[i]? = some (Spec.box x 0 t.length) ∧ ∀ k < t.length, Spec.at_ e (x + k) l = t[k]?
  | [], _, _, _, _, _, h, _ => by simp at h
  | t :: l, e, 0, t', x, hr, h1, h2 => by
    simp only [List.getElem?_cons_zero, Option.some.injEq, Spec.lefts] at h1 h2
    subst h1 h2
    rw [Spec.room] at hr
    refine ⟨rfl, fun k hk => ?_⟩
    rw [Spec.at_, if_pos (by omega)]
    congr 1
    omega
  | t :: l, e, i + 1, t', x, hr, h1, h2 => by
    simp only [List.getElem?_cons_succ, Spec.lefts] at h1 h2
    rw [Spec.room] at hr
    have h0 : Spec.room l ≠ 0 := by
      intro q
      rw [room_pos q] at h1
      simp at h1
    obtain ⟨g1, g2⟩ := box_shows l (e - t.length - 1) i t' x (by omega) h1 h2
    refine ⟨g1, fun k hk => ?_⟩
    have g := g2 k hk
    rw [Spec.at_, if_neg]
    · exact g
    · intro hin
      rw [at_lt _ l _ (by omega)] at g
      rw [List.getElem?_eq_getElem hk] at g
      simp at g

theorem segments_panic_iff (gr : Nat → Bool) {w h : Nat} : ∀ (l : List (List Nat)) (_ : l ≠ [])
    (_ : ∀ t ∈ l, t ≠ [] ∧ ∀ r ∈ t, Screen.Printable gr r) (v : VScreen) (c : Nat) (_ : Ready v w h c 0) (_ : c + 1 < w),
    (segments gr v (l.map encodeRunes) = .error .panic ↔ c ≤ Spec.room l.dropLast)
  | [], h, _, _, _, _, _ => absurd rfl h
  | t :: l, _, hp, v, c, R, hc => by
    obtain ⟨hne, ht⟩ := hp t (by simp)
    have hpos := List.length_pos_iff.mpr hne
    simp only [List.map_cons, segments]
    by_cases h0 : c = 0
    · subst h0
      rw [segment_panics gr v R (by omega)]
      simp [Except.bind]
    · obtain ⟨r, v1, e1, R1⟩ := segment_total gr v R (Or.inl (by omega)) t ht
      have ee : ends w c = c - 1 := by rw [ends, if_pos hc]
      rw [ee] at R1
      rw [e1]
      simp only [Except.bind]
      cases l with
      | nil =>
        simp only [List.map_nil, segments, List.dropLast, Spec.room]
        constructor
        · intro q; simp at q
        · intro q; omega
      | cons u l =>
        have ih := segments_panic_iff gr (u :: l) (by simp) (fun q hq => hp q (by simp [hq])) v1 _ R1 (by omega)
        rw [List.dropLast_cons₂, Spec.room]
        constructor
        · intro q
          have : segments gr v1 ((u :: l).map encodeRunes) = .error .panic := by
            cases hs : segments gr v1 ((u :: l).map encodeRunes) with
            | error f => rw [hs] at q; exact q
            | ok a => rw [hs] at q; simp at q
          have := ih.mp this
          omega
        · intro q
          rw [ih.mpr (by omega)]

/-- Negation for **C91**, exactly: on a screen of several columns the header line panics (in
`ansi.Pt`) whenever the segments before the last one, with a blank column after each, need
the whole width or more. -/
theorem header_panics_iff (gr : Nat → Bool) {w h : Nat} (v : VScreen) (W : v.sc.Whole w h) (S : Emu.Settled v)
    (hw : 2 ≤ w) (l : List (List Nat)) (hp : ∀ t ∈ l, t ≠ [] ∧ ∀ r ∈ t, Screen.Printable gr r) :
    header gr v (l.map encodeRunes) = .error .panic ↔ w ≤ Spec.room l.dropLast := by
  have R := goto_ready W S ⟨(w : Int) + 1, 1⟩
  have a1 : min (w - 1) ((w : Int) + 1 - 1).toNat = w - 1 := by omega
  have a2 : min (h - 1) ((1 : Int) - 1).toNat = 0 := by omega
  simp only [a1, a2] at R
  have ee : ends w (w - 1) = w - 1 := by rw [ends, if_neg (by omega)]
  unfold header
  rw [max_x W, mkPt_ok (by omega) (by omega)]
  simp only [Except.bind]
  cases l with
  | nil => simp [segments, Spec.room]; omega
  | cons t l =>
    obtain ⟨hne, ht⟩ := hp t (by simp)
    have hpos := List.length_pos_iff.mpr hne
    obtain ⟨r, v1, e1, R1⟩ := segment_total gr _ R (Or.inl (by omega)) t ht
    rw [ee] at R1
    simp only [List.map_cons, segments]
    rw [e1]
    simp only [Except.bind]
    cases l with
    | nil =>
      simp only [List.map_nil, segments, List.dropLast, Spec.room]
      constructor
      · intro q; simp at q
      · intro q; omega
    | cons u l =>
      have ih := segments_panic_iff gr (u :: l) (by simp) (fun q hq => hp q (by simp [hq])) v1 _ R1 (by omega)
      rw [List.dropLast_cons₂, Spec.room]
      constructor
      · intro q
        have : segments gr v1 ((u :: l).map encodeRunes) = .error .panic := by
          cases hs : segments gr v1 ((u :: l).map encodeRunes) with
          | error f => rw [hs] at q; exact q
          | ok a => rw [hs] at q; simp at q
        have := ih.mp this
        omega
      · intro q
        rw [ih.mpr (by omega)]

/-! ### Concrete screens -/

/-- A blank screen. -/
def blank (w h : Nat) : VScreen := { sc := (({} : Screen).resize (w, h)).1 }

theorem blank_whole (w h : Nat) (hw : 1 ≤ w) (hh : 1 ≤ h) : (blank w h).sc.Whole w h :=
  (whole_of_resize w h hw hh).1

theorem blank_settled (w h : Nat) : Emu.Settled (blank w h) := rfl

/-- All characters but controls are graphic. -/
def gr0 (r : Nat) : Bool := 0x20 ≤ r && r < 0x7F || 0xA0 ≤ r

/-- The segments of a frame: "15:04:05.000000", "FPS:60/s", "⊙", "(40,24)", "W:  912" and
"@(0,0)". -/
def segs : List (List Nat) :=
  [[49, 53, 58, 48, 52, 58, 48, 53, 46, 48, 48, 48, 48, 48, 48], [70, 80, 83, 58, 54, 48, 47, 115], [0x2299],
   [40, 52, 48, 44, 50, 52, 41], [87, 58, 32, 32, 57, 49, 50], [64, 40, 48, 44, 48, 41]]

theorem segs_printable : ∀ t ∈ segs, t ≠ [] ∧ ∀ r ∈ t, Screen.Printable gr0 r := by
  have h : ∀ t ∈ segs, t ≠ [] ∧ ∀ r ∈ t, (plainRune r ∧ gr0 r = true ∧ isEscape r = false ∧ r ≠ 0x0A ∧ r ≠ 0x0D) := by
    decide +kernel
  exact fun t ht => ⟨(h t ht).1, fun r hr => ⟨((h t ht).2 r hr).1, ((h t ht).2 r hr).2.1, ((h t ht).2 r hr).2.2.1,
    ((h t ht).2 r hr).2.2.2.1, ((h t ht).2 r hr).2.2.2.2⟩⟩

/-- On eighty columns there is room: the theorem applies, and the first two boxes are these. -/
example : ∃ v', header gr0 (blank 80 24) (segs.map encodeRunes) = .ok (Spec.boxes 79 segs, v') := by
  obtain ⟨v', e, -⟩ := header_drawn_partial gr0 (blank 80 24) (blank_whole 80 24 (by decide) (by decide))
    (blank_settled 80 24) segs segs_printable (by decide)
  exact ⟨v', e⟩

example : (Spec.boxes 79 segs).take 2 = [⟨⟨65, 1⟩, ⟨80, 2⟩⟩, ⟨⟨56, 1⟩, ⟨64, 2⟩⟩] := by decide

/-- Negation for **C91**: on a terminal of forty columns, showing the overlay panics. -/
theorem narrow_panics (h : Nat) (hh : 1 ≤ h) : header gr0 (blank 40 h) (segs.map encodeRunes) = .error .panic :=
  (header_panics_iff gr0 _ (blank_whole 40 h (by decide) hh) (blank_settled 40 h) (by decide) segs segs_printable).mpr
    (by decide)

/-- Negation for **C91**: with room for all segments but the last, its box lies partly left of
the screen and its text is written over its neighbour: "bcd" after "a" on four columns gets
the box of columns -1 to 1, but is written in columns 1 to 3. -/
theorem last_overwrites : ((header gr0 (blank 4 1) [[0x61], [0x62, 0x63, 0x64]]).toOption.map fun r =>
    (r.1, (List.range 4).map fun a => (r.2.sc.look 4 a 0).map (·.rune))) =
    some ([⟨⟨3, 1⟩, ⟨4, 2⟩⟩, ⟨⟨-1, 1⟩, ⟨2, 2⟩⟩], [some 0x62, some 0x63, some 0x64, some 0]) := by decide +kernel

end Anansi.Hud
