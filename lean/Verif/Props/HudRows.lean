import Verif.Props.Hud
import Verif.Props.Events
/-
C92 The HUD's detail rows, headings and buttons are drawn in their boxes.
-/
set_option autoImplicit false

namespace Anansi.Hud
open Geom Evq Screen

namespace Spec

/-- A button of `k` columns: the label between brackets, in the middle, cut if necessary. -/
def button (k : Nat) (label : List Nat) : List Nat :=
  let t := Lgv.Spec.fit (k - 4) label
  let p := (k - 4 - t.length) / 2
  [0x5B, 0x20] ++ List.replicate p 0x20 ++ t ++ List.replicate (k - 4 - t.length - p) 0x20 ++ [0x20, 0x5D]

end Spec

/-- `v'` is `v` with the text `t` from column `x` of row `y` on, in the current style, and the
cursor after it. -/
structure Drew (v v' : VScreen) (w h x y : Nat) (t : List Nat) : Prop where
  whole : v'.sc.Whole w h
  settled : Emu.Settled v'
  cur : v'.sc.cur = { v.sc.cur with pt := after w h x y t.length }
  look : ∀ a b, a < w → b < h → v'.sc.look w a b =
    if b = y ∧ x ≤ a ∧ a < x + t.length then some ⟨t.getD (a - x) 0, v.sc.cur.attr⟩ else v.sc.look w a b

theorem drew_run (gr : Nat → Bool) {w h x y : Nat} (rs : List Nat) (hp : ∀ r ∈ rs, Screen.Printable gr r) (v : VScreen)
    (R : Ready v w h x y) (hn : x + rs.length ≤ w) :
    ∃ v', v.write gr (encodeRunes rs) = .ok v' ∧ Drew v v' w h x y rs := by
  obtain ⟨v', e, a, b, c, d⟩ := write_run gr rs hp v R hn
  exact ⟨v', e, a, b, c, d⟩

theorem Drew.nil {v : VScreen} {w h x y : Nat} (R : Ready v w h x y) : Drew v v w h x y [] := by
  refine ⟨R.whole, R.settled, ?_, fun a b _ _ => by rw [if_neg (by simp)]⟩
  have : v.sc.cur.pt = ⟨x + 1, y + 1⟩ := R.cur
  have hx := R.hx
  unfold after
  rw [if_pos (by simpa using hx)]
  simp only [List.length_nil, Nat.add_zero, ← this]

theorem Drew.ready {v v' : VScreen} {w h x y : Nat} {t : List Nat} (D : Drew v v' w h x y t) (hx : x + t.length < w)
    (hy : y < h) : Ready v' w h (x + t.length) y := by
  refine ⟨D.whole, D.settled, ?_, hx, hy⟩
  unfold CurAt
  rw [D.cur]
  unfold after
  rw [if_pos hx]

theorem Drew.append {v v1 v2 : VScreen} {w h x y : Nat} {t u : List Nat} (D : Drew v v1 w h x y t)
    (E : Drew v1 v2 w h (x + t.length) y u) : Drew v v2 w h x y (t ++ u) := by
  have hattr : v1.sc.cur.attr = v.sc.cur.attr := by rw [D.cur]
  refine ⟨E.whole, E.settled, ?_, ?_⟩
  · rw [E.cur, D.cur, List.length_append]
    unfold after
    rw [Nat.add_assoc]
  · intro a b ha hb
    rw [E.look a b ha hb, D.look a b ha hb, hattr, List.length_append]
    by_cases h2 : b = y ∧ x + t.length ≤ a ∧ a < x + t.length + u.length
    · rw [if_pos h2, if_pos (by omega)]
      simp only [List.getD_eq_getElem?_getD]
      rw [List.getElem?_append_right (by omega)]
      congr 4
      omega
    · rw [if_neg h2]
      by_cases h1 : b = y ∧ x ≤ a ∧ a < x + t.length
      · rw [if_pos h1, if_pos (by omega)]
        simp only [List.getD_eq_getElem?_getD]
        rw [List.getElem?_append_left (by omega)]
      · rw [if_neg h1, if_neg (by omega)]

/-- A moved cursor, with the same cells. -/
theorem goto_look (v : VScreen) (p : Pt) (w a b : Nat) : (goto v p).sc.look w a b = v.sc.look w a b := rfl

theorem goto_cur (v : VScreen) (p : Pt) : (goto v p).sc.cur = { v.sc.cur with pt := (goto v p).sc.cur.pt } := rfl

theorem space_bytes : ([0x20] : Bytes) = encodeRunes [0x20] := by decide

/-- A run of blanks. -/
theorem drew_spaces (gr : Nat → Bool) (hsp : Screen.Printable gr 0x20) {w h y : Nat} : ∀ (n : Nat) (v : VScreen) (x : Nat)
    (_ : Ready v w h x y) (_ : x + n < w),
    ∃ v', spaces gr n v = .ok v' ∧ Drew v v' w h x y (List.replicate n 0x20)
  | 0, v, x, R, _ => ⟨v, rfl, Drew.nil R⟩
  | n + 1, v, x, R, hn => by
    obtain ⟨v1, e1, D1⟩ := drew_run gr [0x20] (by simpa using hsp) v R (by simp; omega)
    have R1 := D1.ready (by simp; omega) R.hy
    obtain ⟨v2, e2, D2⟩ := drew_spaces gr hsp n v1 _ R1 (by simp; omega)
    refine ⟨v2, ?_, ?_⟩
    · rw [spaces, space_bytes, e1]
      exact e2
    · have := D1.append D2
      rwa [List.singleton_append, ← List.replicate_succ] at this

/-- The loop that fills up to a column. -/
theorem drew_fill (gr : Nat → Bool) (hsp : Screen.Printable gr 0x20) {w h y : Nat} : ∀ (n : Nat) (v : VScreen) (x : Nat)
    (_ : Ready v w h x y) (_ : x + n < w),
    ∃ v', fill gr ((x + n : Nat) + 1) (n + 1) v = .ok v' ∧ Drew v v' w h x y (List.replicate n 0x20)
  | 0, v, x, R, _ => by
    refine ⟨v, ?_, Drew.nil R⟩
    have : v.sc.cur.pt = ⟨x + 1, y + 1⟩ := R.cur
    rw [fill, if_neg (by rw [this]; simp)]
  | n + 1, v, x, R, hn => by
    have : v.sc.cur.pt = ⟨x + 1, y + 1⟩ := R.cur
    obtain ⟨v1, e1, D1⟩ := drew_run gr [0x20] (by simpa using hsp) v R (by simp; omega)
    have R1 := D1.ready (by simp; omega) R.hy
    obtain ⟨v2, e2, D2⟩ := drew_fill gr hsp n v1 _ R1 (by simp; omega)
    refine ⟨v2, ?_, ?_⟩
    · rw [fill, if_pos (by rw [this]; simp only; omega), space_bytes, e1]
      simp only [Except.bind]
      simp only [List.length_singleton] at e2
      rw [show x + (n + 1) = x + 1 + n from by omega]
      exact e2
    · have := D1.append D2
      rwa [List.singleton_append, ← List.replicate_succ] at this

/-- A cut text. -/
theorem drew_truncated (gr : Nat → Bool) (hel : Screen.Printable gr 0x2026) {w h x y : Nat} (k : Nat) (hk : 1 ≤ k) (rs : List Nat)
    (hp : ∀ r ∈ rs, Screen.Printable gr r) (v : VScreen) (R : Ready v w h x y)
    (hn : x + (Lgv.Spec.fit k rs).length ≤ w) :
    ∃ v', writeTruncated gr k (encodeRunes rs) v = .ok v' ∧ Drew v v' w h x y (Lgv.Spec.fit k rs) := by
  have hv : ∀ r ∈ rs, validRune r = true := fun r hr => (hp r hr).plain.1
  unfold Lgv.Spec.fit at hn
  unfold writeTruncated Lgv.Spec.fit
  rw [runeCount_encodeRunes rs hv]
  by_cases hle : rs.length ≤ k
  · rw [if_pos hle] at hn
    rw [if_neg (by omega), if_pos hle]
    exact drew_run gr rs hp v R (by omega)
  · rw [if_neg hle] at hn
    simp only [List.length_append, List.length_take, List.length_singleton] at hn
    rw [if_pos (by omega), if_neg hle, dropLastRunes_encodeRunes _ rs hv (by omega)]
    rw [show rs.length - ((rs.length : Int) - k + 1).toNat = k - 1 from by omega]
    have hlen : (rs.take (k - 1)).length = k - 1 := by rw [List.length_take]; omega
    obtain ⟨v1, e1, D1⟩ := drew_run gr (rs.take (k - 1)) (fun r hr => hp r (List.mem_of_mem_take hr)) v R (by omega)
    have R1 := D1.ready (by omega) R.hy
    obtain ⟨v2, e2, D2⟩ := drew_run gr [0x2026] (by simpa using hel) v1 R1 (by simp; omega)
    have e3 : encodeRune 0x2026 = encodeRunes [0x2026] := by decide
    refine ⟨v2, ?_, D1.append D2⟩
    rw [e1, e3]
    exact e2

/-! ### Styles -/

/-- A style write changes the current style alone. -/
theorem sgr_one (v : VScreen) (a : Attr) (S : Emu.Settled v) :
    (v.writeSGR [a]).sc = { v.sc with cur := (v.sc.cur.mergeSGR a).1 } ∧ Emu.Settled (v.writeSGR [a]) := by
  unfold Emu.Settled at S
  unfold VScreen.writeSGR
  simp only [VScreen.sgrLoop]
  split
  · simp only [Nat.add_zero]
    split
    · refine ⟨rfl, ?_⟩
      unfold Emu.Settled
      simp only [Buffer.skip, Buffer.write, List.length_append]
      omega
    · refine ⟨rfl, ?_⟩
      unfold Emu.Settled
      simp only [Buffer.write, List.length_append]
      omega
  · simp only [gt_iff_lt, Nat.lt_irrefl, if_false]
    exact ⟨trivial, S⟩

theorem merge_pt (c : Cursor) (a : Attr) : (c.mergeSGR a).1.pt = c.pt := by
  unfold Cursor.mergeSGR
  split <;> rfl

theorem sgr_ready {v : VScreen} {w h x y : Nat} (R : Ready v w h x y) (a : Attr) : Ready (v.writeSGR [a]) w h x y := by
  obtain ⟨e, S⟩ := sgr_one v a R.settled
  refine ⟨?_, S, ?_, R.hx, R.hy⟩
  · rw [e]; exact R.whole.cur _
  · unfold CurAt
    rw [e]
    show (v.sc.cur.mergeSGR a).1.pt = _
    rw [merge_pt]
    exact R.cur

theorem sgr_whole {v : VScreen} {w h : Nat} (W : v.sc.Whole w h) (S : Emu.Settled v) (a : Attr) :
    (v.writeSGR [a]).sc.Whole w h ∧ Emu.Settled (v.writeSGR [a]) ∧ ∀ x y, (v.writeSGR [a]).sc.look w x y = v.sc.look w x y := by
  obtain ⟨e, S'⟩ := sgr_one v a S
  refine ⟨?_, S', fun x y => ?_⟩
  · rw [e]; exact W.cur _
  · rw [e]; rfl

/-! ### Boxes -/

/-- The boxes of a row, when the screen is wide enough for the key, a blank and the value. -/
theorem kv_ok (gr : Nat → Bool) {w h c y : Nat} (v : VScreen) (R : Ready v w h c y) (dw : Nat) (key : List Nat)
    (hp : ∀ r ∈ key, Screen.Printable gr r) (hw : key.length + 1 + dw ≤ w) :
    calcKVBox dw v (encodeRunes key) =
      .ok (Spec.box (w - dw - 1 - key.length) y key.length, Spec.box (w - dw) y dw) := by
  have hc : v.sc.cur.pt = ⟨c + 1, y + 1⟩ := R.cur
  have hyh := R.hy
  have h1 := R.hx
  unfold calcKVBox
  simp only
  rw [max_x R.whole, hc, count_text gr key hp]
  simp only
  rw [mkPt_ok (by omega) (by omega)]
  simp only [Except.bind]
  rw [mkPt_ok (by omega) (by omega)]
  simp only
  rw [mkPt_ok (by omega) (by omega)]
  simp only
  rw [mkPt_ok (by omega) (by omega)]
  simp only [Spec.box, Except.ok.injEq, Prod.mk.injEq, Rect.mk.injEq, Pt.mk.injEq]
  refine ⟨⟨⟨?_, ?_⟩, ?_, ?_⟩, ⟨?_, ?_⟩, ?_, ?_⟩ <;> first | trivial | omega

/-- And the panic when it is not. -/
theorem kv_panics (gr : Nat → Bool) {w h c y : Nat} (v : VScreen) (R : Ready v w h c y) (dw : Nat) (key : List Nat)
    (hp : ∀ r ∈ key, Screen.Printable gr r) (hw : w < key.length + 1 + dw) :
    calcKVBox dw v (encodeRunes key) = .error .panic := by
  unfold calcKVBox
  simp only
  rw [max_x R.whole, count_text gr key hp, mkPt_panic]
  · rfl
  · left; omega

/-- The cell under the last column of a row. -/
theorem goto_below {v : VScreen} {w h y : Nat} (W : v.sc.Whole w h) (S : Emu.Settled v) :
    Ready (goto v ⟨w + 1, y + 1 + 1⟩) w h (w - 1) (min (h - 1) (y + 1)) := by
  have := goto_ready W S ⟨w + 1, y + 1 + 1⟩
  have e1 : min (w - 1) (((w : Int) + 1) - 1).toNat = w - 1 := by omega
  have e2 : min (h - 1) (((y : Int) + 1 + 1) - 1).toNat = min (h - 1) (y + 1) := by omega
  simp only [e1, e2] at this
  exact this

/-- **C92**, headings: wherever the cursor is in a row of a screen wide enough, the title, a
blank and the rule stand at the right end of that row, up to the last column; no other cell
changes; the box returned, where clicks on the heading are looked for, is exactly their place;
and the cursor is below, in the last column. -/
theorem heading_drawn (gr : Nat → Bool) (hsp : Screen.Printable gr 0x20) {w h c y : Nat} (v : VScreen) (R : Ready v w h c y)
    (dw : Nat) (hdw : 1 ≤ dw) (sep title : List Nat) (hs : ∀ r ∈ sep, Screen.Printable gr r) (hl : sep.length = dw)
    (ht : ∀ r ∈ title, Screen.Printable gr r) (hw : title.length + 1 + dw ≤ w) :
    ∃ v', detailHeader gr dw (encodeRunes sep) v (encodeRunes title) =
        .ok (Spec.box (w - dw - 1 - title.length) y (title.length + 1 + dw), v') ∧
      Ready v' w h (w - 1) (min (h - 1) (y + 1)) ∧ v'.sc.cur.attr = v.sc.cur.attr ∧
      v'.sc.cur.attrKnown = v.sc.cur.attrKnown ∧
      ∀ a b, a < w → b < h → v'.sc.look w a b =
        if b = y ∧ w - dw - 1 - title.length ≤ a then
          some ⟨(title ++ [0x20] ++ sep).getD (a - (w - dw - 1 - title.length)) 0, v.sc.cur.attr⟩
        else v.sc.look w a b := by
  have hyh := R.hy
  unfold detailHeader
  rw [kv_ok gr v R dw title ht hw]
  simp only [Except.bind, Spec.box]
  have R1 := goto_at R.whole R.settled (x := w - dw - 1 - title.length) (y := y) (by omega) hyh
  obtain ⟨v1, e1, D1⟩ := drew_run gr title ht _ R1 (by omega)
  rw [e1]
  simp only
  have R2 := D1.ready (by omega) hyh
  obtain ⟨v2, e2, D2⟩ := drew_run gr [0x20] (by simpa using hsp) _ R2 (by simp; omega)
  rw [space_bytes, e2]
  simp only
  have D12 := D1.append D2
  have hx3 : w - dw - 1 - title.length + (title ++ [0x20]).length = w - dw := by simp; omega
  have R3 := D12.ready (by omega) hyh
  rw [hx3] at R3
  have hg : goto v2 ⟨((w - dw : Nat) : Int) + 1, (y : Int) + 1⟩ = v2 := by
    have h1 := goto_at R3.whole R3.settled (x := w - dw) (y := y) (by omega) hyh
    have h2 : (goto v2 ⟨((w - dw : Nat) : Int) + 1, (y : Int) + 1⟩).sc.cur.pt = v2.sc.cur.pt := h1.cur.trans R3.cur.symm
    obtain ⟨⟨cur, grid⟩, buf⟩ := v2
    unfold goto Screen.to at h2 ⊢
    simp only at h2 ⊢
    rw [h2]
  rw [hg]
  obtain ⟨v3, e3, D3⟩ := drew_run gr sep hs _ R3 (by omega)
  rw [e3]
  simp only
  rw [← hx3] at D3
  have D := D12.append D3
  have hlen : (title ++ [0x20] ++ sep).length = title.length + 1 + dw := by simp [hl]; omega
  have emx : (⟨((w - dw : Nat) : Int) + dw + 1, (y : Int) + 1 + 1⟩ : Pt) = ⟨(w : Int) + 1, (y : Int) + 1 + 1⟩ := by
    congr 2; omega
  rw [emx]
  refine ⟨_, ?_, goto_below D.whole D.settled, ?_, ?_, ?_⟩
  · congr 4
    omega
  · show v3.sc.cur.attr = _
    rw [D.cur]
    rfl
  · show v3.sc.cur.attrKnown = _
    rw [D.cur]
    rfl
  · intro a b ha hb
    rw [goto_look, D.look a b ha hb, hlen]
    by_cases hin : b = y ∧ w - dw - 1 - title.length ≤ a
    · rw [if_pos hin, if_pos (by omega)]
      rfl
    · rw [if_neg hin, if_neg (by omega)]
      rfl

/-- **C92**, rows, as they are: with the cursor in the last column, as every row leaves it, the
key, a blank and the value, padded to the width of values, stand in that row, but end before
the last column; no other cell changes.  The box returned begins and ends one column further
right (`row_box_shifted`): this is what is missing in the full statement. -/
theorem row_drawn_partial (gr : Nat → Bool) (hsp : Screen.Printable gr 0x20) {w h y : Nat} (v : VScreen)
    (R : Ready v w h (w - 1) y) (dw : Nat) (key val : List Nat) (hk : ∀ r ∈ key, Screen.Printable gr r)
    (hv : ∀ r ∈ val, Screen.Printable gr r) (hl : val.length ≤ dw) (hw : key.length + 2 + dw ≤ w) :
    ∃ v', detailRow gr dw v (encodeRunes key) (encodeRunes val) =
        .ok (Spec.box (w - dw - 1 - key.length) y (key.length + 1 + dw), v') ∧
      Ready v' w h (w - 1) (min (h - 1) (y + 1)) ∧ v'.sc.cur.attr = v.sc.cur.attr ∧
      v'.sc.cur.attrKnown = v.sc.cur.attrKnown ∧
      ∀ a b, a < w → b < h → v'.sc.look w a b =
        if b = y ∧ w - dw - 2 - key.length ≤ a ∧ a < w - 1 then
          some ⟨(key ++ [0x20] ++ List.replicate (dw - val.length) 0x20 ++ val).getD (a - (w - dw - 2 - key.length)) 0,
            v.sc.cur.attr⟩
        else v.sc.look w a b := by
  have hyh := R.hy
  have hc : v.sc.cur.pt = ⟨((w - 1 : Nat) : Int) + 1, y + 1⟩ := R.cur
  unfold detailRow
  rw [kv_ok gr v R dw key hk (by omega)]
  simp only [Except.bind, Spec.box]
  have ep : mkPt (v.sc.cur.pt.x - ((runeCount (encodeRunes key) : Int) + 2 + dw) + 1) v.sc.cur.pt.y =
      .ok ⟨((w - dw - 2 - key.length : Nat) : Int) + 1, (y : Int) + 1⟩ := by
    rw [hc, count_text gr key hk, mkPt_ok (by simp only; omega) (by simp only; omega)]
    congr 2
    simp only
    omega
  rw [ep]
  simp only
  have R1 := goto_at R.whole R.settled (x := w - dw - 2 - key.length) (y := y) (by omega) hyh
  obtain ⟨v1, e1, D1⟩ := drew_run gr key hk _ R1 (by omega)
  rw [e1]
  simp only
  obtain ⟨v2, e2, D2⟩ := drew_run gr [0x20] (by simpa using hsp) _ (D1.ready (by omega) hyh) (by simp; omega)
  rw [space_bytes, e2]
  simp only
  have D12 := D1.append D2
  have hn : ((dw : Int) - runeCount (encodeRunes val)).toNat = dw - val.length := by
    rw [count_text gr val hv]; omega
  rw [hn]
  obtain ⟨v3, e3, D3⟩ := drew_spaces gr hsp (dw - val.length) v2 _ (D12.ready (by simp; omega) hyh) (by simp; omega)
  rw [e3]
  simp only
  have D13 := D12.append D3
  obtain ⟨v4, e4, D4⟩ := drew_run gr val hv _ (D13.ready (by simp; omega) hyh) (by simp; omega)
  rw [e4]
  simp only
  have D := D13.append D4
  have hlen : (key ++ [0x20] ++ List.replicate (dw - val.length) 0x20 ++ val).length = key.length + 1 + dw := by
    simp; omega
  have emx : (⟨((w - dw : Nat) : Int) + dw + 1, (y : Int) + 1 + 1⟩ : Pt) = ⟨(w : Int) + 1, (y : Int) + 1 + 1⟩ := by
    congr 2; omega
  rw [emx]
  refine ⟨_, ?_, goto_below D.whole D.settled, ?_, ?_, ?_⟩
  · congr 4
    omega
  · show v4.sc.cur.attr = _
    rw [D.cur]
    rfl
  · show v4.sc.cur.attrKnown = _
    rw [D.cur]
    rfl
  · intro a b ha hb
    rw [goto_look, D.look a b ha hb, hlen]
    by_cases hin : b = y ∧ w - dw - 2 - key.length ≤ a ∧ a < w - 1
    · rw [if_pos hin, if_pos (by omega)]
      rfl
    · rw [if_neg hin, if_neg (by omega)]
      rfl

/-! ### Buttons -/

/-- The cursor state a button is written with: the selection style, or over it the button
style if the mouse is there. -/
def buttonCur (t : Theme) (box : Rect) (c : Cursor) : Cursor :=
  if ptIn t.mouse box then ((c.mergeSGR t.select).1.mergeSGR t.button).1 else (c.mergeSGR t.select).1

theorem merge_same {c d : Cursor} (h1 : c.attr = d.attr) (h2 : c.attrKnown = d.attrKnown) (a : Attr) :
    (c.mergeSGR a).1.attr = (d.mergeSGR a).1.attr ∧ (c.mergeSGR a).1.attrKnown = (d.mergeSGR a).1.attrKnown := by
  unfold Cursor.mergeSGR
  rw [h1, h2]
  split
  · exact ⟨rfl, rfl⟩
  · exact ⟨rfl, rfl⟩

theorem merge_known (c : Cursor) (a : Attr) : (c.mergeSGR a).1.attrKnown = true := by
  unfold Cursor.mergeSGR
  split
  · rfl
  · next h => simpa using h

theorem merge_clear {c : Cursor} (h : c.attrKnown = true) : (c.mergeSGR Sgr.clear).1.attr = 0 := by
  unfold Cursor.mergeSGR
  rw [h]
  have h1 : Sgr.diff c.attr Sgr.clear = Sgr.clear := if_pos (by decide)
  have h2 : ∀ a, Sgr.merge a Sgr.clear = Sgr.merge 0 Sgr.clear := fun a => rfl
  simp only [Bool.not_true, Bool.false_eq_true, if_false, h1, h2]
  decide

/-- **C92**, buttons: in a box of at least five columns on the screen, a button fills the box
exactly: brackets at its ends, and between them the label in the middle, cut with an ellipsis
when it does not fit; all in the selection style, or the button style if the mouse is over the
box; no other cell changes, and the style is plain afterwards. -/
theorem button_drawn (gr : Nat → Bool) (hsp : Screen.Printable gr 0x20) (hb1 : Screen.Printable gr 0x5B)
    (hb2 : Screen.Printable gr 0x5D) (hel : Screen.Printable gr 0x2026) {w h : Nat} (v : VScreen) (W : v.sc.Whole w h)
    (S : Emu.Settled v) (t : Theme) (x y k : Nat) (hk : 5 ≤ k) (hx : x + k ≤ w) (hy : y < h) (label : List Nat)
    (hp : ∀ r ∈ label, Screen.Printable gr r) :
    ∃ v', drawButton gr t (Spec.box x y k) (encodeRunes label) v = .ok v' ∧
      Ready v' w h (x + k - 1) (min (h - 1) (y + 1)) ∧ v'.sc.cur.attr = 0 ∧ v'.sc.cur.attrKnown = true ∧
      ∀ a b, a < w → b < h → v'.sc.look w a b =
        if b = y ∧ x ≤ a ∧ a < x + k then
          some ⟨(Spec.button k label).getD (a - x) 0, (buttonCur t (Spec.box x y k) v.sc.cur).attr⟩
        else v.sc.look w a b := by
  have R0 := goto_at W S (x := x) (y := y) (by omega) hy
  have R1 := sgr_ready R0 t.select
  obtain ⟨s1, -⟩ := sgr_one (goto v ⟨x + 1, y + 1⟩) t.select R0.settled
  have hc1 : ((goto v ⟨x + 1, y + 1⟩).writeSGR [t.select]).sc.cur.pt = ⟨x + 1, y + 1⟩ := R1.cur
  unfold drawButton
  simp only [Spec.box] at *
  rw [hc1]
  simp only
  have hrect : mkRect ((x : Int) + 1) ((y : Int) + 1) ((x : Int) + k + 1) ((y : Int) + 1 + 1) =
      .ok ⟨⟨(x : Int) + 1, (y : Int) + 1⟩, ⟨(x : Int) + k + 1, (y : Int) + 1 + 1⟩⟩ := by
    unfold mkRect Geom.rect
    rw [if_neg (by omega)]
    simp only
    rw [if_neg (by omega), if_neg (by omega), if_neg (by omega), if_neg (by omega)]
  rw [hrect]
  simp only [Except.bind]
  generalize hov : ptIn t.mouse ⟨⟨(x : Int) + 1, (y : Int) + 1⟩, ⟨(x : Int) + k + 1, (y : Int) + 1 + 1⟩⟩ = over
  -- the screen before the text
  obtain ⟨v2, e2, R2, A2, K2, L2⟩ : ∃ v2, (if over = true then ((goto v ⟨x + 1, y + 1⟩).writeSGR [t.select]).writeSGR [t.button]
      else (goto v ⟨x + 1, y + 1⟩).writeSGR [t.select]) = v2 ∧ Ready v2 w h x y ∧
      v2.sc.cur.attr = (buttonCur t ⟨⟨(x : Int) + 1, (y : Int) + 1⟩, ⟨(x : Int) + k + 1, (y : Int) + 1 + 1⟩⟩ v.sc.cur).attr ∧ v2.sc.cur.attrKnown = true ∧
      ∀ a b, v2.sc.look w a b = v.sc.look w a b := by
    have m1 := merge_same (c := (goto v ⟨x + 1, y + 1⟩).sc.cur) (d := v.sc.cur) rfl rfl t.select
    have l1 := (sgr_whole R0.whole R0.settled t.select).2.2
    unfold buttonCur
    rw [hov]
    cases over with
    | true =>
      obtain ⟨s2, -⟩ := sgr_one ((goto v ⟨x + 1, y + 1⟩).writeSGR [t.select]) t.button R1.settled
      refine ⟨_, rfl, sgr_ready R1 t.button, ?_, ?_, ?_⟩
      · simp only [if_true]
        rw [s2, s1]
        exact (merge_same m1.1 m1.2 t.button).1
      · simp only [if_true]
        rw [s2]
        exact merge_known _ _
      · intro a b
        simp only [if_true]
        rw [(sgr_whole R1.whole R1.settled t.button).2.2, l1]
        rfl
    | false =>
      refine ⟨_, rfl, R1, ?_, ?_, ?_⟩
      · simp only [Bool.false_eq_true, if_false]
        rw [s1]
        exact m1.1
      · simp only [Bool.false_eq_true, if_false]
        rw [s1]
        exact merge_known _ _
      · intro a b
        simp only [Bool.false_eq_true, if_false]
        rw [l1]
        rfl
  rw [e2]
  -- the text
  have hdx : dx ⟨⟨(x : Int) + 1, (y : Int) + 1⟩, ⟨(x : Int) + k + 1, (y : Int) + 1 + 1⟩⟩ - 4 = ((k - 4 : Nat) : Int) := by
    unfold dx
    simp only
    omega
  rw [hdx]
  have hfit := Lgv.fit_length (k - 4) label (by omega)
  have hob : ([0x5B, 0x20] : Bytes) = encodeRunes [0x5B, 0x20] := by decide
  have hcb : ([0x20, 0x5D] : Bytes) = encodeRunes [0x20, 0x5D] := by decide
  obtain ⟨v3, e3, D3⟩ := drew_run gr [0x5B, 0x20] (by simp [hb1, hsp]) v2 R2 (by simp; omega)
  rw [hob, e3]
  simp only
  have hpad : ((((k - 4 : Nat) : Int) - runeCount (encodeRunes label)) / 2).toNat =
      (k - 4 - (Lgv.Spec.fit (k - 4) label).length) / 2 := by
    rw [count_text gr label hp]
    unfold Lgv.Spec.fit
    by_cases hle : label.length ≤ k - 4
    · rw [if_pos hle]; omega
    · rw [if_neg hle]
      simp only [List.length_append, List.length_take, List.length_singleton]
      omega
  rw [hpad]
  obtain ⟨v4, e4, D4⟩ := drew_spaces gr hsp ((k - 4 - (Lgv.Spec.fit (k - 4) label).length) / 2) v3 _
    (D3.ready (by simp; omega) hy) (by simp; omega)
  rw [e4]
  simp only
  have D34 := D3.append D4
  generalize hp1 : (k - 4 - (Lgv.Spec.fit (k - 4) label).length) / 2 = p1 at D34
  generalize hfl : (Lgv.Spec.fit (k - 4) label).length = n at *
  have hx4 : x + ([0x5B, 0x20] ++ List.replicate p1 0x20).length = x + 2 + p1 := by simp; omega
  have R4 := D34.ready (by omega) hy
  obtain ⟨v5, e5, D5⟩ : ∃ v5, writeTruncated gr ((k - 4 : Nat) : Int) (encodeRunes label) v4 = .ok v5 ∧
      Drew v4 v5 w h (x + ([0x5B, 0x20] ++ List.replicate p1 0x20).length) y (Lgv.Spec.fit (k - 4) label) := by
    have hv : ∀ r ∈ label, validRune r = true := fun r hr => (hp r hr).plain.1
    obtain ⟨v5, e5, D5⟩ := drew_truncated gr hel (k - 4) (by omega) label hp v4 R4 (by omega)
    exact ⟨v5, e5, D5⟩
  rw [e5]
  simp only
  have D35 := D34.append D5
  have hx5 : x + ([0x5B, 0x20] ++ List.replicate p1 0x20 ++ Lgv.Spec.fit (k - 4) label).length = x + 2 + p1 + n := by
    rw [List.length_append, hfl]; omega
  have R5 := D35.ready (by omega) hy
  rw [hx5] at R5
  have hc5 : v5.sc.cur.pt = ⟨((x + 2 + p1 + n : Nat) : Int) + 1, y + 1⟩ := R5.cur
  obtain ⟨v6, e6, D6⟩ := drew_fill gr hsp (k - 4 - n - p1) v5 _ R5 (by omega)
  have hfx : (x : Int) + k + 1 - 2 = ((x + 2 + p1 + n + (k - 4 - n - p1) : Nat) : Int) + 1 := by omega
  have hfuel : ((x : Int) + k + 1 - 2 - v5.sc.cur.pt.x).toNat + 1 = k - 4 - n - p1 + 1 := by
    rw [hc5]
    simp only
    omega
  rw [hfuel, hfx, e6]
  simp only
  rw [← hx5] at D6
  have D36 := D35.append D6
  have hx6 : x + ([0x5B, 0x20] ++ List.replicate p1 0x20 ++ Lgv.Spec.fit (k - 4) label ++
      List.replicate (k - 4 - n - p1) 0x20).length = x + k - 2 := by
    rw [List.length_append, List.length_replicate]; omega
  obtain ⟨v7, e7, D7⟩ := drew_run gr [0x20, 0x5D] (by simp [hb2, hsp]) v6 (D36.ready (by omega) hy) (by simp only [hx6, List.length_cons, List.length_nil]; omega)
  rw [hcb, e7]
  simp only
  have D := D36.append D7
  have hbt : Spec.button k label = [0x5B, 0x20] ++ List.replicate p1 0x20 ++ Lgv.Spec.fit (k - 4) label ++
      List.replicate (k - 4 - n - p1) 0x20 ++ [0x20, 0x5D] := by
    unfold Spec.button
    simp only [hfl, hp1]
  rw [← hbt] at D
  have hlen : (Spec.button k label).length = k := by
    rw [hbt, List.length_append]
    simp only [List.length_cons, List.length_nil]
    omega
  -- the end
  obtain ⟨v8, e8, W8, S8, K8, L8⟩ : ∃ v8, (if over = true then v7.writeSGR [t.select] else v7) = v8 ∧ v8.sc.Whole w h ∧
      Emu.Settled v8 ∧ v8.sc.cur.attrKnown = true ∧ ∀ a b, v8.sc.look w a b = v7.sc.look w a b := by
    cases over with
    | true =>
      obtain ⟨a, b, c⟩ := sgr_whole D.whole D.settled t.select
      refine ⟨_, rfl, a, b, ?_, c⟩
      obtain ⟨e, -⟩ := sgr_one v7 t.select D.settled
      simp only [if_true]
      rw [e]
      exact merge_known _ _
    | false => exact ⟨_, rfl, D.whole, D.settled, by rw [if_neg (by simp), D.cur]; exact K2, fun _ _ => rfl⟩
  rw [e8]
  obtain ⟨W9, S9, L9⟩ := sgr_whole W8 S8 Sgr.clear
  rw [mkPt_ok (by omega) (by omega)]
  obtain ⟨s9, -⟩ := sgr_one v8 Sgr.clear S8
  refine ⟨_, rfl, ?_, ?_, ?_, ?_⟩
  rotate_left 1
  · show (v8.writeSGR [Sgr.clear]).sc.cur.attr = 0
    rw [s9]
    exact merge_clear K8
  · show (v8.writeSGR [Sgr.clear]).sc.cur.attrKnown = true
    rw [s9]
    exact merge_known _ _
  rotate_left 1
  · have := goto_ready W9 S9 ⟨(x : Int) + k + 1 - 1, (y : Int) + 1 + 1⟩
    have g1 : min (w - 1) ((x : Int) + k + 1 - 1 - 1).toNat = x + k - 1 := by omega
    have g2 : min (h - 1) ((y : Int) + 1 + 1 - 1).toNat = min (h - 1) (y + 1) := by omega
    simp only [g1, g2] at this
    exact this
  · intro a b ha hb
    rw [goto_look, L9, L8, D.look a b ha hb, hlen, A2, L2]

/-- "true" or "false". -/
def Spec.boolText (b : Bool) : List Nat := if b then [0x74, 0x72, 0x75, 0x65] else [0x66, 0x61, 0x6C, 0x73, 0x65]

/-- **C92**, switches: an odd number of left presses in the button's box turns the flag over,
an even number leaves it; these presses and no other events are used up; and the row shows the
name and a button that says what the flag is now. -/
theorem toggle_drawn (gr : Nat → Bool) (hsp : Screen.Printable gr 0x20) (hb1 : Screen.Printable gr 0x5B)
    (hb2 : Screen.Printable gr 0x5D) (hel : Screen.Printable gr 0x2026) (htf : ∀ b, ∀ r ∈ Spec.boolText b, Screen.Printable gr r)
    {w h c y : Nat} (v : VScreen) (R : Ready v w h c y) (dw : Nat) (hdw : 5 ≤ dw) (t : Theme) (es : Events) (name : List Nat)
    (hp : ∀ r ∈ name, Screen.Printable gr r) (hw : name.length + 1 + dw ≤ w) (flag : Bool) :
    ∃ v' flag', drawToggleRow gr dw t es v (encodeRunes name) flag =
        .ok (flag', strikeIf (pressIn (Spec.box (w - dw) y dw) 1) es,
          (Spec.box (w - dw - 1 - name.length) y name.length, Spec.box (w - dw) y dw), v') ∧
      (flag' = if es.countP (pressIn (Spec.box (w - dw) y dw) 1) % 2 = 1 then !flag else flag) ∧
      Ready v' w h (w - 1) (min (h - 1) (y + 1)) ∧
      ∀ a b, a < w → b < h → v'.sc.look w a b =
        if b = y ∧ w - dw ≤ a then
          some ⟨(Spec.button dw (Spec.boolText flag')).getD (a - (w - dw)) 0,
            (buttonCur t (Spec.box (w - dw) y dw) v.sc.cur).attr⟩
        else if b = y ∧ w - dw - 1 - name.length ≤ a ∧ a < w - dw - 1 then
          some ⟨name.getD (a - (w - dw - 1 - name.length)) 0, v.sc.cur.attr⟩
        else v.sc.look w a b := by
  have hyh := R.hy
  unfold drawToggleRow
  rw [kv_ok gr v R dw name hp hw]
  simp only [Except.bind, countPressesIn_exact, Nat.zero_add]
  have R1 := goto_at R.whole R.settled (x := w - dw - 1 - name.length) (y := y) (by omega) hyh
  obtain ⟨v1, e1, D1⟩ := drew_run gr name hp _ R1 (by omega)
  have e1' : (goto v (Spec.box (w - dw - 1 - name.length) y name.length).min).write gr (encodeRunes name) = .ok v1 := e1
  rw [e1']
  simp only
  generalize hf : (if es.countP (pressIn (Spec.box (w - dw) y dw) 1) % 2 = 1 then !flag else flag) = flag'
  have hbt : (if flag' = true then [0x74, 0x72, 0x75, 0x65] else [0x66, 0x61, 0x6C, 0x73, 0x65] : Bytes) =
      encodeRunes (Spec.boolText flag') := by cases flag' <;> decide
  rw [hbt]
  have R2 := goto_ready D1.whole D1.settled (Spec.box (w - dw) y dw).min
  obtain ⟨v2, e2, R3, -, -, L2⟩ := button_drawn gr hsp hb1 hb2 hel (goto v1 (Spec.box (w - dw) y dw).min) R2.whole R2.settled t
    (w - dw) y dw hdw (by omega) hyh (Spec.boolText flag') (htf flag')
  rw [e2]
  refine ⟨v2, flag', rfl, rfl, ?_, ?_⟩
  · rw [show w - dw + dw - 1 = w - 1 from by omega] at R3
    exact R3
  · intro a b ha hb
    have hattr : (buttonCur t (Spec.box (w - dw) y dw) (goto v1 (Spec.box (w - dw) y dw).min).sc.cur).attr =
        (buttonCur t (Spec.box (w - dw) y dw) v.sc.cur).attr := by
      have h1 : (goto v1 (Spec.box (w - dw) y dw).min).sc.cur.attr = v.sc.cur.attr := by
        show v1.sc.cur.attr = _
        rw [D1.cur]; rfl
      have h2 : (goto v1 (Spec.box (w - dw) y dw).min).sc.cur.attrKnown = v.sc.cur.attrKnown := by
        show v1.sc.cur.attrKnown = _
        rw [D1.cur]; rfl
      have m := merge_same h1 h2 t.select
      unfold buttonCur
      split
      · exact (merge_same m.1 m.2 t.button).1
      · exact m.1
    rw [L2 a b ha hb, hattr, goto_look, D1.look a b ha hb]
    by_cases h1 : b = y ∧ w - dw ≤ a
    · rw [if_pos h1, if_pos (by omega)]
    · rw [if_neg h1, if_neg (by omega)]
      by_cases h2 : b = y ∧ w - dw - 1 - name.length ≤ a ∧ a < w - dw - 1
      · rw [if_pos h2, if_pos (by omega)]
        rfl
      · rw [if_neg h2, if_neg (by omega)]
        rfl

/-! ### Where it fails -/

/-- Negation for **C92**: on a screen without the columns for the title, a blank and the rule,
a heading panics. -/
theorem heading_panics (gr : Nat → Bool) {w h c y : Nat} (v : VScreen) (R : Ready v w h c y) (dw : Nat) (sep : Bytes)
    (title : List Nat) (ht : ∀ r ∈ title, Screen.Printable gr r) (hw : w < title.length + 1 + dw) :
    detailHeader gr dw sep v (encodeRunes title) = .error .panic := by
  unfold detailHeader
  rw [kv_panics gr v R dw title ht hw]
  rfl

/-- Negation for **C92**: a row panics even when just these columns are there. -/
theorem row_panics (gr : Nat → Bool) {w h y : Nat} (v : VScreen) (R : Ready v w h (w - 1) y) (dw : Nat)
    (key : List Nat) (val : Bytes) (hk : ∀ r ∈ key, Screen.Printable gr r) (hw : w < key.length + 2 + dw) :
    detailRow gr dw v (encodeRunes key) val = .error .panic := by
  unfold detailRow
  by_cases h1 : w < key.length + 1 + dw
  · rw [kv_panics gr v R dw key hk h1]
    rfl
  · rw [kv_ok gr v R dw key hk (by omega)]
    simp only [Except.bind]
    have hc : v.sc.cur.pt = ⟨((w - 1 : Nat) : Int) + 1, y + 1⟩ := R.cur
    rw [mkPt_panic]
    left
    have := R.hx
    rw [hc, count_text gr key hk]
    simp only
    omega

theorem printable_gr0 {r : Nat} (h : plainRune r ∧ gr0 r = true ∧ isEscape r = false ∧ r ≠ 0x0A ∧ r ≠ 0x0D) :
    Screen.Printable gr0 r := ⟨h.1, h.2.1, h.2.2.1, h.2.2.2.1, h.2.2.2.2⟩

/-- A screen of eight columns with the cursor in the last column of its first row. -/
def eight : VScreen := goto (blank 8 2) ⟨9, 1⟩

theorem eight_ready : Ready eight 8 2 7 0 :=
  goto_ready (blank_whole 8 2 (by decide) (by decide)) (blank_settled 8 2) ⟨9, 1⟩

/-- Negation for **C92**: the box of a row is not where the row is drawn: with the key "k" and
the value "v" on two columns, the text begins in column 4, counted from one, and the box
returned in column 5; so the last column of the box, and of the screen, is blank. -/
theorem row_box_shifted : ((detailRow gr0 2 eight [0x6B] [0x76]).toOption.map fun r =>
    (r.1, (List.range 8).map fun a => (r.2.sc.look 8 a 0).map (·.rune))) =
    some (⟨⟨5, 1⟩, ⟨9, 2⟩⟩, [some 0, some 0, some 0, some 0x6B, some 0x20, some 0x20, some 0x76, some 0]) := by
  decide +kernel

/-! ### Examples -/

/-- The heading "ab" with a rule of two columns. -/
example : ∃ v', detailHeader gr0 2 (encodeRunes [0x2D, 0x2D]) eight (encodeRunes [0x61, 0x62]) =
    .ok (⟨⟨4, 1⟩, ⟨9, 2⟩⟩, v') := by
  have hp : ∀ r ∈ [0x20, 0x2D, 0x61, 0x62], Screen.Printable gr0 r := by
    have : ∀ r ∈ [0x20, 0x2D, 0x61, 0x62], (plainRune r ∧ gr0 r = true ∧ isEscape r = false ∧ r ≠ 0x0A ∧ r ≠ 0x0D) := by
      decide +kernel
    exact fun r hr => printable_gr0 (this r hr)
  obtain ⟨v', e, -⟩ := heading_drawn gr0 (hp 0x20 (by simp)) eight eight_ready 2 (by decide) [0x2D, 0x2D] [0x61, 0x62]
    (fun r hr => hp r (by simp at hr; simp [hr])) rfl (fun r hr => hp r (by simp at hr; simp; omega)) (by decide)
  exact ⟨v', e⟩

/-- "ok" in eight columns and "Choose File" in ten. -/
example : Spec.button 8 [0x6F, 0x6B] = [0x5B, 0x20, 0x20, 0x6F, 0x6B, 0x20, 0x20, 0x5D] := by decide
example : Spec.button 10 [67, 104, 111, 111, 115, 101, 32, 70, 105, 108, 101] =
    [0x5B, 0x20, 67, 104, 111, 111, 115, 0x2026, 0x20, 0x5D] := by decide

/-- The button itself, with the mouse elsewhere and over it. -/
example : ((drawButton gr0 { select := 1, button := 2 } (Spec.box 1 0 6) [0x61] (blank 8 2)).toOption.map fun v =>
    (List.range 8).map fun a => (v.sc.look 8 a 0)) =
    some [some ⟨0, 0⟩, some ⟨0x5B, 1⟩, some ⟨0x20, 1⟩, some ⟨0x61, 1⟩, some ⟨0x20, 1⟩, some ⟨0x20, 1⟩, some ⟨0x5D, 1⟩,
      some ⟨0, 0⟩] := by decide +kernel

end Anansi.Hud
