import Verif.Model.Demo
import Verif.Props.Grid
import Verif.Props.Screen
import Verif.Props.Events
/-
C105: what the demo command draws and how it ends.
-/
set_option autoImplicit false

namespace Anansi.Dem
open Geom Evq Screen

namespace Spec

/-- The cell the demo means to show in column `x` of row `y`, both counted from one, on a screen
of `w` columns: the background's green and blue tell the place; every sixteenth row is a ruler
of running digits, which start at `s` and go on from ruler to ruler, with red added. -/
def pattern (s w x y : Nat) : Cell :=
  if y % 16 = 0 then
    let n := s + (y / 16 - 1) * w + (x - 1)
    { rune := 0x30 + n % 10, attr := Sgr.colorBG (Sgr.rgb (UInt8.ofNat n) (UInt8.ofNat x) (UInt8.ofNat y)) }
  else { rune := 0x20, attr := Sgr.colorBG (Sgr.rgb 0 (UInt8.ofNat x) (UInt8.ofNat y)) }

/-- A cell as it is shown: a blank for nothing. -/
def shown (c : Cell) : Cell := { c with rune := if c.rune = 0 then 0x20 else c.rune }

/-- An entry that is the character. -/
def key (r : Nat) (e : Ev) : Bool := decide (e.kind = .rune ∧ e.esc = r)

end Spec

theorem rgb_or (r g b : UInt8) : Sgr.colorBG (Sgr.rgb 0 g b) ||| Sgr.colorBG (Sgr.rgb r 0 0) = Sgr.colorBG (Sgr.rgb r g b) := by
  have h : Sgr.rgb 0 g b ||| Sgr.rgb r 0 0 = Sgr.rgb r g b := by
    unfold Sgr.rgb
    ext i hi
    simp only [BitVec.getElem_or]
    simp
    grind
  rw [← h]
  unfold Sgr.colorBG
  ext i hi
  simp only [BitVec.getElem_or, BitVec.getElem_shiftLeft, BitVec.getElem_setWidth]
  simp
  cases Sgr.bgSet[i] <;> simp
  by_cases hh : i < Sgr.bgShift <;> simp [hh, Bool.and_or_distrib_right]

theorem digit (n : Nat) : runeSweep.getD (n % runeSweep.length) 0 = 0x30 + n % 10 := by
  have : ∀ k < 10, runeSweep.getD k 0 = 0x30 + k := by decide
  exact this (n % 10) (by omega)

theorem fillRow_ok (len : Nat) (y : Int) (line : Bool) : ∀ (k : Nat) (x : Int) (i s : Nat) (cs : List Cell),
    i + k ≤ len → len ≤ cs.length →
    ∃ cs', fillRow len y line k x i s cs = some (s + (if line then k else 0), cs') ∧ cs'.length = cs.length ∧
      ∀ j, cs'[j]? = if i ≤ j ∧ j < i + k then
        some (cellAt line (s + if line then j - i else 0) (x + ((j - i : Nat) : Int)) y) else cs[j]?
  | 0, x, i, s, cs, _, _ => ⟨cs, by simp [fillRow], rfl, fun j => by rw [if_neg (by omega)]⟩
  | k + 1, x, i, s, cs, h, hc => by
    obtain ⟨cs', e, hl, hj⟩ := fillRow_ok len y line k (x + 1) (i + 1) (if line then s + 1 else s)
      (cs.set i (cellAt line s x y)) (by omega) (by simpa using hc)
    refine ⟨cs', ?_, by simpa using hl, fun j => ?_⟩
    · rw [fillRow, if_pos (by omega), e]
      cases line
      · simp
      · simp only [if_true]
        rw [show s + 1 + k = s + (k + 1) by omega]
    · rw [hj j]
      by_cases h1 : j = i
      · subst h1
        rw [if_neg (show ¬ (j + 1 ≤ j ∧ j < j + 1 + k) by omega), if_pos (show j ≤ j ∧ j < j + (k + 1) by omega),
          List.getElem?_set_self (by omega)]
        cases line <;> simp
      · by_cases h2 : i + 1 ≤ j ∧ j < i + 1 + k
        · rw [if_pos h2, if_pos (show i ≤ j ∧ j < i + (k + 1) by omega)]
          have e1 : (if line = true then s + 1 else s) + (if line = true then j - (i + 1) else 0) = s + if line = true then j - i else 0 := by
            cases line
            · simp
            · simp only [if_true]; omega
          rw [e1, show x + 1 + ((j - (i + 1) : Nat) : Int) = x + ((j - i : Nat) : Int) by omega]
        · rw [if_neg h2, if_neg (show ¬ (i ≤ j ∧ j < i + (k + 1)) by omega), List.getElem?_set_ne (by omega)]

/-- A grid of `w` columns and `h` rows in the upper left corner. -/
structure Sized (g : Grid) (w h : Nat) : Prop where
  rect : g.rect = ⟨⟨1, 1⟩, ⟨w + 1, h + 1⟩⟩
  stride : g.stride = w
  len : g.len = w * h
  cap : w * h ≤ g.cells.length

theorem sized_of_whole {g : Grid} {w h : Nat} (W : Grid.Whole g (w, h)) (hw : 1 ≤ w) (hh : 1 ≤ h) : Sized g w h := by
  have hpos : 0 < w * h := Nat.mul_pos hw hh
  have hmin : g.rect.min = ⟨1, 1⟩ := by
    rcases W.min with h1 | h1
    · exact h1
    · have := W.len
      rw [h1] at this
      simp at this
      omega
  refine ⟨?_, W.stride, W.len, by rw [← W.len]; exact W.cap⟩
  have hs := W.size
  obtain ⟨⟨mn, mx⟩, _, _, _⟩ := g
  simp only [Geom.size, Grid.sz, Pt.mk.injEq] at hs hmin
  subst hmin
  obtain ⟨h1, h2⟩ := hs
  simp only [Rect.mk.injEq, true_and]
  obtain ⟨a, b⟩ := mx
  simp only [Pt.mk.injEq] at *
  omega

theorem sized_offset {g : Grid} {w h : Nat} (S : Sized g w h) {a b : Nat} (ha : a < w) (hb : b < h) :
    g.cellOffset? ⟨a + 1, b + 1⟩ = some (some (b * w + a)) := by
  unfold Grid.cellOffset?
  rw [S.rect, S.stride, if_neg (by simp [ptIn]; omega), if_neg (by simp only; omega)]
  simp

/-- Wherever the column was left, every row is written at offset zero. -/
theorem start_zero {g : Grid} {w h : Nat} (S : Sized g w h) (hw : 1 ≤ w) (hh : 1 ≤ h) (p : Pt)
    (hp : p = ⟨1, 1⟩ ∨ p.x = w + 1) : g.offset0? p = some 0 := by
  unfold Grid.offset0?
  rcases hp with rfl | hp
  · have := sized_offset S (a := 0) (b := 0) hw hh
    simp at this
    rw [this]; rfl
  · unfold Grid.cellOffset?
    rw [S.rect, if_pos (by simp [ptIn, hp])]
    rfl

theorem fillRows_ok {g : Grid} {w h : Nat} (S : Sized g w h) (hw : 1 ≤ w) (hh : 1 ≤ h) : ∀ (n y : Nat) (p : Pt) (s : Nat) (cs : List Cell),
    (p = ⟨1, 1⟩ ∨ p.x = w + 1) → p.y = y → 1 ≤ y → y + n = h + 1 → g.len ≤ cs.length →
    ∃ cs', fillRows g ⟨⟨1, 1⟩, ⟨w + 1, h + 1⟩⟩ n p s cs = some cs' ∧ cs'.length = cs.length ∧
      ∀ j, cs'[j]? = if j < w ∧ 0 < n then
        some (cellAt (decide ((h : Int) % 16 = 0))
          (s + w * ((h - 1) / 16 - (y - 1) / 16) + if (h : Int) % 16 = 0 then j else 0) (j + 1) h) else cs[j]?
  | 0, y, p, s, cs, _, _, _, _, _ => ⟨cs, rfl, rfl, fun j => by rw [if_neg (by omega)]⟩
  | n + 1, y, p, s, cs, hp, hy, h1, hn, hc => by
    have hwl : w ≤ g.len := by rw [S.len]; exact Nat.le_mul_of_pos_right w hh
    obtain ⟨cs1, e1, l1, j1⟩ := fillRow_ok g.len p.y (decide (p.y % 16 = 0)) w 1 0 s cs (by omega) hc
    obtain ⟨cs2, e2, l2, j2⟩ := fillRows_ok S hw hh n (y + 1) ⟨w + 1, p.y + 1⟩
      (s + if decide (p.y % 16 = 0) = true then w else 0) cs1 (Or.inr rfl) (by simp [hy]) (by omega) (by omega) (by omega)
    refine ⟨cs2, ?_, by omega, fun j => ?_⟩
    · rw [fillRows, start_zero S hw hh p hp]
      simp only [Option.bind_some]
      rw [show ((w : Int) + 1 - 1).toNat = w by omega, e1]
      simp only [Option.bind_some]
      rw [show max (1 : Int) (w + 1) = w + 1 by omega]
      exact e2
    · rw [j2 j]
      by_cases hj : j < w
      · by_cases h0 : 0 < n
        · rw [if_pos ⟨hj, h0⟩]
          rw [if_pos (show j < w ∧ 0 < n + 1 from ⟨hj, by omega⟩)]
          have : (h - 1) / 16 - (y - 1) / 16 = (if y % 16 = 0 then 1 else 0) + ((h - 1) / 16 - (y + 1 - 1) / 16) := by
            split <;> omega
          rw [this, Nat.mul_add, hy]
          simp only [decide_eq_true_eq]
          have hi : ((y : Int) % 16 = 0) ↔ y % 16 = 0 := by omega
          simp only [hi]
          congr 2
          split <;> omega
        · have hn0 : n = 0 := by omega
          have hyh : y = h := by omega
          rw [if_neg (show ¬ (j < w ∧ 0 < n) by omega), if_pos (show j < w ∧ 0 < n + 1 from ⟨hj, by omega⟩), j1 j,
            if_pos (show 0 ≤ j ∧ j < 0 + w by omega)]
          subst hyh
          rw [hy]
          simp only [Nat.sub_self, Nat.mul_zero, Nat.add_zero, Nat.sub_zero, decide_eq_true_eq]
          congr 2
          omega
      · rw [if_neg (show ¬ (j < w ∧ 0 < n) by omega), if_neg (show ¬ (j < w ∧ 0 < n + 1) by omega), j1 j,
          if_neg (show ¬ (0 ≤ j ∧ j < 0 + w) by omega)]

theorem copyOut_ok {w h : Nat} (hw : 1 ≤ w) : ∀ (l : List Cell) (k : Nat) (o : Grid), Sized o w h →
    k + l.length ≤ w * h →
    ∃ o', copyOut ⟨⟨1, 1⟩, ⟨w + 1, h + 1⟩⟩ l ⟨(k % w : Nat) + 1, (k / w : Nat) + 1⟩ o = some o' ∧ Sized o' w h ∧
      ∀ j, o'.cells[j]? = if k ≤ j ∧ j < k + l.length then (l[j - k]?).map Spec.shown else o.cells[j]?
  | [], k, o, S, _ => ⟨o, rfl, S, fun j => by rw [if_neg (by simp)]⟩
  | c :: l, k, o, S, hk => by
    simp only [List.length_cons] at hk
    have hkw : k / w < h := Nat.div_lt_of_lt_mul (by omega)
    have hoff := sized_offset S (Nat.mod_lt k hw) hkw
    rw [show k / w * w + k % w = k by rw [Nat.mul_comm]; exact Nat.div_add_mod k w] at hoff
    have S1 : Sized { o with cells := o.cells.set k (Spec.shown c) } w h :=
      ⟨S.rect, S.stride, S.len, by simpa using S.cap⟩
    obtain ⟨o', e, S', hj⟩ := copyOut_ok hw l (k + 1) _ S1 (by omega)
    refine ⟨o', ?_, S', fun j => ?_⟩
    · rw [copyOut, hoff]
      simp only [Option.bind_some]
      rw [if_pos (by rw [S.len]; omega)]
      simp only [Option.bind_some]
      have hp : (if ((k % w : Nat) : Int) + 1 + 1 ≥ w + 1 then (⟨1, ((k / w : Nat) : Int) + 1 + 1⟩ : Pt)
          else ⟨((k % w : Nat) : Int) + 1 + 1, ((k / w : Nat) : Int) + 1⟩) = ⟨((k + 1) % w : Nat) + 1, ((k + 1) / w : Nat) + 1⟩ := by
        have hm := Nat.mod_lt k hw
        have hdm := Nat.div_add_mod k w
        by_cases hc : k % w + 1 = w
        · have h1 : k + 1 = w * (k / w + 1) := by rw [Nat.mul_add]; omega
          rw [if_pos (by omega), h1, Nat.mul_mod_right, Nat.mul_div_cancel_left _ hw]
          simp
        · have h1 : k + 1 = (k % w + 1) + w * (k / w) := by omega
          have h2 : (k + 1) % w = k % w + 1 := by
            rw [h1, Nat.add_mul_mod_self_left, Nat.mod_eq_of_lt (by omega)]
          have h3 : (k + 1) / w = k / w := by
            conv_lhs => rw [h1]
            rw [Nat.add_mul_div_left _ _ hw, Nat.div_eq_of_lt (by omega)]
            omega
          rw [if_neg (by omega), h2, h3]
          simp
      rw [hp]
      exact e
    · rw [hj j]
      by_cases h1 : j = k
      · subst h1
        have := S.cap
        rw [if_neg (by omega), if_pos (by simp), List.getElem?_set_self (by omega)]
        simp
      · by_cases h2 : k + 1 ≤ j ∧ j < k + 1 + l.length
        · rw [if_pos h2, if_pos (by simp only [List.length_cons]; omega), show j - k = (j - (k + 1)) + 1 by omega]
          simp
        · rw [if_neg h2, if_neg (by simp only [List.length_cons]; omega), List.getElem?_set_ne (by omega)]

theorem clear_whole {sc : Screen} {w h : Nat} (W : sc.Whole w h) :
    ∃ sc1, sc.clear = .ok sc1 ∧ sc1.Whole w h ∧ sc1.cur = {} := by
  have hsub : sc.grid.isSub = false := by
    unfold Grid.isSub Grid.fullSize
    rw [W.rect, W.stride, W.len, if_neg (by have := W.hw; omega), Nat.mul_div_cancel_left _ (by have := W.hw; omega)]
    simp [Geom.size, Grid.sz]
  refine ⟨{ cur := {}, grid := { sc.grid with cells := List.replicate sc.grid.len ({} : Cell) ++ sc.grid.cells.drop sc.grid.len } },
    ?_, ⟨W.hw, W.hh, W.rect, W.stride, W.len, ?_⟩, rfl⟩
  · unfold Screen.clear Grid.clear
    rw [hsub]
    simp
  · have := W.cap
    simp [W.len]

theorem ofInt_nat (n : Nat) : UInt8.ofInt (n : Int) = UInt8.ofNat n := by
  apply UInt8.toNat_inj.1
  have e : UInt8.ofInt (n : Int) = UInt8.ofNat ((n : Int) % 2 ^ 8).toNat := rfl
  rw [e, UInt8.toNat_ofNat', UInt8.toNat_ofNat']
  omega

theorem cell_pattern (s w h j : Nat) (hh : 1 ≤ h) :
    Spec.shown (cellAt (decide ((h : Int) % 16 = 0)) (s + w * ((h - 1) / 16 - (1 - 1) / 16) + if (h : Int) % 16 = 0 then j else 0) (j + 1) h) =
      Spec.pattern s w (j + 1) h := by
  have hi : ((h : Int) % 16 = 0) ↔ h % 16 = 0 := by omega
  have hx : UInt8.ofInt ((j : Int) + 1) = UInt8.ofNat (j + 1) := by
    rw [show ((j : Int) + 1) = ((j + 1 : Nat) : Int) by simp]; exact ofInt_nat _
  have hy : UInt8.ofInt (h : Int) = UInt8.ofNat h := ofInt_nat _
  unfold cellAt Spec.pattern
  simp only [hi, decide_eq_true_eq, hx, hy]
  by_cases hl : h % 16 = 0
  · rw [if_pos hl, if_pos hl, if_pos hl]
    simp only [Spec.shown, digit, rgb_or]
    have e1 : (h - 1) / 16 - (1 - 1) / 16 = h / 16 - 1 := by omega
    rw [e1, Nat.mul_comm w]
    simp
  · rw [if_neg hl, if_neg hl]
    rfl

/-- **C105**: what one frame shows, whatever was drawn before: the first row shows what is meant
for the last row, and every other cell shows what the demo's own grid happened to hold. -/
theorem frame_drawn (s : Nat) {w h : Nat} (sc : Screen) (W : sc.Whole w h) {d : Grid} {z : Nat × Nat} (D : Grid.Whole d z)
    (hz : z.1 = 0 → z.2 = 0) :
    ∃ d' sc', draw s d sc = some (d', sc') ∧ Grid.Whole d' (w, h) ∧ sc'.Whole w h ∧ sc'.cur = {} ∧
      (∀ j, w ≤ j → d'.cells[j]? = (d.resize (w, h)).1.cells[j]?) ∧
      (∀ a, a < w → sc'.look w a 0 = some (Spec.pattern s w (a + 1) h)) ∧
      ∀ a b, a < w → 0 < b → b < h → sc'.look w a b = ((d.resize (w, h)).1.cells[b * w + a]?).map Spec.shown := by
  obtain ⟨sc1, e1, W1, c1⟩ := clear_whole W
  have hd : dims sc1.grid.rect = (w, h) := by
    rw [W1.rect]; simp [dims, Geom.size]
  have D1 := (Grid.whole_resize (t := (w, h)) D hz).1
  have S1 := sized_of_whole D1 W.hw W.hh
  generalize hg : (d.resize (w, h)).1 = g at D1 S1
  obtain ⟨cs, e2, l2, j2⟩ := fillRows_ok S1 W.hw W.hh h 1 ⟨1, 1⟩ s g.cells (Or.inl rfl) rfl (by omega) (by omega)
    (by rw [S1.len]; exact S1.cap)
  have So : Sized sc1.grid w h := ⟨W1.rect, W1.stride, W1.len, W1.cap⟩
  have hdl : (cs.take (w * h)).length = w * h := by
    rw [List.length_take, l2]; exact Nat.min_eq_left S1.cap
  obtain ⟨o, e3, S3, j3⟩ := copyOut_ok W.hw (cs.take (w * h)) 0 sc1.grid So (by omega)
  have hcell : ∀ a b, a < w → b < h → o.cells[b * w + a]? = (cs[b * w + a]?).map Spec.shown := by
    intro a b ha hb
    have hlt : b * w + a < w * h := by
      have : (b + 1) * w ≤ h * w := Nat.mul_le_mul_right _ hb
      rw [Nat.add_mul] at this
      rw [Nat.mul_comm w]; omega
    rw [j3, if_pos (by omega), Nat.sub_zero, List.getElem?_take, if_pos hlt]
  refine ⟨{ g with cells := cs }, { sc1 with grid := o }, ?_, ?_, ⟨W.hw, W.hh, S3.rect, S3.stride, S3.len, S3.cap⟩, c1, ?_, ?_, ?_⟩
  · unfold draw
    rw [e1]
    simp only [Option.bind_some]
    rw [hd, hg, W1.rect]
    simp only [show ((h : Int) + 1 - 1).toNat = h by omega]
    rw [e2]
    simp only [Option.bind_some, Grid.data]
    rw [S1.rect, S1.len]
    simp only [Nat.zero_mod, Nat.zero_div] at e3
    have e3' : copyOut ⟨⟨1, 1⟩, ⟨w + 1, h + 1⟩⟩ (cs.take (w * h)) ⟨1, 1⟩ sc1.grid = some o := e3
    rw [e3']
    rfl
  · exact ⟨D1.size, D1.len, D1.stride, by
      rcases D1.min with hm | hm
      · exact Or.inl hm
      · exact Or.inl (by rw [S1.rect]), by simp only; rw [l2]; exact D1.cap⟩
  · intro j hj
    simp only
    rw [j2 j, if_neg (by omega)]
  · intro a ha
    have := hcell a 0 ha W.hh
    simp only [Nat.zero_mul, Nat.zero_add] at this
    show o.cells[0 * w + a]? = _
    rw [Nat.zero_mul, Nat.zero_add, this, j2 a, if_pos ⟨ha, W.hh⟩]
    simp only [Option.map_some]
    rw [cell_pattern s w h a W.hh]
  · intro a b ha hb hbh
    have := hcell a b ha hbh
    show o.cells[b * w + a]? = _
    rw [this, j2]
    have : w ≤ b * w := Nat.le_mul_of_pos_left w hb
    rw [if_neg (by omega)]

/-! ### Many frames -/

/-- Frames at the given times on a screen whose size stays. -/
def frames (d : Grid) (sc : Screen) : List Nat → Option (Grid × Screen)
  | [] => some (d, sc)
  | s :: l => (draw s d sc).bind fun q => frames q.1 q.2 l

theorem resize_same {d : Grid} {w h : Nat} (D : Grid.Whole d (w, h)) : (d.resize (w, h)).1 = d := by
  unfold Grid.resize
  rw [D.size, if_pos rfl]

theorem frames_from {w h : Nat} (s : Nat) (l : List Nat) : ∀ {d : Grid} {sc : Screen} {z : Nat × Nat}, sc.Whole w h →
    Grid.Whole d z → (z.1 = 0 → z.2 = 0) → (∀ j, w ≤ j → j < w * h → (d.resize (w, h)).1.cells[j]? = some {}) →
    ∃ d' sc', frames d sc (l ++ [s]) = some (d', sc') ∧ sc'.Whole w h ∧
      ∀ a b, a < w → b < h → sc'.look w a b = some (if b = 0 then Spec.pattern s w (a + 1) h else { rune := 0x20 }) := by
  induction l with
  | nil =>
    intro d sc z W D hz h0
    obtain ⟨d', sc', e, -, W', -, -, r0, r1⟩ := frame_drawn s sc W D hz
    refine ⟨d', sc', by simp only [List.nil_append, frames, e]; rfl, W', ?_⟩
    intro a b ha hb
    by_cases hb0 : b = 0
    · subst hb0
      rw [if_pos rfl, r0 a ha]
    · rw [if_neg hb0, r1 a b ha (by omega) hb, h0 _ _ _]
      · rfl
      · have : w ≤ b * w := Nat.le_mul_of_pos_left w (by omega)
        omega
      · have : (b + 1) * w ≤ h * w := Nat.mul_le_mul_right _ hb
        rw [Nat.add_mul] at this
        rw [Nat.mul_comm w]; omega
  | cons t l ih =>
    intro d sc z W D hz h0
    obtain ⟨d', sc', e, D', W', -, k, -, -⟩ := frame_drawn t sc W D hz
    obtain ⟨d2, sc2, e2, h2⟩ := ih (d := d') (sc := sc') (z := (w, h)) W' D' (fun h => by have := W.hw; omega) (by
      intro j h1 h2
      rw [resize_same D', k j h1]
      exact h0 j h1 h2)
    refine ⟨d2, sc2, ?_, h2⟩
    rw [List.cons_append, frames, e]
    exact e2

theorem fresh_whole : Grid.Whole {} (0, 0) := ⟨by decide, by decide, by decide, Or.inr rfl, by decide⟩

theorem fresh_cells (w h : Nat) (j : Nat) (h1 : w ≤ j) (h2 : j < w * h) : ((({} : Grid).resize (w, h)).1.cells[j]?) = some {} := by
  have hw : ¬ Grid.sz (w, h) = size ({} : Grid).rect := by
    intro hc
    simp only [Grid.sz, size, zr, zp, Pt.mk.injEq] at hc
    have : w = 0 := by omega
    subst this
    omega
  unfold Grid.resize
  rw [if_neg hw, if_neg (by decide)]
  simp only [List.length_nil]
  rw [if_pos (by omega)]
  simp only [List.take_nil, List.nil_append]
  rw [List.getElem?_replicate, if_pos (by omega)]

/-- **C105**: on a screen whose size stays, every frame shows in the first row what is meant for
the last row, and blanks in all others. -/
theorem shows_one_row {w h : Nat} (sc : Screen) (W : sc.Whole w h) (l : List Nat) (s : Nat) :
    ∃ d' sc', frames {} sc (l ++ [s]) = some (d', sc') ∧ sc'.Whole w h ∧
      ∀ a b, a < w → b < h → sc'.look w a b = some (if b = 0 then Spec.pattern s w (a + 1) h else { rune := 0x20 }) :=
  frames_from s l W fresh_whole (fun _ => rfl) (fresh_cells w h)

/-- **C105**, on a screen of one row: every cell shows what is meant for it, at the time of the
frame.  Missing: screens of several rows, where it is false (`rows_missing`). -/
theorem pattern_shown_partial {w : Nat} (sc : Screen) (W : sc.Whole w 1) (l : List Nat) (s : Nat) :
    ∃ d' sc', frames {} sc (l ++ [s]) = some (d', sc') ∧
      ∀ a b, a < w → b < 1 → sc'.look w a b = some (Spec.pattern s w (a + 1) (b + 1)) := by
  obtain ⟨d', sc', e, -, h⟩ := shows_one_row sc W l s
  refine ⟨d', sc', e, fun a b ha hb => ?_⟩
  have : b = 0 := by omega
  subst this
  rw [h a 0 ha hb, if_pos rfl]

theorem colorBG_ne (c : Color) : Sgr.colorBG c ≠ 0 := by
  intro h
  have : (Sgr.colorBG c).getLsbD 58 = true := by
    unfold Sgr.colorBG
    rw [BitVec.getLsbD_or]
    have : Sgr.bgSet.getLsbD 58 = true := by decide
    rw [this]; rfl
  rw [h] at this
  simp at this

theorem pattern_attr (s w x y : Nat) : (Spec.pattern s w x y).attr ≠ 0 := by
  unfold Spec.pattern
  split <;> exact colorBG_ne _

/-- **C105 fails** on every screen of two rows or more: no cell below the first row ever shows
its colour. -/
theorem rows_missing {w h : Nat} (sc : Screen) (W : sc.Whole w h) (l : List Nat) (s : Nat) :
    ∃ d' sc', frames {} sc (l ++ [s]) = some (d', sc') ∧
      ∀ a b, a < w → 0 < b → b < h → sc'.look w a b ≠ some (Spec.pattern s w (a + 1) (b + 1)) := by
  obtain ⟨d', sc', e, -, h⟩ := shows_one_row sc W l s
  refine ⟨d', sc', e, fun a b ha h0 hb => ?_⟩
  rw [h a b ha hb, if_neg (by omega)]
  intro hc
  have := pattern_attr s w (a + 1) (b + 1)
  rw [← Option.some.inj hc] at this
  exact this rfl

/-- **C105 fails** when the screen has become narrower: what the last frame left in the demo's grid
beyond the new width is shown in the rows below. -/
theorem narrower_shows_stale :
    ((draw 0 {} (({} : Screen).resize (6, 2)).1).bind fun q => (draw 0 q.1 (({} : Screen).resize (3, 4)).1).bind fun q =>
      some ((List.range 4).map fun b => (List.range 3).map fun a => (q.2.look 3 a b).map (·.attr))) =
    some [[some (Sgr.colorBG (Sgr.rgb 0 1 4)), some (Sgr.colorBG (Sgr.rgb 0 2 4)), some (Sgr.colorBG (Sgr.rgb 0 3 4))],
          [some (Sgr.colorBG (Sgr.rgb 0 4 2)), some (Sgr.colorBG (Sgr.rgb 0 5 2)), some (Sgr.colorBG (Sgr.rgb 0 6 2))],
          [some 0, some 0, some 0], [some 0, some 0, some 0]] := by
  decide +kernel

/-! ### Keys -/

theorem while_all {α : Type} (p : α → Bool) (l : List α) (h : ∀ x ∈ l, p x = true) : l.takeWhile p = l ∧ l.dropWhile p = [] := by
  induction l with
  | nil => exact ⟨rfl, rfl⟩
  | cons a l ih =>
    obtain ⟨h1, h2⟩ := ih fun x hx => h x (by simp [hx])
    have ha := h a (by simp)
    exact ⟨by rw [List.takeWhile_cons, if_pos ha, h1], by rw [List.dropWhile_cons, if_pos ha, h2]⟩

/-- **C105**, the keys: Ctrl-C ends the demo and takes all input from there on, Ctrl-Z suspends
unless it ends; the escape sequences left are logged unless it ends; and a frame is drawn in any
case. -/
theorem keys_exact {ε : Type} (sec ns : Nat) (suspend : Option ε) (es : Events) {w h : Nat} (sc : Screen) (W : sc.Whole w h)
    {d : Grid} {z : Nat × Nat} (D : Grid.Whole d z) (hz : z.1 = 0 → z.2 = 0) :
    ∃ o, update sec ns suspend d es sc = some o ∧ draw (10 * sec + ns / 100000000) d sc = some (o.grid, o.sc) ∧
      (o.res = .interrupt ↔ ∃ e ∈ es, Spec.key 0x03 e = true) ∧
      (o.suspended = true ↔ (∃ e ∈ es, Spec.key 0x1A e = true) ∧ ∀ e ∈ es, Spec.key 0x03 e = false) ∧
      (∀ f, o.res = .failed f ↔ o.suspended = true ∧ suspend = some f) ∧
      o.es = (es.takeWhile fun e => !Spec.key 0x03 e).map (fun e => if Spec.key 0x1A e then e.struck else e) ++
        (es.dropWhile fun e => !Spec.key 0x03 e).map Ev.struck ∧
      o.logged = if ∃ e ∈ es, Spec.key 0x03 e = true then [] else es.filter fun e => e.kind = .escape := by
  obtain ⟨d', sc', e, -⟩ := frame_drawn (10 * sec + ns / 100000000) sc W D hz
  have hs : sweepOf sec ns = 10 * sec + ns / 100000000 := by
    unfold sweepOf
    rw [Nat.div_div_eq_div_mul]
  have hk : ∀ r e, isRune [r] e = Spec.key r e := by
    intro r e
    simp [isRune, Spec.key]
  obtain ⟨t1, t2, t3⟩ := hasTerminal_strikes 0x03 es
  obtain ⟨c1, -⟩ := countRune_strikes [0x1A] (hasTerminal 0x03 es).1 0
  have c2 := countRune_exact_partial [0x1A] (hasTerminal 0x03 es).1 (by simp)
  simp only [hk] at t1 t2 t3
  have hstruck : ∀ l : Events, strikeIf (isRune [0x1A]) (l.map Ev.struck) = l.map Ev.struck := by
    intro l
    unfold strikeIf
    rw [List.map_map]
    apply List.map_congr_left
    intro e _
    simp [isRune, Ev.struck]
  have hstr : ∀ l : Events, strikeIf (isRune [0x1A]) l = l.map (fun e => if Spec.key 0x1A e then e.struck else e) := by
    intro l
    unfold strikeIf
    apply List.map_congr_left
    intro e _
    rw [hk]
  unfold update
  rw [hs, e]
  simp only [Option.bind_some]
  refine ⟨_, rfl, rfl, ?_⟩
  cases ht : (hasTerminal 0x03 es).2 with
  | true =>
    have hx := t1.1 ht
    have hn : ¬ ∀ e ∈ es, Spec.key 0x03 e = false := by
      obtain ⟨e, he, h1⟩ := hx
      intro hc
      rw [hc e he] at h1
      simp at h1
    refine ⟨by simp [hx], by simp [hn], by simp, ?_, by rw [if_pos hx]; rfl⟩
    simp only
    rw [c1, t3 ht]
    unfold strikeIf
    rw [List.map_append]
    congr 1
    · exact hstr _
    · exact hstruck _
  | false =>
    have hx : ¬ ∃ e ∈ es, Spec.key 0x03 e = true := fun hc => by rw [t1.2 hc] at ht; simp at ht
    have hall : ∀ e ∈ es, Spec.key 0x03 e = false := fun e he => by
      cases hc : Spec.key 0x03 e
      · rfl
      · exact absurd ⟨e, he, hc⟩ hx
    rw [t2 ht] at c1 c2
    have hpos : (countRune [0x1A] 0 (hasTerminal 0x03 es).1).2 > 0 ↔ ∃ e ∈ es, Spec.key 0x1A e = true := by
      rw [t2 ht, c2, gt_iff_lt, List.countP_pos_iff]
      simp only [hk]
    refine ⟨?_, ?_, ?_, ?_, ?_⟩
    · simp only [Bool.false_eq_true, if_false, hx, iff_false]
      split
      · split <;> simp
      · simp
    · simp only [and_true, decide_eq_true_eq, hpos]
      exact ⟨fun h => ⟨h, hall⟩, fun h => h.1⟩
    · intro f
      simp only [Bool.false_eq_true, if_false, and_true, decide_eq_true_eq]
      split
      · cases suspend <;> simp_all
      · simp_all
    · simp only
      obtain ⟨hta, hd⟩ := while_all (fun e => !Spec.key 0x03 e) es (by simpa using hall)
      rw [t2 ht, c1, hstr, hd, hta]
      simp
    · simp only [Bool.false_eq_true, if_false, hx]
      rw [t2 ht, c1]
      unfold strikeIf
      clear * -
      induction es with
      | nil => rfl
      | cons e l ih =>
        rw [List.map_cons, List.filter_cons, List.filter_cons, ih]
        by_cases h : isRune [0x1A] e = true
        · have : e.kind ≠ .escape := by
            intro hc
            simp [isRune, hc] at h
          simp [h, this, Ev.struck]
        · simp [h]

/-! ### Examples -/

example : (({} : Screen).resize (20, 1)).1.Whole 20 1 := (whole_of_resize 20 1 (by omega) (by omega)).1

/-- A ruler in the sixteenth row, at the time 1.3s: on a screen of sixteen rows it is what the first
row shows. -/
example : ((frames {} (({} : Screen).resize (4, 16)).1 [13]).map fun q =>
      (List.range 4).map fun a => (q.2.look 4 a 0)) =
    some [some ⟨0x33, Sgr.colorBG (Sgr.rgb 13 1 16)⟩, some ⟨0x34, Sgr.colorBG (Sgr.rgb 14 2 16)⟩,
      some ⟨0x35, Sgr.colorBG (Sgr.rgb 15 3 16)⟩, some ⟨0x36, Sgr.colorBG (Sgr.rgb 16 4 16)⟩] := by decide +kernel

example : ((update 1 300000000 (some 5) {} [entry 0x1A [], entry 0x61 []] (({} : Screen).resize (2, 1)).1).map fun o =>
      (o.res, o.suspended, o.es.map (·.kind))) = some (.failed 5, true, [.none, .rune]) := by decide +kernel

example : ((update 1 300000000 (some 5) {} [entry 0x1A [], entry 0x03 [], entry 0x61 []] (({} : Screen).resize (2, 1)).1).map
      fun o => (o.res, o.suspended, o.es.map (·.kind))) = some (.interrupt, false, [.none, .none, .none]) := by decide +kernel

/-- **C105**: writing a row panics exactly when it reaches past the cells. -/
theorem row_panics_iff (len : Nat) (y : Int) (line : Bool) : ∀ (k : Nat) (x : Int) (i sweep : Nat) (cs : List Cell),
    fillRow len y line k x i sweep cs = none ↔ 0 < k ∧ len < i + k := by
  intro k
  induction k with
  | zero => intro x i sweep cs; simp [fillRow]
  | succ k ih =>
    intro x i sweep cs
    unfold fillRow
    split
    · rw [ih]; omega
    · simp only [true_iff]; omega

example : fillRow 3 0 true 2 0 2 0 [] = none := by decide +kernel

end Anansi.Dem
