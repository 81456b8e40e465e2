import Verif.Props.TypedShown
import Verif.Props.DrawBitmap
/-
C135: a picture that a program draws on the platform's screen is on the terminal, dot for dot.
-/
set_option autoImplicit false

namespace Anansi
open Vt Geom Render

namespace Direct
open Anansi.Spec

/-- A frame of a program that draws a bitmap on the screen (`platform.go:253-281`, `draw.go:73-98` without styles), as
`cmd/lolwut/interact.go:77-78` does: the screen was reset before.  The cursor is hidden. -/
def pictureFrame (d : Differ) (winch redraw : Option (Nat × Nat)) (b : Bitmap) : Except Fault Differ :=
  (begin d winch redraw).bind fun d =>
    match d.v.sc.grid.drawBitmap b [] with
    | some cells => .ok { d with v := ⟨{ d.v.sc with grid := { d.v.sc.grid with cells } }, d.v.buf⟩, user := {} }
    | none => .error .panic

namespace Spec

/-- The dots of the bitmap are those of the terminal's cells, two by four of them in a cell, from the top on the left; as
far as the terminal goes.  The other cells are blank. -/
def Pictured (t : Term) (b : Bitmap) : Prop :=
  ∀ x y : Nat, x < t.w → y < t.h →
    if (2 * x : Int) < dx b.rect ∧ (4 * y : Int) < dy b.rect then
      0x2800 ≤ (t.cell x y).rune ∧ (t.cell x y).rune < 0x2900 ∧ (t.cell x y).style = {} ∧
        ∀ i j : Nat, i < 2 → j < 4 →
          Bitmap.dotOn (t.cell x y).rune i j = b.bitIn ⟨b.rect.min.x + 2 * x + i, b.rect.min.y + 4 * y + j⟩
    else t.cell x y = blank

end Spec

/-- A whole screen can be drawn on. -/
theorem whole_made {sc : Screen} {w h : Nat} (W : sc.Whole w h) : sc.grid.Made := by
  have hw := W.hw
  have hh := W.hh
  have hwh : 1 ≤ w * h := Nat.one_le_iff_ne_zero.mpr (Nat.mul_ne_zero (by omega) (by omega))
  have hcap := W.cap
  obtain ⟨n, hn⟩ : ∃ n, n = sc.grid.cells.length := ⟨_, rfl⟩
  rw [← hn] at hcap
  have m1 : Grid.Made (Grid.resize {} (n, 1)).1 := .resize _ .zero (Or.inl (by decide))
  have e1 : (Grid.resize {} (n, 1)).1 = { rect := ⟨⟨1, 1⟩, ⟨n + 1, 2⟩⟩, stride := n, len := n, cells := List.replicate n {} } := by
    unfold Grid.resize
    rw [if_neg (by simp [Grid.sz, Geom.size, zr]), if_neg (by decide), if_pos (by simp; omega)]
    simp [ptAdd, Grid.sz, zp, zr, Int.add_comm]
  rw [e1] at m1
  have m2 : Grid.Made { rect := ⟨⟨1, 1⟩, ⟨w + 1, h + 1⟩⟩, stride := w, len := w * h, cells := List.replicate n {} } := by
    by_cases he : n = w ∧ 1 = h
    · obtain ⟨rfl, rfl⟩ := he
      simpa using m1
    · have m := Grid.Made.resize (w, h) m1 (Or.inr rfl)
      have hs : Grid.isSub { rect := ⟨⟨1, 1⟩, ⟨(n : Int) + 1, 2⟩⟩, stride := n, len := n, cells := List.replicate n {} } = false := by
        unfold Grid.isSub Grid.fullSize
        simp only
        rw [if_neg (by omega), Nat.div_self (by omega)]
        simp [Geom.size, Grid.sz]
      unfold Grid.resize at m
      rw [if_neg (by simp only [Grid.sz, Geom.size, Pt.mk.injEq]; omega), if_neg (by rw [hs]; simp), if_neg (by simp; omega)] at m
      simpa [ptAdd, Grid.sz, zp, Int.add_comm] using m
  have m3 := m2.write sc.grid.cells (by simp [hn])
  have : sc.grid = { rect := ⟨⟨1, 1⟩, ⟨w + 1, h + 1⟩⟩, stride := w, len := w * h, cells := sc.grid.cells } := by
    rw [← W.rect, ← W.len, ← W.stride]
  rw [this]
  exact m3

/-- The braille rune of a block of a bitmap. -/
def runeOf (b : Bitmap) (x y : Nat) : Nat :=
  Bitmap.braille fun i j => b.bitIn ⟨(Grid.blockAt b x y).x + i, (Grid.blockAt b x y).y + j⟩

/-- The block is one of the bitmap's. -/
def within (b : Bitmap) (x y : Nat) : Bool := (2 * x : Int) < dx b.rect ∧ (4 * y : Int) < Geom.dy b.rect

theorem plain_cell (b : Bitmap) (p : Pt) (d : Cell) : Grid.bitmapCell (StyleV.styles []).apply b p d =
    ⟨Bitmap.braille fun i j => b.bitIn ⟨p.x + i, p.y + j⟩, 0⟩ := by
  have hne : (Bitmap.braille fun i j => b.bitIn ⟨p.x + i, p.y + j⟩) ≠ 0 := by
    unfold Bitmap.braille; dsimp only; omega
  have hc : ∀ p (d s : Cell), s.rune ≠ 0 → (Grid.styleCell (StyleV.styles []).apply p d s) = ⟨s.rune, 0⟩ := by
    intro p d s h
    have : Grid.styleCell (StyleV.styles []).apply p d s = if s.rune ≠ 0 then ⟨s.rune, 0⟩ else d := rfl
    rw [this, if_pos h]
  exact hc _ _ _ hne

/-- Drawing on a blank screen. -/
theorem draw_on {sc : Screen} {w h : Nat} (W : sc.Whole w h) (hb : ∀ x y, x < w → y < h → sc.look w x y = some {})
    {b : Bitmap} (mb : b.Made) (wf : Grid.WF b.rect) :
    ∃ cells, sc.grid.drawBitmap b [] = some cells ∧ ({ sc with grid := { sc.grid with cells } } : Screen).Whole w h ∧
      ∀ x y, x < w → y < h → ({ sc with grid := { sc.grid with cells } } : Screen).look w x y =
        some (if within b x y then ⟨runeOf b x y, 0⟩ else {}) := by
  have M := whole_made W
  obtain ⟨cs, k1, k2, k3, k4⟩ := Grid.draw_bitmap M mb wf []
  have hrx : ∀ x : Nat, (x : Int) < b.runeSize.x ↔ (2 * x : Int) < dx b.rect := by
    intro x
    unfold Bitmap.runeSize
    simp only [Grid.WF] at wf
    simp only [dx]
    rw [Int.tdiv_eq_ediv_of_nonneg (by omega)]; omega
  have hry : ∀ y : Nat, (y : Int) < b.runeSize.y ↔ (4 * y : Int) < Geom.dy b.rect := by
    intro y
    unfold Bitmap.runeSize
    simp only [Grid.WF] at wf
    simp only [Geom.dy]
    rw [Int.tdiv_eq_ediv_of_nonneg (by omega)]; omega
  have hat : ∀ x y : Nat, Grid.at_ sc.grid x y = ⟨x + 1, y + 1⟩ := by
    intro x y
    simp only [Grid.at_, W.rect, ptAdd, Pt.mk.injEq]; omega
  have hmem : ∀ x y : Nat, x < w → y < h → Mem ⟨x + 1, y + 1⟩ sc.grid.rect := by
    intro x y hx hy
    rw [W.rect]
    simp only [Mem]; omega
  have hoffs : ∀ (x y : Nat) (cells : List Cell), x < w → y < h →
      Grid.cellOffset? { sc.grid with cells } ⟨x + 1, y + 1⟩ = some (some (y * w + x)) := by
    intro x y cells hx hy
    have := Grid.cellOffset_mk (g := { sc.grid with cells }) (hmem x y hx hy)
    rw [this]
    simp [W.stride]
  refine ⟨cs, k1, ⟨W.hw, W.hh, W.rect, W.stride, W.len, by simp only; rw [k2]; exact W.cap⟩, fun x y hx hy => ?_⟩
  by_cases hin : (2 * x : Int) < dx b.rect ∧ (4 * y : Int) < Geom.dy b.rect
  · rw [if_pos (by unfold within; exact decide_eq_true hin)]
    have := k3 x y ((hrx x).mpr hin.1) ((hry y).mpr hin.2) (by rw [hat]; exact hmem x y hx hy)
    rw [hat] at this
    obtain ⟨j, g1, g2, g3⟩ := this
    have e2 : some (some j) = some (some (y * w + x)) := g1.symm.trans (hoffs x y cs hx hy)
    simp only [Option.some.injEq] at e2
    subst e2
    refine g3.trans ?_
    rw [plain_cell]
    rfl
  · rw [if_neg (by unfold within; simpa using hin)]
    show cs[y * w + x]? = _
    rw [k4]
    · exact hb x y hx hy
    · intro a c ha hc hh
      rw [hat] at hh
      have := Grid.cellOffset_injective_partial M hh (hoffs x y sc.grid.cells hx hy)
      simp only [Pt.mk.injEq] at this
      rw [hrx] at ha
      rw [hry] at hc
      omega

/-- What the picture looks like on a terminal. -/
def picGlyph (b : Bitmap) (x y : Nat) : Glyph := if within b x y then ⟨runeOf b x y, {}⟩ else blank

theorem braille_range (on : Nat → Nat → Bool) : 0x2800 ≤ Bitmap.braille on ∧ Bitmap.braille on < 0x2900 := by
  have h : ∀ (c : Bool) (n : Nat), (if c then n else 0) ≤ n := by intro c n; cases c <;> simp
  have h1 := h (on 0 0) 1
  have h2 := h (on 0 1) 2
  have h3 := h (on 0 2) 4
  have h4 := h (on 0 3) 64
  have h5 := h (on 1 0) 8
  have h6 := h (on 1 1) 16
  have h7 := h (on 1 2) 32
  have h8 := h (on 1 3) 128
  have e : Bitmap.braille on = 0x2800 + ((if on 0 0 then 1 else 0) + (if on 0 1 then 2 else 0) + (if on 0 2 then 4 else 0) + (if on 0 3 then 64 else 0) +
    (if on 1 0 then 8 else 0) + (if on 1 1 then 16 else 0) + (if on 1 2 then 32 else 0) + (if on 1 3 then 128 else 0)) := rfl
  omega

theorem runeOf_range (b : Bitmap) (x y : Nat) : 0x2800 ≤ runeOf b x y ∧ runeOf b x y < 0x2900 := by
  unfold runeOf
  exact braille_range _

theorem glyph_pictured (b : Bitmap) (x y : Nat) {g : Glyph} (hg : g = picGlyph b x y) :
    if (2 * x : Int) < dx b.rect ∧ (4 * y : Int) < Geom.dy b.rect then
      0x2800 ≤ g.rune ∧ g.rune < 0x2900 ∧ g.style = {} ∧
        ∀ i j : Nat, i < 2 → j < 4 → Bitmap.dotOn g.rune i j = b.bitIn ⟨b.rect.min.x + 2 * x + i, b.rect.min.y + 4 * y + j⟩
    else g = blank := by
  by_cases hin : (2 * x : Int) < dx b.rect ∧ (4 * y : Int) < Geom.dy b.rect
  · rw [if_pos hin]
    have e : picGlyph b x y = ⟨runeOf b x y, {}⟩ := by
      unfold picGlyph within
      rw [if_pos (decide_eq_true hin)]
    obtain ⟨h1, h2⟩ := runeOf_range b x y
    have h3 : g.rune = runeOf b x y := by rw [hg, e]
    rw [h3]
    refine ⟨h1, h2, by rw [hg, e], fun i j hi hj => ?_⟩
    unfold runeOf
    exact Bitmap.dotOn_braille _ hi hj
  · rw [if_neg hin, hg]
    unfold picGlyph within
    rw [if_neg (by simpa using hin)]

/-- The cells, in reading order, of which each begins a row or follows one of them, are written without awkward jumps. -/
theorem runs_smooth {w : Nat} (hw : 1 ≤ w) {f : Nat → Bool} (hf : ∀ j, f j = true → j % w = 0 ∨ (1 ≤ j ∧ f (j - 1) = true)) :
    ∀ (n s : Nat) (a : Pt), (valid a = true → ∃ i, a = ⟨(i % w : Nat) + 2, (i / w : Nat) + 1⟩ ∧ i < s ∧ ∀ k, i < k → k < s → f k = false) →
      Smooth w a (((List.range' s n).filter f).map (ptOf w))
  | 0, _, _, _ => trivial
  | n + 1, s, a, ha => by
    rw [List.range'_succ, List.filter_cons]
    by_cases hs : f s = true
    · rw [if_pos hs, List.map_cons]
      refine ⟨fun hv hA => ?_, runs_smooth hw hf n (s + 1) _ fun _ => ⟨s, ?_, by omega, fun k h1 h2 => by omega⟩⟩
      · obtain ⟨i, rfl, h2, h3⟩ := ha hv
        unfold Awkward ptOf at hA
        simp only at hA
        have hiw := Nat.mod_lt i (show 0 < w by omega)
        rcases hf s hs with h0 | ⟨h1, h4⟩
        · rw [h0] at hA
          omega
        · have : i = s - 1 := by
            rcases Nat.lt_or_ge i (s - 1) with h | h
            · rw [h3 (s - 1) h (by omega)] at h4
              cases h4
            · omega
          subst this
          have hs1 : s = s - 1 + 1 := by omega
          generalize s - 1 = i at *
          subst hs1
          by_cases hl : i % w + 1 = w
          · have e1 : (i + 1) % w = 0 := by
              have h5 := Nat.div_add_mod i w
              rw [show i + 1 = w * (i / w + 1) by rw [Nat.mul_add]; omega, Nat.mul_mod_right]
            rw [e1] at hA
            omega
          · have e1 : (i + 1) % w = i % w + 1 := by rw [Nat.add_mod, Nat.mod_eq_of_lt (show 1 < w by omega), Nat.mod_eq_of_lt]; omega
            have e2 : (i + 1) / w = i / w := by
              have h5 := Nat.div_add_mod i w
              have h6 := Nat.div_add_mod (i + 1) w
              rw [e1] at h6
              exact Nat.eq_of_mul_eq_mul_left (show 0 < w by omega) (by omega)
            rw [e1, e2] at hA
            omega
      · unfold ptOf
        simp only [Pt.mk.injEq, and_true]
        omega
    · rw [if_neg hs]
      refine runs_smooth hw hf n (s + 1) a fun hv => ?_
      obtain ⟨i, h1, h2, h3⟩ := ha hv
      refine ⟨i, h1, by omega, fun k h4 h5 => ?_⟩
      rcases Nat.lt_or_ge k s with h | h
      · exact h3 k h4 h
      · have : k = s := by omega
        rw [this]
        simpa using hs

theorem row_begins (b : Bitmap) {w : Nat} (hw : 1 ≤ w) (j : Nat) (h : within b (j % w) (j / w) = true) :
    j % w = 0 ∨ (1 ≤ j ∧ within b ((j - 1) % w) ((j - 1) / w) = true) := by
  by_cases h0 : j % w = 0
  · exact Or.inl h0
  · have h5 := Nat.div_add_mod j w
    have hl := Nat.mod_lt j (show 0 < w by omega)
    have hj : j - 1 = w * (j / w) + (j % w - 1) := by omega
    have e1 : (j - 1) % w = j % w - 1 := by
      rw [hj, Nat.mul_add_mod, Nat.mod_eq_of_lt (by omega)]
    have e2 : (j - 1) / w = j / w := by
      rw [hj, Nat.mul_add_div (by omega), Nat.div_eq_of_lt (Nat.lt_of_le_of_lt (Nat.sub_le _ _) hl), Nat.add_zero]
    refine Or.inr ⟨by omega, ?_⟩
    unfold within at h ⊢
    rw [e1, e2]
    simp only [decide_eq_true_eq] at h ⊢
    omega

/-- A picture that is drawn anew takes no awkward jumps. -/
theorem picture_smooth {sc : Screen} {w h : Nat} (hw : 1 ≤ w) (b : Bitmap)
    (hl : ∀ x y, x < w → y < h → sc.look w x y = some (if within b x y then ⟨runeOf b x y, 0⟩ else {})) :
    Smooth w zp (Spec.cells w h none sc) := by
  have e : Spec.cells w h none sc = ((List.range' 0 (w * h)).filter fun i => within b (i % w) (i / w)).map (ptOf w) := by
    unfold Spec.cells points
    rw [List.range_eq_range']
    congr 1
    refine List.filter_congr fun i hi => ?_
    have hi : i < w * h := by simpa using hi
    have h5 := Nat.div_add_mod i w
    have := hl (i % w) (i / w) (Nat.mod_lt _ (by omega)) (Nat.div_lt_of_lt_mul hi)
    unfold Screen.look at this
    rw [show i / w * w + i % w = i by rw [Nat.mul_comm]; exact h5] at this
    show (sc.grid.cells[i]? != some {}) = _
    rw [this]
    cases hwi : within b (i % w) (i / w)
    · simp
    · have := (braille_range fun i' j => b.bitIn ⟨(Grid.blockAt b (i % w) (i / w)).x + i', (Grid.blockAt b (i % w) (i / w)).y + j⟩).1
      have hne : runeOf b (i % w) (i / w) ≠ 0 := by unfold runeOf; omega
      simp [hne]
  rw [e]
  exact runs_smooth hw (row_begins b hw) _ _ _ fun hv => by simp [valid, zp] at hv

/-- A frame of a program that draws pictures: it is drawn without a fault; if it takes no awkward jumps, as when all is
drawn anew, the terminal shows after its flush exactly the picture. -/
theorem picture_frame (gr : Nat → Bool) (hsp : Printable gr 0x20) (hbr : ∀ r, 0x2800 ≤ r → r < 0x2900 → Printable gr r)
    {d : Differ} {t t1 : Term} {old : Option Screen} {a : Pt}
    (Y : Synced d t old a) (redraw : Bool) (cell : Nat → Nat → Glyph) (x y : Nat) (pend : Bool) (ht1 : t1 = { t with cell, x, y, pend })
    (hr : redraw = false → t1 = t) (b : Bitmap) (mb : b.Made) (wf : Grid.WF b.rect) :
    ∃ d1, pictureFrame d none (if redraw then some (t1.w, t1.h) else none) b = .ok d1 ∧
      (redraw = true ∨ (old = none ∧ a = zp) → Smooth t1.w zp (Spec.cells t1.w t1.h none d1.v.sc)) ∧
      (Smooth t1.w (if redraw then zp else a) (Spec.cells t1.w t1.h (if redraw then none else old) d1.v.sc) →
        ((if redraw then none else old) = none → t1.bce = true → t1.style.bg = none) →
        ∃ d' ops, d1.writeTo gr .ok = .ok (d', text ops, none) ∧ (t1.run ops).w = t1.w ∧ (t1.run ops).h = t1.h ∧
          Spec.Pictured (t1.run ops) b ∧ (t1.run ops).vis = false ∧
          Synced d' (t1.run ops) (some d1.v.sc)
            (Spec.stop (if redraw then zp else a) (Spec.cells t1.w t1.h (if redraw then none else old) d1.v.sc))) := by
  have hw1 : t1.w = t.w := by rw [ht1]
  have hh1 : t1.h = t.h := by rw [ht1]
  obtain ⟨v0, e1, W0, hbuf, hcur, hblank⟩ := reset_blank Y
  have Y0 : Synced { d with v := v0, user := {} } t old a := ⟨W0, Y.agree, Y.known, Y.rest, Y.pen⟩
  have hbegin : ∃ d2, begin d none (if redraw then some (t1.w, t1.h) else none) = .ok d2 ∧ d2.v = v0 ∧
      Synced d2 t1 (if redraw then none else old) (if redraw then zp else a) := by
    unfold begin
    simp only [e1]
    cases redraw with
    | false => rw [hr rfl]; exact ⟨_, rfl, rfl, Y0⟩
    | true =>
      have Y1 := redraw_synced Y0 cell x y pend
      rw [← ht1] at Y1
      refine ⟨_, rfl, ?_, ?_⟩
      · show (sizeTo (Differ.invalidate { d with v := v0, user := {} }) (t1.w, t1.h)).v = v0
        rw [sizeTo_same Y1.whole]
        rfl
      · exact sizeTo_synced Y1 t1.w t1.h Y1.whole.hw Y1.whole.hh t1.cell t1.x t1.y t1.pend
  obtain ⟨d2, b1, b2, Y2⟩ := hbegin
  rw [← hw1, ← hh1] at W0
  obtain ⟨cells, g1, g2, g3⟩ := draw_on W0 (fun x y hx hy => by rw [hw1]; exact hblank x y (by omega) (by omega)) mb wf
  refine ⟨_, by unfold pictureFrame; rw [b1]; show (match d2.v.sc.grid.drawBitmap b [] with | some _ => _ | none => _) = _; rw [b2, g1], fun _ => picture_smooth W0.hw b g3, fun hs hbg => ?_⟩
  let pic : Term := { clearTerm t1.w t1.h with cell := picGlyph b }
  have hpic : Shows pic { v0.sc with grid := { v0.sc.grid with cells } } t1.w t1.h := by
    refine ⟨rfl, rfl, fun x y hx hy => ⟨_, g3 x y hx hy, ?_⟩⟩
    show Inked _ (picGlyph b x y)
    unfold picGlyph
    cases hwi : within b x y
    · exact ⟨rfl, rfl, show (0 : Attr) = Sgr.Style.build {} by decide⟩
    · have := (braille_range fun i' j => b.bitIn ⟨(Grid.blockAt b x y).x + i', (Grid.blockAt b x y).y + j⟩).1
      have hne : runeOf b x y ≠ 0 := by unfold runeOf; omega
      refine ⟨?_, rfl, show (0 : Attr) = Sgr.Style.build {} by decide⟩
      simp [ink, hne]
  have hprint : ∀ x y, Printable gr (pic.cell x y).rune := by
    intro x y
    show Printable gr (picGlyph b x y).rune
    unfold picGlyph
    cases within b x y
    · exact hsp
    · exact hbr (runeOf b x y) (braille_range _).1 (braille_range _).2
  obtain ⟨d', ops, h1, h2, h3, h4, h5, h6, h7⟩ :=
    flushed gr hsp Y2 ⟨{ v0.sc with grid := { v0.sc.grid with cells } }, v0.buf⟩ g2 (by rw [hbuf]; rfl) pic hpic hprint {}
      (fun h => by simp [Spec.seen] at h) ⟨by simpa [Spec.seen] using hs, hbg⟩
  refine ⟨d', ops, h1, h2, h3, fun x y hx hy => ?_, h5, h7⟩
  exact glyph_pictured b x y (h4 x y (by omega) (by omega))

/-! ### Sessions -/

/-- A frame: what happened before, whether there is a redraw, and the picture. -/
structure PicTurn where
  before : Before
  redraw : Bool
  pic : Bitmap

/-- Every frame is drawn without a fault, and the terminal shows its picture after its flush, dot for dot, with the cursor
hidden; if only what differs is written, and this takes awkward jumps, nothing is said. -/
def PicShown (gr : Nat → Bool) : Differ → Term → Option Screen → Pt → List PicTurn → Prop
  | _, _, _, _, [] => True
  | d, t, old, a, f :: l =>
    let t1 := f.before.term t
    let old1 := if f.before.forgets f.redraw then none else old
    let a1 := if f.before.forgets f.redraw then zp else a
    f.before.Ok → f.pic.Made → Grid.WF f.pic.rect →
      ∃ d1, pictureFrame d f.before.winch (if f.before.redraws f.redraw then some (t1.w, t1.h) else none) f.pic = .ok d1 ∧
        ((old1 ≠ none → Smooth t1.w a1 (Spec.cells t1.w t1.h old1 d1.v.sc)) → (old1 = none → t1.bce = true → t1.style.bg = none) →
          ∃ d' ops, d1.writeTo gr .ok = .ok (d', text ops, none) ∧ (t1.run ops).w = t1.w ∧ (t1.run ops).h = t1.h ∧
            Spec.Pictured (t1.run ops) f.pic ∧ (t1.run ops).vis = false ∧
            PicShown gr d' (t1.run ops) (some d1.v.sc) (Spec.stop a1 (Spec.cells t1.w t1.h old1 d1.v.sc)) l)

theorem cells_smooth {w h : Nat} {old : Option Screen} {a : Pt} {sc : Screen} (h1 : old = none → Smooth w zp (Spec.cells w h none sc))
    (h2 : old = none → a = zp) (h3 : old ≠ none → Smooth w a (Spec.cells w h old sc)) : Smooth w a (Spec.cells w h old sc) := by
  by_cases h : old = none
  · subst h
    rw [h2 rfl]
    exact h1 rfl
  · exact h3 h

theorem synced_pictures (gr : Nat → Bool) (hsp : Printable gr 0x20) (hbr : ∀ r, 0x2800 ≤ r → r < 0x2900 → Printable gr r) :
    ∀ (l : List PicTurn) (d : Differ) (t : Term) (old : Option Screen) (a : Pt), Synced d t old a → (old = none → a = zp) → PicShown gr d t old a l
  | [], _, _, _, _, _, _ => trivial
  | ⟨b, redraw, pic⟩ :: l, d, t, old, a, Y, ho => by
    intro hb mb wf
    cases b with
    | same =>
      obtain ⟨d1, k1, k2, k3⟩ := picture_frame gr hsp hbr (t1 := t) Y redraw t.cell t.x t.y t.pend rfl (fun _ => rfl) pic mb wf
      refine ⟨d1, k1, fun hs hbg => ?_⟩
      have S := cells_smooth (fun h => k2 (by
        cases redraw with
        | true => exact Or.inl rfl
        | false => exact Or.inr ⟨h, ho h⟩)) (fun h => by
        cases redraw with
        | true => rfl
        | false => exact ho h) hs
      obtain ⟨d', ops, m1, m2, m3, m4, m5, m6⟩ := k3 S hbg
      exact ⟨d', ops, m1, m2, m3, m4, m5, synced_pictures gr hsp hbr l _ _ _ _ m6 (fun h => by cases h)⟩
    | sized w h cell x y pend =>
      have Y1 := sizeTo_synced Y w h hb.1 hb.2 cell x y pend
      obtain ⟨d1, k1, k2, k3⟩ := picture_frame gr hsp hbr (t1 := { t with w, h, cell, x, y, pend }) Y1 redraw cell x y pend rfl (fun _ => rfl) pic mb wf
      rw [show (if redraw then (none : Option Screen) else none) = none by cases redraw <;> rfl,
        show (if redraw then zp else zp) = zp by cases redraw <;> rfl] at k3
      refine ⟨d1, k1, fun hs hbg => ?_⟩
      have S := cells_smooth (fun _ => k2 (Or.inr ⟨rfl, rfl⟩)) (fun _ => rfl) hs
      obtain ⟨d', ops, m1, m2, m3, m4, m5, m6⟩ := k3 S hbg
      exact ⟨d', ops, m1, m2, m3, m4, m5, synced_pictures gr hsp hbr l _ _ _ _ m6 (fun h => by cases h)⟩
    | garbled cell x y pend =>
      obtain ⟨d1, k1, k2, k3⟩ := picture_frame gr hsp hbr (t1 := { t with cell, x, y, pend }) Y true cell x y pend rfl (fun h => (by cases h)) pic mb wf
      refine ⟨d1, k1, fun hs hbg => ?_⟩
      have S := cells_smooth (fun _ => k2 (Or.inl rfl)) (fun _ => rfl) hs
      obtain ⟨d', ops, m1, m2, m3, m4, m5, m6⟩ := k3 S hbg
      exact ⟨d', ops, m1, m2, m3, m4, m5, synced_pictures gr hsp hbr l _ _ _ _ m6 (fun h => by cases h)⟩

/-- **C135**: a program that draws pictures, from entering the terminal on, whatever is on the terminal then.  Partial:
frames that are not drawn anew and take awkward jumps (see `animation_wrong`). -/
theorem pictures_shown_partial (gr : Nat → Bool) (hsp : Printable gr 0x20) (hbr : ∀ r, 0x2800 ≤ r → r < 0x2900 → Printable gr r)
    (t : Term) (hw : 1 ≤ t.w) (hh : 1 ≤ t.h) (l : List PicTurn) : PicShown gr (sizeTo {} (t.w, t.h)) t none zp l := by
  have e : ({} : Differ).invalidate = {} := by decide +kernel
  have Y := new_synced t hw hh
  rw [← e] at Y
  exact synced_pictures gr hsp hbr l _ _ _ _ Y fun _ => rfl

/-! ### Examples, and an animation that comes out wrong -/

/-- Braille runes are graphic, and those of ASCII. -/
def graph (r : Nat) : Bool := Screen.ascii r || (0x2800 ≤ r && r < 0x2900)

/-- The hypotheses on runes hold. -/
example : Printable graph 0x20 ∧ ∀ r, 0x2800 ≤ r → r < 0x2900 → Printable graph r := by
  refine ⟨⟨by decide, by decide, by decide, by decide, by decide⟩, fun r h1 h2 => ⟨by omega, by omega, by omega, ?_, ?_⟩⟩
  · unfold isEscape
    simp
    omega
  · unfold graph
    simp [h1, h2]

/-- A picture of two by two cells. -/
def dotsAt (l : List (Nat × Nat)) : Bitmap :=
  { Bitmap.resize 4 8 with bit := (List.range 32).map fun i => l.contains (i % 4, i / 4) }

/-- It is one that the library makes, of sorted corners. -/
example (l : List (Nat × Nat)) : (dotsAt l).Made ∧ Grid.WF (dotsAt l).rect :=
  ⟨(Bitmap.Made.resize 4 8).write _ (by simp [Bitmap.resize]), show (0 : Int) ≤ 4 ∧ (0 : Int) ≤ 8 by decide⟩

/-- The pictures one after the other on a screen of two by two, the first drawn anew: what each writes. -/
def movie (d : Differ) : List (Bool × Bitmap) → Except Fault (List Bytes)
  | [] => .ok []
  | f :: l => (pictureFrame d none (if f.1 then some (2, 2) else none) f.2).bind fun d =>
    (d.writeTo graph .ok).bind fun r => (movie r.1 l).map fun o => r.2.1 :: o

/-- Negation: two dots appear at once in a blank picture, one in the first cell and one in the last.  The cursor is not
moved down to the second, since it is in its column after the first was written; both are shown in the first row. -/
theorem animation_wrong :
    (movie (sizeTo {} (2, 2)) [(true, dotsAt []), (false, dotsAt [(0, 0), (2, 4)])]).toOption =
      some [text [.hide, .eraseAll, .cup 1 1, .sgr [0], .put 0x2800, .put 0x2800, .cr, .lf, .put 0x2800, .put 0x2800],
        text [.cup 1 1, .put 0x2801, .put 0x2801]] ∧
    let t := (clearTerm 2 2).run [.hide, .eraseAll, .cup 1 1, .sgr [0], .put 0x2800, .put 0x2800, .cr, .lf, .put 0x2800, .put 0x2800,
      .cup 1 1, .put 0x2801, .put 0x2801]
    ¬ Spec.Pictured t (dotsAt [(0, 0), (2, 4)]) := by
  refine ⟨by decide +kernel, fun h => ?_⟩
  have h := h 1 0 (by decide) (by decide)
  rw [if_pos (by decide +kernel)] at h
  have := h.2.2.2 0 0 (by decide) (by decide)
  revert this
  decide +kernel

end Direct
end Anansi
