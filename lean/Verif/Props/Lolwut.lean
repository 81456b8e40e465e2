import Verif.Model.Lolwut
import Verif.Props.Line
import Verif.Props.DrawBitmap
import Verif.Props.Demo
import Verif.Props.Screen
/-
C109: the picture of squares and its interactive mode.
-/
set_option autoImplicit false

namespace Anansi.Lol
open Geom Evq

/-- Where the centre of a square belongs: a grid of squares from the padding on; those below the
first row are shifted. -/
def Spec.centre (side padding : Int) (t : Turn) (x y : Nat) : Pt :=
  let c : Pt := ⟨x * side + side / 2 + padding, y * side + side / 2 + padding⟩
  if y = 0 then c else ⟨c.x + t.shift.x, c.y + t.shift.y⟩

/-- The points of the picture, given the points `L` of each line: the four sides of each square. -/
def Spec.onPicture (L : Pt → Pt → List Pt) (art : Nat → Nat → Turn) (side padding : Int) (cols rows : Nat) (q : Pt) : Prop :=
  ∃ x y i : Nat, x < cols ∧ y < rows ∧ i < 4 ∧
    let c := Spec.centre side padding (art x y) x y
    let at_ (k : Nat) : Pt := ⟨c.x + ((art x y).corner k).x, c.y + ((art x y).corner k).y⟩
    q ∈ L (at_ i) (at_ (i + 1))

/-- A change of a bitmap that sets the given points, as far as they are on it. -/
def Draws (f : Bitmap → Option Bitmap) (S : Pt → Prop) : Prop :=
  ∀ b : Bitmap, b.Made → ∃ bits, f b = some { b with bit := bits } ∧ bits.length = b.bit.length ∧
    ∀ q, ({ b with bit := bits } : Bitmap).bitIn q = true ↔ b.bitIn q = true ∨ (S q ∧ Mem q b.rect)

theorem Draws.none_ : Draws some (fun _ => False) := fun b _ => ⟨b.bit, rfl, rfl, by simp⟩

theorem Draws.bind {f g : Bitmap → Option Bitmap} {S T : Pt → Prop} (hf : Draws f S) (hg : Draws g T) :
    Draws (fun b => (f b).bind g) (fun q => S q ∨ T q) := by
  intro b m
  obtain ⟨b1, h1, h2, h3⟩ := hf b m
  obtain ⟨b2, g1, g2, g3⟩ := hg _ (m.write b1 h2)
  refine ⟨b2, by show (f b).bind g = _; rw [h1, Option.bind_some, g1], g2.trans h2, fun q => ?_⟩
  rw [show ({ b with bit := b2 } : Bitmap) = { ({ b with bit := b1 } : Bitmap) with bit := b2 } from rfl, g3, h3]
  simp only
  tauto

theorem Draws.congr {f g : Bitmap → Option Bitmap} {S T : Pt → Prop} (hf : Draws f S) (hfg : ∀ b, f b = g b)
    (hs : ∀ q, S q ↔ T q) : Draws g T := by
  intro b m
  obtain ⟨b1, h1, h2, h3⟩ := hf b m
  exact ⟨b1, by rw [← hfg, h1], h2, fun q => by rw [h3, hs]⟩

/-- The points of every line. -/
theorem lines : ∃ L : Pt → Pt → List Pt, (∀ fr dst, Spec.IsLine fr dst (L fr dst)) ∧
    ∀ fr dst, Draws (fun b => line b fr dst) (fun q => q ∈ L fr dst) := by
  have h := fun fr dst => Line.points_line fr dst (n := max (dst.x - fr.x).natAbs (dst.y - fr.y).natAbs) (le_refl _)
  choose L h1 h2 using h
  refine ⟨L, h2, fun fr dst b m => ?_⟩
  obtain ⟨bits, g1, g2, g3⟩ := Line.setAll_get true (L fr dst) m
  refine ⟨bits, ?_, g2, fun q => ?_⟩
  · unfold line Line.drawLine
    rw [h1]
    exact g1
  · unfold Bitmap.bitIn
    rw [g3]
    split
    · rename_i hq; simp [hq]
    · rename_i hq
      constructor
      · intro h; exact Or.inl h
      · rintro (h | h)
        · exact h
        · exact absurd h hq

variable {L : Pt → Pt → List Pt} (hL : ∀ fr dst, Draws (fun b => line b fr dst) (fun q => q ∈ L fr dst))
include hL

theorem sides_draws (c : Pt) (t : Turn) : ∀ k i, Draws (sides c t k i)
    (fun q => ∃ j, i ≤ j ∧ j < i + k ∧ q ∈ L (ptAdd (t.corner j) c) (ptAdd (t.corner (j + 1)) c)) := by
  intro k
  induction k with
  | zero =>
    intro i
    refine Draws.none_.congr (fun b => rfl) (fun q => ⟨False.elim, ?_⟩)
    rintro ⟨j, h1, h2, _⟩; omega
  | succ k ih =>
    intro i
    refine ((hL _ _).bind (ih (i + 1))).congr (fun b => rfl) (fun q => ⟨?_, ?_⟩)
    · rintro (h | ⟨j, h1, h2, h3⟩)
      · exact ⟨i, le_refl _, by omega, h⟩
      · exact ⟨j, by omega, by omega, h3⟩
    · rintro ⟨j, h1, h2, h3⟩
      by_cases h : j = i
      · subst h; exact Or.inl h3
      · exact Or.inr ⟨j, by omega, by omega, h3⟩

theorem rowFrom_draws (d : Demo) (art : Nat → Nat → Turn) (y : Nat) : ∀ k x, Draws (rowFrom d art y k x)
    (fun q => ∃ x' j, x ≤ x' ∧ x' < x + k ∧ j < 4 ∧ q ∈ L (ptAdd ((art x' y).corner j) (d.centre (art x' y) x' y))
      (ptAdd ((art x' y).corner (j + 1)) (d.centre (art x' y) x' y))) := by
  intro k
  induction k with
  | zero =>
    intro x
    refine Draws.none_.congr (fun b => rfl) (fun q => ⟨False.elim, ?_⟩)
    rintro ⟨x', j, h1, h2, _⟩; omega
  | succ k ih =>
    intro x
    refine ((sides_draws hL _ _ 4 0).bind (ih (x + 1))).congr (fun b => rfl) (fun q => ⟨?_, ?_⟩)
    · rintro (⟨j, h1, h2, h3⟩ | ⟨x', j, h1, h2, h3, h4⟩)
      · exact ⟨x, j, le_refl _, by omega, by omega, h3⟩
      · exact ⟨x', j, by omega, by omega, h3, h4⟩
    · rintro ⟨x', j, h1, h2, h3, h4⟩
      by_cases h : x' = x
      · subst h; exact Or.inl ⟨j, by omega, by omega, h4⟩
      · exact Or.inr ⟨x', j, by omega, by omega, h3, h4⟩

theorem rowsFrom_draws (d : Demo) (art : Nat → Nat → Turn) : ∀ k y, Draws (rowsFrom d art k y)
    (fun q => ∃ x' y' j, x' < d.perRow.toNat ∧ y ≤ y' ∧ y' < y + k ∧ j < 4 ∧
      q ∈ L (ptAdd ((art x' y').corner j) (d.centre (art x' y') x' y'))
      (ptAdd ((art x' y').corner (j + 1)) (d.centre (art x' y') x' y'))) := by
  intro k
  induction k with
  | zero =>
    intro x
    refine Draws.none_.congr (fun b => rfl) (fun q => ⟨False.elim, ?_⟩)
    rintro ⟨x', y', j, h0, h1, h2, _⟩; omega
  | succ k ih =>
    intro y
    refine ((rowFrom_draws hL d art y d.perRow.toNat 0).bind (ih (y + 1))).congr (fun b => rfl) (fun q => ⟨?_, ?_⟩)
    · rintro (⟨x', j, h1, h2, h3, h4⟩ | ⟨x', y', j, h0, h1, h2, h3, h4⟩)
      · exact ⟨x', y, j, by omega, le_refl _, by omega, h3, h4⟩
      · exact ⟨x', y', j, h0, by omega, by omega, h3, h4⟩
    · rintro ⟨x', y', j, h0, h1, h2, h3, h4⟩
      by_cases h : y' = y
      · subst h; exact Or.inl ⟨x', j, by omega, by omega, h3, h4⟩
      · exact Or.inr ⟨x', y', j, h0, by omega, by omega, h3, h4⟩

/-- The picture: exactly the points of the sides of the squares are set, as far as they are on
the canvas, besides what was set before. -/
theorem draw_picture (d : Demo) (hd : 0 ≤ d.side) (art : Nat → Nat → Turn) (m : d.canvas.Made) :
    ∃ bits, d.draw art = some { d with canvas := { d.canvas with bit := bits } } ∧ bits.length = d.canvas.bit.length ∧
      ∀ q, ({ d.canvas with bit := bits } : Bitmap).bitIn q = true ↔ d.canvas.bitIn q = true ∨
        (Spec.onPicture L art d.side d.padding d.perRow.toNat d.perCol.toNat q ∧ Mem q d.canvas.rect) := by
  obtain ⟨bits, h1, h2, h3⟩ := rowsFrom_draws hL d art d.perCol.toNat 0 d.canvas m
  refine ⟨bits, by unfold Demo.draw; rw [h1]; rfl, h2, fun q => ?_⟩
  rw [h3]
  have hc : ∀ t x y, d.centre t x y = Spec.centre d.side d.padding t x y := by
    intro t x y
    unfold Demo.centre Spec.centre
    rw [Int.tdiv_eq_ediv_of_nonneg hd]
    by_cases hy : y = 0
    · subst hy; simp
    · rw [if_pos (by omega), if_neg hy]
  refine or_congr Iff.rfl (and_congr ⟨?_, ?_⟩ Iff.rfl)
  · rintro ⟨x, y, j, k1, k2, k3, k4, k5⟩
    refine ⟨x, y, j, k1, by omega, k4, ?_⟩
    simp only [hc, ptAdd, Int.add_comm (((art x y).corner _).x), Int.add_comm (((art x y).corner _).y)] at k5
    exact k5
  · rintro ⟨x, y, j, k1, k2, k4, k5⟩
    refine ⟨x, y, j, k1, by omega, by omega, k4, ?_⟩
    simp only [hc, ptAdd, Int.add_comm (((art x y).corner _).x), Int.add_comm (((art x y).corner _).y)]
    exact k5

omit hL

/-! ### Frames -/

/-- A canvas for a screen of `w` by `h` cells. -/
structure Canvas (b : Bitmap) (w h : Nat) : Prop where
  made : b.Made
  rect : b.rect = ⟨⟨0, 0⟩, ⟨2 * w, 4 * h⟩⟩

theorem canvas_resize (w h : Nat) : Canvas (Bitmap.resize (w * 2) (h * 4)) w h :=
  ⟨.resize _ _, by simp [Bitmap.resize]; omega⟩

theorem wipe_off (b : Bitmap) (q : Pt) : ({ b with bit := b.bit.map fun _ => false } : Bitmap).bitIn q = false := by
  unfold Bitmap.bitIn Bitmap.get Bitmap.index Bitmap.bitAt
  by_cases h : ptIn q b.rect
  · simp only [h, if_true]
    split
    · simp
    · simp
  · simp [h]

/-- What the screen shows of a picture: in the cells that the canvas covers the braille rune of
its dots, and nothing elsewhere. -/
def Spec.ShowsPicture (L : Pt → Pt → List Pt) (art : Nat → Nat → Turn) (d : Demo) (cw ch : Nat) (sc : Screen) (w h : Nat) : Prop :=
  ∀ x y, x < w → y < h →
    if x < cw ∧ y < ch then
      ∃ c lit, sc.look w x y = some c ∧ c.rune = Bitmap.braille lit ∧ ∀ i j, i < 2 → j < 4 →
        (lit i j = true ↔ Spec.onPicture L art d.side d.padding d.perRow.toNat d.perCol.toNat ⟨2 * x + i, 4 * y + j⟩)
    else sc.look w x y = some {}

theorem show_ok {L : Pt → Pt → List Pt} (hL : ∀ fr dst, Draws (fun b => line b fr dst) (fun q => q ∈ L fr dst))
    (d : Demo) (hd : 0 ≤ d.side) {cw ch : Nat} (C : Canvas d.canvas cw ch) (art : Nat → Nat → Turn) {w h : Nat}
    (sc : Screen) (W : sc.Whole w h) (M : sc.grid.Made) :
    ∃ b sc', d.show art sc = some ({ d with canvas := b }, sc') ∧ Canvas b cw ch ∧ sc'.Whole w h ∧ sc'.grid.Made ∧
      Spec.ShowsPicture L art d cw ch sc' w h := by
  have mw : d.wipe.canvas.Made := C.made.write _ (by simp)
  obtain ⟨bits, h1, h2, h3⟩ := draw_picture hL d.wipe hd art mw
  have hoff : ∀ q, d.wipe.canvas.bitIn q = false := fun q => wipe_off d.canvas q
  have hsub : sc.grid.isSub = false := by
    unfold Grid.isSub Grid.fullSize
    rw [W.rect, W.stride, W.len, if_neg (by have := W.hw; omega), Nat.mul_div_cancel_left _ (by have := W.hw; omega)]
    simp [Geom.size, Grid.sz]
  let cells0 := List.replicate sc.grid.len ({} : Cell) ++ sc.grid.cells.drop sc.grid.len
  have hcl : cells0.length = sc.grid.cells.length := by
    have := W.cap
    have := W.len
    simp [cells0]; omega
  have hclear : sc.clear = .ok { cur := {}, grid := { sc.grid with cells := cells0 } } := by
    unfold Screen.clear Grid.clear
    rw [hsub]
    simp [cells0]
  let b : Bitmap := { d.wipe.canvas with bit := bits }
  have mb : b.Made := mw.write bits h2
  have hbr : b.rect = ⟨⟨0, 0⟩, ⟨2 * cw, 4 * ch⟩⟩ := C.rect
  have M0 : Grid.Made { sc.grid with cells := cells0 } := M.write _ hcl
  obtain ⟨cs, k1, k2, k3, k4⟩ := Grid.draw_bitmap M0 mb (by unfold Grid.WF; rw [hbr]; simp) []
  have hrx : b.runeSize.x = cw := by
    unfold Bitmap.runeSize
    rw [hbr]
    simp only [dx]
    rw [Int.tdiv_eq_ediv_of_nonneg (by omega)]; omega
  have hry : b.runeSize.y = ch := by
    unfold Bitmap.runeSize
    rw [hbr]
    simp only [Geom.dy]
    rw [Int.tdiv_eq_ediv_of_nonneg (by omega)]; omega
  have hat : ∀ x y : Nat, Grid.at_ { sc.grid with cells := cells0 } x y = ⟨x + 1, y + 1⟩ := by
    intro x y
    simp only [Grid.at_, W.rect, ptAdd, Pt.mk.injEq]; omega
  have hmem : ∀ x y : Nat, x < w → y < h → Mem ⟨x + 1, y + 1⟩ sc.grid.rect := by
    intro x y hx hy
    rw [W.rect]
    simp only [Mem]; omega
  have hoffs : ∀ (x y : Nat) (cells : List Cell), x < w → y < h →
      Grid.cellOffset? { sc.grid with cells } ⟨x + 1, y + 1⟩ = some (some (y * w + x)) := by
    intro x y cells hx hy
    have := Grid.cellOffset_mk (g := { sc.grid with cells }) (hmem x y hx hy)
    rw [this]
    simp [W.stride]
  refine ⟨b, { cur := {}, grid := { sc.grid with cells := cs } }, ?_, ⟨mb, hbr⟩,
    ⟨W.hw, W.hh, W.rect, W.stride, W.len, by simp only; rw [k2]; simp only; rw [hcl]; exact W.cap⟩, M0.write cs k2, ?_⟩
  · unfold Demo.show
    rw [h1, Option.bind_some, hclear]
    simp only [Option.bind_some]
    have : Grid.drawBitmap { sc.grid with cells := cells0 } { d.wipe.canvas with bit := bits } [] = some cs := k1
    rw [this]
    rfl
  · intro x y hx hy
    by_cases hin : x < cw ∧ y < ch
    · rw [if_pos hin]
      have := k3 x y (by rw [hrx]; omega) (by rw [hry]; omega) (by rw [hat]; exact hmem x y hx hy)
      rw [hat] at this
      obtain ⟨j, g1, g2, g3⟩ := this
      have e := hoffs x y cs hx hy
      have e2 : some (some j) = some (some (y * w + x)) := g1.symm.trans e
      simp only [Option.some.injEq] at e2
      subst e2
      refine ⟨_, _, g3, Grid.draw_bitmap_plain _ _, fun i j hi hj => ?_⟩
      have hp : (⟨(Grid.blockAt b x y).x + i, (Grid.blockAt b x y).y + j⟩ : Pt) = ⟨2 * x + i, 4 * y + j⟩ := by
        simp only [Grid.blockAt, hbr, Pt.mk.injEq]; omega
      rw [hp]
      have hq := h3 ⟨2 * x + i, 4 * y + j⟩
      rw [hoff] at hq
      refine hq.trans ⟨?_, ?_⟩
      · rintro (h | h)
        · simp at h
        · exact h.1
      · intro h
        refine Or.inr ⟨h, ?_⟩
        show Mem _ d.canvas.rect
        rw [C.rect]
        simp only [Mem]; omega
    · rw [if_neg hin]
      show cs[y * w + x]? = _
      rw [k4]
      · show cells0[y * w + x]? = _
        have hlt : y * w + x < sc.grid.len := by rw [W.len]; exact Screen.idx_lt hx hy
        simp [cells0, List.getElem?_append, hlt]
      · intro a c ha hc hh
        rw [hat] at hh
        have e := hoffs x y cells0 hx hy
        have := Grid.cellOffset_injective_partial M0 hh e
        simp only [Pt.mk.injEq] at this
        rw [hrx] at ha
        rw [hry] at hc
        omega

theorem Canvas.unique {b : Bitmap} {w h w' h' : Nat} (c : Canvas b w h) (c' : Canvas b w' h') : w = w' ∧ h = h' := by
  have := c.rect.symm.trans c'.rect
  simp only [Rect.mk.injEq, Pt.mk.injEq] at this
  omega

/-- How far the wheel was turned, downward counting up: within the screen, and before a Ctrl-C. -/
def Spec.turns (box : Rect) (es : Events) : Int :=
  ((es.takeWhile fun e => !Dem.Spec.key 0x03 e).countP (scrollIn box 5) : Int) -
    ((es.takeWhile fun e => !Dem.Spec.key 0x03 e).countP (scrollIn box 4) : Int)

/-- What the keys leave of the input and what they say. -/
theorem keys_read (es : Events) :
    ((hasTerminal 0x03 es).2 = true ↔ ∃ e ∈ es, Dem.Spec.key 0x03 e = true) ∧
    (((countRune [0x1A] 0 (hasTerminal 0x03 es).1).2 > 0 ∧ (hasTerminal 0x03 es).2 = false) ↔
      (∃ e ∈ es, Dem.Spec.key 0x1A e = true) ∧ ∀ e ∈ es, Dem.Spec.key 0x03 e = false) ∧
    (countRune [0x1A] 0 (hasTerminal 0x03 es).1).1 =
      (es.takeWhile fun e => !Dem.Spec.key 0x03 e).map (fun e => if Dem.Spec.key 0x1A e then e.struck else e) ++
        (es.dropWhile fun e => !Dem.Spec.key 0x03 e).map Ev.struck := by
  obtain ⟨o, h1, _, h2, h3, _, h4, _⟩ := Dem.keys_exact (ε := Unit) 0 0 none es (({} : Screen).resize (1, 1)).1
    (Screen.whole_of_resize 1 1 (by omega) (by omega)).1 (d := {}) (z := (0, 0)) ⟨rfl, rfl, rfl, Or.inr rfl, by simp⟩ (fun _ => rfl)
  unfold Dem.update at h1
  simp only [Option.bind_eq_some_iff, Option.some.injEq] at h1
  obtain ⟨q, _, rfl⟩ := h1
  simp only at h2 h3 h4
  refine ⟨?_, ?_, h4⟩
  · rw [← h2]
    cases (hasTerminal 0x03 es).2
    · simp only [Bool.false_eq_true, false_iff, if_false]
      split <;> simp
    · simp
  · rw [← h3]; simp

theorem turns_read (box : Rect) (es : Events) :
    (totalScrollIn box 0 (countRune [0x1A] 0 (hasTerminal 0x03 es).1).1).2 = Spec.turns box es := by
  rw [(keys_read es).2.2, totalScrollIn_exact]
  have hz : ∀ (b : BitVec 8) (l : Events), (l.map Ev.struck).countP (scrollIn box b) = 0 := by
    intro b l
    rw [List.countP_map, List.countP_eq_zero]
    intro e _
    simp [scrollIn, Ev.struck]
  have hk : ∀ (b : BitVec 8) (l : Events),
      (l.map fun e => if Dem.Spec.key 0x1A e then e.struck else e).countP (scrollIn box b) = l.countP (scrollIn box b) := by
    intro b l
    rw [List.countP_map]
    apply List.countP_congr
    intro e _
    simp only [Function.comp]
    cases h : Dem.Spec.key 0x1A e
    · simp
    · have : e.kind = .rune := by
        simp only [Dem.Spec.key, decide_eq_true_eq] at h
        exact h.1
      simp [scrollIn, Ev.struck, this]
  simp only [List.countP_append, hz, hk, Nat.add_zero, Int.zero_add]
  rfl

theorem fit_ok (d : Demo) (hs : 1 ≤ d.side) {cw ch : Nat} (C : Canvas d.canvas cw ch) (zoomed : Bool) (w h : Nat) :
    ∃ d', d.fit zoomed (w, h) = some d' ∧ d'.side = d.side ∧
      (w = cw ∧ zoomed = false → d' = d) ∧
      (w ≠ cw ∨ zoomed = true → Canvas d'.canvas w h ∧ d'.padding = (if w > 2 then 2 else 0) ∧
        d'.perRow = ((w - (if w > 2 then 2 else 0)) * 2 + (d.side - 1)).tdiv d.side ∧
        d'.perCol = ((h - (if w > 2 then 2 else 0)) * 4 + (d.side - 1)).tdiv d.side) := by
  have hx : (dx d.canvas.rect).tdiv 2 = cw := by
    rw [C.rect]
    simp only [dx]
    rw [Int.tdiv_eq_ediv_of_nonneg (by omega)]; omega
  unfold Demo.fit
  simp only [hx]
  by_cases hc : w ≠ cw ∨ zoomed = true
  · rw [if_pos (by rcases hc with hc | hc; left; exact_mod_cast hc; right; exact hc), if_neg (by omega)]
    refine ⟨_, rfl, rfl, fun hn => ?_, fun _ => ⟨canvas_resize w h, rfl, rfl, rfl⟩⟩
    rcases hc with hc | hc
    · exact absurd hn.1 hc
    · rw [hn.2] at hc; simp at hc
  · rw [if_neg (by
      rintro (h1 | h1)
      · exact hc (Or.inl (by exact_mod_cast h1))
      · exact hc (Or.inr h1))]
    exact ⟨d, rfl, rfl, fun _ => rfl, fun h1 => absurd h1 hc⟩

/-- The squares needed for a length: the fewest that cover it. -/
def Spec.Fewest (n side len : Int) : Prop := len ≤ n * side ∧ (n - 1) * side < len

theorem fewest_tdiv (len side : Int) (hs : 1 ≤ side) (hl : 0 ≤ len) : Spec.Fewest ((len + (side - 1)).tdiv side) side len := by
  rw [Int.tdiv_eq_ediv_of_nonneg (by omega)]
  have h1 := Int.emod_add_mul_ediv (len + (side - 1)) side
  have h2 := Int.emod_nonneg (len + (side - 1)) (by omega : side ≠ 0)
  have h3 := Int.emod_lt_of_pos (len + (side - 1)) (by omega : 0 < side)
  unfold Spec.Fewest
  constructor
  · have : side * ((len + (side - 1)) / side) = (len + (side - 1)) / side * side := Int.mul_comm _ _
    omega
  · rw [Int.sub_mul, Int.one_mul]
    have : side * ((len + (side - 1)) / side) = (len + (side - 1)) / side * side := Int.mul_comm _ _
    omega

/-- Every frame: it never panics; the wheel changes the size of the squares, down to 1; Ctrl-C and
Ctrl-Z as in C105; the canvas is made anew for the screen if its width or the size of the squares
has changed; and the screen shows the picture as far as the canvas goes. -/
theorem frame {ε : Type} (d : Demo) (hs : 1 ≤ d.side) {cw ch : Nat} (C : Canvas d.canvas cw ch)
    (art : Int → Int → Int → Nat → Nat → Turn) (suspend : Option ε) (es : Events) {w h : Nat} (sc : Screen)
    (W : sc.Whole w h) (M : sc.grid.Made) :
    ∃ L o, (∀ fr dst, Spec.IsLine fr dst (L fr dst)) ∧ d.update art suspend es sc = some o ∧
      o.demo.side = max 1 (d.side + Spec.turns sc.grid.rect es) ∧ o.sc.Whole w h ∧ o.sc.grid.Made ∧
      (w = cw ∧ Spec.turns sc.grid.rect es = 0 → Canvas o.demo.canvas cw ch ∧ o.demo.padding = d.padding ∧
        o.demo.perRow = d.perRow ∧ o.demo.perCol = d.perCol ∧
        Spec.ShowsPicture L (art o.demo.side o.demo.perRow o.demo.perCol) o.demo cw ch o.sc w h) ∧
      (w ≠ cw ∨ Spec.turns sc.grid.rect es ≠ 0 → Canvas o.demo.canvas w h ∧ o.demo.padding = (if w > 2 then 2 else 0) ∧
        o.demo.perRow = ((w - (if w > 2 then 2 else 0)) * 2 + (o.demo.side - 1)).tdiv o.demo.side ∧
        o.demo.perCol = ((h - (if w > 2 then 2 else 0)) * 4 + (o.demo.side - 1)).tdiv o.demo.side ∧
        Spec.ShowsPicture L (art o.demo.side o.demo.perRow o.demo.perCol) o.demo w h o.sc w h) ∧
      (o.res = .interrupt ↔ ∃ e ∈ es, Dem.Spec.key 0x03 e = true) ∧
      (o.suspended = true ↔ (∃ e ∈ es, Dem.Spec.key 0x1A e = true) ∧ ∀ e ∈ es, Dem.Spec.key 0x03 e = false) ∧
      (∀ f, o.res = .failed f ↔ o.suspended = true ∧ suspend = some f) := by
  obtain ⟨L, l1, l2⟩ := lines
  obtain ⟨k1, k2, _⟩ := keys_read es
  have ht := turns_read sc.grid.rect es
  generalize hT : Spec.turns sc.grid.rect es = T at *
  have hzs : (d.zoom T).side = max 1 (d.side + T) := by
    unfold Demo.zoom
    split
    · simp only
      split <;> omega
    · omega
  have hzc : (d.zoom T).canvas = d.canvas ∧ (d.zoom T).padding = d.padding ∧ (d.zoom T).perRow = d.perRow ∧
      (d.zoom T).perCol = d.perCol := by
    unfold Demo.zoom
    split <;> simp
  have hdims : Dem.dims sc.grid.rect = (w, h) := by
    unfold Dem.dims
    rw [W.rect]
    simp [Geom.size]
  obtain ⟨d1, f1, f2, f3, f4⟩ := fit_ok (d.zoom T) (by omega) (hzc.1 ▸ C) (decide (T ≠ 0)) w h
  have hc1 : ∃ a b, Canvas d1.canvas a b ∧ (w = cw ∧ T = 0 → a = cw ∧ b = ch) ∧ (w ≠ cw ∨ T ≠ 0 → a = w ∧ b = h) := by
    by_cases hc : w ≠ cw ∨ T ≠ 0
    · exact ⟨w, h, (f4 (by simpa using hc)).1, fun hn => by
        rcases hc with hc | hc
        · exact absurd hn.1 hc
        · exact absurd hn.2 hc, fun _ => ⟨rfl, rfl⟩⟩
    · have hn : w = cw ∧ T = 0 := by
        constructor
        · by_contra h1; exact hc (Or.inl h1)
        · by_contra h1; exact hc (Or.inr h1)
      refine ⟨cw, ch, ?_, fun _ => ⟨rfl, rfl⟩, fun h1 => absurd h1 hc⟩
      rw [f3 ⟨hn.1, by simp [hn.2]⟩, hzc.1]
      exact C
  obtain ⟨a, b, c1, c2, c3⟩ := hc1
  obtain ⟨bm, sc', g1, g2, g3, g4, g5⟩ := show_ok l2 d1 (by omega) c1 (art d1.side d1.perRow d1.perCol) sc W M
  refine ⟨L, {
    demo := { d1 with canvas := bm }, sc := sc',
    es := (totalScrollIn sc.grid.rect 0 (countRune [0x1A] 0 (hasTerminal 0x03 es).1).1).1,
    res := if (hasTerminal 0x03 es).2 then .interrupt
      else if (countRune [0x1A] 0 (hasTerminal 0x03 es).1).2 > 0 ∧ (hasTerminal 0x03 es).2 = false then
        (match suspend with | some e => .failed e | none => .ok) else .ok,
    suspended := decide ((countRune [0x1A] 0 (hasTerminal 0x03 es).1).2 > 0 ∧ (hasTerminal 0x03 es).2 = false) }, l1, ?_, ?_⟩
  · unfold Demo.update
    simp only [ht, hdims, f1, Option.bind_some, g1]
    rfl
  · refine ⟨by simp only; omega, g3, g4, fun hn => ?_, fun hn => ?_, ?_, ?_, ?_⟩
    · obtain ⟨rfl, rfl⟩ := c2 hn
      have e := f3 ⟨hn.1, by simp [hn.2]⟩
      exact ⟨g2, by rw [e]; exact hzc.2.1, by rw [e]; exact hzc.2.2.1, by rw [e]; exact hzc.2.2.2, g5⟩
    · obtain ⟨rfl, rfl⟩ := c3 hn
      obtain ⟨_, e1, e2, e3⟩ := f4 (by simpa using hn)
      refine ⟨g2, e1, ?_, ?_, g5⟩
      · simp only; rw [e2, f2]
      · simp only; rw [e3, f2]
    · simp only
      rw [← k1]
      cases (hasTerminal 0x03 es).2
      · simp only [Bool.false_eq_true, if_false, iff_false]
        split
        · split <;> simp
        · simp
      · simp
    · simp only [decide_eq_true_eq]
      exact k2
    · intro f
      simp only [decide_eq_true_eq]
      cases hh : (hasTerminal 0x03 es).2
      · simp only [Bool.false_eq_true, if_false, and_true]
        split
        · cases suspend <;> simp_all
        · simp_all
      · simp

/-- When the width of the screen has changed, or the wheel was turned, or the height has not
changed, the picture covers the whole screen; and if the picture was fitted anew, its squares are
as many as cover the screen up to the padding, in both directions. -/
theorem picture_shown_partial {ε : Type} (d : Demo) (hs : 1 ≤ d.side) {cw ch : Nat} (C : Canvas d.canvas cw ch)
    (art : Int → Int → Int → Nat → Nat → Turn) (suspend : Option ε) (es : Events) {w h : Nat} (sc : Screen)
    (W : sc.Whole w h) (M : sc.grid.Made) (hfit : h = ch ∨ w ≠ cw ∨ Spec.turns sc.grid.rect es ≠ 0) :
    ∃ L o, (∀ fr dst, Spec.IsLine fr dst (L fr dst)) ∧ d.update art suspend es sc = some o ∧
      1 ≤ o.demo.side ∧ Canvas o.demo.canvas w h ∧
      (∀ x y, x < w → y < h → ∃ c lit, o.sc.look w x y = some c ∧ c.rune = Bitmap.braille lit ∧
        ∀ i j, i < 2 → j < 4 → (lit i j = true ↔
          Spec.onPicture L (art o.demo.side o.demo.perRow o.demo.perCol) o.demo.side o.demo.padding
            o.demo.perRow.toNat o.demo.perCol.toNat ⟨2 * x + i, 4 * y + j⟩)) ∧
      (w ≠ cw ∨ Spec.turns sc.grid.rect es ≠ 0 → (w ≤ 2 ∨ 2 ≤ h) →
        Spec.Fewest o.demo.perRow o.demo.side (2 * (w - o.demo.padding)) ∧
        Spec.Fewest o.demo.perCol o.demo.side (4 * (h - o.demo.padding))) := by
  obtain ⟨L, o, h1, h2, h3, _, _, h6, h7, _⟩ := frame d hs C art suspend es sc W M
  have hsd : 1 ≤ o.demo.side := by omega
  have hw := W.hw
  have hh := W.hh
  have full : Canvas o.demo.canvas w h ∧ Spec.ShowsPicture L (art o.demo.side o.demo.perRow o.demo.perCol) o.demo w h o.sc w h := by
    by_cases hc : w ≠ cw ∨ Spec.turns sc.grid.rect es ≠ 0
    · have := h7 hc
      exact ⟨this.1, this.2.2.2.2⟩
    · have hn : w = cw ∧ Spec.turns sc.grid.rect es = 0 := by
        constructor
        · by_contra h1; exact hc (Or.inl h1)
        · by_contra h1; exact hc (Or.inr h1)
      have hch : h = ch := by
        rcases hfit with h1 | h1
        · exact h1
        · exact absurd h1 hc
      have := h6 hn
      rw [hn.1, hch]
      rw [hn.1, hch] at this
      exact ⟨this.1, this.2.2.2.2⟩
  refine ⟨L, o, h1, h2, hsd, full.1, fun x y hx hy => ?_, fun hc hp => ?_⟩
  · have := full.2 x y hx hy
    rwa [if_pos ⟨hx, hy⟩] at this
  · obtain ⟨_, p1, p2, p3, _⟩ := h7 hc
    constructor
    · have : 0 ≤ ((w : Int) - o.demo.padding) * 2 := by rw [p1]; split <;> omega
      have := fewest_tdiv _ _ hsd this
      rw [← p1] at p2
      rw [p2, Int.mul_comm 2]
      exact this
    · have : 0 ≤ ((h : Int) - o.demo.padding) * 4 := by rw [p1]; split <;> omega
      have := fewest_tdiv _ _ hsd this
      rw [← p1] at p3
      rw [p3, Int.mul_comm 4]
      exact this

/-- Only the width is compared with the canvas: after the screen has become taller, and no wider
or narrower, the rows that were gained stay blank, in every frame until the wheel is turned. -/
theorem taller_blank {ε : Type} (d : Demo) (hs : 1 ≤ d.side) {w ch : Nat} (C : Canvas d.canvas w ch)
    (art : Int → Int → Int → Nat → Nat → Turn) (suspend : Option ε) (es : Events) {h : Nat} (sc : Screen)
    (W : sc.Whole w h) (M : sc.grid.Made) (ht : Spec.turns sc.grid.rect es = 0) :
    ∃ o, d.update art suspend es sc = some o ∧ Canvas o.demo.canvas w ch ∧
      ∀ x y, x < w → ch ≤ y → y < h → o.sc.look w x y = some {} := by
  obtain ⟨L, o, _, h2, _, _, _, h6, _, _⟩ := frame d hs C art suspend es sc W M
  have := h6 ⟨rfl, ht⟩
  refine ⟨o, h2, this.1, fun x y hx hc hy => ?_⟩
  have := this.2.2.2.2 x y hx hy
  rwa [if_neg (by omega)] at this

/-- The padding is taken off the height as well, but is chosen by the width: on a screen of one
row and more than two columns there are no squares. -/
theorem one_row_empty {ε : Type} (d : Demo) (hs : 1 ≤ d.side) {cw ch : Nat} (C : Canvas d.canvas cw ch)
    (art : Int → Int → Int → Nat → Nat → Turn) (suspend : Option ε) (es : Events) {w : Nat} (sc : Screen)
    (W : sc.Whole w 1) (M : sc.grid.Made) (hw : 2 < w) (hc : w ≠ cw ∨ Spec.turns sc.grid.rect es ≠ 0) :
    ∃ o, d.update art suspend es sc = some o ∧
      ∀ x, x < w → ∃ c, o.sc.look w x 0 = some c ∧ c.rune = Bitmap.braille fun _ _ => false := by
  obtain ⟨L, o, _, h2, h3, _, _, _, h7, _⟩ := frame d hs C art suspend es sc W M
  obtain ⟨_, _, _, p3, p4⟩ := h7 hc
  have hz : o.demo.perCol.toNat = 0 := by
    rw [p3, if_pos hw]
    have hsd : 1 ≤ o.demo.side := by omega
    generalize o.demo.side = s at *
    by_cases h5 : 5 ≤ s
    · rw [Int.tdiv_eq_ediv_of_nonneg (by omega)]
      rw [Int.ediv_eq_zero_of_lt (by omega) (by omega)]; rfl
    · have e : (((1 : Nat) : Int) - 2) * 4 + (s - 1) = -(5 - s) := by omega
      rw [e, Int.neg_tdiv, Int.tdiv_eq_ediv_of_nonneg (by omega)]
      have := Int.ediv_nonneg (by omega : 0 ≤ 5 - s) (by omega : 0 ≤ s)
      omega
  refine ⟨o, h2, fun x hx => ?_⟩
  have := p4 x 0 hx (by omega)
  rw [if_pos ⟨hx, by omega⟩] at this
  obtain ⟨c, lit, q1, q2, q3⟩ := this
  refine ⟨c, q1, ?_⟩
  rw [q2]
  have hf : ∀ i j, i < 2 → j < 4 → lit i j = false := by
    intro i j hi hj
    have := q3 i j hi hj
    cases hl : lit i j
    · rfl
    · obtain ⟨_, y, _, _, hy, _⟩ := this.1 hl
      omega
  unfold Bitmap.braille
  simp [hf]

/-- The whole run: whatever the keys, the wheel and the sizes of the screen, no frame panics. -/
theorem frames_run {ε : Type} (art : Nat → Int → Int → Int → Nat → Nat → Turn) (suspend : Option ε)
    (fs : List (Events × Screen)) (hf : ∀ f ∈ fs, f.2.grid.Made ∧ ∃ w h, f.2.Whole w h)
    (d : Demo) (hs : 1 ≤ d.side) (hc : ∃ cw ch, Canvas d.canvas cw ch) (n : Nat) :
    ∃ d', fs.foldlM (fun (q : Nat × Demo) f => (q.2.update (art q.1) suspend f.1 f.2).map fun o => (q.1 + 1, o.demo)) (n, d) =
      some d' ∧ 1 ≤ d'.2.side ∧ ∃ cw ch, Canvas d'.2.canvas cw ch := by
  induction fs generalizing d n with
  | nil => exact ⟨(n, d), rfl, hs, hc⟩
  | cons f fs ih =>
    obtain ⟨M, w, h, W⟩ := hf f (by simp)
    obtain ⟨cw, ch, C⟩ := hc
    obtain ⟨L, o, _, h2, h3, _, _, h6, h7, _⟩ := frame d hs C (art n) suspend f.1 f.2 W M
    rw [List.foldlM_cons]
    simp only [h2, Option.map_some, Option.bind_eq_bind, Option.bind_some]
    refine ih (fun g hg => hf g (by simp [hg])) o.demo (by omega) ?_ (n + 1)
    by_cases hc : w ≠ cw ∨ Spec.turns f.2.grid.rect f.1 ≠ 0
    · exact ⟨w, h, (h7 hc).1⟩
    · refine ⟨cw, ch, (h6 ⟨?_, ?_⟩).1⟩
      · by_contra h1; exact hc (Or.inl h1)
      · by_contra h1; exact hc (Or.inr h1)

/-- The picture printed without `-i`: the squares asked for, as large as fit into the columns
beside the padding; the canvas is as wide as asked for and as high as the squares and the padding. -/
theorem setup_picture (cols perRow perCol : Nat) (hr : 1 ≤ perRow) (art : Nat → Nat → Turn) :
    ∃ L d, ∃ side pad : Nat, (∀ fr dst, Spec.IsLine fr dst (L fr dst)) ∧ (setup cols perRow perCol).draw art = some d ∧
      pad = (if 2 < cols then 2 else 0) ∧
      (side * perRow ≤ 2 * cols - 2 * pad ∧ 2 * cols - 2 * pad < (side + 1) * perRow) ∧
      d.canvas.rect = ⟨⟨0, 0⟩, ⟨2 * cols, side * perCol + 2 * pad⟩⟩ ∧
      ∀ q, Mem q d.canvas.rect → (d.canvas.bitIn q = true ↔ Spec.onPicture L art side pad perRow perCol q) := by
  obtain ⟨L, l1, l2⟩ := lines
  let pad : Nat := if cols * 2 > 4 then 2 else 0
  let side : Nat := (cols * 2 - pad * 2) / perRow
  have m : (setup cols perRow perCol).canvas.Made := Bitmap.Made.resize _ _
  obtain ⟨bits, h1, h2, h3⟩ := draw_picture l2 (setup cols perRow perCol) (Int.natCast_nonneg _) art m
  have hpad : pad = (if 2 < cols then 2 else 0) := by
    simp only [pad]
    split <;> split <;> omega
  have hoff : ∀ q, (setup cols perRow perCol).canvas.bitIn q = false := by
    intro q
    have := wipe_off (setup cols perRow perCol).canvas q
    have e : ((setup cols perRow perCol).canvas.bit.map fun _ => false) = (setup cols perRow perCol).canvas.bit := by
      simp [setup, Bitmap.resize]
    rw [e] at this
    exact this
  refine ⟨L, _, side, pad, l1, h1, hpad, ⟨?_, ?_⟩, ?_, fun q hq => ?_⟩
  · have := Nat.div_mul_le_self (cols * 2 - pad * 2) perRow
    simp only [side]; omega
  · have h5 := Nat.mod_add_div (cols * 2 - pad * 2) perRow
    have h6 := Nat.mod_lt (cols * 2 - pad * 2) (by omega : perRow > 0)
    have h7 : (side + 1) * perRow = perRow * side + perRow := by ring
    simp only [side] at h7 ⊢
    omega
  · simp only [setup, Bitmap.resize, Rect.mk.injEq, Pt.mk.injEq, true_and, side, pad]
    constructor <;> push_cast <;> ring
  · have := h3 q
    rw [hoff q] at this
    simp only [Bool.false_eq_true, false_or] at this
    exact this.trans ⟨fun h => h.1, fun h => ⟨h, hq⟩⟩

/-- If more squares are asked for than there are dots in a row, all of them have no extent. -/
theorem setup_too_many (cols perRow perCol : Nat) (h : 2 * cols < perRow) : (setup cols perRow perCol).side = 0 := by
  simp only [setup]
  rw [Nat.div_eq_of_lt (by split <;> omega)]
  rfl

/-- The demo starts in a state the theorems above are about. -/
example : 1 ≤ ({ side := 20 } : Demo).side ∧ Canvas ({ side := 20 } : Demo).canvas 0 0 := ⟨by decide, .zero, rfl⟩

/-- A wheel turned down twice and up once, before a Ctrl-C, on a screen it lies on. -/
example : Spec.turns ⟨⟨1, 1⟩, ⟨5, 4⟩⟩
    [⟨.mouse, 0, [], 65, ⟨2, 2⟩⟩, ⟨.mouse, 0, [], 65, ⟨9, 9⟩⟩,
     ⟨.mouse, 0, [], 64, ⟨2, 2⟩⟩, ⟨.mouse, 0, [], 65, ⟨1, 1⟩⟩,
     ⟨.rune, 3, [], 0, ⟨0, 0⟩⟩, ⟨.mouse, 0, [], 65, ⟨2, 2⟩⟩] = 1 := by decide +kernel

/-- A 4 x 3 screen shows squares of side 20 meant for a 4 x 2 one: its last row stays blank. -/
example {ε : Type} (art : Int → Int → Int → Nat → Nat → Turn) (s : Option ε) (d : Demo) (hs : 1 ≤ d.side) (C : Canvas d.canvas 4 2)
    (sc : Screen) (W : sc.Whole 4 3) (M : sc.grid.Made) :
    ∃ o, d.update art s [] sc = some o ∧ ∀ x, x < 4 → o.sc.look 4 x 2 = some {} := by
  obtain ⟨o, h1, _, h2⟩ := taller_blank d hs C art s [] sc W M rfl
  exact ⟨o, h1, fun x hx => h2 x 2 hx (by omega) (by omega)⟩

end Anansi.Lol
