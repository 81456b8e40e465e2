import Verif.Model.WriteBitmap
import Verif.Lemmas.Render
import Verif.Props.Bitmap
import Verif.Props.Style
/-
Writing a bitmap on a terminal as braille runes.
-/
set_option autoImplicit false

namespace Anansi.Wbm
open Vt Geom Render

/-! ### Specification -/

namespace Spec

/-- Blocks across and down. -/
def cols (b : Bitmap) : Nat := ((b.rect.max.x - b.rect.min.x + 1) / 2).toNat
def rows (b : Bitmap) : Nat := ((b.rect.max.y - b.rect.min.y + 3) / 4).toNat

/-- The corner of a block. -/
def corner (b : Bitmap) (i j : Nat) : Pt := ⟨b.rect.min.x + 2 * i, b.rect.min.y + 4 * j⟩

/-- The braille rune of a block. -/
def block (b : Bitmap) (i j : Nat) : Nat :=
  Bitmap.braille fun p q => b.bitIn ⟨(corner b i j).x + p, (corner b i j).y + q⟩

/-- What the given styles make of a block: a rune and an attribute; a space with no
attribute if they make no rune of it. -/
def styled (ss : List StyleV) (b : Bitmap) (i j : Nat) : Nat × Attr :=
  let ra := (StyleV.styles ss).apply ⟨(corner b i j).x + 1, (corner b i j).y + 1⟩ 0 (block b i j) 0 0
  if ra.1 = 0 then (0x20, 0) else ra

/-- The rendition after sending styles one after the other, empty ones not being sent. -/
def carry (st : Sgr.Style) (l : List Sgr.Style) : Sgr.Style :=
  l.foldl (fun st s => if s = {} then st else s) st

/-- The styles of the blocks up to and including block `i` of row `j`, in reading order. -/
def reading (sty : Nat → Nat → Sgr.Style) (k i j : Nat) : List Sgr.Style :=
  ((List.range j).flatMap fun q => (List.range k).map fun p => sty p q) ++
    (List.range (i + 1)).map fun p => sty p j

end Spec
open Spec

theorem carry_append (st : Sgr.Style) (a b : List Sgr.Style) :
    carry st (a ++ b) = carry (carry st a) b := by
  simp [carry, List.foldl_append]

/-! ### One block -/

/-- What the cursor state claims about the terminal's rendition holds. -/
def Knows (c : Cursor) (t : Term) : Prop :=
  c.attrKnown = true → t.style.clear = false ∧ c.attr = t.style.build

theorem rune_step {gr : Nat → Bool} {st : StyleFn} {b : Bitmap} {bp : Pt} {c : Cursor} {t : Term}
    {r sr : Nat} {s : Sgr.Style} (hp : 0 ≤ bp.x ∧ 0 ≤ bp.y) (hr : b.rune bp = some sr)
    (hs : st ⟨bp.x + 1, bp.y + 1⟩ 0 sr 0 0 = (r, s.build)) (hg : Printable gr r) (hc : s.clear = false)
    (hk : Knows c t) (hpend : t.pend = false) :
    ∃ c' ops, bitmapRune gr st b bp c = some (c', text ops) ∧ Knows c' (t.run ops) ∧
      t.run ops = ({ t with style := carry t.style [s] } : Term).step (.put r) := by
  unfold bitmapRune ptFromImage
  rw [if_neg (by omega), Option.bind_some, hr, Option.bind_some]
  simp only [hs]
  by_cases h0 : s.build = 0
  · have e := Sgr.build_eq_zero h0
    rw [if_neg (by simpa using h0)]
    refine ⟨{ c with pt := ⟨c.pt.x + 1, c.pt.y⟩ }, [.put r], ?_, ?_, ?_⟩
    · rw [hg.process]; simp [sgrText, text_one, Op.bytes]
    · intro h
      have := hk h
      simpa [Term.run, Term.step, hpend] using this
    · simp [Term.run, carry, e]
  · have e : s ≠ {} := fun e => h0 (by rw [e]; decide)
    obtain ⟨o, f1, f2, f3⟩ := merge_sgr_shows c s hc t hk
    rw [if_pos h0]
    refine ⟨{ c with pt := ⟨c.pt.x + 1, c.pt.y⟩, attr := s.build, attrKnown := true }, o ++ [.put r], ?_, ?_, ?_⟩
    · rw [f3, hg.process, f1]; simp [text_append, text_one, Op.bytes]
    · intro _
      rw [run_append, f2]
      simp [Term.run, Term.step, hpend, hc]
    · rw [run_append, f2]
      simp [Term.run, carry, e]

/-! ### A row -/

/-- A terminal whose only change from `t` is rows and columns written, the rendition and
the cursor's column. -/
structure Row (t u : Term) : Prop where
  w : u.w = t.w
  h : u.h = t.h
  y : u.y = t.y

theorem row_step {gr : Nat → Bool} {st : StyleFn} {b : Bitmap} {rn : Nat → Nat} {sty : Nat → Sgr.Style}
    {x0 y0 : Int} :
    ∀ (k i : Nat) (t : Term) (c : Cursor), i + k ≤ t.w → (k ≠ 0 → t.x = i ∧ t.pend = false) → Knows c t →
    (∀ p, i ≤ p → p < i + k → 0 ≤ x0 + 2 * p ∧ 0 ≤ y0 ∧ Printable gr (rn p) ∧ (sty p).clear = false ∧
      ∃ sr, b.rune ⟨x0 + 2 * p, y0⟩ = some sr ∧
        st ⟨x0 + 2 * p + 1, y0 + 1⟩ 0 sr 0 0 = (rn p, (sty p).build)) →
    ∃ c' ops, bitmapRow gr st b k ⟨x0 + 2 * i, y0⟩ c = some (c', text ops) ∧ Knows c' (t.run ops) ∧
      Row t (t.run ops) ∧ (t.run ops).style = carry t.style ((List.range' i k).map sty) ∧
      ∀ p q, (t.run ops).cell p q = if q = t.y ∧ i ≤ p ∧ p < i + k
        then ⟨rn p, carry t.style ((List.range' i (p + 1 - i)).map sty)⟩ else t.cell p q
  | 0, i, t, c, _, _, hk, _ => ⟨c, [], rfl, hk, ⟨rfl, rfl, rfl⟩, rfl, fun p q => by
      rw [if_neg (by omega)]; rfl⟩
  | k + 1, i, t, c, hw, hx, hk, hc => by
    obtain ⟨hx, hpend⟩ := hx (by omega)
    obtain ⟨h1, h2, h3, h4, sr, h5, h6⟩ := hc i (by omega) (by omega)
    obtain ⟨c1, o1, e1, e2, e3⟩ := rune_step (gr := gr) (st := st) (c := c) (t := t) ⟨h1, h2⟩ h5 h6 h3 h4 hk hpend
    have hpos : (⟨x0 + 2 * (i : Int) + 2, y0⟩ : Pt) = ⟨x0 + 2 * ((i + 1 : Nat) : Int), y0⟩ := by
      simp only [Pt.mk.injEq, and_true]; push_cast; ring
    have hu : t.run o1 = ({ t with style := carry t.style [sty i] } : Term).step (.put (rn i)) := e3
    have hst : (t.run o1).style = carry t.style [sty i] := by rw [hu]; simp [Term.step, hpend]
    have hcell : ∀ p q, (t.run o1).cell p q = if p = i ∧ q = t.y then ⟨rn i, carry t.style [sty i]⟩ else t.cell p q := by
      intro p q; rw [hu]; simp [Term.step, hpend, hx]
    have hww : (t.run o1).w = t.w := by rw [hu]; simp [Term.step, hpend]
    have hhh : (t.run o1).h = t.h := by rw [hu]; simp [Term.step, hpend]
    have hyy : (t.run o1).y = t.y := by rw [hu]; simp [Term.step, hpend]
    obtain ⟨c2, o2, g1, g2, g3, g4, g5⟩ := row_step k (i + 1) (t.run o1) c1 (by rw [hww]; omega)
      (by
        intro hk0
        rw [hu]
        simp only [Term.step, hpend, Bool.false_eq_true, if_false, hx]
        rw [if_pos (by omega)]
        simp; omega) e2 (fun p hp hp' => hc p (by omega) (by omega))
    refine ⟨c2, o1 ++ o2, ?_, by rw [run_append]; exact g2, ?_, ?_, ?_⟩
    · unfold bitmapRow
      rw [e1, Option.bind_some]
      simp only
      rw [hpos, g1]
      simp [text_append]
    · rw [run_append]; exact ⟨g3.w.trans hww, g3.h.trans hhh, g3.y.trans hyy⟩
    · rw [run_append, g4, hst, ← carry_append]; rfl
    · intro p q
      rw [run_append, g5, hyy, hcell, hst, ← carry_append]
      rcases Nat.lt_trichotomy p i with hlt | heq | hgt
      · rw [if_neg (by omega), if_neg (by omega), if_neg (by omega)]
      · subst heq
        rw [if_neg (by omega)]
        by_cases hq : q = t.y
        · rw [if_pos ⟨rfl, hq⟩, if_pos (by omega)]
          rw [show p + 1 - p = 1 by omega]; rfl
        · rw [if_neg (by omega), if_neg (by omega)]
      · rw [if_neg (c := p = i ∧ q = t.y) (by omega)]
        by_cases hq : q = t.y ∧ i + 1 ≤ p ∧ p < i + 1 + k
        · rw [if_pos hq, if_pos (by omega)]
          have : (List.range' i (p + 1 - i)).map sty = [sty i] ++ (List.range' (i + 1) (p + 1 - (i + 1))).map sty := by
            rw [show p + 1 - i = (p + 1 - (i + 1)) + 1 by omega, List.range'_succ]; rfl
          rw [this]
        · rw [if_neg hq, if_neg (by omega)]

/-! ### All rows -/

theorem newLine_bytes (c : Cursor) : ∃ c' : Cursor, (c.newLine.bind fun m => m.2.append.map fun nl => (m.1, nl)) =
    some (c', text [.cr, .lf]) ∧ c'.attrKnown = c.attrKnown ∧ c'.attr = c.attr :=
  ⟨{ c with pt := ⟨1, c.pt.y + 1⟩ }, rfl, rfl, rfl⟩

/-- What a row's blocks are and how they are styled. -/
def Blocks (gr : Nat → Bool) (st : StyleFn) (b : Bitmap) (x0 y0 : Int) (k : Nat) (rn : Nat → Nat → Nat)
    (sty : Nat → Nat → Sgr.Style) (j : Nat) : Prop :=
  ∀ p, p < k → 0 ≤ x0 + 2 * p ∧ 0 ≤ y0 + 4 * j ∧ Printable gr (rn p j) ∧ (sty p j).clear = false ∧
    ∃ sr, b.rune ⟨x0 + 2 * p, y0 + 4 * j⟩ = some sr ∧
      st ⟨x0 + 2 * p + 1, y0 + 4 * j + 1⟩ 0 sr 0 0 = (rn p j, (sty p j).build)

theorem one_row {gr : Nat → Bool} {st : StyleFn} {b : Bitmap} {x0 y0 : Int} {k : Nat} {rn : Nat → Nat → Nat}
    {sty : Nat → Nat → Sgr.Style} {j : Nat} (B : Blocks gr st b x0 y0 k rn sty j) (t : Term) (c : Cursor)
    (hw : k ≤ t.w) (hx : t.x = 0) (hp : t.pend = false) (hk : Knows c t) :
    ∃ c' ops, bitmapRow gr st b k ⟨x0, y0 + 4 * j⟩ c = some (c', text ops) ∧ Knows c' (t.run ops) ∧
      Row t (t.run ops) ∧ (t.run ops).style = carry t.style ((List.range k).map fun p => sty p j) ∧
      ∀ p q, (t.run ops).cell p q = if q = t.y ∧ p < k
        then ⟨rn p j, carry t.style ((List.range (p + 1)).map fun p => sty p j)⟩ else t.cell p q := by
  obtain ⟨c', ops, h1, h2, h3, h4, h5⟩ := row_step (gr := gr) (st := st) (b := b) (rn := fun p => rn p j)
    (sty := fun p => sty p j) (x0 := x0) (y0 := y0 + 4 * j) k 0 t c (by omega) (fun _ => ⟨hx, hp⟩) hk
    (fun p _ hp' => B p (by omega))
  refine ⟨c', ops, by simpa using h1, h2, h3, by rw [h4, List.range_eq_range'], fun p q => ?_⟩
  rw [h5, List.range_eq_range']
  simp

/-- Rows that each start on a new line. -/
theorem later_rows {gr : Nat → Bool} {st : StyleFn} {b : Bitmap} {x0 y0 : Int} {k : Nat} {rn : Nat → Nat → Nat}
    {sty : Nat → Nat → Sgr.Style} : ∀ (n j : Nat) (t : Term) (c : Cursor), 0 < y0 + 4 * j →
    (∀ q, j ≤ q → q < j + n → Blocks gr st b x0 y0 k rn sty q) → k ≤ t.w → t.y + n < t.h → Knows c t →
    ∃ c' ops, bitmapRows gr st b k n ⟨x0, y0 + 4 * j⟩ c = some (c', text ops) ∧
      (t.run ops).w = t.w ∧ (t.run ops).h = t.h ∧
      ∀ p q, (t.run ops).cell p q = if p < k ∧ t.y < q ∧ q ≤ t.y + n
        then ⟨rn p (j + (q - t.y - 1)), carry t.style
          (((List.range' j (q - t.y - 1)).flatMap fun v => (List.range k).map fun u => sty u v) ++
            (List.range (p + 1)).map fun u => sty u (j + (q - t.y - 1)))⟩ else t.cell p q
  | 0, j, t, c, _, _, _, _, hk => ⟨c, [], rfl, rfl, rfl, fun p q => by rw [if_neg (by omega)]; rfl⟩
  | n + 1, j, t, c, hj, hB, hw, hh, hk => by
    obtain ⟨c1, e1, e2, e3⟩ := newLine_bytes c
    have hu : t.run [.cr, .lf] = { t with x := 0, y := t.y + 1, pend := false } := by
      simp only [Term.run, List.foldl_cons, List.foldl_nil, Term.step, Term.lineFeed]
      rw [if_pos (show t.y + 1 < t.h by omega)]
    obtain ⟨c2, o2, f1, f2, f3, f4, f5⟩ := one_row (hB j (by omega) (by omega)) (t.run [.cr, .lf]) c1
      (by rw [hu]; exact hw) (by rw [hu]) (by rw [hu])
      (by intro h; rw [hu]; rw [e3]; exact hk (by rw [← e2]; exact h))
    have fy := f3.y
    rw [hu] at f2 f4 f5 fy
    simp only at f4 f5 fy
    obtain ⟨c3, o3, g1, g2, g3, g4⟩ := later_rows n (j + 1) ((t.run [.cr, .lf]).run o2) c2 (by push_cast; omega)
      (fun q hq hq' => hB q (by omega) (by omega)) (by rw [f3.w, hu]; exact hw)
      (by rw [f3.h, hu, fy]; simp only; omega) (by rw [hu]; exact f2)
    refine ⟨c3, [.cr, .lf] ++ o2 ++ o3, ?_, ?_, ?_, ?_⟩
    · unfold bitmapRows
      rw [if_pos hj, e1, Option.bind_some]
      simp only
      rw [f1, Option.bind_some]
      simp only
      rw [show (⟨x0, y0 + 4 * (j : Int) + 4⟩ : Pt) = ⟨x0, y0 + 4 * ((j + 1 : Nat) : Int)⟩ by
        simp only [Pt.mk.injEq, true_and]; push_cast; ring, g1]
      simp only [Option.map_some, text_append]
    · rw [run_append, run_append, g2, f3.w, hu]
    · rw [run_append, run_append, g3, f3.h, hu]
    · intro p q
      rw [run_append, run_append, g4, hu, fy, f5, f4, ← carry_append]
      by_cases hp : p < k
      · rcases Nat.lt_trichotomy q (t.y + 1) with hlt | heq | hgt
        · rw [if_neg (by omega), if_neg (by omega), if_neg (by omega)]
        · subst heq
          rw [if_neg (by omega), if_pos ⟨rfl, hp⟩, if_pos (by omega)]
          rw [show t.y + 1 - t.y - 1 = 0 by omega]
          rfl
        · by_cases hq : q ≤ t.y + (n + 1)
          · rw [if_pos (by omega), if_pos (by omega)]
            obtain ⟨d, rfl⟩ : ∃ d, q = t.y + 1 + 1 + d := ⟨q - (t.y + 2), by omega⟩
            rw [show t.y + 1 + 1 + d - (t.y + 1) - 1 = d by omega, show t.y + 1 + 1 + d - t.y - 1 = d + 1 by omega,
              List.range'_succ, List.flatMap_cons, List.append_assoc, show j + 1 + d = j + (d + 1) by omega]
          · rw [if_neg (by omega), if_neg (by omega), if_neg (by omega)]
      · rw [if_neg (by omega), if_neg (by omega), if_neg (by omega)]

theorem all_rows {gr : Nat → Bool} {st : StyleFn} {b : Bitmap} {x0 y0 : Int} {k n : Nat} {rn : Nat → Nat → Nat}
    {sty : Nat → Nat → Sgr.Style} (hB : ∀ q, q < n → Blocks gr st b x0 y0 k rn sty q) (hy0 : 0 ≤ y0) (t : Term) (l : Nat)
    (hl : l = if 0 < y0 then 1 else 0) (hw : k ≤ t.w) (hh : t.y + l + n ≤ t.h) (hx : t.x = 0)
    (hp : t.pend = false) :
    ∃ c' ops, bitmapRows gr st b k n ⟨x0, y0⟩ {} = some (c', text ops) ∧
      ∀ p q, (t.run ops).cell p q = if p < k ∧ t.y + l ≤ q ∧ q < t.y + l + n
        then ⟨rn p (q - t.y - l), carry t.style (reading sty k p (q - t.y - l))⟩ else t.cell p q := by
  have hk : Knows {} t := fun h => by cases h
  by_cases hy : 0 < y0
  · rw [if_pos hy] at hl
    subst hl
    obtain ⟨c', ops, h1, _, _, h2⟩ := later_rows (gr := gr) (st := st) (b := b) (x0 := x0) (y0 := y0) (k := k)
      (rn := rn) (sty := sty) n 0 t {} (by push_cast; omega) (fun q _ hq => hB q (by omega)) hw (by omega) hk
    refine ⟨c', ops, by simpa using h1, fun p q => ?_⟩
    rw [h2]
    by_cases h : p < k ∧ t.y + 1 ≤ q ∧ q < t.y + 1 + n
    · rw [if_pos h, if_pos (by omega)]
      simp [reading, List.range_eq_range']
    · rw [if_neg h, if_neg (by omega)]
  · rw [if_neg hy] at hl
    subst hl
    cases n with
    | zero => exact ⟨{}, [], rfl, fun p q => by rw [if_neg (by omega)]; rfl⟩
    | succ n =>
      obtain ⟨c2, o2, f1, f2, f3, f4, f5⟩ := one_row (hB 0 (by omega)) t {} hw hx hp hk
      · obtain ⟨c3, o3, g1, g2, g3, g4⟩ := later_rows n 1 (t.run o2) c2 (by push_cast; omega)
          (fun q hq hq' => hB q (by omega)) (by rw [f3.w]; exact hw) (by rw [f3.h, f3.y]; omega) f2
        refine ⟨c3, o2 ++ o3, ?_, fun p q => ?_⟩
        · unfold bitmapRows
          rw [if_neg hy, Option.bind_some]
          rw [show (⟨x0, y0⟩ : Pt) = ⟨x0, y0 + 4 * ((0 : Nat) : Int)⟩ by simp, f1, Option.bind_some]
          simp only
          rw [show (⟨x0, y0 + 4 * ((0 : Nat) : Int) + 4⟩ : Pt) = ⟨x0, y0 + 4 * ((1 : Nat) : Int)⟩ by
            simp, g1]
          simp [text_append]
        · rw [run_append, g4, f3.y, f5, f4, ← carry_append]
          by_cases hpk : p < k
          · rcases Nat.lt_trichotomy q t.y with hlt | heq | hgt
            · rw [if_neg (by omega), if_neg (by omega), if_neg (by omega)]
            · subst heq
              rw [if_neg (by omega), if_pos ⟨rfl, hpk⟩, if_pos (by omega)]
              simp [reading]
            · by_cases hq : q ≤ t.y + n
              · rw [if_pos (by omega), if_pos (by omega)]
                obtain ⟨d, rfl⟩ : ∃ d, q = t.y + 1 + d := ⟨q - (t.y + 1), by omega⟩
                rw [show t.y + 1 + d - t.y - 1 = d by omega, show t.y + 1 + d - t.y - 0 = d + 1 by omega,
                  reading, List.range_eq_range' (n := d + 1), List.range'_succ, List.flatMap_cons, List.append_assoc,
                  show 1 + d = d + 1 by omega]
              · rw [if_neg (by omega), if_neg (by omega), if_neg (by omega)]
          · rw [if_neg (by omega), if_neg (by omega), if_neg (by omega)]

/-! ### The theorems -/

theorem corner_nonneg {b : Bitmap} (m : Bitmap.Made b) : 0 ≤ b.rect.min.x ∧ 0 ≤ b.rect.min.y := by
  induction m with
  | zero => decide
  | load stride data h =>
    unfold Bitmap.load at h
    split at h
    · cases h
    · simp only at h
      split at h
      · cases h
      · simp only [Option.some.injEq] at h; rw [← h]; simp
  | resize w h => simp [Bitmap.resize]
  | @sub b r m ih =>
    unfold Bitmap.subRect
    by_cases h : ptIn r.min b.rect = true
    · rw [if_neg (by simpa using h)]
      obtain ⟨x, y, e, _, _⟩ := m.inv.mem r.min ((ptIn_iff _ _).1 h)
      simp [e]
    · rw [if_pos (by simpa using h)]; decide
  | write bits m h ih => exact ih

theorem corner_mem {b : Bitmap} {i j : Nat} (hi : i < cols b) (hj : j < rows b) : Mem (corner b i j) b.rect := by
  unfold cols at hi
  unfold rows at hj
  unfold Mem corner
  dsimp only
  omega

theorem style_apply (ss : List StyleV) (p : Pt) (r : Nat) :
    (StyleV.styles [StyleV.styles ss, .fn blankStyle]).apply p 0 r 0 0 =
      blankStyle p 0 ((StyleV.styles ss).apply p 0 r 0 0).1 0 ((StyleV.styles ss).apply p 0 r 0 0).2 := by
  rw [StyleV.apply_styles _ (by simp [StyleV.flatten_eq, StyleV.parts]), StyleV.flatten_eq]
  rw [show [StyleV.styles ss, .fn blankStyle].flatMap StyleV.parts = (StyleV.styles ss).parts ++ [blankStyle] by
    simp [StyleV.parts]]
  simp only [StyleV.manyFn, List.foldl_append, List.foldl_cons, List.foldl_nil]
  by_cases h : (StyleV.styles ss).parts = []
  · rw [h]
    cases hv : StyleV.styles ss with
    | noop => rfl
    | fn f => rw [hv] at h; simp [StyleV.parts] at h
    | many fs => rw [hv] at h; simp only [StyleV.parts] at h; rw [h]; rfl
  · rw [Combo.apply_parts _ h]

/-- **C95** (everything that is shown): written to a terminal whose cursor is in the
first column with enough room, every block of the bitmap is shown as the rune its styles
give, rows one under the other, starting in the cursor's row (one below if the bitmap's
first row of bits is not row zero); every other cell is left as it was.  The rendition of
a block is the last one of its own and the earlier blocks' that is not empty. -/
theorem bitmap_written {gr : Nat → Bool} {b : Bitmap} (m : Bitmap.Made b) (ss : List StyleV)
    (sty : Nat → Nat → Sgr.Style)
    (hs : ∀ i j, i < cols b → j < rows b → Printable gr (styled ss b i j).1 ∧
      (sty i j).clear = false ∧ (styled ss b i j).2 = (sty i j).build)
    (t : Term) (l : Nat) (hl : l = if 0 < b.rect.min.y then 1 else 0) (hw : cols b ≤ t.w)
    (hh : t.y + l + rows b ≤ t.h) (hx : t.x = 0) (hp : t.pend = false) :
    ∃ ops, writeBitmap gr b ss = some (text ops) ∧
      ∀ x y, (t.run ops).cell x y = if x < cols b ∧ t.y + l ≤ y ∧ y < t.y + l + rows b
        then ⟨(styled ss b x (y - t.y - l)).1, carry t.style (reading sty (cols b) x (y - t.y - l))⟩
        else t.cell x y := by
  have hn := corner_nonneg m
  obtain ⟨c', ops, h1, h2⟩ := all_rows (gr := gr)
    (st := (StyleV.styles [StyleV.styles ss, .fn blankStyle]).apply) (b := b) (x0 := b.rect.min.x)
    (y0 := b.rect.min.y) (k := cols b) (n := rows b) (rn := fun i j => (styled ss b i j).1) (sty := sty)
    (by
      intro j hj i hi
      obtain ⟨a1, a2, a3⟩ := hs i j hi hj
      refine ⟨by omega, by omega, a1, a2, block b i j, Bitmap.rune_exact_partial m (corner_mem hi hj), ?_⟩
      rw [style_apply, ← a3]
      change _ = styled ss b i j
      unfold styled blankStyle corner
      dsimp only) hn.2 t l hl hw hh hx hp
  refine ⟨ops, ?_, h2⟩
  unfold writeBitmap
  rw [show ((dx b.rect + 1) / 2).toNat = cols b from rfl, show ((dy b.rect + 3) / 4).toNat = rows b from rfl, h1]
  rfl

theorem carry_last (st : Sgr.Style) (l : List Sgr.Style) (s : Sgr.Style) (h : s ≠ {}) :
    carry st (l ++ [s]) = s := by
  rw [carry_append]
  simp [carry, h]

theorem carry_none (st : Sgr.Style) (l : List Sgr.Style) (h : ∀ s ∈ l, s = {}) : carry st l = st := by
  induction l generalizing st with
  | nil => rfl
  | cons s l ih =>
    have := ih st (fun s' hs => h s' (by simp [hs]))
    simpa [carry, h s (by simp)] using this

/-- **C95** for bitmaps whose first row of bits is row zero and styles that are never
empty: every block is shown as its styled rune in its own style, and nothing else
changes.  Missing: other bitmaps (`sub_starts_below`) and empty styles
(`style_carries_on`). -/
theorem bitmap_shown_partial {gr : Nat → Bool} {b : Bitmap} (m : Bitmap.Made b) (h0 : b.rect.min.y = 0)
    (ss : List StyleV) (sty : Nat → Nat → Sgr.Style)
    (hs : ∀ i j, i < cols b → j < rows b → Printable gr (styled ss b i j).1 ∧
      (sty i j).clear = false ∧ (styled ss b i j).2 = (sty i j).build ∧ (styled ss b i j).2 ≠ 0)
    (t : Term) (hw : cols b ≤ t.w) (hh : t.y + rows b ≤ t.h) (hx : t.x = 0) (hp : t.pend = false) :
    ∃ ops, writeBitmap gr b ss = some (text ops) ∧
      ∀ x y, (t.run ops).cell x y = if x < cols b ∧ t.y ≤ y ∧ y < t.y + rows b
        then ⟨(styled ss b x (y - t.y)).1, sty x (y - t.y)⟩ else t.cell x y := by
  obtain ⟨ops, h1, h2⟩ := bitmap_written (gr := gr) m ss sty
    (fun i j hi hj => ⟨(hs i j hi hj).1, (hs i j hi hj).2.1, (hs i j hi hj).2.2.1⟩) t 0 (by rw [h0]; rfl) hw
    (by omega) hx hp
  refine ⟨ops, h1, fun x y => ?_⟩
  rw [h2]
  simp only [Nat.add_zero, Nat.sub_zero]
  by_cases h : x < cols b ∧ t.y ≤ y ∧ y < t.y + rows b
  · rw [if_pos h, if_pos h]
    obtain ⟨_, _, a3, a4⟩ := hs x (y - t.y) h.1 (by omega)
    unfold reading
    rw [List.range_succ, List.map_append, ← List.append_assoc]
    rw [List.map_singleton, carry_last]
    intro e
    rw [a3, e] at a4
    exact a4 (by decide)
  · rw [if_neg h, if_neg h]

theorem block_range (b : Bitmap) (i j : Nat) : 0x2800 ≤ block b i j ∧ block b i j < 0x2900 := by
  unfold block
  generalize (fun p q : Nat => b.bitIn ⟨(corner b i j).x + p, (corner b i j).y + q⟩) = on
  have h : ∀ p q, (if on p q then Bitmap.dotValue p q else 0) ≤ Bitmap.dotValue p q := by
    intro p q; split <;> omega
  have h0 := h 0 0; have h1 := h 0 1; have h2 := h 0 2; have h3 := h 0 3
  have h4 := h 1 0; have h5 := h 1 1; have h6 := h 1 2; have h7 := h 1 3
  unfold Bitmap.braille
  dsimp only
  revert h0 h1 h2 h3 h4 h5 h6 h7
  generalize (if on 0 0 then Bitmap.dotValue 0 0 else 0) = a0
  generalize (if on 0 1 then Bitmap.dotValue 0 1 else 0) = a1
  generalize (if on 0 2 then Bitmap.dotValue 0 2 else 0) = a2
  generalize (if on 0 3 then Bitmap.dotValue 0 3 else 0) = a3
  generalize (if on 1 0 then Bitmap.dotValue 1 0 else 0) = a4
  generalize (if on 1 1 then Bitmap.dotValue 1 1 else 0) = a5
  generalize (if on 1 2 then Bitmap.dotValue 1 2 else 0) = a6
  generalize (if on 1 3 then Bitmap.dotValue 1 3 else 0) = a7
  simp only [Bitmap.dotValue]
  omega

/-- **C95** without styles: every block is shown as its braille rune, in the rendition
the terminal had, and nothing else changes. -/
theorem plain_shown {gr : Nat → Bool} (hg : ∀ r, 0x2800 ≤ r → r < 0x2900 → gr r = true) {b : Bitmap}
    (m : Bitmap.Made b) (h0 : b.rect.min.y = 0)
    (t : Term) (hw : cols b ≤ t.w) (hh : t.y + rows b ≤ t.h) (hx : t.x = 0) (hp : t.pend = false) :
    ∃ ops, writeBitmap gr b [] = some (text ops) ∧
      ∀ x y, (t.run ops).cell x y = if x < cols b ∧ t.y ≤ y ∧ y < t.y + rows b
        then ⟨block b x (y - t.y), t.style⟩ else t.cell x y := by
  have hb : ∀ i j, styled [] b i j = (block b i j, 0) := by
    intro i j
    have := (block_range b i j).1
    change (if block b i j = 0 then ((0x20, 0) : Nat × Attr) else (block b i j, 0)) = _
    rw [if_neg (by omega)]
  obtain ⟨ops, h1, h2⟩ := bitmap_written (gr := gr) m [] (fun _ _ => {})
    (fun i j hi hj => by
      have := block_range b i j
      rw [hb]
      refine ⟨⟨by dsimp only; omega, by dsimp only; omega, by dsimp only; omega, ?_, hg _ this.1 this.2⟩, rfl, by dsimp only; decide⟩
      unfold isEscape
      simp; omega) t 0 (by rw [h0]; rfl) hw
    (by omega) hx hp
  refine ⟨ops, h1, fun x y => ?_⟩
  rw [h2]
  simp only [Nat.add_zero, Nat.sub_zero, hb]
  rw [carry_none]
  intro s hs
  unfold reading at hs
  simp only [List.mem_append, List.mem_flatMap, List.mem_map] at hs
  rcases hs with ⟨_, _, _, _, e⟩ | ⟨_, _, e⟩ <;> exact e.symm

/-! ### Where the code falls short, and examples -/

/-- A terminal of 4 by 3 with its cursor in the top left corner. -/
def small : Term := ⟨4, 3, false, fun _ _ => ⟨0x2E, {}⟩, 0, 0, false, {}, true⟩

def graphic : Nat → Bool := fun _ => true

/-- The first column bold, the others with no style. -/
def boldFirst : StyleV := .fn fun p _ r _ _ => (r, if p.x = 1 then ({ bold := true } : Sgr.Style).build else 0)

/-- **C95** does not hold for empty styles: a block given no style after a bold one is
shown in bold. -/
theorem style_carries_on :
    (styled [boldFirst] Bitmap.sample 1 0).2 = 0 ∧
    writeBitmap graphic Bitmap.sample [boldFirst] =
      some (text [.sgr [0, 1], .put 0x2835, .put 0x2845, .cr, .lf, .put 0x2809, .put 0x2801]) ∧
    ((small.run [.sgr [0, 1], .put 0x2835, .put 0x2845, .cr, .lf, .put 0x2809, .put 0x2801]).cell 1 0) =
      ⟨0x2845, { bold := true }⟩ := by
  decide +kernel

/-- **C95** does not hold for a part of a bitmap that starts below its first row of bits:
the row of the cursor is left empty and the blocks start in the row below. -/
theorem sub_starts_below {gr : Nat → Bool} {b : Bitmap} (m : Bitmap.Made b) (h0 : 0 < b.rect.min.y)
    (ss : List StyleV) (sty : Nat → Nat → Sgr.Style)
    (hs : ∀ i j, i < cols b → j < rows b → Printable gr (styled ss b i j).1 ∧
      (sty i j).clear = false ∧ (styled ss b i j).2 = (sty i j).build)
    (t : Term) (hw : cols b ≤ t.w) (hh : t.y + 1 + rows b ≤ t.h) (hx : t.x = 0) (hp : t.pend = false) :
    ∃ ops, writeBitmap gr b ss = some (text ops) ∧ (∀ x, (t.run ops).cell x t.y = t.cell x t.y) ∧
      ∀ x, x < cols b → 0 < rows b → ((t.run ops).cell x (t.y + 1)).rune = (styled ss b x 0).1 := by
  obtain ⟨ops, h1, h2⟩ := bitmap_written (gr := gr) m ss sty hs t 1 (by rw [if_pos h0]) hw hh hx hp
  refine ⟨ops, h1, fun x => ?_, fun x hx hr => ?_⟩
  · rw [h2, if_neg (by omega)]
  · rw [h2, if_pos (by omega)]
    rw [show t.y + 1 - t.y - 1 = 0 by omega]

/-- The lower part of the sample bitmap. -/
def lower : Bitmap := Bitmap.sample.subRect ⟨⟨1, 4⟩, ⟨3, 5⟩⟩

theorem lower_made : Bitmap.Made lower := .sub _ Bitmap.sample_made

/-- The lower part, a single block, comes out after a new line. -/
example : Bitmap.Made lower ∧ 0 < lower.rect.min.y ∧ rows lower = 1 ∧
    writeBitmap graphic lower [] = some (text [.cr, .lf, .put 0x2809]) :=
  ⟨lower_made, by decide +kernel⟩

/-- The sample bitmap on the small terminal meets what `plain_shown` asks for. -/
example : Bitmap.sample.rect.min.y = 0 ∧ cols Bitmap.sample = 2 ∧ rows Bitmap.sample = 2 ∧
    cols Bitmap.sample ≤ small.w ∧ small.y + rows Bitmap.sample ≤ small.h ∧
    writeBitmap graphic Bitmap.sample [] = some (text [.put 0x2835, .put 0x2845, .cr, .lf, .put 0x2809, .put 0x2801]) := by
  decide +kernel

/-- All blocks underscored. -/
def under : StyleV := .fn (Style.attr ({ underscore := true } : Sgr.Style).build)

/-- The underscored sample meets what `bitmap_shown_partial` asks for, and its last block
is shown underscored in the second row. -/
example : (∀ i, i < cols Bitmap.sample → ∀ j, j < rows Bitmap.sample →
      (styled [under] Bitmap.sample i j).2 = ({ underscore := true } : Sgr.Style).build ∧
      (styled [under] Bitmap.sample i j).2 ≠ 0 ∧ (styled [under] Bitmap.sample i j).1 = block Bitmap.sample i j) ∧
    writeBitmap graphic Bitmap.sample [under] = some (text
      [.sgr [0, 4], .put 0x2835, .put 0x2845, .cr, .lf, .put 0x2809, .put 0x2801]) := by
  decide +kernel

end Anansi.Wbm
