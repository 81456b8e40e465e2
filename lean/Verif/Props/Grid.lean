import Verif.Lemmas.GridClear
/-
C18-C20, C60: cell grids.
-/
set_option autoImplicit false

namespace Anansi.Grid
open Geom

/-- A 10 x 10 grid, its lower right part, and that part's inside. -/
def tenByTen : Grid := (resize {} (10, 10)).1
def lower : Grid := tenByTen.subRect ⟨⟨5, 5⟩, ⟨20, 9⟩⟩
def inner : Grid := lower.subRect ⟨⟨6, 6⟩, ⟨8, 8⟩⟩

theorem tenByTen_made : Made tenByTen := .resize _ .zero (Or.inl (by decide))
theorem lower_made : Made lower := .sub _ tenByTen_made
theorem inner_made : Made inner := .sub _ lower_made

/-- **C18** `CellOffset` reports failure for every point outside the bounds. -/
theorem cellOffset_outside (g : Grid) (p : Pt) (h : ¬ Mem p g.rect) :
    g.cellOffset? p = some none := cellOffset_not_mem h

example : ¬ Mem ⟨5, 10⟩ lower.rect := by unfold Mem; decide

/-- **C18**, for grids made by resizing whole grids, taking nested sub-grids and
writing: every point in bounds has an offset, a valid index of the cell arrays.
Missing: grids made by resizing a sub-grid that does not start at the first cell,
for which it is false (`resize_sub_overruns`). -/
theorem cellOffset_inside_partial {g : Grid} (m : Made g) {p : Pt} (h : Mem p g.rect) :
    ∃ i, g.cellOffset? p = some (some i) ∧ i < g.len ∧ i < g.cells.length := by
  obtain ⟨x, y, rfl, hx, hy⟩ := m.inv.mem p h
  have := offset_lt hx hy
  exact ⟨_, cellOffset_mk h, this, lt_of_lt_of_le this m.inv.cap⟩

example : Mem ⟨7, 7⟩ inner.rect ∧ inner.cellOffset? ⟨7, 7⟩ = some (some 66) := by
  unfold Mem; decide +kernel

/-- **C18**, for the same grids: two different points never share a cell. -/
theorem cellOffset_injective_partial {g : Grid} (m : Made g) {p q : Pt} {i : Nat}
    (hp : g.cellOffset? p = some (some i)) (hq : g.cellOffset? q = some (some i)) : p = q := by
  have mp := cellOffset_some hp
  have mq := cellOffset_some hq
  obtain ⟨x, y, rfl, hx, hy⟩ := m.inv.mem p mp
  obtain ⟨x', y', rfl, hx', hy'⟩ := m.inv.mem q mq
  rw [cellOffset_mk mp] at hp
  rw [cellOffset_mk mq] at hq
  simp only [Option.some.injEq] at hp hq
  obtain ⟨rfl, rfl⟩ := offset_inj hx hx' (hp.trans hq.symm)
  rfl

/-- **C18 fails** after resizing a sub-grid that does not start at the first cell:
points in bounds get offsets beyond the arrays, and so do points in bounds get
the cell of another point. -/
theorem resize_sub_overruns :
    let g := (inner.resize (10, 10)).1
    (Mem ⟨14, 15⟩ g.rect ∧ g.cellOffset? ⟨14, 15⟩ = some (some 153) ∧ g.len = 100) ∧
    (Mem ⟨11, 6⟩ g.rect ∧ g.cellOffset? ⟨11, 6⟩ = some (some 60) ∧
      tenByTen.cellOffset? ⟨1, 7⟩ = some (some 60)) := by
  unfold Mem; decide +kernel

/-- **C19** A sub-grid whose rectangle starts inside the parent consists of exactly
the points of the parent in that rectangle. -/
theorem subRect_mem (g : Grid) (r : Rect) (h : Mem r.min g.rect) (p : Pt) :
    Mem p (g.subRect r).rect ↔ Mem p g.rect ∧ Mem p r := by
  have hi : ptIn r.min g.rect = true := (ptIn_iff _ _).2 h
  unfold subRect
  rw [if_neg (by simp [hi])]
  simp only [Mem] at h ⊢
  split <;> split <;> omega

/-- **C19** Any other sub-grid is the empty grid. -/
theorem subRect_outside (g : Grid) (r : Rect) (h : ¬ Mem r.min g.rect) :
    g.subRect r = {} ∧ ∀ p, ¬ Mem p (g.subRect r).rect := by
  have e : g.subRect r = {} := by
    unfold subRect; rw [if_pos]; rw [ptIn_iff]; exact h
  refine ⟨e, fun p => ?_⟩
  rw [e]; unfold Mem zr zp; simp only; omega

/-- **C19** A sub-grid addresses its cells as the parent does, in the same store. -/
theorem subRect_same_cells (g : Grid) (r : Rect) {p : Pt} (hp : Mem p (g.subRect r).rect) :
    (g.subRect r).cellOffset? p = g.cellOffset? p ∧ (g.subRect r).cells = g.cells ∧
      (g.subRect r).len = g.len := by
  by_cases h : Mem r.min g.rect
  · have hpar := ((subRect_mem g r h p).1 hp).1
    have i1 : ptIn p (g.subRect r).rect = true := (ptIn_iff _ _).2 hp
    have i2 : ptIn p g.rect = true := (ptIn_iff _ _).2 hpar
    have hs : (g.subRect r).stride = g.stride ∧ (g.subRect r).cells = g.cells ∧
        (g.subRect r).len = g.len := by
      unfold subRect; rw [if_neg (by rw [ptIn_iff]; simpa using h)]; exact ⟨rfl, rfl, rfl⟩
    refine ⟨?_, hs.2⟩
    unfold cellOffset?
    simp only [i1, i2, hs.1]
  · exact absurd hp ((subRect_outside g r h).2 p)

/-- **C19** `SubAt` and `SubSize` likewise. -/
theorem subAt_mem (g : Grid) (a : Pt) (h : Mem a g.rect) (p : Pt) :
    Mem p (g.subAt a).rect ↔ Mem p g.rect ∧ a.x ≤ p.x ∧ a.y ≤ p.y := by
  unfold subAt
  rw [subRect_mem _ _ h]
  simp only [Mem]; omega

/-- A sub-grid of a given size has the points of the grid that are within that size of its corner. -/
theorem subSize_mem (g : Grid) (s : Pt) (h : Mem g.rect.min g.rect) (p : Pt) :
    Mem p (g.subSize s).rect ↔
      Mem p g.rect ∧ p.x < g.rect.min.x + s.x ∧ p.y < g.rect.min.y + s.y := by
  unfold subSize
  rw [subRect_mem g ⟨g.rect.min, ptAdd g.rect.min s⟩ h]
  simp only [Mem, ptAdd]; omega

example : Mem (⟨⟨5, 5⟩, ⟨20, 9⟩⟩ : Rect).min tenByTen.rect ∧ Mem ⟨7, 7⟩ inner.rect := by
  unfold Mem; decide +kernel

/-- **C19** Clearing a grid or sub-grid empties exactly the cells in its bounds. -/
theorem clear_exact {g : Grid} (m : Made g) :
    ∃ cs, g.clear = some cs ∧ cs.length = g.cells.length ∧
      (∀ p i, g.cellOffset? p = some (some i) → cs[i]? = some {}) ∧
      (∀ i, (∀ p, g.cellOffset? p ≠ some (some i)) → cs[i]? = g.cells[i]?) := by
  have I := m.inv
  by_cases hsub : g.isSub = false
  · -- a whole grid
    refine ⟨List.replicate g.len ({} : Cell) ++ g.cells.drop g.len, ?_, ?_, ?_, ?_⟩
    · unfold clear; rw [if_pos (by simp [hsub])]
    · have := I.cap
      simp only [List.length_append, List.length_replicate, List.length_drop]; omega
    · intro p i hi
      obtain ⟨j, hj, hlt, _⟩ := cellOffset_inside_partial m (cellOffset_some hi)
      rw [hi] at hj
      simp only [Option.some.injEq] at hj
      subst hj
      rw [List.getElem?_append_left (by simpa using hlt)]
      simp [hlt]
    · intro i hi
      by_cases hlt : i < g.len
      · exfalso
        obtain ⟨h, hh⟩ := I.rows
        have hs : g.stride ≠ 0 := by
          intro hz; rw [hz] at hh; omega
        have hsz := (isSub_false g).1 hsub
        rw [fullSize_rows hs hh] at hsz
        have hiy : i / g.stride < h := by
          apply Nat.div_lt_of_lt_mul; rw [← hh]; exact hlt
        have hmin : g.rect.min = ⟨1, 1⟩ := by
          rcases I.whole hsub with h' | h'
          · exact h'
          · exfalso
            rw [h'] at hsz
            simp [size, zr, zp, sz] at hsz
            omega
        have hmem : Mem ⟨(i % g.stride : Nat) + 1, (i / g.stride : Nat) + 1⟩ g.rect := by
          have hx := Nat.mod_lt i (Nat.pos_of_ne_zero hs)
          simp only [size, sz, Pt.mk.injEq, hmin] at hsz
          simp only [Mem, hmin]
          generalize i % g.stride = u at *
          generalize i / g.stride = v at *
          omega
        refine hi _ ((cellOffset_mk hmem).trans ?_)
        congr 2
        rw [Nat.mul_comm]; exact Nat.div_add_mod i g.stride
      · rw [List.getElem?_append_right (by simpa using hlt)]
        simp only [List.length_replicate, List.getElem?_drop]
        congr 1; omega
  · -- a sub-grid
    have hsub : g.isSub = true := by simpa using hsub
    rcases offset0_min I with ⟨hm, x, y, e, ho⟩ | ⟨hm, ho⟩
    · have hw : ∀ a b : Nat, a < (dx g.rect).toNat → b < (Geom.dy g.rect).toNat →
          Mem ⟨((x + a : Nat) : Int) + 1, ((y + b : Nat) : Int) + 1⟩ g.rect := by
        intro a b ha hb
        simp only [dx, Geom.dy, e] at ha hb
        simp only [Mem, e]
        push_cast
        omega
      obtain ⟨cs, h1, h2, h3, h4⟩ := clearRows_spec g.len g.stride (dx g.rect).toNat (Geom.dy g.rect).toNat
        (y * g.stride + x) g.cells (by
          intro b hb
          by_cases h0 : (dx g.rect).toNat = 0
          · simp only [Mem, dx] at hm h0; omega
          · have hb' := hw ((dx g.rect).toNat - 1) b (by omega) hb
            obtain ⟨x1, y1, e1, hx1, hy1⟩ := I.mem _ hb'
            simp only [Pt.mk.injEq] at e1
            have ex : x1 = x + ((dx g.rect).toNat - 1) := by omega
            have ey : y1 = y + b := by omega
            subst ex ey
            have := offset_lt hx1 hy1
            have e2 : (y + b) * g.stride = y * g.stride + b * g.stride := by ring
            omega)
        I.cap
      refine ⟨cs, ?_, h2, ?_, ?_⟩
      · unfold clear; rw [if_neg (by simp [hsub]), ho]; exact h1
      · intro p i hi
        have hp := cellOffset_some hi
        obtain ⟨px, py, rfl, hx, hy⟩ := I.mem _ hp
        rw [cellOffset_mk hp] at hi
        simp only [Option.some.injEq] at hi
        subst hi
        refine h3 _ ⟨py - y, px - x, ?_, ?_, ?_⟩
        · simp only [Mem, e, Geom.dy] at hp ⊢; omega
        · simp only [Mem, e, dx] at hp ⊢; omega
        · simp only [Mem, e] at hp
          have : py = y + (py - y) := by omega
          have e2 : (y + (py - y)) * g.stride = y * g.stride + (py - y) * g.stride := by ring
          rw [← this] at e2
          omega
      · intro i hi
        refine h4 i ?_
        rintro ⟨b, a, hb, ha, rfl⟩
        refine hi _ ((cellOffset_mk (hw a b ha hb)).trans ?_)
        congr 2
        ring
    · have hz : (dx g.rect).toNat = 0 ∨ (Geom.dy g.rect).toNat = 0 := by
        simp only [Mem, dx, Geom.dy] at hm ⊢; omega
      have hno : ∀ p, ¬ Mem p g.rect := by
        intro p hp; simp only [Mem] at hm hp; omega
      refine ⟨g.cells, ?_, rfl, ?_, fun _ _ => rfl⟩
      · unfold clear; rw [if_neg (by simp [hsub]), ho]
        rcases hz with hz | hz
        · simp only [Option.bind_some, hz]; exact clearRows_zero _ _ _ _ _
        · simp only [Option.bind_some, hz]; rfl
      · intro p i hi; exact absurd (cellOffset_some hi) (hno p)

/-- **C19** Clearing through a sub-grid leaves every point of the parent outside the
sub-grid's bounds as it was. -/
theorem clear_sub_frame {g : Grid} (m : Made g) (r : Rect) :
    ∃ cs, (g.subRect r).clear = some cs ∧
      (∀ p c, ¬ Mem p (g.subRect r).rect → Mem r.min g.rect →
        (Shows { g with cells := cs } p c ↔ Shows g p c)) ∧
      (∀ p, Mem p (g.subRect r).rect → Shows { g with cells := cs } p {}) := by
  obtain ⟨cs, h1, h2, h3, h4⟩ := clear_exact (m.sub r)
  refine ⟨cs, h1, ?_, ?_⟩
  · intro p c hp hin
    have hst : (g.subRect r).cells = g.cells := by
      unfold subRect; rw [if_neg (by rw [ptIn_iff]; simpa using hin)]
    have key : ∀ i, g.cellOffset? p = some (some i) → cs[i]? = g.cells[i]? := by
      intro i hi
      rw [h4 i, hst]
      intro q hq
      have hq' := cellOffset_some hq
      rw [(subRect_same_cells g r hq').1] at hq
      exact hp (cellOffset_injective_partial m hi hq ▸ hq')
    constructor
    · rintro ⟨i, hi, hl, hc⟩
      refine ⟨i, hi, hl, ?_⟩
      rw [← key i hi]; exact hc
    · rintro ⟨i, hi, hl, hc⟩
      refine ⟨i, hi, hl, ?_⟩
      show cs[i]? = some c
      rw [key i hi]; exact hc
  · intro p hp
    obtain ⟨hs, hcells, hlen⟩ := subRect_same_cells g r hp
    obtain ⟨i, hi, hl, _⟩ := cellOffset_inside_partial (m.sub r) hp
    exact ⟨i, hs.symm.trans hi, by rw [← hlen]; exact hl, h3 p i hi⟩

example : ¬ Mem ⟨4, 4⟩ lower.rect ∧ Mem (⟨5, 5⟩ : Pt) tenByTen.rect ∧ Mem ⟨6, 6⟩ lower.rect := by
  unfold Mem; decide +kernel

/-! ### C20 -/

/-- Whole grids: what a sequence of resizes should yield. -/
structure Whole (g : Grid) (s : Nat × Nat) : Prop where
  size : size g.rect = sz s
  len : g.len = s.1 * s.2
  stride : g.stride = s.1
  min : g.rect.min = ⟨1, 1⟩ ∨ g = {}
  cap : g.len ≤ g.cells.length

theorem whole_not_sub {g : Grid} {s : Nat × Nat} (w : Whole g s) (hs : s.1 = 0 → s.2 = 0) :
    g.isSub = false := by
  rw [isSub_false, w.size]
  unfold fullSize
  rw [w.stride, w.len]
  split
  · rename_i h; simp [sz, h, hs h]
  · rename_i h
    rw [Nat.mul_div_cancel_left _ (by omega)]

theorem whole_resize {g : Grid} {s t : Nat × Nat} (w : Whole g s) (hs : s.1 = 0 → s.2 = 0) :
    Whole (g.resize t).1 t ∧ (g.resize t).2 = decide (s ≠ t) := by
  have hsub := whole_not_sub w hs
  have hsz : sz t = sz s ↔ s = t := by
    rcases s with ⟨a, b⟩; rcases t with ⟨c, d⟩
    simp only [sz, Pt.mk.injEq, Prod.mk.injEq]; omega
  unfold resize
  rw [w.size]
  by_cases he : s = t
  · subst he
    simp only [if_true, ne_eq, not_true_eq_false, decide_false, and_true]
    exact w
  · rw [if_neg (by rw [hsz]; exact he), hsub]
    have hm : (if g.rect.min = zp then (⟨1, 1⟩ : Pt) else g.rect.min) = ⟨1, 1⟩ := by
      rcases w.min with h | h
      · rw [h]; decide
      · rw [h]; rfl
    have hc := w.cap
    simp only [Bool.false_eq_true, if_false, hm]
    split
    · refine ⟨⟨?_, rfl, rfl, Or.inl rfl, ?_⟩, by simp [he]⟩
      · simp [Geom.size, ptAdd, sz]
      · simp only [List.length_append, List.length_take, List.length_replicate]; omega
    · refine ⟨⟨?_, rfl, rfl, Or.inl rfl, by simp only; omega⟩, by simp [he]⟩
      simp [Geom.size, ptAdd, sz]

theorem whole_resizes (l : List (Nat × Nat)) : ∀ {g : Grid} {s : Nat × Nat}, Whole g s →
    (s.1 = 0 → s.2 = 0) → (∀ t ∈ l, t.1 = 0 → t.2 = 0) →
    ∃ s', Whole (resizes g l) s' ∧ (s'.1 = 0 → s'.2 = 0) := by
  induction l with
  | nil => intro g s w hs _; exact ⟨s, w, hs⟩
  | cons t l ih =>
    intro g s w hs hl
    exact ih (whole_resize (t := t) w hs).1 (hl t (by simp)) (fun t' ht => hl t' (by simp [ht]))

/-- **C20**, when no earlier size had zero width and non-zero height: after any
sequence of resizes, one more gives the requested size and arrays with exactly one
entry per cell, and says whether the size changed.
Missing: histories with a zero-width size, for which it is false
(`resize_zero_width_stuck`). -/
theorem resize_exact_partial (l : List (Nat × Nat)) (hl : ∀ t ∈ l, t.1 = 0 → t.2 = 0) (s : Nat × Nat) :
    let g := resizes {} l
    let r := g.resize s
    size r.1.rect = sz s ∧ r.1.len = s.1 * s.2 ∧ r.1.stride = s.1 ∧ r.1.len ≤ r.1.cells.length ∧
      r.2 = decide (size g.rect ≠ sz s) := by
  obtain ⟨s', w, hs⟩ := whole_resizes l (g := {}) (s := (0, 0))
    ⟨by decide, by decide, by decide, Or.inr rfl, by decide⟩ (fun _ => rfl) hl
  obtain ⟨w2, hb⟩ := whole_resize (t := s) w hs
  refine ⟨w2.size, w2.len, w2.stride, w2.cap, ?_⟩
  rw [hb, w.size]
  rcases s with ⟨a, b⟩; rcases s' with ⟨c, d⟩
  simp only [sz, ne_eq, Pt.mk.injEq, Prod.mk.injEq, decide_not]
  congr 2
  simp

example : ∀ t ∈ [(10, 10), (0, 0), (3, 0), (20, 5)], t.1 = 0 → t.2 = 0 := by decide

/-- **C20 fails**: once resized to zero width and non-zero height, a grid is taken
for a sub-grid, and no resize to a non-zero height gives it any width again. -/
theorem resize_zero_width_stuck (h : Nat) (hh : h ≠ 0) (l : List (Nat × Nat)) (hl : ∀ t ∈ l, t.2 ≠ 0) :
    (size (resizes {} ((0, h) :: l)).rect).x = 0 := by
  have key : ∀ (l : List (Nat × Nat)) (g : Grid), (∀ t ∈ l, t.2 ≠ 0) → g.stride = 0 →
      (size g.rect).x = 0 → (size g.rect).y ≠ 0 → (size (resizes g l).rect).x = 0 := by
    intro l
    induction l with
    | nil => intro g _ _ h _; exact h
    | cons t l ih =>
      intro g hl hs hx hy
      have hsub : g.isSub = true := by
        unfold isSub fullSize
        rw [if_pos hs]
        simp only [ne_eq, decide_not, Bool.not_eq_true', decide_eq_false_iff_not]
        intro hc; rw [hc] at hy; exact hy rfl
      have ht := hl t (by simp)
      refine ih (g.resize t).1 (fun t' h' => hl t' (by simp [h'])) ?_ ?_ ?_
      all_goals
        unfold resize
        by_cases he : sz t = size g.rect
        · rw [if_pos he]; assumption
        · rw [if_neg he, if_pos hsub]
          simp only [size, ptAdd, sz, hs]
          try split
          all_goals omega
  refine key l (resize {} (0, h)).1 hl ?_ ?_ ?_
  all_goals
    unfold resize
    rw [if_neg (by simp [sz, size, zr, zp]; omega), if_neg (by decide)]
    simp [size, ptAdd, sz, zr, zp]
  exact hh

example : (3 : Nat) ≠ 0 ∧ ∀ t ∈ [(80, 24), (1, 1)], t.2 ≠ 0 := by decide

/-- Resizing a whole grid keeps the leading cells of the store. -/
theorem resize_keeps_prefix {g : Grid} (h : g.isSub = false) (hc : g.len ≤ g.cells.length)
    (s : Nat × Nat) (i : Nat) (hi : i < g.len) : (g.resize s).1.cells[i]? = g.cells[i]? := by
  unfold resize
  split
  · rfl
  · rw [h]
    simp only [Bool.false_eq_true, if_false]
    split
    · rw [List.getElem?_append_left (by simp; omega), List.getElem?_take, if_pos hi]
    · rfl

/-! ### C60 -/

/-- **C60**, for grids of equal size: `Eq` holds exactly when all cells agree, with
zero runes read as the given one. Missing: grids of different sizes, for which it
is false (`eq_ignores_size`). -/
theorem eq_iff_partial (g o : Grid) (z : Nat) (hg : g.len ≤ g.cells.length) (ho : o.len ≤ o.cells.length)
    (hl : g.len = o.len) :
    g.eq o z = true ↔ ∀ i a b, i < g.len → g.cells[i]? = some a → o.cells[i]? = some b →
      a.attr = b.attr ∧ (if a.rune = 0 then z else a.rune) = (if b.rune = 0 then z else b.rune) := by
  have hd1 : g.data.length = g.len := by simp [data]; omega
  have hd2 : o.data.length = g.len := by simp [data]; omega
  simp only [eq, hl, beq_self_eq_true, Bool.true_and, List.all_eq_true]
  constructor
  · intro h i a b hi ha hb
    have := h (a, b) (by
      rw [List.mem_iff_getElem?]
      refine ⟨i, ?_⟩
      rw [List.getElem?_zip_eq_some]
      simp only [data, List.getElem?_take]
      rw [if_pos (by omega), if_pos (by omega)]
      exact ⟨ha, hb⟩)
    simpa [cellEq] using this
  · rintro h ⟨a, b⟩ hab
    rw [List.mem_iff_getElem?] at hab
    obtain ⟨i, hi⟩ := hab
    rw [List.getElem?_zip_eq_some] at hi
    simp only [data, List.getElem?_take] at hi
    by_cases hlt : i < g.len
    · rw [if_pos hlt, if_pos (by omega)] at hi
      have := h i a b (by omega) hi.1 hi.2
      simpa [cellEq] using this
    · rw [if_neg hlt] at hi; simp at hi

example : tenByTen.len ≤ tenByTen.cells.length ∧ tenByTen.len = (resize {} (20, 5)).1.len := by
  decide +kernel

/-- **C60 fails** for grids of different sizes with equally many cells. -/
theorem eq_ignores_size :
    ∃ g o : Grid, g = (resize {} (2, 3)).1 ∧ o = (resize {} (3, 2)).1 ∧
      size g.rect ≠ size o.rect ∧ g.eq o 32 = true :=
  ⟨_, _, rfl, rfl, by decide +kernel, by decide +kernel⟩

/-- **C60 fails** for sub-grids too: two views of one store are equal whatever their
bounds, and equal views of different stores are not. -/
theorem eq_ignores_bounds :
    inner.rect ≠ lower.rect ∧ inner.eq lower 32 = true ∧
      (let o : Grid := (tenByTen.subRect ⟨⟨5, 5⟩, ⟨20, 9⟩⟩)
       let o := { o with cells := o.cells.set 0 ⟨65, 0⟩ }
       size o.rect = size lower.rect ∧ (∀ p ∈ [(⟨5, 5⟩ : Pt), ⟨6, 5⟩], ptIn p o.rect) ∧ lower.eq o 32 = false) := by
  decide +kernel

end Anansi.Grid
