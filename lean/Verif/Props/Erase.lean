import Verif.Props.Screen
/-
C28-C30: printing, erasing and line feeds on the emulated screen; and the mode
sequences that never return (C16, C27).
-/
set_option autoImplicit false

namespace Anansi.Screen
open Geom Grid

theorem home_at {sc : Screen} {x y : Nat} (hc : sc.CurAt x y) : sc.home = sc := by
  unfold CurAt at hc
  unfold home
  rw [if_neg]
  rw [hc]; simp only [zp, Pt.mk.injEq]; omega

/-! ### C28 -/

/-- **C28** except for the last cell of the screen: a printable rune is written with
the current attributes under the cursor, no other cell changes, and the cursor
advances to the next column, or to the start of the next row after the last column.
Missing: the last cell of the last row, where the screen ought to scroll
(`print_last_cell`). -/
theorem print_exact_partial (gr : Nat → Bool) {sc : Screen} {w h x y : Nat} (W : sc.Whole w h)
    (hx : x < w) (hy : y < h) (hc : sc.CurAt x y) (r : Nat) (hr : gr r = true)
    (he : isEscape r = false) (hlf : r ≠ 0x0A) (hcr : r ≠ 0x0D)
    (hlast : x + 1 < w ∨ y + 1 < h) :
    ∃ sc', sc.processANSI gr (r, []) = .ok sc' ∧ sc'.Whole w h ∧
      (∀ a b, a < w → b < h →
        sc'.look w a b = if a = x ∧ b = y then some ⟨r, sc.cur.attr⟩ else sc.look w a b) ∧
      (if x + 1 < w then sc'.CurAt (x + 1) y else sc'.CurAt 0 (y + 1)) ∧
      sc'.cur.attr = sc.cur.attr ∧ sc'.cur.visible = sc.cur.visible := by
  unfold processANSI
  simp only [home_at hc, he, hlf, hcr, hr, if_false, if_true, Bool.false_eq_true]
  rw [print_ok W hx hy hc]
  refine ⟨_, rfl, (W.cells (by simp)).cur _, ?_, ?_, rfl, rfl⟩
  · intro a b ha hb
    simp only [look]
    rw [List.getElem?_set]
    by_cases hab : a = x ∧ b = y
    · obtain ⟨rfl, rfl⟩ := hab
      have : b * w + a < sc.grid.cells.length := lt_of_lt_of_le (idx_lt ha hb) W.cap
      simp [this]
    · rw [if_neg hab, if_neg]
      intro e
      obtain ⟨rfl, rfl⟩ := offset_inj hx ha e
      exact hab ⟨rfl, rfl⟩
  · by_cases h1 : x + 1 < w
    · simp [h1, CurAt]
    · have h2 : y + 1 < h := by omega
      simp [h1, h2, CurAt]

example : ascii 0x5A = true ∧ isEscape 0x5A = false ∧ six.CurAt 1 1 ∧ (1 + 1 < 3 ∨ 1 + 1 < 2) :=
  ⟨by decide, by decide, six_on, by decide⟩

/-- **C28, C30 fail** at the last cell: a printable rune there returns the cursor to
the start of the same row and scrolls nothing, so that following text overwrites
the last row. -/
theorem print_last_cell (gr : Nat → Bool) {sc : Screen} {w h : Nat} (W : sc.Whole w h)
    (hc : sc.CurAt (w - 1) (h - 1)) (r : Nat) (hr : gr r = true)
    (he : isEscape r = false) (hlf : r ≠ 0x0A) (hcr : r ≠ 0x0D) :
    ∃ sc', sc.processANSI gr (r, []) = .ok sc' ∧ sc'.CurAt 0 (h - 1) ∧
      (∀ a b, a < w → b < h → ¬ (a = w - 1 ∧ b = h - 1) → sc'.look w a b = sc.look w a b) := by
  have hw := W.hw
  have hh := W.hh
  unfold processANSI
  simp only [home_at hc, he, hlf, hcr, hr, if_false, if_true, Bool.false_eq_true]
  rw [print_ok W (by omega) (by omega) hc]
  refine ⟨_, rfl, ?_, ?_⟩
  · have h1 : ¬ (w - 1 + 1 < w) := by omega
    have h2 : ¬ (h - 1 + 1 < h) := by omega
    simp [h1, h2, CurAt]
  · intro a b ha hb hab
    simp only [look]
    rw [List.getElem?_set, if_neg]
    intro e
    obtain ⟨rfl, rfl⟩ := offset_inj (by omega) ha e
    exact hab ⟨rfl, rfl⟩

example : ({ six with cur := { pt := ⟨3, 2⟩ } } : Screen).CurAt (3 - 1) (2 - 1) := rfl

/-! ### C29 -/

/-- What an erase leaves: a region cleared, everything else kept, cursor unmoved. -/
structure Erased (sc sc' : Screen) (w h : Nat) (region : Nat → Nat → Prop) : Prop where
  whole : sc'.Whole w h
  cur : sc'.cur = sc.cur
  inside : ∀ a b, a < w → b < h → region a b → sc'.look w a b = some {}
  outside : ∀ a b, a < w → b < h → ¬ region a b → sc'.look w a b = sc.look w a b

theorem clearRegion_erased {sc : Screen} {w h : Nat} (W : sc.Whole w h) (i m : Nat) (hm : m ≤ w * h)
    (region : Nat → Nat → Prop)
    (hr : ∀ a b, a < w → b < h → (region a b ↔ i ≤ b * w + a ∧ b * w + a < m)) :
    ∃ sc', sc.clearRegion i m = .ok sc' ∧ Erased sc sc' w h region := by
  obtain ⟨cs, e, l, f⟩ := W.clearRegion i m hm
  refine ⟨_, e, W.cells l, rfl, ?_, ?_⟩
  · intro a b ha hb h
    simp only [look]
    rw [f, if_pos ((hr a b ha hb).1 h)]
  · intro a b ha hb h
    simp only [look]
    rw [f, if_neg (fun k => h ((hr a b ha hb).2 k))]

theorem proc_ED (gr : Nat → Bool) {sc : Screen} {x y : Nat} (hc : sc.CurAt x y) (a : Bytes) :
    sc.processANSI gr (ED, a) = sc.processEscape ED a := by
  unfold processANSI
  simp only [home_at hc]
  rw [if_pos (by decide)]

theorem proc_EL (gr : Nat → Bool) {sc : Screen} {x y : Nat} (hc : sc.CurAt x y) (a : Bytes) :
    sc.processANSI gr (EL, a) = sc.processEscape EL a := by
  unfold processANSI
  simp only [home_at hc]
  rw [if_pos (by decide)]

/-- **C29**, `ED 1`: from the first cell to the cursor, inclusive. -/
theorem erase_display_before (gr : Nat → Bool) {sc : Screen} {w h x y : Nat} (W : sc.Whole w h)
    (hx : x < w) (hy : y < h) (hc : sc.CurAt x y) :
    ∃ sc', sc.processANSI gr (ED, [0x31]) = .ok sc' ∧
      Erased sc sc' w h (fun a b => Upto a b x y) := by
  rw [proc_ED gr hc]
  have hi := idx_lt hx hy
  obtain ⟨sc', e, E⟩ := clearRegion_erased W 0 (y * w + x + 1) (by omega) (fun a b => Upto a b x y)
    (fun a b ha hb => by rw [← idx_le hx ha]; omega)
  refine ⟨sc', ?_, E⟩
  unfold CurAt at hc
  unfold processEscape
  rw [if_pos rfl, hc, W.offset_in hx hy]
  exact e

/-- **C29**, `ED 2`: everything. -/
theorem erase_display_all (gr : Nat → Bool) {sc : Screen} {w h x y : Nat} (W : sc.Whole w h)
    (hc : sc.CurAt x y) :
    ∃ sc', sc.processANSI gr (ED, [0x32]) = .ok sc' ∧ Erased sc sc' w h (fun _ _ => True) := by
  rw [proc_ED gr hc]
  obtain ⟨sc', e, E⟩ := clearRegion_erased W 0 (w * h) le_rfl (fun _ _ => True)
    (fun a b ha hb => by have := idx_lt ha hb; simp; omega)
  refine ⟨sc', ?_, E⟩
  unfold processEscape
  rw [if_pos rfl, ← W.len] at *
  exact e

/-- **C29**, `ED 0`, what the code does: the cells strictly after the cursor.
Missing: the cell under the cursor (`erase_display_keeps_cursor_cell`). -/
theorem erase_display_after_partial (gr : Nat → Bool) {sc : Screen} {w h x y : Nat}
    (W : sc.Whole w h) (hx : x < w) (hy : y < h) (hc : sc.CurAt x y) :
    ∃ sc', sc.processANSI gr (ED, [0x30]) = .ok sc' ∧
      Erased sc sc' w h (fun a b => Upto x y a b ∧ ¬ (a = x ∧ b = y)) := by
  rw [proc_ED gr hc]
  obtain ⟨sc', e, E⟩ := clearRegion_erased W (y * w + x + 1) (w * h) le_rfl
    (fun a b => Upto x y a b ∧ ¬ (a = x ∧ b = y))
    (fun a b ha hb => by
      have := idx_lt ha hb
      rw [← idx_le ha hx]
      constructor
      · rintro ⟨h1, h2⟩
        refine ⟨?_, this⟩
        rcases Nat.lt_or_eq_of_le h1 with h3 | h3
        · omega
        · obtain ⟨rfl, rfl⟩ := offset_inj hx ha h3
          exact absurd ⟨rfl, rfl⟩ h2
      · rintro ⟨h1, _⟩
        refine ⟨by omega, ?_⟩
        rintro ⟨rfl, rfl⟩
        omega)
  refine ⟨sc', ?_, E⟩
  unfold CurAt at hc
  unfold processEscape
  rw [if_pos rfl, hc, W.offset_in hx hy]
  simp only [Except.bind]
  rw [← W.len] at e
  exact e

/-- **C29 fails** for `ED 0`, on every screen and at every position: the documented
region includes the current position, but its cell is kept. -/
theorem erase_display_keeps_cursor_cell (gr : Nat → Bool) {sc : Screen} {w h x y : Nat}
    (W : sc.Whole w h) (hx : x < w) (hy : y < h) (hc : sc.CurAt x y)
    (hne : sc.look w x y ≠ some {}) :
    ¬ ∃ sc', sc.processANSI gr (ED, [0x30]) = .ok sc' ∧
      Erased sc sc' w h (fun a b => Upto x y a b) := by
  rintro ⟨sc', e, E⟩
  obtain ⟨sc'', e', E'⟩ := erase_display_after_partial gr W hx hy hc
  rw [e] at e'
  cases e'
  have h1 := E.inside x y hx hy (Or.inr ⟨rfl, le_rfl⟩)
  have h2 := E'.outside x y hx hy (fun k => k.2 ⟨rfl, rfl⟩)
  exact hne (h2.symm.trans h1)

example : six.look 3 1 1 = some ⟨101, 0⟩ ∧ six.look 3 1 1 ≠ some {} := by decide

/-- Erase without an argument, which terminals take as `0`, does nothing. -/
theorem erase_default_ignored (gr : Nat → Bool) {sc : Screen} {x y : Nat} (hc : sc.CurAt x y) :
    sc.processANSI gr (ED, []) = .ok sc ∧ sc.processANSI gr (EL, []) = .ok sc := by
  rw [proc_ED gr hc, proc_EL gr hc]
  unfold processEscape
  constructor
  · rw [if_pos rfl]; simp
  · rw [if_neg (by decide), if_pos rfl]; simp

theorem EL_ne_ED : ¬ EL = ED := by decide

/-- **C29**, `EL 0`: from the cursor to the end of its row, inclusive. -/
theorem erase_line_after (gr : Nat → Bool) {sc : Screen} {w h x y : Nat} (W : sc.Whole w h)
    (hx : x < w) (hy : y < h) (hc : sc.CurAt x y) :
    ∃ sc', sc.processANSI gr (EL, [0x30]) = .ok sc' ∧
      Erased sc sc' w h (fun a b => b = y ∧ x ≤ a) := by
  rw [proc_EL gr hc]
  have hw := W.hw
  have hi := idx_lt (x := w - 1) (y := y) (w := w) (by omega) hy
  obtain ⟨sc', e, E⟩ := clearRegion_erased W (y * w + x) (y * w + (w - 1) + 1) (by omega)
    (fun a b => b = y ∧ x ≤ a)
    (fun a b ha hb => by
      have h1 := @idx_le a b x y w ha hx
      have h2 := @idx_le (w - 1) y a b w (by omega) ha
      rw [h1, Nat.lt_succ_iff, h2]
      unfold Upto; omega)
  refine ⟨sc', ?_, E⟩
  unfold CurAt at hc
  have hm : ((w : Int) + 1 - 1) = ((w - 1 : Nat) : Int) + 1 := by omega
  unfold processEscape
  rw [if_neg EL_ne_ED, if_pos rfl, if_pos (by decide)]
  simp only [if_true, hc, W.rect, ptSub]
  rw [if_neg (by decide), W.offset_in hx hy, hm, W.offset_in (by omega) hy]
  exact e

/-- **C29**, `EL 1`: from the start of the cursor's row to the cursor, inclusive. -/
theorem erase_line_before (gr : Nat → Bool) {sc : Screen} {w h x y : Nat} (W : sc.Whole w h)
    (hx : x < w) (hy : y < h) (hc : sc.CurAt x y) :
    ∃ sc', sc.processANSI gr (EL, [0x31]) = .ok sc' ∧
      Erased sc sc' w h (fun a b => b = y ∧ a ≤ x) := by
  rw [proc_EL gr hc]
  have hw := W.hw
  have hi := idx_lt hx hy
  obtain ⟨sc', e, E⟩ := clearRegion_erased W (y * w + 0) (y * w + x + 1) (by omega)
    (fun a b => b = y ∧ a ≤ x)
    (fun a b ha hb => by
      have h1 := @idx_le a b 0 y w ha (by omega)
      have h2 := @idx_le x y a b w hx ha
      rw [h1, Nat.lt_succ_iff, h2]
      unfold Upto; omega)
  refine ⟨sc', ?_, E⟩
  unfold CurAt at hc
  have hm : (⟨1, (y : Int) + 1⟩ : Pt) = ⟨((0 : Nat) : Int) + 1, y + 1⟩ := by simp
  unfold processEscape
  rw [if_neg EL_ne_ED, if_pos rfl, if_pos (by decide)]
  simp only [if_true, hc]
  rw [if_neg (by decide), W.offset_in hx hy, hm, W.offset_in (by omega) hy]
  exact e

/-- **C29**, `EL 2`: the cursor's whole row. -/
theorem erase_line_all (gr : Nat → Bool) {sc : Screen} {w h x y : Nat} (W : sc.Whole w h)
    (hy : y < h) (hc : sc.CurAt x y) :
    ∃ sc', sc.processANSI gr (EL, [0x32]) = .ok sc' ∧ Erased sc sc' w h (fun _ b => b = y) := by
  rw [proc_EL gr hc]
  have hw := W.hw
  have hi := idx_lt (x := w - 1) (y := y) (w := w) (by omega) hy
  obtain ⟨sc', e, E⟩ := clearRegion_erased W (y * w + 0) (y * w + (w - 1) + 1) (by omega)
    (fun _ b => b = y)
    (fun a b ha hb => by
      have h1 := @idx_le a b 0 y w ha (by omega)
      have h2 := @idx_le (w - 1) y a b w (by omega) ha
      rw [h1, Nat.lt_succ_iff, h2]
      unfold Upto; omega)
  refine ⟨sc', ?_, E⟩
  unfold CurAt at hc
  have hm : ((w : Int) + 1 - 1) = ((w - 1 : Nat) : Int) + 1 := by omega
  have hm2 : (⟨1, (y : Int) + 1⟩ : Pt) = ⟨((0 : Nat) : Int) + 1, y + 1⟩ := by simp
  unfold processEscape
  rw [if_neg EL_ne_ED, if_pos rfl, if_pos (by decide)]
  simp only [hc, W.rect, ptSub]
  rw [if_neg (by decide), if_neg (by decide), hm2, W.offset_in (by omega) hy, hm,
    W.offset_in (by omega) hy]
  exact e

/-- The six erases on `abc`/`def` with the cursor on `e`. -/
def runes (r : Except Fault Screen) : List Nat :=
  match r with
  | .ok sc => sc.grid.cells.map (·.rune)
  | .error _ => []

example : runes (six.processANSI ascii (ED, [0x30])) = [97, 98, 99, 100, 101, 0] := by decide +kernel
example : runes (six.processANSI ascii (ED, [0x31])) = [0, 0, 0, 0, 0, 102] := by decide +kernel
example : runes (six.processANSI ascii (ED, [0x32])) = [0, 0, 0, 0, 0, 0] := by decide +kernel
example : runes (six.processANSI ascii (EL, [0x30])) = [97, 98, 99, 100, 0, 0] := by decide +kernel
example : runes (six.processANSI ascii (EL, [0x31])) = [97, 98, 99, 0, 0, 102] := by decide +kernel
example : runes (six.processANSI ascii (EL, [0x32])) = [97, 98, 99, 0, 0, 0] := by decide +kernel

/-! ### C30 -/

/-- **C30** above the last row: a line feed only moves the cursor down.
Missing: the last row, where nothing scrolls (`linefeed_never_scrolls`). -/
theorem linefeed_down_partial (gr : Nat → Bool) {sc : Screen} {w h x y : Nat} (W : sc.Whole w h)
    (hx : x < w) (hy : y + 1 < h) (hc : sc.CurAt x y) :
    ∃ sc', sc.processANSI gr (0x0A, []) = .ok sc' ∧ sc'.CurAt x (y + 1) ∧ sc'.grid = sc.grid ∧
      sc'.cur.attr = sc.cur.attr := by
  unfold processANSI
  simp only [home_at hc]
  rw [if_neg (by decide), if_pos trivial, linefeed_ok W hx (by omega) hc, if_pos hy]
  exact ⟨_, rfl, by simp [CurAt], rfl, rfl⟩

example : ({ six with cur := { pt := ⟨2, 1⟩ } } : Screen).CurAt 1 0 := rfl

/-- What a line feed on the last row should do: every row moves up by one and the last
row is cleared. -/
def Scrolled (sc sc' : Screen) (w h : Nat) : Prop :=
  (∀ a b, a < w → b + 1 < h → sc'.look w a b = sc.look w a (b + 1)) ∧
  (∀ a, a < w → sc'.look w a (h - 1) = some {})

/-- **C30 fails**, on every screen: a line feed on the last row changes nothing at all,
so unless the last row is blank and every row equals the one above, nothing has
scrolled. -/
theorem linefeed_never_scrolls (gr : Nat → Bool) {sc : Screen} {w h x : Nat} (W : sc.Whole w h)
    (hx : x < w) (hc : sc.CurAt x (h - 1)) :
    sc.processANSI gr (0x0A, []) = .ok sc ∧
      ((∃ a, a < w ∧ sc.look w a (h - 1) ≠ some {}) →
        ¬ ∃ sc', sc.processANSI gr (0x0A, []) = .ok sc' ∧ Scrolled sc sc' w h) := by
  have hh := W.hh
  have e : sc.processANSI gr (0x0A, []) = .ok sc := by
    unfold processANSI
    simp only [home_at hc]
    rw [if_neg (by decide), if_pos trivial, linefeed_ok W hx (by omega) hc, if_neg (by omega)]
  refine ⟨e, ?_⟩
  rintro ⟨a, ha, hne⟩ ⟨sc', e', S⟩
  rw [e] at e'
  cases e'
  exact hne (S.2 a ha)

example : six.CurAt 1 (2 - 1) ∧ six.look 3 0 (2 - 1) ≠ some {} := ⟨rfl, by decide⟩

/-! ### Mode sequences that never return -/

/-- Only the mode sequences can keep the emulator from returning. -/
theorem hang_only_modes (gr : Nat → Bool) {sc : Screen} {w h : Nat} (W : sc.Whole w h)
    (hc : sc.cur.pt = zp ∨ sc.OnScreen w h) (ev : Event)
    (hh : sc.processANSI gr ev = .error .hang) :
    (ev.1 = SM ∨ ev.1 = RM) ∧ ev.2.head? = some 0x3F := by
  obtain ⟨W, C⟩ := home_on W hc
  unfold processANSI at hh
  simp only at hh
  generalize sc.home = sc at W C hh
  obtain ⟨x, y, hx, hy, hc⟩ := C
  have hi := idx_lt hx hy
  have hoff : sc.offset sc.cur.pt = .ok (some (y * w + x)) := by
    unfold CurAt at hc; rw [hc]; exact W.offset_in hx hy
  have clr : ∀ i m, m ≤ w * h → sc.clearRegion i m ≠ .error .hang := by
    intro i m hm e
    obtain ⟨cs, e', _⟩ := W.clearRegion i m hm
    rw [e'] at e; cases e
  split at hh
  · by_cases hm : ev.1 = SM ∨ ev.1 = RM
    · refine ⟨hm, ?_⟩
      unfold processEscape at hh
      have h1 : ¬ ev.1 = ED := by rcases hm with h | h <;> rw [h] <;> decide
      have h2 : ¬ ev.1 = EL := by rcases hm with h | h <;> rw [h] <;> decide
      rw [if_neg h1, if_neg h2] at hh
      have hp : sc.cur.processEscape sc.clamp ev.1 ev.2 = none := by
        revert hh
        split
        · intro hh; cases hh
        · intro; assumption
      unfold Cursor.processEscape at hp
      have h3 : ¬ (ev.1 = CUU ∨ ev.1 = CUD ∨ ev.1 = CUF ∨ ev.1 = CUB) := by
        rcases hm with h | h <;> rw [h] <;> decide
      have h4 : ¬ ev.1 = CUP := by rcases hm with h | h <;> rw [h] <;> decide
      have h5 : ¬ ev.1 = SGR := by rcases hm with h | h <;> rw [h] <;> decide
      rw [if_neg h3, if_neg h4, if_neg h5] at hp
      have key : ∀ on, sc.cur.modes on ev.2 = none → ev.2.head? = some 0x3F := by
        intro on hn
        unfold Cursor.modes at hn
        split at hn
        · rename_i h; exact h.2
        · cases hn
      split at hp
      · exact key _ hp
      · split at hp
        · exact key _ hp
        · cases hp
    · exfalso
      unfold processEscape at hh
      split at hh
      · simp only [hoff, Except.bind] at hh
        split at hh
        · exact clr _ _ (by rw [W.len]) hh
        · split at hh
          · exact clr _ _ (by omega) hh
          · split at hh
            · exact clr _ _ (by rw [W.len]) hh
            · cases hh
      · split at hh
        · split at hh
          · have ho : ∀ p : Pt, ∃ o, sc.offset p = .ok o ∧ ∀ j, o = some j → j < w * h := by
              intro p
              by_cases hp : ∃ x y : Nat, p = ⟨x + 1, y + 1⟩ ∧ x < w ∧ y < h
              · obtain ⟨a, b, rfl, ha, hb⟩ := hp
                exact ⟨_, W.offset_in ha hb, fun j hj => by cases hj; exact idx_lt ha hb⟩
              · exact ⟨_, W.offset_out hp, fun j hj => by cases hj⟩
            simp only at hh
            revert hh
            generalize (if ev.2 = [0x30] then sc.cur.pt else (⟨1, sc.cur.pt.y⟩ : Pt)) = lo
            generalize (if ev.2 = [0x31] then sc.cur.pt else (⟨_, sc.cur.pt.y⟩ : Pt)) = hi'
            intro hh
            obtain ⟨o1, e1, _⟩ := ho lo
            obtain ⟨o2, e2, b2⟩ := ho hi'
            rw [e1] at hh; simp only [Except.bind] at hh; rw [e2] at hh; simp only at hh
            split at hh
            · exact clr _ _ (by have := b2 _ rfl; omega) hh
            · cases hh
          · cases hh
        · have hp : sc.cur.processEscape sc.clamp ev.1 ev.2 = none := by
            revert hh
            split
            · intro hh; cases hh
            · intro; assumption
          unfold Cursor.processEscape at hp
          simp only [not_or] at hm
          rw [if_neg hm.1, if_neg hm.2] at hp
          repeat' (first | (split at hp) | (simp only at hp; split at hp))
          all_goals simp at hp
  · exfalso
    split at hh
    · rw [linefeed_ok W hx hy hc] at hh; cases hh
    · split at hh
      · cases hh
      · split at hh
        · rw [print_ok W hx hy hc] at hh; cases hh
        · cases hh

/-- **C16, C27**: a private mode sequence whose text makes no progress is processed for
ever, on every screen: `ESC [ ? ? h`. -/
theorem mode_loop_hangs (gr : Nat → Bool) (sc : Screen) :
    sc.processANSI gr (SM, [0x3F, 0x3F]) = .error .hang := by
  have h : ∀ v, Cursor.modeLoop true [0x3F] v = none := by
    intro v
    rw [Cursor.modeLoop]
    have h1 : (decodeMode true [0x3F]).err = none := by decide +kernel
    have h2 : (decodeMode true [0x3F]).n = 0 := by decide +kernel
    simp [h1, h2]
  unfold processANSI
  simp only
  rw [if_pos (by decide)]
  unfold processEscape
  rw [if_neg (by decide), if_neg (by decide)]
  have e : Cursor.processEscape sc.home.clamp sc.home.cur SM [0x3F, 0x3F] = none := by
    unfold Cursor.processEscape
    rw [if_neg (by decide), if_neg (by decide), if_neg (by decide), if_pos rfl]
    unfold Cursor.modes
    rw [if_pos (by decide)]
    simp [h]
  rw [e]

/-- These bytes are such a sequence. -/
example : (process [0x1B, 0x5B, 0x3F, 0x3F, 0x68]).events = [(SM, [0x3F, 0x3F])] := by decide +kernel

/-- On a screen that shows a part of another one, a carriage return takes the cursor
out of the bounds: the whole-screen hypothesis of `screen_event_safe` is needed. -/
theorem sub_screen_cr_escapes :
    let sub := six.subRect ⟨⟨2, 1⟩, ⟨4, 3⟩⟩
    Mem sub.cur.pt sub.grid.rect ∧
      ∃ sc', sub.processANSI ascii (0x0D, []) = .ok sc' ∧ ¬ Mem sc'.cur.pt sc'.grid.rect := by
  refine ⟨by unfold Mem; decide +kernel, _, rfl, by unfold Mem; decide +kernel⟩

end Anansi.Screen
