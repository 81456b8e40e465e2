import Verif.Lemmas.Render
import Verif.Lemmas.Screen
import Verif.Props.Grid
/-
The two grid writing loops.
-/
set_option autoImplicit false

namespace Anansi
open Vt Geom Render

theorem succ_mod_div (w i : Nat) (hw : 1 ≤ w) :
    (i % w + 1 < w ∧ (i + 1) % w = i % w + 1 ∧ (i + 1) / w = i / w) ∨
    (i % w + 1 = w ∧ (i + 1) % w = 0 ∧ (i + 1) / w = i / w + 1) := by
  have hd := Nat.div_add_mod i w
  have hm := Nat.mod_lt i hw
  generalize i / w = q at *
  generalize i % w = r at *
  subst hd
  by_cases h : r + 1 < w
  · refine Or.inl ⟨h, ?_, ?_⟩
    · rw [Nat.add_assoc, Nat.mul_add_mod, Nat.mod_eq_of_lt h]
    · rw [Nat.add_assoc, Nat.mul_add_div hw, Nat.div_eq_of_lt h]; rfl
  · have e : r + 1 = w := by omega
    refine Or.inr ⟨e, ?_, ?_⟩
    · rw [Nat.add_assoc, e, Nat.mul_add_mod, Nat.mod_self]
    · rw [Nat.add_assoc, e, Nat.mul_add_div hw, Nat.div_self hw]

theorem next_pt (w h i : Nat) (hw : 1 ≤ w) :
    next ⟨⟨1, 1⟩, ⟨(w : Int) + 1, (h : Int) + 1⟩⟩ (ptOf w i) = ptOf w (i + 1) := by
  unfold next ptOf
  rcases succ_mod_div w i hw with ⟨h1, h2, h3⟩ | ⟨h1, h2, h3⟩
  · rw [h2, h3, if_neg (by dsimp only; omega)]
    simp only [Pt.mk.injEq, and_true]; omega
  · rw [h2, h3, if_pos (by dsimp only; omega)]
    simp only [Pt.mk.injEq]; omega

/-- What a full redraw writes for a cell. -/
def fullInk (c : Cell) : Option (Nat × Attr) := if c = {} then none else some (ink c)

theorem full_draw (gr : Nat → Bool) (w h : Nat) (hw : 1 ≤ w) : ∀ (l : List Cell) (i : Nat) (cur : Cursor),
    fullLoop gr (Style.defaultRune 0x20) ⟨⟨1, 1⟩, ⟨(w : Int) + 1, (h : Int) + 1⟩⟩ l (ptOf w i) cur =
      drawLoop gr w (l.map fullInk) i cur
  | [], _, _ => rfl
  | c :: l, i, cur => by
    obtain ⟨r, a⟩ := c
    simp only [fullLoop, next_pt w h i hw, List.map_cons, fullInk, Style.defaultRune, Cell.mk.injEq]
    by_cases hz : r = 0 ∧ a = 0
    · rw [if_pos hz, if_neg (by simp [hz.1, hz.2])]
      simp only [drawLoop]
      exact full_draw gr w h hw l (i + 1) cur
    · rw [if_neg hz]
      have e : (if r = 0 ∧ a ≠ 0 then 0x20 else r) = (ink ⟨r, a⟩).1 := by
        unfold ink
        by_cases hr : r = 0
        · have ha : a ≠ 0 := fun ha => hz ⟨hr, ha⟩
          rw [if_pos ⟨hr, ha⟩]; simp [hr]
        · simp [hr]
      have hne : (ink ⟨r, a⟩).1 ≠ 0 := by
        unfold ink; dsimp only; split <;> omega
      rw [e, if_pos hne]
      simp only [drawLoop]
      congr 1
      funext v
      rw [full_draw gr w h hw l (i + 1) v.1]

/-- What a differential update writes for a cell. -/
def diffInk (d c : Cell) : Option (Nat × Attr) := if ink c = ink d then none else some (ink c)

theorem diff_draw (gr : Nat → Bool) (w h : Nat) (hw : 1 ≤ w) (prior : Screen) (P : prior.Whole w h)
    (style : StyleFn) (hst : ∀ p r a, style p 0x20 r 0 a = (if r = 0 then 0x20 else r, a)) :
    ∀ (l : List Cell) (i : Nat) (cur : Cursor), i + l.length = w * h →
    diffLoop gr style 0x20 0 ⟨⟨1, 1⟩, ⟨(w : Int) + 1, (h : Int) + 1⟩⟩ prior.grid l (ptOf w i) true cur =
      drawLoop gr w (List.zipWith diffInk (prior.grid.cells.drop i) l) i cur
  | [], _, _, _ => by simp [diffLoop, drawLoop]
  | c :: l, i, cur, hl => by
    simp only [List.length_cons] at hl
    have hi : i < w * h := by omega
    have hlen : i < prior.grid.cells.length := by have := P.cap; omega
    have hoff : prior.grid.cellOffset? (ptOf w i) = some (some i) := by
      rw [ptOf, Grid.cellOffset_mk ((P.mem _).2 ⟨i % w, i / w, rfl, Nat.mod_lt _ hw,
        Nat.div_lt_of_lt_mul hi⟩), P.stride, Nat.mul_comm, Nat.div_add_mod]
    have hdrop : prior.grid.cells.drop i = prior.grid.cells[i] :: prior.grid.cells.drop (i + 1) :=
      List.drop_eq_getElem_cons hlen
    rw [hdrop, List.zipWith_cons_cons]
    have hink : ∀ c : Cell, (if c.rune = 0 then 0x20 else c.rune, c.attr) = ink c := fun _ => rfl
    have hne : (ink c).1 ≠ 0 := by unfold ink; dsimp only; split <;> omega
    have hpa : ∀ a : Attr, (if a = 0 then 0 else a) = a := by intro a; split <;> simp_all
    simp only [diffLoop, hst, hoff, P.len, if_pos hi, if_true, List.getElem?_eq_getElem hlen,
      Option.getD_some, next_pt w h i hw, hpa]
    have hr1 : (if c.rune = 0 then 0x20 else c.rune) = (ink c).1 := rfl
    have hr2 : c.attr = (ink c).2 := rfl
    rw [hr1, hr2]
    have hcond : ((ink c).1 = (if prior.grid.cells[i].rune = 0 then 0x20 else prior.grid.cells[i].rune) ∧
        (ink c).2 = prior.grid.cells[i].attr) ↔ ink c = ink prior.grid.cells[i] := by
      rw [← hink prior.grid.cells[i], Prod.ext_iff]
    simp only [hcond]
    unfold diffInk
    by_cases he : ink c = ink prior.grid.cells[i]
    · rw [if_pos he, if_pos he]
      simp only [drawLoop]
      exact diff_draw gr w h hw prior P style hst l (i + 1) cur (by omega)
    · rw [if_neg he, if_neg he, if_pos hne]
      simp only [drawLoop]
      congr 1
      funext v
      rw [diff_draw gr w h hw prior P style hst l (i + 1) v.1 (by omega)]
      rfl

theorem spots_eq (w : Nat) : ∀ (l : List (Option (Nat × Attr))) (i : Nat),
    spots w l i = ((List.range' i l.length).filter fun j => (l[j - i]?).join.isSome).map (ptOf w)
  | [], i => by simp [spots]
  | o :: l, i => by
    have ih := spots_eq w l (i + 1)
    have hf : (List.range' (i + 1) l.length).filter (fun j => ((o :: l)[j - i]?).join.isSome) =
        (List.range' (i + 1) l.length).filter (fun j => (l[j - (i + 1)]?).join.isSome) := by
      apply List.filter_congr
      intro j hj
      rw [List.mem_range'_1] at hj
      have : j - i = (j - (i + 1)) + 1 := by omega
      rw [this, List.getElem?_cons_succ]
    rw [List.length_cons, List.range'_succ, List.filter_cons, hf]
    cases o with
    | none => simp only [spots, ih, Nat.sub_self, List.getElem?_cons_zero]; rfl
    | some ra => simp only [spots, ih, Nat.sub_self, List.getElem?_cons_zero]; rfl

theorem spots_points (w h : Nat) (l : List (Option (Nat × Attr))) (hl : l.length = w * h) (d : Nat → Bool)
    (hd : ∀ i, i < w * h → (l[i]?).join.isSome = d i) : spots w l 0 = points w h d := by
  rw [spots_eq, hl, points, List.range_eq_range']
  congr 1
  apply List.filter_congr
  intro j hj
  rw [List.mem_range'_1] at hj
  rw [Nat.sub_zero, hd j (by omega)]

theorem full_spots {sc : Screen} {w h : Nat} (W : sc.Whole w h) :
    spots w (sc.grid.data.map fullInk) 0 = points w h (drawn sc) := by
  have hl : sc.grid.data.length = w * h := by
    unfold Grid.data; rw [List.length_take, W.len]; have := W.cap; omega
  apply spots_points w h _ (by simpa using hl)
  intro i hi
  have hc : i < sc.grid.cells.length := by have := W.cap; omega
  have : sc.grid.data[i]? = some sc.grid.cells[i] := by
    unfold Grid.data
    rw [List.getElem?_take_of_lt (by rw [W.len]; exact hi), List.getElem?_eq_getElem hc]
  rw [List.getElem?_map, this]
  unfold drawn fullInk
  rw [List.getElem?_eq_getElem hc]
  by_cases he : sc.grid.cells[i] = {}
  · rw [he]; decide
  · rw [Option.map_some, if_neg he]; simp only [Option.join_some, Option.isSome_some]
    rw [eq_comm, bne_iff_ne]; simpa using he

theorem diff_spots {sc prior : Screen} {w h : Nat} (W : sc.Whole w h) (P : prior.Whole w h) :
    spots w (List.zipWith diffInk (prior.grid.cells.drop 0) sc.grid.data) 0 =
      points w h (altered prior sc) := by
  have hl : sc.grid.data.length = w * h := by
    unfold Grid.data; rw [List.length_take, W.len]; have := W.cap; omega
  have hpc := P.cap
  apply spots_points w h _ (by simp [hl]; omega)
  intro i hi
  have hc : i < sc.grid.cells.length := by have := W.cap; omega
  have hd : i < prior.grid.cells.length := by omega
  have : sc.grid.data[i]? = some sc.grid.cells[i] := by
    unfold Grid.data
    rw [List.getElem?_take_of_lt (by rw [W.len]; exact hi), List.getElem?_eq_getElem hc]
  rw [List.drop_zero, List.getElem?_zipWith, this, List.getElem?_eq_getElem hd]
  unfold altered diffInk
  rw [List.getElem?_eq_getElem hc, List.getElem?_eq_getElem hd]
  by_cases he : ink sc.grid.cells[i] = ink prior.grid.cells[i]
  · simp [he]
  · simp [he, Ne.symm he]

end Anansi
