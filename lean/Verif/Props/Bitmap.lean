import Verif.Spec.Bitmap
import Verif.Props.Geom
import Verif.Lemmas.Grid
import Mathlib.Tactic.IntervalCases
/-
C24-C26: bitmaps.
-/
set_option autoImplicit false

namespace Anansi.Bitmap
open Geom

structure Inv (b : Bitmap) : Prop where
  mem : ∀ p, Mem p b.rect → ∃ x y : Nat, p = ⟨x, y⟩ ∧ x < b.stride ∧ (y + 1) * b.stride ≤ b.bit.length

theorem inv_block {b : Bitmap} {w h : Nat} (hr : b.rect = ⟨⟨0, 0⟩, ⟨w, h⟩⟩) (hw : w ≤ b.stride)
    (hl : h * b.stride ≤ b.bit.length) : Inv b := by
  refine ⟨fun p hp => ?_⟩
  rw [hr] at hp
  simp only [Mem] at hp
  refine ⟨p.x.toNat, p.y.toNat, Grid.pt_eq (by omega) (by omega), by omega, ?_⟩
  exact le_trans (Nat.mul_le_mul_right _ (by omega)) hl

theorem inv_load {stride : Nat} {data : List Bool} {b : Bitmap} (h : load stride data = some b) : Inv b := by
  unfold load at h
  split at h
  · simp at h
  · dsimp only at h
    split at h
    · simp at h
    · simp only [Option.some.injEq] at h
      subst h
      refine inv_block rfl (Nat.le_refl _) ?_
      simp only [List.length_append, List.length_replicate]
      exact le_trans (Nat.div_mul_le_self _ _) (by omega)

theorem Made.inv {b : Bitmap} (m : Made b) : Inv b := by
  induction m with
  | zero => refine ⟨fun p hp => ?_⟩; simp only [Mem] at hp; omega
  | load stride data h => exact inv_load h
  | resize w h => exact inv_block rfl (Nat.le_refl _) (by simp [Bitmap.resize, Nat.mul_comm])
  | sub r _ ih =>
    refine ⟨fun p hp => ?_⟩
    unfold subRect at hp ⊢
    split at hp
    · simp only [Mem] at hp; omega
    · rename_i hin
      have hin := (ptIn_iff _ _).1 (by simpa using hin)
      rw [if_neg (by rw [ptIn_iff]; simpa using hin)]
      · refine ih.mem p ?_
        simp only [Mem] at hp hin ⊢
        split at hp <;> split at hp <;> omega
  | write bits _ h ih =>
    refine ⟨fun p hp => ?_⟩
    obtain ⟨x, y, e, hx, hy⟩ := ih.mem p hp
    exact ⟨x, y, e, hx, by simp only [h]; exact hy⟩

theorem index_mk {b : Bitmap} {x y : Nat} (h : Mem ⟨x, y⟩ b.rect) :
    b.index ⟨x, y⟩ = some ((y * b.stride + x : Nat) : Int) := by
  unfold index
  rw [if_pos ((ptIn_iff _ _).2 h)]
  push_cast; rfl

theorem index_none {b : Bitmap} {p : Pt} (h : ¬ Mem p b.rect) : b.index p = none := by
  unfold index; rw [if_neg]; rw [ptIn_iff]; exact h

theorem bitAt_nat (b : Bitmap) (i : Nat) : b.bitAt (i : Int) = b.bit[i]? := by
  unfold bitAt; rw [if_pos (by omega)]; simp

/-- Reading a bit in bounds. -/
theorem get_in {b : Bitmap} (I : Inv b) {x y : Nat} (h : Mem ⟨x, y⟩ b.rect) :
    b.get ⟨x, y⟩ = b.bit[y * b.stride + x]? ∧ y * b.stride + x < b.bit.length ∧ x < b.stride := by
  obtain ⟨x', y', e, hx, hy⟩ := I.mem _ h
  simp only [Pt.mk.injEq, Nat.cast_inj] at e
  obtain ⟨rfl, rfl⟩ := e
  refine ⟨?_, Grid.offset_lt hx hy, hx⟩
  unfold get
  rw [index_mk h]
  exact bitAt_nat b _

theorem bitAt_bitIn {b : Bitmap} (I : Inv b) {x y : Nat} (h : Mem ⟨x, y⟩ b.rect) :
    b.bitAt ((y * b.stride + x : Nat) : Int) = some (b.bitIn ⟨x, y⟩) := by
  obtain ⟨h1, h2, _⟩ := get_in I h
  rw [bitAt_nat]
  unfold bitIn
  rw [h1, List.getElem?_eq_getElem h2]
  cases b.bit[y * b.stride + x] <;> rfl

theorem bitIn_out {b : Bitmap} {p : Pt} (h : ¬ Mem p b.rect) : b.bitIn p = false := by
  unfold bitIn get; rw [index_none h]; rfl

theorem dots_eq {b : Bitmap} (I : Inv b) {x y : Nat} (h : Mem ⟨x, y⟩ b.rect) (l r : Nat) (i : Int)
    (hi : i = ((y * b.stride + x : Nat) : Int)) :
    b.dots i (decide ((x : Int) + 1 < b.rect.max.x)) l r =
      some ((if b.bitIn ⟨x, y⟩ then l else 0) ||| (if b.bitIn ⟨(x : Int) + 1, y⟩ then r else 0)) := by
  subst hi
  unfold dots
  rw [bitAt_bitIn I h]
  simp only [Option.bind_some]
  by_cases hc : (x : Int) + 1 < b.rect.max.x
  · have hm : Mem ⟨((x + 1 : Nat) : Int), y⟩ b.rect := by
      simp only [Mem] at h ⊢; push_cast; omega
    have := bitAt_bitIn I hm
    have e : ((y * b.stride + (x + 1) : Nat) : Int) = ((y * b.stride + x : Nat) : Int) + 1 := by
      push_cast; ring
    rw [e] at this
    rw [if_pos (by simpa using hc), this]
    push_cast
    rfl
  · have hm : ¬ Mem ⟨(x : Int) + 1, (y : Int)⟩ b.rect := by
      simp only [Mem] at h ⊢; omega
    rw [if_neg (by simpa using hc), bitIn_out hm]
    simp

theorem orAll (b0 b1 b2 b3 c0 c1 c2 c3 : Bool) :
    0x2800 ||| (((if b0 then 1 else 0) ||| (if c0 then 8 else 0)) ||| ((if b1 then 2 else 0) ||| (if c1 then 16 else 0)) |||
      ((if b2 then 4 else 0) ||| (if c2 then 32 else 0)) ||| ((if b3 then 64 else 0) ||| (if c3 then 128 else 0))) =
    0x2800 + ((if b0 then 1 else 0) + (if b1 then 2 else 0) + (if b2 then 4 else 0) + (if b3 then 64 else 0) +
      (if c0 then 8 else 0) + (if c1 then 16 else 0) + (if c2 then 32 else 0) + (if c3 then 128 else 0)) := by
  revert b0 b1 b2 b3 c0 c1 c2 c3; decide +kernel

/-- **C24**, for anchors inside the bitmap: the rune shows exactly the 2 x 4 block of
bits at that position, bits outside of the bitmap being empty, and there is no panic.
Missing: anchors outside the bounds whose block reaches into the bitmap
(`rune_outside_blank`). -/
theorem rune_exact_partial {b : Bitmap} (m : Made b) {p : Pt} (h : Mem p b.rect) :
    b.rune p = some (braille fun i j => b.bitIn ⟨p.x + i, p.y + j⟩) := by
  have I := m.inv
  obtain ⟨x, y, rfl, hx, hy⟩ := I.mem p h
  unfold rune
  rw [index_mk h]
  simp only
  have off : ∀ k : Nat, ((y * b.stride + x : Nat) : Int) + k * b.stride =
      (((y + k) * b.stride + x : Nat) : Int) := by intro k; push_cast; ring
  have row : ∀ (k l r : Nat) (i : Int), i = ((y * b.stride + x : Nat) : Int) + k * b.stride →
      (y : Int) + k < b.rect.max.y →
      b.dots i (decide ((x : Int) + 1 < b.rect.max.x)) l r =
        some ((if b.bitIn ⟨x, (y : Int) + k⟩ then l else 0) |||
          (if b.bitIn ⟨(x : Int) + 1, (y : Int) + k⟩ then r else 0)) := by
    intro k l r i hi hk
    have hm : Mem ⟨(x : Int), ((y + k : Nat) : Int)⟩ b.rect := by
      simp only [Mem] at h ⊢; push_cast; omega
    have := dots_eq I hm l r i (hi.trans (off k))
    push_cast at this
    exact this
  have out : ∀ (a : Int) (k : Nat), ¬ (y : Int) + k < b.rect.max.y → b.bitIn ⟨a, (y : Int) + k⟩ = false := by
    intro a k hk
    refine bitIn_out ?_
    simp only [Mem]; omega
  have hy0 : (y : Int) + (0 : Nat) < b.rect.max.y := by simp only [Mem] at h; omega
  rw [row 0 1 8 _ (by push_cast; ring) hy0]
  simp only [Option.bind_some, braille, dotValue]
  have key := orAll (b.bitIn ⟨x, (y : Int) + (0 : Nat)⟩) (b.bitIn ⟨x, (y : Int) + (1 : Nat)⟩)
    (b.bitIn ⟨x, (y : Int) + (2 : Nat)⟩) (b.bitIn ⟨x, (y : Int) + (3 : Nat)⟩)
    (b.bitIn ⟨(x : Int) + 1, (y : Int) + (0 : Nat)⟩) (b.bitIn ⟨(x : Int) + 1, (y : Int) + (1 : Nat)⟩)
    (b.bitIn ⟨(x : Int) + 1, (y : Int) + (2 : Nat)⟩) (b.bitIn ⟨(x : Int) + 1, (y : Int) + (3 : Nat)⟩)
  by_cases h1 : (y : Int) + (1 : Nat) < b.rect.max.y
  · rw [if_neg (by simpa using h1), row 1 2 16 _ (by push_cast; ring) h1]
    simp only [Option.bind_some]
    by_cases h2 : (y : Int) + (2 : Nat) < b.rect.max.y
    · rw [if_neg (by simpa using h2), row 2 4 32 _ (by push_cast; ring) h2]
      simp only [Option.bind_some]
      by_cases h3 : (y : Int) + (3 : Nat) < b.rect.max.y
      · rw [if_neg (by simpa using h3), row 3 64 128 _ (by push_cast; ring) h3]
        simp only [Option.bind_some, key]
        push_cast; simp
      · rw [if_pos (by simpa using h3)]
        simp only [out _ 3 h3, Bool.false_eq_true, if_false, Nat.or_zero] at key
        rw [key]
        simp only [out _ 3 h3]
        push_cast; simp
    · rw [if_pos (by simpa using h2)]
      have h3 : ¬ (y : Int) + (3 : Nat) < b.rect.max.y := by omega
      simp only [out _ 2 h2, out _ 3 h3, Bool.false_eq_true, if_false, Nat.or_zero] at key
      rw [key]
      simp only [out _ 2 h2, out _ 3 h3]
      push_cast; simp
  · rw [if_pos (by simpa using h1)]
    have h2 : ¬ (y : Int) + (2 : Nat) < b.rect.max.y := by omega
    have h3 : ¬ (y : Int) + (3 : Nat) < b.rect.max.y := by omega
    simp only [out _ 1 h1, out _ 2 h2, out _ 3 h3, Bool.false_eq_true, if_false, Nat.or_zero] at key
    rw [key]
    simp only [out _ 1 h1, out _ 2 h2, out _ 3 h3]
    push_cast; simp

/-- An 3 x 5 bitmap. -/
def sample : Bitmap := ⟨[true, false, true, false, true, false, true, true, true, false, false, true, true, true, true],
  3, ⟨⟨0, 0⟩, ⟨3, 5⟩⟩⟩

theorem sample_made : Made sample := .load 3 sample.bit (by decide +kernel)

example : Mem ⟨2, 3⟩ sample.rect ∧ sample.rune ⟨2, 3⟩ = some 0x2803 := by unfold Mem; decide +kernel

/-- **C24** A position outside the bounds gives the blank braille rune. -/
theorem rune_blank (b : Bitmap) {p : Pt} (h : ¬ Mem p b.rect) : b.rune p = some 0x2800 := by
  unfold rune; rw [index_none h]

/-- **C24 fails** for positions outside the bounds whose block reaches into the
bitmap: the rune is blank, the block is not. -/
theorem rune_outside_blank :
    sample.rune ⟨-1, 0⟩ = some 0x2800 ∧
      braille (fun i j => sample.bitIn ⟨-1 + i, 0 + j⟩) ≠ 0x2800 := by decide +kernel

/-- The dots of a braille rune. -/
def dotOn (r a b : Nat) : Bool := r / dotValue a b % 2 == 1

/-- The dots of a braille rune are those it was made of. -/
theorem dotOn_braille (on : Nat → Nat → Bool) {a b : Nat} (ha : a < 2) (hb : b < 4) :
    dotOn (braille on) a b = on a b := by
  have key : ∀ b0 b1 b2 b3 c0 c1 c2 c3 : Bool,
      let n := 0x2800 + ((if b0 then 1 else 0) + (if b1 then 2 else 0) + (if b2 then 4 else 0) + (if b3 then 64 else 0) +
        (if c0 then 8 else 0) + (if c1 then 16 else 0) + (if c2 then 32 else 0) + (if c3 then 128 else 0))
      dotOn n 0 0 = b0 ∧ dotOn n 0 1 = b1 ∧ dotOn n 0 2 = b2 ∧ dotOn n 0 3 = b3 ∧
      dotOn n 1 0 = c0 ∧ dotOn n 1 1 = c1 ∧ dotOn n 1 2 = c2 ∧ dotOn n 1 3 = c3 := by decide +kernel
  have k := key (on 0 0) (on 0 1) (on 0 2) (on 0 3) (on 1 0) (on 1 1) (on 1 2) (on 1 3)
  have : braille on = _ := rfl
  interval_cases a <;> interval_cases b
  · exact k.1
  · exact k.2.1
  · exact k.2.2.1
  · exact k.2.2.2.1
  · exact k.2.2.2.2.1
  · exact k.2.2.2.2.2.1
  · exact k.2.2.2.2.2.2.1
  · exact k.2.2.2.2.2.2.2

/-- **C24** Reading the dots of the runes recovers the bitmap: every bit is the dot
at its place in the rune of its 2 x 4 block, and there are `RuneSize` blocks. -/
theorem runes_recover {b : Bitmap} (m : Made b) {p : Pt} (h : Mem p b.rect) :
    let u := (p.x - b.rect.min.x) / 2
    let v := (p.y - b.rect.min.y) / 4
    0 ≤ u ∧ u < b.runeSize.x ∧ 0 ≤ v ∧ v < b.runeSize.y ∧
    ∃ r, b.rune ⟨b.rect.min.x + 2 * u, b.rect.min.y + 4 * v⟩ = some r ∧
      dotOn r ((p.x - b.rect.min.x) % 2).toNat ((p.y - b.rect.min.y) % 4).toNat = b.bitIn p := by
  intro u v
  have hb : 0 ≤ u ∧ 0 ≤ v ∧ u < b.runeSize.x ∧ v < b.runeSize.y := by
    simp only [Mem] at h
    refine ⟨by omega, by omega, ?_, ?_⟩
    · unfold runeSize; simp only [dx]; rw [Int.tdiv_eq_ediv_of_nonneg (by omega)]; omega
    · unfold runeSize; simp only [Geom.dy]; rw [Int.tdiv_eq_ediv_of_nonneg (by omega)]; omega
  refine ⟨hb.1, hb.2.2.1, hb.2.1, hb.2.2.2, _, rune_exact_partial m ?_, ?_⟩
  · simp only [Mem] at h ⊢; omega
  · rw [dotOn_braille _ (by omega) (by omega)]
    congr 1
    symm
    exact Grid.pt_eq (by dsimp only; omega) (by dsimp only; omega)

/-! ### C25 -/

/-- **C25** Reads outside the bounds are false. -/
theorem get_outside (b : Bitmap) {p : Pt} (h : ¬ Mem p b.rect) : b.get p = some false := by
  unfold get; rw [index_none h]

/-- **C25** Reads never panic. -/
theorem get_total {b : Bitmap} (m : Made b) (p : Pt) : ∃ v, b.get p = some v := by
  by_cases h : Mem p b.rect
  · obtain ⟨x, y, rfl, _, _⟩ := m.inv.mem p h
    obtain ⟨h1, h2, _⟩ := get_in m.inv h
    exact ⟨_, h1.trans (List.getElem?_eq_getElem h2)⟩
  · exact ⟨_, get_outside b h⟩

/-- **C25** After setting a bit inside the bounds, that bit reads back and no other
bit has changed; setting one outside changes nothing. -/
theorem set_get {b : Bitmap} (m : Made b) (p : Pt) (v : Bool) :
    ∃ bits, b.set p v = some bits ∧ bits.length = b.bit.length ∧
      (Mem p b.rect → ({ b with bit := bits } : Bitmap).get p = some v) ∧
      (∀ q, (q ≠ p ∨ ¬ Mem p b.rect) → ({ b with bit := bits } : Bitmap).get q = b.get q) := by
  by_cases h : Mem p b.rect
  · obtain ⟨x, y, rfl, _, _⟩ := m.inv.mem p h
    obtain ⟨h1, h2, hx⟩ := get_in m.inv h
    refine ⟨b.bit.set (y * b.stride + x) v, ?_, by simp, ?_, ?_⟩
    · unfold set
      rw [index_mk h]
      simp only
      rw [if_pos (by omega), Int.toNat_natCast]
    · intro _
      have I' : Inv { b with bit := b.bit.set (y * b.stride + x) v } := (m.write _ (by simp)).inv
      rw [(get_in I' h).1]
      simp [h2]
    · rintro q (hq | hq)
      · by_cases hm : Mem q b.rect
        · obtain ⟨x', y', rfl, _, _⟩ := m.inv.mem q hm
          have I' : Inv { b with bit := b.bit.set (y * b.stride + x) v } := (m.write _ (by simp)).inv
          rw [(get_in I' hm).1, (get_in m.inv hm).1]
          simp only
          rw [List.getElem?_set_ne]
          intro he
          obtain ⟨rfl, rfl⟩ := Grid.offset_inj hx (get_in m.inv hm).2.2 he
          exact hq rfl
        · rw [get_outside b hm]; exact get_outside _ hm
      · exact absurd h hq
  · refine ⟨b.bit, ?_, rfl, fun h' => absurd h' h, fun _ _ => rfl⟩
    unfold set; rw [index_none h]

/-- **C25** A sub-bitmap addresses the same bits at the same coordinates, and only
those of the common points (if its rectangle starts inside; otherwise none). -/
theorem subRect_get (b : Bitmap) (r : Rect) (p : Pt) :
    (b.subRect r).get p =
      if Mem r.min b.rect ∧ Mem p b.rect ∧ Mem p r then b.get p else some false := by
  by_cases hin : Mem r.min b.rect
  · have hi : ptIn r.min b.rect = true := (ptIn_iff _ _).2 hin
    have hmem : Mem p (b.subRect r).rect ↔ Mem p b.rect ∧ Mem p r := by
      unfold subRect
      rw [if_neg (by simp [hi])]
      simp only [Mem] at hin ⊢
      split <;> split <;> omega
    have hst : (b.subRect r).bit = b.bit ∧ (b.subRect r).stride = b.stride := by
      unfold subRect; rw [if_neg (by simp [hi])]; exact ⟨rfl, rfl⟩
    by_cases hp : Mem p b.rect ∧ Mem p r
    · rw [if_pos ⟨hin, hp⟩]
      have i1 : ptIn p (b.subRect r).rect = true := (ptIn_iff _ _).2 (hmem.2 hp)
      have i2 : ptIn p b.rect = true := (ptIn_iff _ _).2 hp.1
      unfold get index
      simp only [i1, i2, hst, if_true, bitAt]
    · rw [if_neg (fun h => hp h.2), get_outside _ (fun h => hp (hmem.1 h))]
  · rw [if_neg (fun h => hin h.1), get_outside]
    unfold subRect
    rw [if_pos (by rw [ptIn_iff]; exact hin)]
    simp only [Mem]; omega

example : Mem (⟨⟨1, 1⟩, ⟨9, 3⟩⟩ : Rect).min sample.rect ∧ Mem ⟨2, 2⟩ sample.rect ∧ Mem ⟨2, 2⟩ ⟨⟨1, 1⟩, ⟨9, 3⟩⟩ := by
  unfold Mem; decide +kernel

/-! ### C26 -/

/-- **C26**, for the whole rows: loading at least one row of data gives a bitmap with
the given stride and one row for every whole row of data, whose bits are the data.
Missing: a final partial row, which is dropped (`load_drops_partial_row`), and data
shorter than a row, for which it panics (`load_short_panics`). -/
theorem load_rows_partial (stride : Nat) (data : List Bool) (hs : 0 < stride) (hd : stride ≤ data.length) :
    ∃ b, load stride data = some b ∧ b.rect = ⟨⟨0, 0⟩, ⟨stride, (data.length / stride : Nat)⟩⟩ ∧
      ∀ x y : Nat, x < stride → y < data.length / stride → b.get ⟨x, y⟩ = data[y * stride + x]? := by
  have hh : data.length / stride ≠ 0 := by
    have := Nat.div_pos hd hs; omega
  have e : load stride data = some ⟨data ++ List.replicate (data.length % (data.length / stride)) false, stride,
      ⟨⟨0, 0⟩, ⟨stride, (data.length / stride : Nat)⟩⟩⟩ := by
    unfold load; rw [if_neg (by omega)]; dsimp only; rw [if_neg hh]
  refine ⟨_, e, rfl, ?_⟩
  intro x y hx hy
  have hm : Mem ⟨(x : Int), (y : Int)⟩ (⟨⟨0, 0⟩, ⟨stride, (data.length / stride : Nat)⟩⟩ : Rect) := by
    simp only [Mem]; omega
  rw [(get_in (inv_load e) hm).1]
  simp only
  rw [List.getElem?_append_left]
  have h1 := Nat.div_mul_le_self data.length stride
  have h2 : (y + 1) * stride ≤ _ := Nat.mul_le_mul_right stride hy
  have h3 : (y + 1) * stride = y * stride + stride := by ring
  omega

example : 0 < 3 ∧ 3 ≤ [true, false, true, false].length := by decide

/-- **C26 fails** for data with a final partial row: the row is not in the bitmap. -/
theorem load_drops_partial_row :
    load 3 [true, true, true, true] = some ⟨[true, true, true, true], 3, ⟨⟨0, 0⟩, ⟨3, 1⟩⟩⟩ ∧
      (⟨[true, true, true, true], 3, ⟨⟨0, 0⟩, ⟨3, 1⟩⟩⟩ : Bitmap).get ⟨0, 1⟩ = some false := by decide +kernel

/-- **C26 fails** for data shorter than one row: loading panics. -/
theorem load_short_panics (stride : Nat) (data : List Bool) (h : data.length < stride) :
    load stride data = none := by
  unfold load
  split
  · rfl
  · rw [Nat.div_eq_of_lt h]; simp

example : ([] : List Bool).length < 1 := by decide

theorem parseStride_spec (k : Nat) (hk : k = 1 ∨ k = 2) : ∀ (lines : List (List Nat)) (s t : Nat),
    s ≠ 0 → (parseStride k s lines = some t ↔ (t = s ∧ ∀ l ∈ lines, l.length = s * k))
  | [], s, t, _ => by simp [parseStride]; exact eq_comm
  | l :: lines, s, t, hs => by
    have ih := parseStride_spec k hk lines s t hs
    have hl : (¬ (k = 2 ∧ l.length % 2 = 1) ∧ (if k = 2 then l.length / 2 else l.length) = s) ↔ l.length = s * k := by
      rcases hk with rfl | rfl
      · simp
      · simp only [true_and, if_true]; omega
    rw [parseStride]
    dsimp only
    by_cases h1 : k = 2 ∧ l.length % 2 = 1
    · rw [if_pos h1]
      constructor
      · intro h; simp at h
      · rintro ⟨_, h⟩; exact absurd h1 (hl.2 (h l (by simp))).1
    · rw [if_neg h1, if_neg hs]
      by_cases h2 : (if k = 2 then l.length / 2 else l.length) = s
      · rw [if_neg (by simpa using h2), ih]
        simp [hl.1 ⟨h1, h2⟩]
      · rw [if_pos h2]
        constructor
        · intro h; simp at h
        · rintro ⟨_, h⟩; exact absurd (hl.2 (h l (by simp))).2 h2

theorem parseLine_spec (pat : List Nat) (hk : pat.length = 1 ∨ pat.length = 2) (line : List Nat) (s : Nat)
    (h : line.length = s * pat.length) :
    (parseLine pat line).length = s ∧ ∀ x, x < s → (parseLine pat line)[x]? = some (cellOf pat line x) := by
  rcases hk with hk | hk
  · obtain ⟨p, rfl⟩ := List.length_eq_one_iff.1 hk
    have e : ∀ line : List Nat, parseLine [p] line = line.map (· == p) := by
      intro line
      induction line with
      | nil => rfl
      | cons r rs ih => rw [parseLine, ih]; rfl
    simp only [List.length_singleton, Nat.mul_one] at h
    rw [e]
    refine ⟨by simpa using h, fun x hx => ?_⟩
    unfold cellOf
    simp only [List.length_singleton, Nat.mul_one, List.getElem?_map]
    rw [List.drop_eq_getElem_cons (by omega), List.getElem?_eq_getElem (by omega)]
    rw [List.take_succ_cons, List.take_zero]
    simp
  · match pat, hk with
    | [p, q], _ =>
    induction s generalizing line with
    | zero =>
      simp at h; subst h
      exact ⟨rfl, fun x hx => by omega⟩
    | succ n ih =>
      match line, h with
      | [], h => simp at h
      | [r], h => simp at h; omega
      | r :: r2 :: rs, h =>
        obtain ⟨l, f⟩ := ih rs (by simp at h ⊢; omega)
        have e : parseLine [p, q] (r :: r2 :: rs) = (r == p && r2 == q) :: parseLine [p, q] rs := rfl
        rw [e]
        refine ⟨by simp [l], fun x hx => ?_⟩
        rcases x with _ | x
        · simp [cellOf]
        · rw [List.getElem?_cons_succ, f x (by omega)]
          unfold cellOf
          simp [Nat.add_mul]

/-- **C26** Parsing, when the first line is not empty, succeeds exactly if the
pattern has one or two runes and all lines have the same whole number of cells.
Missing: leading empty lines, which are not counted (`parse_accepts_uneven`). -/
theorem parse_ok_partial (pat first : List Nat) (lines : List (List Nat)) (hf : first ≠ []) (s : Nat) :
    (∃ d, parse pat (first :: lines) = some (s, d)) ↔
      ((pat.length = 1 ∨ pat.length = 2) ∧ ∀ l ∈ first :: lines, l.length = s * pat.length) := by
  have hlen : first.length ≠ 0 := by simpa using hf
  unfold parse
  by_cases hp : pat.length = 1 ∨ pat.length = 2
  · rw [if_pos hp]
    have key : parseStride pat.length 0 (first :: lines) = some s ↔
        ∀ l ∈ first :: lines, l.length = s * pat.length := by
      rw [parseStride]
      dsimp only
      by_cases h1 : pat.length = 2 ∧ first.length % 2 = 1
      · rw [if_pos h1]
        constructor
        · intro h; simp at h
        · intro h
          have := h first (by simp)
          rw [h1.1] at this; omega
      · rw [if_neg h1, if_pos rfl, parseStride_spec _ hp _ _ _ (by split <;> omega)]
        constructor
        · rintro ⟨h2, h3⟩ l hl
          rcases List.mem_cons.1 hl with rfl | hl
          · subst h2; rcases hp with hp | hp <;> rw [hp] <;> simp; omega
          · rw [h2]; exact h3 l hl
        · intro h
          have hfst := h first (by simp)
          have : s = if pat.length = 2 then first.length / 2 else first.length := by
            rcases hp with hp | hp
            · rw [if_neg (by omega), hfst, hp]; omega
            · rw [if_pos hp, hfst, hp]; omega
          exact ⟨this, fun l hl => this ▸ h l (by simp [hl])⟩
    rw [← key]
    cases parseStride pat.length 0 (first :: lines) <;> simp [hp]
  · rw [if_neg hp]; simp [hp]

/-- **C26** The parsed data is the cells of the lines, row by row; loading it gives
the bitmap one reads off the lines. -/
theorem parse_load (pat first : List Nat) (lines : List (List Nat)) (hf : first ≠ []) (s : Nat) (d : List Bool)
    (h : parse pat (first :: lines) = some (s, d)) :
    ∃ b, load s d = some b ∧ b.rect = ⟨⟨0, 0⟩, ⟨s, (lines.length + 1 : Nat)⟩⟩ ∧
      ∀ x y : Nat, x < s → ∀ l, (first :: lines)[y]? = some l → b.get ⟨x, y⟩ = some (cellOf pat l x) := by
  obtain ⟨hp, hl⟩ := (parse_ok_partial pat first lines hf s).1 ⟨d, h⟩
  have hd : d = (first :: lines).flatMap (parseLine pat) := by
    unfold parse at h
    rw [if_pos hp] at h
    cases hs : parseStride pat.length 0 (first :: lines) with
    | none => rw [hs] at h; simp at h
    | some t => rw [hs] at h; simp at h; rw [← h.2]; simp
  have hs : 0 < s := by
    have := hl first (by simp)
    rcases Nat.eq_zero_or_pos s with rfl | h'
    · simp at this; exact absurd this hf
    · exact h'
  -- the data, row by row
  have rows : ∀ ls : List (List Nat), (∀ l ∈ ls, l.length = s * pat.length) →
      (ls.flatMap (parseLine pat)).length = ls.length * s ∧
      ∀ x y : Nat, x < s → ∀ l, ls[y]? = some l →
        (ls.flatMap (parseLine pat))[y * s + x]? = some (cellOf pat l x) := by
    intro ls
    induction ls with
    | nil => intro _; exact ⟨by simp, fun x y _ l hl => by simp at hl⟩
    | cons a ls ih =>
      intro hall
      obtain ⟨l1, f1⟩ := parseLine_spec pat hp a s (hall a (by simp))
      obtain ⟨l2, f2⟩ := ih (fun l hl => hall l (by simp [hl]))
      rw [List.flatMap_cons]
      refine ⟨by rw [List.length_append, l1, l2, List.length_cons]; ring, ?_⟩
      intro x y hx l hl
      rcases y with _ | y
      · simp only [Nat.zero_mul, Nat.zero_add]
        simp at hl; subst hl
        rw [List.getElem?_append_left (by omega)]; exact f1 x hx
      · rw [List.getElem?_append_right (by rw [l1, Nat.add_mul]; omega), l1]
        rw [show (y + 1) * s + x - s = y * s + x by rw [Nat.add_mul]; omega]
        exact f2 x y hx l (by simpa using hl)
  obtain ⟨r1, r2⟩ := rows (first :: lines) hl
  rw [← hd] at r1 r2
  have hdiv : d.length / s = lines.length + 1 := by
    rw [r1, Nat.mul_div_cancel _ hs]; rfl
  have hge : s ≤ d.length := by rw [r1, List.length_cons, Nat.add_mul]; omega
  obtain ⟨b, e1, e2, e3⟩ := load_rows_partial s d hs hge
  refine ⟨b, e1, by rw [e2, hdiv], ?_⟩
  intro x y hx l hl
  rw [e3 x y hx (by rw [hdiv]; have := (List.getElem?_eq_some_iff.1 hl).1; simpa using this)]
  exact r2 x y hx l hl

/-- `"# #", " ##"` with one rune per cell, and with two. -/
example : (([35, 32, 35] : List Nat) ≠ [] ∧ parse [35] [[35, 32, 35], [32, 35, 35]] =
      some (3, [true, false, true, false, true, true])) ∧
    parse [35, 35] [[35, 35, 32, 32], [46, 35, 35, 35]] = some (2, [true, false, false, true]) := by
  decide +kernel

/-- **C26 fails**: leading empty lines are accepted before longer ones. -/
theorem parse_accepts_uneven : parse [35] [[], [35, 35]] = some (2, [true, true]) := by decide +kernel

end Anansi.Bitmap
