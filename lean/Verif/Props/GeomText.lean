import Verif.Model.GeomText
import Verif.Lemmas.Repr
import Verif.Props.Geom
/-
Points scale and are told apart by their text (C147).
-/
set_option autoImplicit false

namespace Anansi.Geom

namespace Spec

/-- The numbers a machine `int` holds. -/
def Word (i : Int) : Prop := -2 ^ 63 ≤ i ∧ i < 2 ^ 63

/-- Both coordinates are such numbers. -/
def Holds (p : Pt) : Prop := Word p.x ∧ Word p.y

/-- A number as it is usually written. -/
def decimal (i : Int) : String := if i < 0 then "-" ++ i.natAbs.repr else i.natAbs.repr

end Spec
open Spec

theorem wrap_holds (i : Int) : Word (wrap64 i) := by
  unfold Word wrap64 toInt64; simp only; split <;> omega

theorem wrap_id {i : Int} (h : Word i) : wrap64 i = i := by
  exact wrap64_small h.1 h.2

theorem wrap_iff (i : Int) : wrap64 i = i ↔ Word i := ⟨fun h => h ▸ wrap_holds i, wrap_id⟩

/-- **C147**, scaling up: both coordinates are multiplied exactly if the products fit, and not otherwise. -/
theorem mul_exact (p : Pt) (k : Int) : ptMul p k = ⟨p.x * k, p.y * k⟩ ↔ Word (p.x * k) ∧ Word (p.y * k) := by
  unfold ptMul
  rw [Pt.mk.injEq, wrap_iff, wrap_iff]

/-- **C147**, scaling down: the quotient by zero panics.  By any other number it is the coordinate's, rounded towards zero: of
the same sign as the exact quotient, and short of it by less than one.  Only the least number by -1 is not. -/
theorem div_exact (p : Pt) (hp : Holds p) (k : Int) :
    (ptDiv p k = none ↔ k = 0) ∧
    ∀ q, ptDiv p k = some q →
      (k = -1 → p.x ≠ -2 ^ 63) → (k = -1 → p.y ≠ -2 ^ 63) →
      (∃ r, p.x = q.x * k + r ∧ r.natAbs < k.natAbs ∧ (0 ≤ p.x → 0 ≤ r) ∧ (p.x ≤ 0 → r ≤ 0)) ∧
      ∃ r, p.y = q.y * k + r ∧ r.natAbs < k.natAbs ∧ (0 ≤ p.y → 0 ≤ r) ∧ (p.y ≤ 0 → r ≤ 0) := by
  have one : ∀ a : Int, k ≠ 0 → Word a → (k = -1 → a ≠ -2 ^ 63) →
      ∃ r, a = wrap64 (a.tdiv k) * k + r ∧ r.natAbs < k.natAbs ∧ (0 ≤ a → 0 ≤ r) ∧ (a ≤ 0 → r ≤ 0) := by
    intro a hk ha hm
    have hin : Word (a.tdiv k) := by
      have hle : (a.tdiv k).natAbs ≤ a.natAbs := by
        rw [Int.natAbs_tdiv]; exact Nat.div_le_self _ _
      unfold Word at ha ⊢
      by_cases hx : a = -2 ^ 63
      · have h1 : k ≠ -1 := fun e => hm e hx
        by_cases h2 : k = 1
        · subst h2; rw [Int.tdiv_one]; exact ha
        · have : (a.tdiv k).natAbs ≤ a.natAbs / 2 := by
            rw [Int.natAbs_tdiv]; exact Nat.div_le_div_left (by omega) (by omega)
          omega
      · omega
    refine ⟨a.tmod k, ?_, ?_, fun h => Int.tmod_nonneg _ h, fun h => ?_⟩
    · rw [wrap_id hin, Int.mul_comm]; exact (Int.mul_tdiv_add_tmod a k).symm
    · rw [Int.natAbs_tmod]; exact Nat.mod_lt _ (by omega)
    · have := Int.tmod_nonneg (a := -a) k (by omega)
      rw [Int.neg_tmod] at this; omega
  unfold ptDiv
  refine ⟨by split <;> simp_all, fun q hq h1 h2 => ?_⟩
  split at hq
  · cases hq
  · cases hq
    exact ⟨one _ (by assumption) hp.1 h1, one _ (by assumption) hp.2 h2⟩

/-- **C147**: scaling down undoes scaling up, if that was exact. -/
theorem mul_div (p : Pt) (hp : Holds p) (k : Int) (hk : k ≠ 0) (h : Word (p.x * k) ∧ Word (p.y * k)) :
    ptDiv (ptMul p k) k = some p := by
  rw [(mul_exact p k).2 h]
  unfold ptDiv
  rw [if_neg hk]
  simp only [Int.mul_tdiv_cancel _ hk, wrap_id hp.1, wrap_id hp.2]

/-- **C147**: a point of the screen scaled up by a positive number is one; scaled down it is one if it was that far from the edges. -/
theorem scaled_valid (p : Pt) (hp : Holds p) (hv : valid p = true) (k : Int) (hk : 1 ≤ k) :
    (Word (p.x * k) ∧ Word (p.y * k) → valid (ptMul p k) = true) ∧
    ∃ q, ptDiv p k = some q ∧ (valid q = true ↔ k ≤ p.x ∧ k ≤ p.y) := by
  have hv' : 1 ≤ p.x ∧ 1 ≤ p.y := by simpa [valid] using hv
  constructor
  · intro h
    rw [(mul_exact p k).2 h]
    have a := Int.mul_le_mul hv'.1 hk (by omega) (by omega)
    have b := Int.mul_le_mul hv'.2 hk (by omega) (by omega)
    simp only [valid, ge_iff_le, Bool.and_eq_true, decide_eq_true_eq]
    omega
  · have key : ∀ a : Int, 1 ≤ a → Word a → (1 ≤ wrap64 (a.tdiv k) ↔ k ≤ a) := by
      intro a ha h
      have e : a.tdiv k = a / k := Int.tdiv_eq_ediv_of_nonneg (by omega)
      have h0 : 0 ≤ a / k := Int.ediv_nonneg (by omega) (by omega)
      have h1 : a / k ≤ a := Int.ediv_le_self _ (by omega)
      rw [e, wrap_id (by unfold Word at h ⊢; omega), Int.le_ediv_iff_mul_le (by omega), Int.one_mul]
    refine ⟨_, by unfold ptDiv; rw [if_neg (by omega)], ?_⟩
    simp only [valid, ge_iff_le, Bool.and_eq_true, decide_eq_true_eq, key _ hv'.1 hp.1, key _ hv'.2 hp.2]

/-- **C147**: the difference of two points leads from one to the other, and adding and subtracting undo each other. -/
theorem diff_leads (p q : Pt) : ptAdd q (ptDiff p q) = p ∧ ptSub p (ptDiff p q) = q ∧ ptSub (ptAdd p q) q = p ∧ ptAdd (ptSub p q) q = p := by
  cases p; cases q
  simp only [ptAdd, ptSub, ptDiff, Pt.mk.injEq]; omega

/-- **C147**: equality of points is that of both coordinates. -/
theorem eq_points (p q : Pt) : ptEq p q = true ↔ p.x = q.x ∧ p.y = q.y := by
  cases p; cases q; simp [ptEq]

theorem itoa_decimal (i : Int) : itoa i = ascii (decimal i) := by
  unfold itoa decimal
  split
  · rw [ascii_append, ascii_repr]; rfl
  · rw [ascii_repr]

/-- **C147**, the text of a point and of a rectangle. -/
theorem text_form (r : Rect) :
    ptString r.min = ascii ("(" ++ decimal r.min.x ++ "," ++ decimal r.min.y ++ ")") ∧
    rectString r = ascii ("(" ++ decimal r.min.x ++ "," ++ decimal r.min.y ++ ")-(" ++ decimal r.max.x ++ "," ++ decimal r.max.y ++ ")") := by
  unfold rectString ptString
  simp only [itoa_decimal, ascii_append]
  constructor
  · rfl
  · have e1 : ascii ")-(" = [0x29] ++ [0x2D] ++ [0x28] := by decide
    have e2 : ascii "(" = [0x28] := by decide
    have e3 : ascii ")" = [0x29] := by decide
    have e4 : ascii "," = [0x2C] := by decide
    rw [e1, e2, e3, e4]
    simp only [List.append_assoc]

theorem itoa_bytes (i : Int) : ∀ b ∈ itoa i, b ≠ 0x2C ∧ b ≠ 0x29 := by
  have hd : ∀ n, ∀ b ∈ itoaNat n, b ≠ 0x2C ∧ b ≠ 0x29 := by
    intro n b hb
    have := itoaNat_digits n b hb
    constructor <;> (rintro rfl; simp at this)
  unfold itoa
  split
  · intro b hb
    rcases List.mem_cons.1 hb with rfl | hb
    · decide
    · exact hd _ b hb
  · exact hd _

theorem itoa_inj {a b : Int} (h : itoa a = itoa b) : a = b := by
  have hm : ∀ n t, itoaNat n ≠ 0x2D :: t := by
    intro n t e
    have := itoaNat_digits n 0x2D (by rw [e]; exact List.mem_cons_self)
    simp at this
  unfold itoa at h
  split at h <;> split at h
  · have := itoaNat_inj (List.cons.inj h).2; omega
  · exact (hm _ _ h.symm).elim
  · exact (hm _ _ h).elim
  · have := itoaNat_inj h; omega

theorem split_at {b : UInt8} : ∀ {a c r s : Bytes}, b ∉ a → b ∉ c → a ++ b :: r = c ++ b :: s → a = c ∧ r = s
  | [], [], _, _, _, _, h => ⟨rfl, (List.cons.inj h).2⟩
  | [], y :: c, _, _, _, h2, h => (h2 ((List.cons.inj h).1 ▸ List.mem_cons_self)).elim
  | x :: a, [], _, _, h1, _, h => (h1 ((List.cons.inj h).1 ▸ List.mem_cons_self)).elim
  | x :: a, y :: c, r, s, h1, h2, h => by
    obtain ⟨e, h⟩ := List.cons.inj h
    obtain ⟨e1, e2⟩ := split_at (fun k => h1 (List.mem_cons_of_mem _ k)) (fun k => h2 (List.mem_cons_of_mem _ k)) h
    exact ⟨by rw [e, e1], e2⟩

theorem point_then {p q : Pt} {r s : Bytes} (h : ptString p ++ r = ptString q ++ s) : p = q ∧ r = s := by
  unfold ptString at h
  simp only [List.append_assoc, List.cons_append, List.nil_append, List.cons.injEq, true_and] at h
  obtain ⟨e1, h⟩ := split_at (fun k => (itoa_bytes _ _ k).1 rfl) (fun k => (itoa_bytes _ _ k).1 rfl) h
  obtain ⟨e2, h⟩ := split_at (fun k => (itoa_bytes _ _ k).2 rfl) (fun k => (itoa_bytes _ _ k).2 rfl) h
  refine ⟨?_, h⟩
  cases p; cases q
  simp only [Pt.mk.injEq]
  exact ⟨itoa_inj e1, itoa_inj e2⟩

/-- **C147**: points, and rectangles, with the same text are the same. -/
theorem text_tells (r s : Rect) : (ptString r.min = ptString s.min ↔ ptEq r.min s.min = true) ∧ (rectString r = rectString s ↔ r = s) := by
  constructor
  · rw [eq_points]
    constructor
    · intro h
      have := (point_then (r := []) (s := []) (congrArg (· ++ []) h)).1
      exact ⟨congrArg Pt.x this, congrArg Pt.y this⟩
    · intro h
      have : r.min = s.min := by cases hr : r.min; cases hs : s.min; rw [hr, hs] at h; simpa using h
      rw [this]
  · refine ⟨fun h => ?_, fun h => by rw [h]⟩
    unfold rectString at h
    simp only [List.append_assoc] at h
    obtain ⟨e1, h⟩ := point_then h
    have h := (List.cons.inj h).2
    have e2 := (point_then (r := []) (s := []) (by simpa using h)).1
    cases r; cases s; simp_all

/-! ### Examples -/

example : ptDiv (ptMul ⟨3, 7⟩ 12) 12 = some ⟨3, 7⟩ ∧ ptDiv ⟨7, -7⟩ 2 = some ⟨3, -3⟩ ∧ ptDiv ⟨7, 7⟩ 0 = none := by decide

/-- Where it does not fit. -/
example : ptMul ⟨2 ^ 62, 1⟩ 2 = ⟨-2 ^ 63, 2⟩ ∧ ptDiv ⟨-2 ^ 63, 1⟩ (-1) = some ⟨-2 ^ 63, -1⟩ := by decide

/-- Rectangles that `Eq` takes for equal, being empty, have their own texts. -/
example : rectEq ⟨⟨1, 1⟩, ⟨1, 1⟩⟩ ⟨⟨2, 1⟩, ⟨2, 3⟩⟩ = true ∧
    rectString ⟨⟨1, 1⟩, ⟨1, 1⟩⟩ ≠ rectString ⟨⟨2, 1⟩, ⟨2, 3⟩⟩ ∧ rectString ⟨⟨3, 4⟩, ⟨6, -5⟩⟩ = ascii "(3,4)-(6,-5)" := by decide +kernel

end Anansi.Geom
