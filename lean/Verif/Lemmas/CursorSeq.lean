import Verif.Props.Sequences
import Verif.Props.SgrMeaning
/-
The sequences a cursor emits, as terminal operations.
-/
set_option autoImplicit false

namespace Anansi
open Vt Spec Geom

theorem cup_text (a b : Nat) : ∃ s, (escSeq CUP).bind (·.withPoint ⟨(a : Int), (b : Int)⟩) = some s ∧
    s.append = some (Op.cup b a).bytes := by
  have h := seq_build_csi (id := CUP) (by decide) [.ints [(b : Int), (a : Int)]]
  have he : build CUP [.ints [(b : Int), (a : Int)]] =
    (escSeq CUP).bind (·.withPoint ⟨(a : Int), (b : Int)⟩) := rfl
  rw [he] at h
  have hn : UInt8.ofNat (CUP % 128) = 0x48 := by decide
  cases hs : (escSeq CUP).bind (·.withPoint ⟨(a : Int), (b : Int)⟩) with
  | none => rw [hs] at h; simp at h
  | some s =>
    rw [hs] at h
    refine ⟨s, rfl, ?_⟩
    simp only [Option.bind_some] at h
    rw [h, hn]
    simp [allBytes, allInts, joinInts, itoa_natCast, Op.bytes, csi, params]

theorem int_text (id : Nat) (hid : 0xEF80 < id ∧ id < 0xEFFF) (n : Nat) :
    ∃ s, (escSeq id).bind (·.withInts [(n : Int)]) = some s ∧
    s.append = some (csi (params [n]) (UInt8.ofNat (id % 128))) := by
  have h := seq_build_csi hid [.ints [(n : Int)]]
  have he : build id [.ints [(n : Int)]] = (escSeq id).bind (·.withInts [(n : Int)]) := rfl
  rw [he] at h
  cases hs : (escSeq id).bind (·.withInts [(n : Int)]) with
  | none => rw [hs] at h; simp at h
  | some s =>
    rw [hs] at h
    refine ⟨s, rfl, ?_⟩
    simp only [Option.bind_some] at h
    rw [h]; simp [allBytes, allInts, joinInts, itoa_natCast, csi, params]

/-- `forward` and `back` as the cursor writes them. -/
theorem forward_text (c : Cursor) (n : Nat) (h : 1 ≤ n) (p : Pt)
    (hp : p.x - c.pt.x = n) (hy : p.y = c.pt.y) (hv : valid c.pt = true) :
    ∃ s k, c.to p = some ({ c with pt := p }, s) ∧ s.append = some (Op.forward k).bytes ∧ count k = n := by
  have hpp : p = ⟨p.x, c.pt.y⟩ := by rw [← hy]
  have h1 : ¬(p.y = c.pt.y + 1 ∧ p.x = 1) := by omega
  have h2 : ¬(p.x ≠ c.pt.x ∧ p.y ≠ c.pt.y) := by omega
  unfold Cursor.to
  rw [hv]
  simp only [Bool.not_true, Bool.false_eq_true, if_false]
  rw [if_neg h1, if_neg h2, hp]
  simp only [← hpp]
  by_cases e : n = 1
  · subst e
    refine ⟨{ id := CUF }, none, ?_, by decide, by decide⟩
    rw [if_pos (by rfl)]; rfl
  · rw [if_neg (by omega), if_neg (by omega), if_pos (by omega)]
    obtain ⟨s, e1, e2⟩ := int_text CUF (by decide) n
    obtain ⟨s0, e0, e3⟩ := Option.bind_eq_some_iff.mp e1
    refine ⟨s, some n, by rw [e0, Option.bind_some, e3]; rfl, ?_, by simp [count]; omega⟩
    rw [e2]; rfl

theorem back_text (c : Cursor) (n : Nat) (h : 1 ≤ n) (p : Pt)
    (hp : p.x - c.pt.x = -n) (hy : p.y = c.pt.y) (hv : valid c.pt = true) :
    ∃ s k, c.to p = some ({ c with pt := p }, s) ∧ s.append = some (Op.back k).bytes ∧ count k = n := by
  have hpp : p = ⟨p.x, c.pt.y⟩ := by rw [← hy]
  have h1 : ¬(p.y = c.pt.y + 1 ∧ p.x = 1) := by omega
  have h2 : ¬(p.x ≠ c.pt.x ∧ p.y ≠ c.pt.y) := by omega
  unfold Cursor.to
  rw [hv]
  simp only [Bool.not_true, Bool.false_eq_true, if_false]
  rw [if_neg h1, if_neg h2, hp]
  simp only [← hpp]
  by_cases e : n = 1
  · subst e
    refine ⟨{ id := CUB }, none, ?_, by decide, by decide⟩
    rw [if_neg (by decide), if_pos (by rfl)]; rfl
  · rw [if_neg (by omega), if_neg (by omega), if_neg (by omega), if_pos (by omega)]
    obtain ⟨s, e1, e2⟩ := int_text CUB (by decide) n
    obtain ⟨s0, e0, e3⟩ := Option.bind_eq_some_iff.mp e1
    refine ⟨s, some n, by rw [e0, Option.bind_some, Int.neg_neg, e3]; rfl, ?_, by simp [count]; omega⟩
    rw [e2]; rfl

/-- An absolute move. -/
theorem absolute_text (c : Cursor) (a b : Nat)
    (h : valid c.pt = false ∨ (¬((b : Int) = c.pt.y + 1 ∧ (a : Int) = 1) ∧ (a : Int) ≠ c.pt.x ∧ (b : Int) ≠ c.pt.y)) :
    ∃ s, c.to ⟨(a : Int), (b : Int)⟩ = some ({ c with pt := ⟨(a : Int), (b : Int)⟩ }, s) ∧
      s.append = some (Op.cup b a).bytes := by
  obtain ⟨s, e1, e2⟩ := cup_text a b
  obtain ⟨s0, e0, e3⟩ := Option.bind_eq_some_iff.mp e1
  refine ⟨s, ?_, e2⟩
  unfold Cursor.to
  by_cases hv : valid c.pt = true
  · have h := h.resolve_left (by simp [hv])
    rw [hv]
    simp only [Bool.not_true, Bool.false_eq_true, if_false]
    rw [if_neg h.1, if_pos h.2, e0, Option.bind_some, e3]; rfl
  · rw [Bool.not_eq_true] at hv
    rw [hv]
    simp only [Bool.not_false, if_true]
    rw [e0, Option.bind_some, e3]; rfl

theorem newline_text (c : Cursor) (p : Pt) (hv : valid c.pt = true) (h : p.y = c.pt.y + 1 ∧ p.x = 1) :
    ∃ s, c.to p = some ({ c with pt := p }, s) ∧ s.append = some (text [.cr, .lf]) := by
  refine ⟨({ id := 0x0D } : Seq).with [0x0A], ?_, by decide⟩
  unfold Cursor.to
  rw [hv]
  simp only [Bool.not_true, Bool.false_eq_true, if_false]
  rw [if_pos h]
  have : p = ⟨1, c.pt.y + 1⟩ := by cases p; simp_all
  rw [this]; rfl

theorem stay_text (c : Cursor) (p : Pt) (hv : valid c.pt = true)
    (h1 : ¬(p.y = c.pt.y + 1 ∧ p.x = 1)) (h : p.x = c.pt.x) :
    c.to p = some ({ c with pt := p }, .zero) := by
  unfold Cursor.to
  rw [hv]
  simp only [Bool.not_true, Bool.false_eq_true, if_false]
  rw [if_neg h1, if_neg (by omega), h]
  simp only [Int.sub_self]
  rw [if_neg (by decide), if_neg (by decide), if_neg (by decide), if_neg (by decide), if_pos trivial]
  have : p = ⟨c.pt.x, p.y⟩ := by cases p; simp_all
  rw [← this]

theorem hide_text (c : Cursor) : ∃ c' s b, c.hide = some (c', s) ∧ s.append = some b ∧
    ((c.visKnown = true ∧ c.visible = false ∧ c' = c ∧ b = []) ∨
     (c' = { c with visKnown := true, visible := false } ∧ b = text [.hide])) := by
  unfold Cursor.hide
  by_cases h : (!c.visKnown || c.visible) = true
  · rw [if_pos h]
    have : ∃ s, modeReset showCursor = some s ∧ s.append = some (text [.hide]) := by
      refine ⟨{ id := RM, numBytes := 1, numInts := 1, argBytes := [0x3F, 0, 0], argInts := [25, 0, 0] }, by decide, ?_⟩
      decide +kernel
    obtain ⟨s, h1, h2⟩ := this
    exact ⟨_, s, _, by rw [h1]; rfl, h2, Or.inr ⟨rfl, rfl⟩⟩
  · rw [if_neg h]
    simp only [Bool.or_eq_true, not_or, Bool.not_eq_true', Bool.not_eq_true] at h
    exact ⟨c, .zero, [], rfl, rfl, Or.inl ⟨by simpa using h.1, h.2, rfl, rfl⟩⟩

theorem show_text (c : Cursor) : ∃ c' s b, c.show_ = some (c', s) ∧ s.append = some b ∧
    ((c.visKnown = true ∧ c.visible = true ∧ c' = c ∧ b = []) ∨
     (c' = { c with visKnown := true, visible := true } ∧ b = text [.show_])) := by
  unfold Cursor.show_
  by_cases h : (!c.visKnown || !c.visible) = true
  · rw [if_pos h]
    have : ∃ s, modeSet showCursor = some s ∧ s.append = some (text [.show_]) := by
      refine ⟨{ id := SM, numBytes := 1, numInts := 1, argBytes := [0x3F, 0, 0], argInts := [25, 0, 0] }, by decide, ?_⟩
      decide +kernel
    obtain ⟨s, h1, h2⟩ := this
    exact ⟨_, s, _, by rw [h1]; rfl, h2, Or.inr ⟨rfl, rfl⟩⟩
  · rw [if_neg h]
    simp only [Bool.or_eq_true, not_or, Bool.not_eq_true'] at h
    exact ⟨c, .zero, [], rfl, rfl, Or.inl ⟨by simpa using h.1, by simpa using h.2, rfl, rfl⟩⟩

end Anansi
