import Verif.Model.Mode
import Mathlib.Tactic.ByContra
/-
C40: mode set and reset strings.
-/
set_option autoImplicit false

namespace Anansi
namespace Slice

/-- A slice that lies within its array. -/
def Ok (h : Arrays) (s : Slice) : Prop :=
  s.arr < h.length ∧ s.off + s.cap ≤ (h.getD s.arr []).length ∧ s.len ≤ s.cap

/-- Appending to `s` cannot write into `x`. -/
def Apart (s x : Slice) : Prop := x.arr ≠ s.arr ∨ x.off + x.len ≤ s.off + s.len

variable {grow : Nat → Nat → Nat}

theorem Ok.more {h g : Arrays} {x : Slice} (H : x.Ok h) : x.Ok (h ++ g) ∧ x.content (h ++ g) = x.content h := by
  obtain ⟨h1, h2, h3⟩ := H
  have e : (h ++ g).getD x.arr [] = h.getD x.arr [] := by
    rw [List.getD_eq_getElem?_getD, List.getElem?_append_left h1, ← List.getD_eq_getElem?_getD]
  exact ⟨⟨by simp; omega, by rw [e]; exact h2, h3⟩, by simp only [content, e]⟩

theorem content_length {h : Arrays} {s : Slice} (H : s.Ok h) : (s.content h).length = s.len := by
  obtain ⟨h1, h2, h3⟩ := H
  simp only [content, List.length_take, List.length_drop]; omega

theorem append_spec {h : Arrays} {s : Slice} (H : s.Ok h) (xs : Bytes) :
    (s.append grow h xs).2.Ok (s.append grow h xs).1 ∧
    (s.append grow h xs).2.content (s.append grow h xs).1 = s.content h ++ xs ∧
    (∀ x : Slice, x.Ok h → x.Ok (s.append grow h xs).1) ∧
    (∀ x : Slice, x.Ok h → s.Apart x → x.content (s.append grow h xs).1 = x.content h ∧
      (s.append grow h xs).2.Apart x) ∧
    (s.append grow h xs).2.len = s.len + xs.length ∧
    h.length ≤ (s.append grow h xs).1.length ∧
    ((s.append grow h xs).2.arr = s.arr ∧ (s.append grow h xs).2.off = s.off ∨ (s.append grow h xs).2.arr = h.length) := by
  obtain ⟨h1, h2, h3⟩ := H
  unfold append
  split
  · next hf =>
    dsimp only
    generalize ha : (h.getD s.arr []).take (s.off + s.len) ++ xs ++ (h.getD s.arr []).drop (s.off + s.len + xs.length) = a
    have e : ∀ b, b ≠ s.arr → (h.set s.arr a).getD b [] = h.getD b [] := by
      intro b hb
      rw [List.getD_eq_getElem?_getD, List.getElem?_set_ne (Ne.symm hb), ← List.getD_eq_getElem?_getD]
    have e' : (h.set s.arr a).getD s.arr [] = a := by
      rw [List.getD_eq_getElem?_getD, List.getElem?_set_self h1]; rfl
    have el : a.length = (h.getD s.arr []).length := by
      rw [← ha]; simp only [List.length_append, List.length_take, List.length_drop]; omega
    have hok : ∀ x : Slice, x.Ok h → x.Ok (h.set s.arr a) := by
      intro x hx
      obtain ⟨q1, q2, q3⟩ := hx
      refine ⟨by simpa using q1, ?_, q3⟩
      by_cases hb : x.arr = s.arr
      · rw [hb, e', el, ← hb]; exact q2
      · rw [e _ hb]; exact q2
    refine ⟨⟨by simpa using h1, by dsimp only; rw [e', el]; exact h2, hf⟩, ?_, hok, ?_, by trivial, by simp, Or.inl ⟨rfl, rfl⟩⟩
    · simp only [content, e']
      rw [← ha, List.append_assoc, List.drop_append_of_le_length (by rw [List.length_take]; omega), List.drop_take,
        show s.off + s.len - s.off = s.len by omega, ← List.append_assoc,
        List.take_append_of_le_length (by
          simp only [List.length_append, List.length_take, List.length_drop]; omega),
        List.take_of_length_le (by simp only [List.length_append, List.length_take, List.length_drop]; omega)]
    · intro x hx hn
      refine ⟨?_, ?_⟩
      · simp only [content]
        by_cases hb : x.arr = s.arr
        · have hle : x.off + x.len ≤ s.off + s.len := by
            rcases hn with hn | hn
            · exact absurd hb hn
            · exact hn
          rw [hb, e', ← ha, List.append_assoc,
            List.drop_append_of_le_length (by rw [List.length_take]; omega), List.drop_take,
            List.take_append_of_le_length (by
              simp only [List.length_take, List.length_drop]; omega), List.take_take, Nat.min_eq_left (by omega)]
        · rw [e _ hb]
      · rcases hn with hn | hn
        · exact Or.inl hn
        · right; dsimp only; omega
  · next hf =>
    dsimp only
    have hc := content_length (H := ⟨h1, h2, h3⟩)
    refine ⟨⟨by simp, ?_, by dsimp only; omega⟩, ?_, fun x hx => hx.more.1, fun x hx _ => ⟨hx.more.2, Or.inl ?_⟩, rfl, by simp, Or.inr rfl⟩
    · dsimp only
      rw [List.getD_eq_getElem?_getD, List.getElem?_concat_length]
      simp only [Option.getD_some, List.length_append, hc, List.length_replicate]; omega
    · simp only [content]
      rw [List.getD_eq_getElem?_getD, List.getElem?_concat_length]
      simp only [Option.getD_some, List.drop_zero]
      simp only [content] at hc
      rw [List.take_append_of_le_length (by simp only [List.length_append, hc]; omega),
        List.take_of_length_le (by simp only [List.length_append, hc]; omega)]
    · have := hx.1; dsimp only; omega

theorem appends_spec : ∀ (l : List Bytes) {h : Arrays} {s : Slice}, s.Ok h →
    (s.appends grow h l).2.Ok (s.appends grow h l).1 ∧
    (s.appends grow h l).2.content (s.appends grow h l).1 = s.content h ++ l.flatten ∧
    (∀ x : Slice, x.Ok h → x.Ok (s.appends grow h l).1) ∧
    (∀ x : Slice, x.Ok h → s.Apart x → x.content (s.appends grow h l).1 = x.content h ∧
      (s.appends grow h l).2.Apart x) ∧
    (s.appends grow h l).2.len = s.len + l.flatten.length ∧
    h.length ≤ (s.appends grow h l).1.length ∧
    ((s.appends grow h l).2.arr = s.arr ∧ (s.appends grow h l).2.off = s.off ∨ h.length ≤ (s.appends grow h l).2.arr)
  | [], h, s, H => ⟨H, by simp [appends], fun _ h => h, fun x hx ha => ⟨rfl, ha⟩, by simp [appends], Nat.le_refl _,
      Or.inl ⟨rfl, rfl⟩⟩
  | xs :: l, h, s, H => by
    obtain ⟨e1, e2, e3, e4, e5, e6, e7⟩ := append_spec (grow := grow) H xs
    obtain ⟨g1, g2, g3, g4, g5, g6, g7⟩ := appends_spec l e1
    refine ⟨g1, ?_, fun x hx => g3 x (e3 x hx), fun x hx ha => ?_, ?_, by simp only [appends]; omega, ?_⟩
    · simp only [appends]
      rw [g2, e2, List.flatten_cons, List.append_assoc]
    · obtain ⟨q1, q2⟩ := e4 x hx ha
      obtain ⟨r1, r2⟩ := g4 x (e3 x hx) q2
      exact ⟨by simp only [appends]; rw [r1, q1], r2⟩
    · simp only [appends]; rw [g5, e5, List.flatten_cons, List.length_append]; omega
    · simp only [appends]
      rcases g7 with ⟨g7, g8⟩ | g7
      · rw [g7, g8]
        rcases e7 with e7 | e7
        · exact Or.inl e7
        · exact Or.inr (by omega)
      · exact Or.inr (by omega)

end Slice

namespace ModeBuf
open Slice

/-- What a call adds to the set string, and to the reset string. -/
def Op.setBytes : Op → Bytes
  | .pair s _ => s.flatten
  | .seq b => b.flatten

def Op.resetBytes : Op → Bytes
  | .pair _ r => r.flatten
  | .seq b => b.flatten

/-- The invariant: what the two slices hold, and that growing one does not write into the
other. -/
structure Holds (m : ModeBuf) (s r : Bytes) : Prop where
  setOk : m.set.Ok m.arrays
  resetOk : m.reset.Ok m.arrays
  apart : m.set.Apart m.reset
  set : m.set.content m.arrays = s
  reset : m.reset.content m.arrays = r

theorem op_holds (grow : Nat → Nat → Nat) (m : ModeBuf) (s r : Bytes) (H : m.Holds s r) (o : Op) :
    (m.op grow o).Holds (s ++ o.setBytes) (o.resetBytes ++ r) := by
  cases o with
  | pair a b =>
    obtain ⟨e1, e2, e3, e4, e5, e6, e7⟩ := appends_spec (grow := grow) a H.setOk
    obtain ⟨f1, f2⟩ := e4 _ H.resetOk H.apart
    simp only [op]
    generalize m.set.appends grow m.arrays a = s1 at *
    have ok0 : (⟨s1.1.length, 0, 0, 128⟩ : Slice).Ok (s1.1 ++ [List.replicate 128 0]) :=
      ⟨by simp, by simp, by simp⟩
    obtain ⟨g1, g2, g3, g4, g5, g6, g7⟩ := appends_spec (grow := grow) b ok0
    have ap0 : ∀ x : Slice, x.Ok s1.1 → Apart ⟨s1.1.length, 0, 0, 128⟩ x := fun x hx =>
      Or.inl (by have := hx.1; dsimp only; omega)
    have hr := (e3 _ H.resetOk)
    obtain ⟨q1, q2⟩ := g4 _ hr.more.1 (ap0 _ hr)
    obtain ⟨p1, p2⟩ := g4 _ e1.more.1 (ap0 _ e1)
    generalize (⟨s1.1.length, 0, 0, 128⟩ : Slice).appends grow (s1.1 ++ [List.replicate 128 0]) b = r1 at *
    obtain ⟨k1, k2, k3, k4, k5, k6, k7⟩ := append_spec (grow := grow) g1 (m.reset.content r1.1)
    obtain ⟨j1, j2⟩ := k4 _ (g3 _ e1.more.1) p2
    refine ⟨k3 _ (g3 _ e1.more.1), k1, Or.inl ?_, ?_, ?_⟩
    · dsimp only
      have hne : s1.2.arr < s1.1.length := e1.1
      rcases k7 with ⟨k7, _⟩ | k7
      · rw [k7]
        rcases g7 with ⟨g7, _⟩ | g7
        · rw [g7]; dsimp only; omega
        · simp only [List.length_append, List.length_singleton] at g7; omega
      · rw [k7]; simp only [List.length_append, List.length_singleton] at g6; omega
    · dsimp only; rw [j1, p1, e1.more.2, e2, H.set]; rfl
    · dsimp only
      rw [k2, g2, q1, hr.more.2, f1, H.reset]
      simp [content, Op.resetBytes]
  | seq b =>
    obtain ⟨e1, e2, e3, e4, e5, e6, e7⟩ := appends_spec (grow := grow) b H.setOk
    obtain ⟨f1, f2⟩ := e4 _ H.resetOk H.apart
    simp only [op]
    generalize m.set.appends grow m.arrays b = s1 at *
    have hlen : s1.2.len - m.set.len = b.flatten.length := by omega
    have okn : (⟨s1.2.arr, s1.2.off + m.set.len, s1.2.len - m.set.len, s1.2.len - m.set.len⟩ : Slice).Ok s1.1 := by
      obtain ⟨r1, r2, r3⟩ := e1
      exact ⟨r1, by dsimp only; omega, Nat.le_refl _⟩
    have hcn : (⟨s1.2.arr, s1.2.off + m.set.len, s1.2.len - m.set.len, s1.2.len - m.set.len⟩ : Slice).content s1.1 =
        b.flatten := by
      have hsl := content_length H.setOk
      have : (s1.2.content s1.1).drop m.set.len = b.flatten := by
        rw [e2, List.drop_append_of_le_length (by omega), List.drop_of_length_le (by omega), List.nil_append]
      rw [← this]
      simp only [content, List.drop_take, List.drop_drop]
    obtain ⟨k1, k2, k3, k4, k5, k6, k7⟩ := append_spec (grow := grow) okn (m.reset.content s1.1)
    have hset : Apart (⟨s1.2.arr, s1.2.off + m.set.len, s1.2.len - m.set.len, s1.2.len - m.set.len⟩ : Slice) s1.2 :=
      Or.inr (by dsimp only; omega)
    obtain ⟨j1, j2⟩ := k4 _ e1 hset
    refine ⟨k3 _ e1, k1, ?_, ?_, ?_⟩
    · dsimp only
      unfold append at k5 k7 ⊢
      split
      · next hf =>
        right
        dsimp only at hf ⊢
        omega
      · left; dsimp only; have := e1.1; omega
    · dsimp only; rw [j1, e2, H.set]; rfl
    · dsimp only; rw [k2, hcn, f1, H.reset]; rfl

theorem ops_holds (grow : Nat → Nat → Nat) : ∀ (l : List Op) (m : ModeBuf) (s r : Bytes), m.Holds s r →
    (m.ops grow l).Holds (s ++ l.flatMap Op.setBytes) (l.reverse.flatMap Op.resetBytes ++ r)
  | [], m, s, r, H => by simpa [ops] using H
  | o :: l, m, s, r, H => by
    have := ops_holds grow l _ _ _ (op_holds grow m s r H o)
    simpa [ops, List.flatMap_append] using this

/-- **C40**: after any sequence of additions to a new mode, entering writes what was added
to the set string in order, and exiting writes what was added to the reset string in
reverse order; whatever capacities the runtime chooses and however the sequences' bytes
are appended, the two strings never overwrite each other. -/
theorem mode_strings (grow : Nat → Nat → Nat) (l : List Op) :
    ((({} : ModeBuf).ops grow l).enter true = l.flatMap Op.setBytes) ∧
    ((({} : ModeBuf).ops grow l).exit true = l.reverse.flatMap Op.resetBytes) := by
  have H := ops_holds grow l {} [] [] ⟨⟨by simp, by simp, by simp⟩, ⟨by simp, by simp, by simp⟩, Or.inr (by simp), rfl, rfl⟩
  refine ⟨?_, ?_⟩
  · simp only [enter, if_true]; rw [H.set]; simp
  · simp only [exit, if_true]; rw [H.reset]; simp

/-- Without an output file nothing is written. -/
theorem mode_no_file (m : ModeBuf) : m.enter false = [] ∧ m.exit false = [] := ⟨rfl, rfl⟩

/-- The mode of two `ansi.Mode`s and one plain sequence. -/
example : (({} : ModeBuf).ops (fun c n => max n (2 * c)) [.seq [[1, 2], [3]], .pair [[4]] [[5], [6]], .pair [[7]] [[8]]]).enter true
      = [1, 2, 3, 4, 7] ∧
    (({} : ModeBuf).ops (fun c n => max n (2 * c)) [.seq [[1, 2], [3]], .pair [[4]] [[5], [6]], .pair [[7]] [[8]]]).exit true
      = [8, 5, 6, 1, 2, 3] := by decide +kernel

end ModeBuf
end Anansi
