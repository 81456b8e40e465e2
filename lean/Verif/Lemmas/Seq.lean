import Verif.Model.Seq
import Verif.Spec.Seq
/-
Helper lemmas about sequence building: the inline/extra representation.
-/
set_option autoImplicit false

namespace Anansi
open Spec

/-- The inline array, extra slice and count represent the argument list `l`. -/
structure Rep {α : Type} (st ex : List α) (n : Nat) (l : List α) : Prop where
  len : st.length = 3
  count : n = l.length
  inl : st.take n = l.take 3
  ext : ex = l.drop 3

theorem Rep.withLoop {α : Type} {st ex : List α} {n : Nat} {l : List α} (h : Rep st ex n l)
    (args : List α) :
    Rep (withLoop st ex n args).1 (withLoop st ex n args).2.1 (withLoop st ex n args).2.2
      (l ++ args) := by
  induction args generalizing st ex n l with
  | nil => simpa [Anansi.withLoop] using h
  | cons a t ih =>
    rw [show l ++ a :: t = (l ++ [a]) ++ t by simp]
    simp only [Anansi.withLoop]
    obtain ⟨h1, h2, h3, h4⟩ := h
    split
    · rename_i hn
      apply ih
      refine ⟨by simp [h1], by simp [h2], ?_, ?_⟩
      · have hl : l.take 3 = l := List.take_of_length_le (by omega)
        rw [hl] at h3
        rw [List.take_of_length_le (l := l ++ [a]) (by simp; omega)]
        rw [List.take_add_one, List.take_set_of_le (by omega), h3]
        rw [List.getElem?_set_self (by omega)]; rfl
      · rw [h4, List.drop_eq_nil_of_le (by omega), List.drop_eq_nil_of_le (by simp; omega)]
    · rename_i hn
      apply ih
      refine ⟨h1, by simp [h2], ?_, ?_⟩
      · rw [List.take_of_length_le (by omega)]
        rw [List.take_of_length_le (by omega)] at h3
        rw [h3, List.take_append_of_le_length (by omega)]
      · rw [h4, List.drop_append_of_le_length (by omega)]

theorem Rep.init {α : Type} (a b c : α) : Rep [a, b, c] [] 0 [] := ⟨rfl, rfl, rfl, rfl⟩

/-- `s` carries identifier `id`, argument bytes `bs` and integers `is`. -/
structure SeqRep (s : Seq) (id : Nat) (bs : List UInt8) (is : List Int) : Prop where
  id : s.id = id
  b : Rep s.argBytes s.extraBytes s.numBytes bs
  i : Rep s.argInts s.extraInts s.numInts is

theorem SeqRep.with {s : Seq} {id : Nat} {bs : List UInt8} {is : List Int} (h : SeqRep s id bs is)
    (arg : List UInt8) : SeqRep (s.with arg) id (bs ++ arg) is := by
  unfold Seq.with
  split
  · rename_i h0; subst h0; simpa using h
  · exact ⟨h.id, h.b.withLoop arg, h.i⟩

theorem SeqRep.withInts {s : Seq} {id : Nat} {bs : List UInt8} {is : List Int}
    (h : SeqRep s id bs is) (hid : 0xEF80 < id ∧ id < 0xEFFF) (args : List Int) :
    ∃ s', s.withInts args = some s' ∧ SeqRep s' id bs (is ++ args) := by
  unfold Seq.withInts
  split
  · rename_i h0; subst h0; exact ⟨s, rfl, by simpa using h⟩
  · rw [if_neg (by rw [h.id]; omega)]
    exact ⟨_, rfl, h.id, h.b, h.i.withLoop args⟩

theorem escSeq_rep {id : Nat} (h : (0x0000 < id ∧ id < 0x001F) ∨ (0xEF00 < id ∧ id < 0xEFFF)) :
    ∃ s, escSeq id = some s ∧ SeqRep s id [] [] := by
  refine ⟨{ id := id }, by rw [escSeq, if_pos h], rfl, Rep.init _ _ _, Rep.init _ _ _⟩

theorem SeqRep.argByteList {s : Seq} {id : Nat} {bs : List UInt8} {is : List Int}
    (h : SeqRep s id bs is) : s.argByteList = bs := by
  obtain ⟨_, ⟨h1, h2, h3, h4⟩, _⟩ := h
  unfold Seq.argByteList
  split
  · rename_i hn
    rw [h3, List.take_of_length_le (by omega)]
  · rename_i hn
    rw [List.take_of_length_le (by omega)] at h3
    rw [List.take_of_length_le (by omega), h3, h4, List.take_append_drop]

theorem extraNums_eq (s : Seq) (is : List Int) (hn : s.numInts = is.length)
    (he : s.extraInts = is.drop 3) (i : Nat) (hi : 3 ≤ i) :
    s.extraNums i = some ((is.drop i).flatMap (fun v => 0x3B :: itoa v)) := by
  generalize hk : is.length - i = k
  induction k generalizing i with
  | zero =>
    rw [Seq.extraNums, if_neg (by omega), List.drop_eq_nil_of_le (by omega)]; rfl
  | succ k ih =>
    have hlt : i < is.length := by omega
    rw [Seq.extraNums, if_pos (by omega), he, List.getElem?_drop,
      show 3 + (i - 3) = i by omega, List.getElem?_eq_getElem hlt]
    simp only
    rw [ih (i + 1) (by omega) (by omega), List.drop_eq_getElem_cons hlt]
    simp only [Option.map_some, List.flatMap_cons, List.cons_append]

theorem joinInts_cons (i : Int) (t : List Int) :
    joinInts (i :: t) = itoa i ++ t.flatMap (fun v => 0x3B :: itoa v) := by
  induction t generalizing i with
  | nil => simp [joinInts]
  | cons j t ih => rw [joinInts, ih] <;> simp

theorem SeqRep.argNums {s : Seq} {id : Nat} {bs : List UInt8} {is : List Int}
    (h : SeqRep s id bs is) : s.argNums = some (joinInts is) := by
  obtain ⟨_, _, ⟨h1, h2, h3, h4⟩⟩ := h
  unfold Seq.argNums
  match is with
  | [] => simp at h2; simp [h2, joinInts]
  | [a] =>
    rw [if_neg (by simp [h2]), extraNums_eq s [a] h2 h4 3 (by omega)]
    simp only [List.length_cons, List.length_nil] at h2
    rw [h2] at h3
    match hs : s.argInts, h1, h3 with
    | [x, y, z], _, h3 =>
      simp at h3; subst h3
      rw [Seq.staticNums]; simp [h2, joinInts]
  | [a, b] =>
    rw [if_neg (by simp [h2]), extraNums_eq s [a, b] h2 h4 3 (by omega)]
    simp only [List.length_cons, List.length_nil] at h2
    rw [h2] at h3
    match hs : s.argInts, h1, h3 with
    | [x, y, z], _, h3 =>
      simp at h3; obtain ⟨rfl, rfl⟩ := h3
      rw [Seq.staticNums, Seq.staticNums]; simp [h2, hs, joinInts]
  | a :: b :: c :: t =>
    rw [if_neg (by simp [h2]), extraNums_eq s (a :: b :: c :: t) h2 h4 3 (by omega)]
    simp only [List.length_cons] at h2
    rw [List.take_of_length_le (by omega)] at h3
    simp at h3
    have hn : s.numInts = t.length + 3 := by omega
    rw [Seq.staticNums, Seq.staticNums, Seq.staticNums, joinInts_cons]
    rw [if_pos (by omega), if_pos (by omega), if_neg (by omega)]
    simp [h3]

end Anansi
