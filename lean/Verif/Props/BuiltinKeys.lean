import Verif.Model.Builtin
import Verif.Model.Events
import Verif.Props.InputDecode
import Verif.Props.Events
/-
**C126**: what the keys of the builtin terminfo entries are decoded as.
-/
set_option autoImplicit false

namespace Anansi
namespace Tin
open Inp

namespace Spec

/-- What is typed: one of the keys of a terminfo entry, by its number, or a character. -/
inductive Typed
  | key (i : Fin 22)
  | char (r : Nat)
deriving DecidableEq, Repr

/-- Characters, but the C1 control that some keys begin with and those in the range that the
library uses for escape sequences. -/
def Typed.Ok : Typed → Prop
  | .key _ => True
  | .char r => plainRune r ∧ r ≠ 0x8F ∧ ¬ (0xEF00 ≤ r ∧ r ≤ 0xEFFF)

/-- What the terminal sends for it. -/
def Typed.bytes (k : Known) : Typed → Bytes
  | .key i => k.entry.keys.getD i.val []
  | .char r => encodeRune r

/-- The events for the string of a key: `ESC O` and a letter are the control SS3 and the letter;
`ESC [ [` and a letter are a control sequence with the final byte `[` and the letter; other
strings, `ESC [`, parameters and a final byte, are one control sequence. -/
def seen : Bytes → List Event
  | [0x1B, 0x4F, c] => [(0x8F, []), (c.toNat, [])]
  | [0x1B, 0x5B, 0x5B, c] => [(0xEF80 + 0x5B, []), (c.toNat, [])]
  | 0x1B :: 0x5B :: t => [(0xEF80 + (t.getLastD 0).toNat, t.dropLast)]
  | _ => []

/-- The events for what is typed. -/
def Typed.events (k : Known) : Typed → List Event
  | .key i => seen (k.entry.keys.getD i.val [])
  | .char r => [(r, [])]

end Spec

open Tin.Spec (Typed)

/-- The items a key consists of. -/
def parts : Bytes → List InItem
  | [0x1B, 0x4F, c] => [.esc 0x4F, .rune c.toNat]
  | [0x1B, 0x5B, 0x5B, c] => [.csi false [] 0x5B, .rune c.toNat]
  | 0x1B :: 0x5B :: t => [.csi false t.dropLast (t.getLastD 0)]
  | _ => []

/-- Whether the items are such as terminals send. -/
def okParts : Bytes → Bool
  | [0x1B, 0x4F, c] => decide (plainRune c.toNat)
  | [0x1B, 0x5B, 0x5B, c] => decide (plainRune c.toNat)
  | 0x1B :: 0x5B :: t => decide ((∀ b ∈ t.dropLast, 0x20 ≤ b.toNat ∧ b.toNat ≤ 0x3F) ∧
      0x40 ≤ (t.getLastD 0).toNat ∧ (t.getLastD 0).toNat ≤ 0x7E)
  | _ => false

theorem parts_ok (s : Bytes) (h : okParts s = true) : ∀ i ∈ parts s, i.Ok := by
  revert h
  unfold okParts parts
  split
  · intro h
    simp only [List.mem_cons, List.not_mem_nil, or_false, forall_eq_or_imp, forall_eq]
    exact ⟨by simp only [InItem.Ok]; decide, show plainRune _ from of_decide_eq_true h⟩
  · intro h
    simp only [List.mem_cons, List.not_mem_nil, or_false, forall_eq_or_imp, forall_eq]
    exact ⟨by simp only [InItem.Ok]; decide, show plainRune _ from of_decide_eq_true h⟩
  · intro h
    simp only [List.mem_cons, List.not_mem_nil, or_false, forall_eq]
    show (_ ∧ _ : Prop)
    exact of_decide_eq_true h
  · simp

theorem keys_parts : ∀ k ∈ Known.all, ∀ i : Fin 22, okParts (k.entry.keys.getD i.val []) = true ∧
    (parts (k.entry.keys.getD i.val [])).flatMap InItem.bytes = k.entry.keys.getD i.val [] ∧
    (parts (k.entry.keys.getD i.val [])).map InItem.event = Spec.seen (k.entry.keys.getD i.val []) := by
  decide +kernel

theorem mem_all (k : Known) : k ∈ Known.all := by cases k <;> decide

/-- The items of what is typed. -/
def Typed.items (k : Known) : Typed → List InItem
  | .key i => parts (k.entry.keys.getD i.val [])
  | .char r => [.rune r]

theorem items_all (k : Known) (x : Typed) (h : x.Ok) : (∀ i ∈ Typed.items k x, i.Ok) ∧
    (Typed.items k x).flatMap InItem.bytes = x.bytes k ∧ (Typed.items k x).map InItem.event = x.events k := by
  cases x with
  | key i =>
    obtain ⟨h1, h2, h3⟩ := keys_parts k (mem_all k) i
    exact ⟨parts_ok _ h1, h2, h3⟩
  | char r =>
    refine ⟨?_, by simp [Typed.items, InItem.bytes, Spec.Typed.bytes], rfl⟩
    simp only [Typed.items, List.mem_cons, List.not_mem_nil, or_false, forall_eq]
    exact h.1

theorem items_bytes (k : Known) (xs : List Typed) (h : ∀ x ∈ xs, x.Ok) :
    (xs.flatMap (Typed.items k)).flatMap InItem.bytes = xs.flatMap (Typed.bytes k) ∧
    (xs.flatMap (Typed.items k)).map InItem.event = xs.flatMap (Typed.events k) ∧
    ∀ i ∈ xs.flatMap (Typed.items k), i.Ok := by
  induction xs with
  | nil => exact ⟨rfl, rfl, by simp⟩
  | cons x xs ih =>
    obtain ⟨h1, h2, h3⟩ := items_all k x (h x (by simp))
    obtain ⟨i1, i2, i3⟩ := ih (fun y hy => h y (by simp [hy]))
    refine ⟨?_, ?_, ?_⟩
    · rw [List.flatMap_cons, List.flatMap_append, i1, h2, List.flatMap_cons]
    · rw [List.flatMap_cons, List.map_append, i2, h3, List.flatMap_cons]
    · intro i hi
      rw [List.flatMap_cons, List.mem_append] at hi
      rcases hi with hi | hi
      · exact h1 i hi
      · exact i3 i hi

/-- **C126**: whatever keys and characters are typed on a known terminal are decoded in turn, each
as its own events, whatever comes after them. -/
theorem keys_decoded (k : Known) (xs : List Typed) (h : ∀ x ∈ xs, x.Ok) (s : Input) (rest : Bytes)
    (hs : s.buf = xs.flatMap (Typed.bytes k) ++ rest) :
    s.drain = (({ s with buf := rest } : Input).drain.1,
      xs.flatMap (Typed.events k) ++ ({ s with buf := rest } : Input).drain.2) := by
  obtain ⟨h1, h2, h3⟩ := items_bytes k xs h
  rw [← h1] at hs
  rw [drain_items _ h3 s rest hs, h2]

/-- All of it, when nothing comes after. -/
theorem keys_decoded_all (k : Known) (xs : List Typed) (h : ∀ x ∈ xs, x.Ok) (s : Input)
    (hs : s.buf = xs.flatMap (Typed.bytes k)) : s.drain = ({ s with buf := [] }, xs.flatMap (Typed.events k)) := by
  rw [keys_decoded k xs h s [] (by rw [hs, List.append_nil])]
  have : ({ s with buf := [] } : Input).drain = ({ s with buf := [] }, []) := drain_stop _ _ rfl
  rw [this, List.append_nil]

/-! ### Telling keys apart -/

theorem keys_prefix : ∀ k ∈ Known.all, ∀ i j : Fin 22,
    (Spec.seen (k.entry.keys.getD i.val [])).isPrefixOf (Spec.seen (k.entry.keys.getD j.val [])) = true → i = j := by
  decide +kernel

theorem keys_first : ∀ k ∈ Known.all, ∀ i : Fin 22, ∃ e ∈ (Spec.seen (k.entry.keys.getD i.val [])).head?,
    e.1 = 0x8F ∨ (0xEF00 ≤ e.1 ∧ e.1 ≤ 0xEFFF) := by
  decide +kernel

theorem events_prefix (k : Known) (x y : Typed) (hx : x.Ok) (hy : y.Ok) (h : x.events k <+: y.events k) : x = y := by
  cases x with
  | key i =>
    cases y with
    | key j => rw [keys_prefix k (mem_all k) i j (List.isPrefixOf_iff_prefix.mpr h)]
    | char r =>
      exfalso
      obtain ⟨e, he, h8⟩ := keys_first k (mem_all k) i
      obtain ⟨t, ht⟩ := h
      have hh : (Typed.events k (.key i)).head? = some e := he
      cases hc : Typed.events k (.key i) with
      | nil => rw [hc] at hh; simp at hh
      | cons a l =>
        rw [hc] at hh ht
        simp only [List.head?_cons, Option.some.injEq] at hh
        simp only [Typed.events, List.cons_append, List.cons.injEq] at ht
        obtain ⟨ht, -⟩ := ht
        subst hh
        rw [ht] at h8
        obtain ⟨-, h2, h3⟩ := hy
        simp only at h8
        tauto
  | char r =>
    obtain ⟨t, ht⟩ := h
    cases y with
    | key j =>
      exfalso
      obtain ⟨e, he, h8⟩ := keys_first k (mem_all k) j
      have hh : (Typed.events k (.key j)).head? = some e := he
      rw [← ht] at hh
      simp only [Typed.events, List.cons_append, List.head?_cons, Option.some.injEq] at hh
      subst hh
      obtain ⟨-, h2, h3⟩ := hx
      simp only at h8
      tauto
    | char q =>
      simp only [Typed.events, List.cons_append, List.cons.injEq, Prod.mk.injEq] at ht
      rw [ht.1.1]

/-- **C126**: on every known terminal, what was typed can be told from the events: different
sequences of keys and characters are never decoded alike. -/
theorem keys_apart (k : Known) (xs : List Typed) : ∀ (ys : List Typed), (∀ x ∈ xs, x.Ok) → (∀ y ∈ ys, y.Ok) →
    xs.flatMap (Typed.events k) = ys.flatMap (Typed.events k) → xs = ys := by
  have ne : ∀ x : Typed, x.events k ≠ [] := by
    intro x
    cases x with
    | key i =>
      obtain ⟨e, he, -⟩ := keys_first k (mem_all k) i
      intro h
      have hh : (Typed.events k (.key i)).head? = some e := he
      rw [h] at hh; simp at hh
    | char r => simp [Typed.events]
  induction xs with
  | nil =>
    intro ys _ hy h
    cases ys with
    | nil => rfl
    | cons y ys =>
      rw [List.flatMap_cons] at h
      exact absurd (List.append_eq_nil_iff.mp h.symm).1 (ne y)
  | cons x xs ih =>
    intro ys hx hy h
    cases ys with
    | nil =>
      rw [List.flatMap_cons] at h
      exact absurd (List.append_eq_nil_iff.mp h).1 (ne x)
    | cons y ys =>
      rw [List.flatMap_cons, List.flatMap_cons] at h
      have hxy : x = y := by
        rcases List.prefix_or_prefix_of_prefix (List.prefix_append _ _) (h ▸ List.prefix_append _ _) with hp | hp
        · exact (events_prefix k y x (hy y (by simp)) (hx x (by simp)) hp).symm
        · exact events_prefix k x y (hx x (by simp)) (hy y (by simp)) hp
      subst hxy
      rw [ih ys (fun z hz => hx z (by simp [hz])) (fun z hz => hy z (by simp [hz])) (List.append_cancel_left h)]

/-! ### One event for each key -/

/-- The terminals all of whose keys are control sequences. -/
def Spec.plainKeys : Known → Bool
  | .eterm | .rxvt256color | .rxvtUnicode => true
  | _ => false

theorem one_seen : ∀ k ∈ Known.all, Spec.plainKeys k = true → ∀ i : Fin 22, ∃ e : Event,
    Spec.seen (k.entry.keys.getD i.val []) = [e] ∧ 0xEF80 < e.1 ∧ e.1 ≤ 0xEFFF ∧ e.1 ≠ csiId 0x4D ∧ e.1 ≠ csiId 0x6D := by
  have : ∀ k ∈ Known.all, Spec.plainKeys k = true → ∀ i : Fin 22,
      (Spec.seen (k.entry.keys.getD i.val [])).length = 1 ∧ ∀ e ∈ Spec.seen (k.entry.keys.getD i.val []),
        0xEF80 < e.1 ∧ e.1 ≤ 0xEFFF ∧ e.1 ≠ csiId 0x4D ∧ e.1 ≠ csiId 0x6D := by decide +kernel
  intro k hk hp i
  obtain ⟨h1, h2⟩ := this k hk hp i
  obtain ⟨e, he⟩ := List.length_eq_one_iff.mp h1
  exact ⟨e, he, h2 e (by rw [he]; simp)⟩

theorem entry_kind (e : Nat) (a : Bytes) (h1 : e ≠ csiId 0x4D) (h2 : e ≠ csiId 0x6D) :
    (Evq.entry e a).kind = (if isEscape e then .escape else .rune) ∧ (Evq.entry e a).esc = e ∧ (Evq.entry e a).arg = a := by
  unfold Evq.entry
  rw [if_neg (by simp [h1, h2])]
  cases isEscape e <;> simp

theorem char_entry (r : Nat) (h : Typed.Ok (.char r)) : Evq.entry r [] = ⟨.rune, r, [], 0, ⟨0, 0⟩⟩ := by
  obtain ⟨-, h2, h3⟩ := h
  have e1 : r ≠ csiId 0x4D ∧ r ≠ csiId 0x6D := by constructor <;> (intro h; subst h; revert h3; decide)
  unfold Evq.entry
  rw [if_neg (by simp [e1])]
  have : isEscape r = false := by unfold isEscape; simp; omega
  simp [this]

/-- **C126**: on the terminals whose keys are control sequences, each key is one event, an escape,
so that the characters counted are exactly those typed. -/
theorem characters_exact_partial (k : Known) (hk : Spec.plainKeys k = true) (xs : List Typed) (h : ∀ x ∈ xs, x.Ok) (s : Input)
    (hs : s.buf = xs.flatMap (Typed.bytes k)) (r : Nat) (hr : Typed.Ok (.char r)) :
    (Evq.decodeInput [] s).1.length = xs.length ∧
    (Evq.countRune [r] 0 (Evq.decodeInput [] s).1).2 = xs.count (.char r) := by
  have hd := keys_decoded_all k xs h s hs
  unfold Evq.decodeInput
  rw [hd, List.nil_append, Evq.countRune_exact_partial _ _ (by simp)]
  simp only
  clear hd hs
  induction xs with
  | nil => exact ⟨rfl, rfl⟩
  | cons x xs ih =>
    obtain ⟨i1, i2⟩ := ih (fun y hy => h y (by simp [hy]))
    rw [List.flatMap_cons, List.map_append, List.length_append, List.countP_append, i1, i2, List.length_cons]
    cases x with
    | key i =>
      obtain ⟨e, he, h1, h2, h3, h4⟩ := one_seen k (mem_all k) hk i
      simp only [Typed.events, he, List.map_cons, List.map_nil, List.length_cons, List.length_nil]
      refine ⟨by omega, ?_⟩
      rw [List.count_cons_of_ne (by simp)]
      obtain ⟨e1, -, -⟩ := entry_kind e.1 e.2 h3 h4
      rw [List.countP_cons_of_neg, List.countP_nil, Nat.zero_add]
      unfold Evq.isRune
      rw [e1, if_pos (by unfold isEscape; simp; omega)]
      simp
    | char q =>
      simp only [Typed.events, List.map_cons, List.map_nil, List.length_cons, List.length_nil]
      refine ⟨by omega, ?_⟩
      rw [char_entry q (h _ (by simp))]
      by_cases hq : q = r
      · subst hq
        rw [List.count_cons_self, List.countP_cons_of_pos (by simp [Evq.isRune]), List.countP_nil]
        omega
      · rw [List.count_cons_of_ne (by simpa using hq), List.countP_cons_of_neg (by simp [Evq.isRune, hq]), List.countP_nil,
          Nat.zero_add]

/-- Negation for **C126**: on xterm, screen and the Linux console some keys are two events, the
second of them a letter: F1 of xterm and screen counts as a typed P, that of the Linux console as
an A, and the arrow up of xterm and screen as an A. -/
theorem keys_type_letters :
    (∀ k ∈ [Known.xterm, Known.screen], ∀ s : Input, s.buf = Typed.bytes k (.key 0) →
      (Evq.decodeInput [] s).1.length = 2 ∧ (Evq.countRune [0x50] 0 (Evq.decodeInput [] s).1).2 = 1) ∧
    (∀ k ∈ [Known.xterm, Known.screen], ∀ s : Input, s.buf = Typed.bytes k (.key 18) →
      (Evq.decodeInput [] s).1.length = 2 ∧ (Evq.countRune [0x41] 0 (Evq.decodeInput [] s).1).2 = 1) ∧
    ∀ s : Input, s.buf = Typed.bytes .linux (.key 0) →
      (Evq.decodeInput [] s).1.length = 2 ∧ (Evq.countRune [0x41] 0 (Evq.decodeInput [] s).1).2 = 1 := by
  have one : ∀ (k : Known) (i : Fin 22) (s : Input), s.buf = Typed.bytes k (.key i) →
      (Evq.decodeInput [] s).1 = (Typed.events k (.key i)).map fun x => Evq.entry x.1 x.2 := by
    intro k i s hs
    have := keys_decoded_all k [.key i] (by simp [Typed.Ok]) s (by rw [hs]; simp)
    unfold Evq.decodeInput
    rw [this]
    simp
  refine ⟨?_, ?_, ?_⟩
  · intro k hk s hs
    rw [one k 0 s hs]
    clear hs
    revert k
    decide +kernel
  · intro k hk s hs
    rw [one k 18 s hs]
    clear hs
    revert k
    decide +kernel
  · intro s hs
    rw [one .linux 0 s hs]
    decide +kernel

/-! ### The arrow keys -/

/-- Where a key goes: the last four are up, down, left and right. -/
def Spec.way : Typed → Pt
  | .key i => if i = 18 then ⟨0, -1⟩ else if i = 19 then ⟨0, 1⟩ else if i = 20 then ⟨-1, 0⟩ else if i = 21 then ⟨1, 0⟩ else ⟨0, 0⟩
  | .char _ => ⟨0, 0⟩

/-- The terminals whose arrow keys are the control sequences for moving the cursor. -/
def Spec.arrows : Known → Bool
  | .screen | .xterm => false
  | _ => true

/-- The movement in the events of something typed. -/
def moved (k : Known) (x : Typed) : Pt :=
  let l := ((x.events k).map fun e => Evq.entry e.1 e.2).filterMap Evq.moveOf
  ⟨(l.map (·.x)).sum, (l.map (·.y)).sum⟩

theorem moved_key : ∀ k ∈ Known.all, ∀ i : Fin 22,
    moved k (.key i) = if Spec.arrows k then Spec.way (.key i) else ⟨0, 0⟩ := by decide +kernel

theorem moved_typed (k : Known) (x : Typed) (h : x.Ok) : moved k x = if Spec.arrows k then Spec.way x else ⟨0, 0⟩ := by
  cases x with
  | key i => exact moved_key k (mem_all k) i
  | char r =>
    unfold moved
    simp only [Typed.events, List.map_cons, List.map_nil, char_entry r h]
    cases Spec.arrows k <;> rfl

/-- **C126**: the movement counted is the sum of the arrow keys typed, on the terminals whose
arrow keys are control sequences; on xterm and screen there is none at all, whatever is typed. -/
theorem arrows_moved_partial (k : Known) (xs : List Typed) (h : ∀ x ∈ xs, x.Ok) (s : Input)
    (hs : s.buf = xs.flatMap (Typed.bytes k)) :
    (Evq.totalCursorMovement ⟨0, 0⟩ (Evq.decodeInput [] s).1).2 =
      if Spec.arrows k then ⟨(xs.map fun x => (Spec.way x).x).sum, (xs.map fun x => (Spec.way x).y).sum⟩ else ⟨0, 0⟩ := by
  have hd := keys_decoded_all k xs h s hs
  unfold Evq.decodeInput
  rw [hd, List.nil_append, Evq.totalCursorMovement_exact]
  simp only [Int.zero_add]
  clear hd hs
  induction xs with
  | nil => cases Spec.arrows k <;> rfl
  | cons x xs ih =>
    have ih := ih (fun y hy => h y (by simp [hy]))
    have hm := moved_typed k x (h x (by simp))
    rw [List.flatMap_cons, List.map_append, List.filterMap_append, List.map_append, List.map_append, List.sum_append,
      List.sum_append, List.map_cons, List.map_cons, List.sum_cons, List.sum_cons]
    unfold moved at hm
    cases ha : Spec.arrows k <;> simp only [ha, Bool.false_eq_true, if_false, if_true] at hm ih ⊢
    all_goals
      have i1 := congrArg Pt.x ih
      have i2 := congrArg Pt.y ih
      have m1 := congrArg Pt.x hm
      have m2 := congrArg Pt.y hm
      simp only at i1 i2 m1 m2
      rw [i1, i2, m1, m2]
    all_goals rfl

example : (∀ x ∈ [Typed.key 18, .char 0x41, .key 0, .key 21, .char 0x1F600], x.Ok) := by
  simp only [List.mem_cons, List.not_mem_nil, or_false, forall_eq_or_imp, forall_eq]
  refine ⟨trivial, ⟨by decide, by decide, by decide⟩, trivial, trivial, ⟨by decide, by decide, by decide⟩⟩

example : [Typed.key 18, .char 0x41, .key 0, .key 21].flatMap (Typed.bytes .xterm) =
    [0x1B, 0x4F, 0x41, 0x41, 0x1B, 0x4F, 0x50, 0x1B, 0x4F, 0x43] ∧
    [Typed.key 18, .char 0x41, .key 21].flatMap (Typed.events .eterm) = [(0xEFC1, []), (0x41, []), (0xEFC3, [])] := by
  decide +kernel

end Tin
end Anansi
