import Verif.Model.Restore
import Verif.Props.Play
/-
C115: the state a replay starts from.
-/
set_option autoImplicit false

namespace Anansi
namespace Rst

namespace Spec

/-- Two structs have fields of the same types. -/
abbrev SameTypes (a b : List Leaf) : Prop := a.map Leaf.zero = b.map Leaf.zero

/-- What becomes of a struct that is loaded over: fields that were zero when saved stay as they are. -/
def over : List Leaf → List Leaf → List Leaf
  | o :: old, n :: new => (if n = n.zero then o else n) :: over old new
  | _, _ => []

end Spec
open Spec

theorem same_length {a b : List Leaf} (h : SameTypes a b) : a.length = b.length := by
  have := congrArg List.length h
  simpa using this

theorem zero_zero (x : Leaf) : x.zero.zero = x.zero := by cases x <;> rfl

theorem decode_from (new : List Leaf) : ∀ (pre old : List Leaf) (n d : Nat), old.length = new.length → pre.length + 1 = n + d → 0 < d →
    decodeFrom n (pre ++ old) (encodeFrom d new) = (pre ++ over old new, true) := by
  induction new with
  | nil =>
    intro pre old n d hl _ _
    have : old = [] := List.length_eq_zero_iff.1 hl
    subst this
    rfl
  | cons x new ih =>
    intro pre old n d hl hn hd
    cases old with
    | nil => simp at hl
    | cons o old =>
      have hl : old.length = new.length := by simpa using hl
      rw [encodeFrom, over]
      by_cases hx : x = x.zero
      · rw [if_pos hx, if_pos hx]
        have := ih (pre ++ [o]) old n (d + 1) hl (by simp; omega) (by omega)
        simpa using this
      · rw [if_neg hx, if_neg hx, decodeFrom]
        have hc : ¬ (d = 0 ∨ (pre ++ o :: old).length < n + d) := by simp; omega
        rw [if_neg hc]
        have hs : (pre ++ o :: old).set (n + d - 1) x = (pre ++ [x]) ++ old := by
          have : n + d - 1 = pre.length := by omega
          rw [this]; simp
        rw [hs]
        have := ih (pre ++ [x]) old (n + d) 1 hl (by simp; omega) (by omega)
        simpa using this

/-- What was saved is loaded over what is there. -/
theorem decode_encode (old new : List Leaf) (h : old.length = new.length) : decode old (encode new) = (over old new, true) :=
  decode_from new [] old 0 1 h rfl (by omega)

theorem over_zero (new : List Leaf) : over (new.map Leaf.zero) new = new := by
  induction new with
  | nil => rfl
  | cons x l ih =>
    rw [List.map_cons, over, ih]
    by_cases hx : x = x.zero
    · rw [if_pos hx, ← hx]
    · rw [if_neg hx]

/-- Loading gives what was saved exactly if every field that was zero when saved is zero when it is loaded. -/
theorem over_iff (new : List Leaf) : ∀ old : List Leaf, SameTypes old new →
    (over old new = new ↔ ∀ (i : Nat) (o n : Leaf), old[i]? = some o → new[i]? = some n → n = n.zero → o = o.zero) := by
  induction new with
  | nil => intro old h; cases old with
    | nil => simp [over]
    | cons o old => simp [SameTypes] at h
  | cons x new ih =>
    intro old h
    cases old with
    | nil => simp [SameTypes] at h
    | cons o old =>
      simp only [SameTypes, List.map_cons, List.cons.injEq] at h
      rw [over, List.cons.injEq, ih old h.2]
      constructor
      · rintro ⟨h1, h2⟩ i a b ha hb hz
        cases i with
        | zero =>
          simp only [List.getElem?_cons_zero, Option.some.injEq] at ha hb
          subst ha hb
          rw [if_pos hz] at h1
          rw [h1]; exact hz
        | succ i => exact h2 i a b (by simpa using ha) (by simpa using hb) hz
      · intro H
        refine ⟨?_, fun i a b ha hb => H (i + 1) a b (by simpa using ha) (by simpa using hb)⟩
        by_cases hx : x = x.zero
        · rw [if_pos hx]
          have := H 0 o x (by simp) (by simp) hx
          rw [this, h.1, ← hx]
        · rw [if_neg hx]

/-- **C115**: a run with a replay starts with the platform's own state as it was saved when the recording began,
whatever it was since, and with the recorded input from its beginning; of the client, the fields that were not zero then are
as they were, and the others are as they are now. -/
theorem started (s w : Saved) (r : Rep) (hr : r.cereal = w.write) (ho : SameTypes s.own w.own) (hc : SameTypes s.client w.client) :
    (start s r).2 = true ∧ (start s r).1.1.own = w.own ∧ (start s r).1.1.client = over s.client w.client ∧
    (start s r).1.2.play.cur = r.input ∧ (start s r).1.2.input = r.input ∧ (start s r).1.2.cereal = r.cereal := by
  have h1 : decode (s.own.map Leaf.zero) (encode w.own) = (w.own, true) := by
    rw [decode_encode _ _ (by simpa using same_length ho), show s.own.map Leaf.zero = w.own.map Leaf.zero from ho, over_zero]
  have h2 := decode_encode s.client w.client (same_length hc)
  have : s.read r.cereal = (⟨w.own, over s.client w.client⟩, true) := by
    rw [hr]
    simp only [Saved.read, Saved.write, h1, h2, if_true]
  unfold start
  rw [this]
  exact ⟨rfl, rfl, rfl, rfl, rfl, rfl⟩

/-- **C115**: the client starts as it was when the recording began exactly if every field that was zero then is zero
now. -/
theorem restored_iff (s w : Saved) (r : Rep) (hr : r.cereal = w.write) (ho : SameTypes s.own w.own) (hc : SameTypes s.client w.client) :
    (start s r).1.1 = w ↔ ∀ (i : Nat) (o n : Leaf), s.client[i]? = some o → w.client[i]? = some n → n = n.zero → o = o.zero := by
  obtain ⟨_, h1, h2, _⟩ := started s w r hr ho hc
  rw [← over_iff w.client s.client hc, ← h2]
  constructor
  · intro h; rw [h]
  · intro h
    cases hx : (start s r).1.1 with
    | mk a b => rw [hx] at h1 h; simp only at h1 h; rw [h1, h]

/-- **C115**: a new client starts as the client was when the recording began. -/
theorem new_client_restored (s w : Saved) (r : Rep) (hr : r.cereal = w.write) (ho : SameTypes s.own w.own)
    (hc : s.client = w.client.map Leaf.zero) : (start s r).1.1 = w := by
  have hs : SameTypes s.client w.client := by
    unfold SameTypes; rw [hc, List.map_map]
    apply List.map_congr_left; intro x _; exact zero_zero x
  rw [restored_iff s w r hr ho hs]
  intro i o n h _ _
  rw [hc, List.getElem?_map] at h
  cases hn : w.client[i]? with
  | none => rw [hn] at h; cases h
  | some y => rw [hn] at h; cases h; exact (zero_zero y).symm

/-- **C115**: if the state cannot be read, whatever it is, the platform's own state and the replay are as they were. -/
theorem failed_keeps (s : Saved) (r : Rep) (h : (start s r).2 = false) :
    (start s r).1.1.own = s.own ∧ (start s r).1.2 = r := by
  have key : ∀ l : List Msg, (s.read l).2 = false → (s.read l).1.own = s.own := by
    intro l h
    cases l with
    | nil => rfl
    | cons m ms =>
      unfold Saved.read at h ⊢
      dsimp only at h ⊢
      cases hm : (decode (s.own.map Leaf.zero) m).2 with
      | false => simp [hm]
      | true =>
        simp only [hm, if_true] at h ⊢
        cases ms with
        | nil => rfl
        | cons m' ms =>
          simp only at h ⊢
          cases hm' : (decode s.client m').2 with
          | false => simp [hm']
          | true => simp [hm'] at h
  unfold start at h ⊢
  cases hx : (s.read r.cereal).2 with
  | true => simp [hx] at h
  | false => simp only [hx, Bool.false_eq_true, if_false]; exact ⟨key _ hx, trivial⟩

/-- Negation for **C115**: a client whose count was 0 when the recording began and is 5 now starts the replay with 5; one
whose count was 3 starts with 3. -/
theorem zero_not_restored :
    (start ⟨[], [.num 5]⟩ ⟨Saved.write ⟨[], [.num 0]⟩, [], { cur := [] }, {}⟩).1.1.client = [.num 5] ∧
    (start ⟨[], [.num 5]⟩ ⟨Saved.write ⟨[], [.num 3]⟩, [], { cur := [] }, {}⟩).1.1.client = [.num 3] := by decide +kernel

/-- The hypotheses are met by a platform and a client with several fields. -/
example : let s : Saved := ⟨[.num 1, .bytes [0x61]], [.num 5, .bytes [], .num 0]⟩
    let w : Saved := ⟨[.num 0, .bytes [0x62]], [.num 4, .bytes [0x63], .num 0]⟩
    SameTypes s.own w.own ∧ SameTypes s.client w.client ∧
      start s ⟨w.write, [], { cur := [] }, {}⟩ = ((w, ⟨w.write, [], { cur := [] }, {}⟩), true) := by decide +kernel

/-! ### Again and again -/

namespace Spec

/-- Frames in which nothing is typed for the replay. -/
def quiet (n : Nat) : List (Bool × Nat × Nat) := List.replicate n (false, 0, 0)

/-- A recording says at its beginning how large the screen was. -/
def saysSize : List (Rpl.Frame Int) → Prop
  | [] => False
  | f :: _ => ∃ sz, ∀ old, Rpl.sizeOf f.m old = sz

end Spec

theorem updates_outcomes (us : List (Bool × Nat × Nat)) : ∀ r : Rep, (r.updates us).2 = r.play.updates us := by
  induction us with
  | nil => intro r; rfl
  | cons u us ih =>
    intro r
    rw [Rep.updates, Rpl.Play.updates, ih]
    have h1 : (r.update u).2 = (r.play.update u.1 u.2.1 u.2.2).2 := by unfold Rep.update; dsimp only; split <;> rfl
    have h2 : (r.update u).1.play = (r.play.update u.1 u.2.1 u.2.2).1 := by unfold Rep.update; dsimp only; split <;> rfl
    simp only [h1, h2]

theorem timeline_size (l : List (Rpl.Frame Int)) (h : saysSize l) (a b : Pt) : Rpl.Spec.timeline a l = Rpl.Spec.timeline b l := by
  cases l with
  | nil => exact absurd h (by simp [saysSize])
  | cons f l =>
    obtain ⟨sz, hsz⟩ := h
    rw [Rpl.Spec.timeline, Rpl.Spec.timeline, hsz, hsz]

/-- **C115**: a replay can be run again and again: unless it is paused then, whatever came before, it runs the client with all recorded
frames from the first on, each at its time, in the size then and with its bytes; and then says it is done. -/
theorem again_partial (s w : Saved) (r : Rep) (hr : r.cereal = w.write) (ho : SameTypes s.own w.own)
    (hc : SameTypes s.client w.client) (hp : r.play.pause = none) (hs : saysSize r.input) (n : Nat) (any : Pt) :
    ((start s r).1.2.updates (quiet n)).2 =
      ((Rpl.Spec.timeline any r.input).map Rpl.Spec.shown ++ List.replicate n Rpl.Outcome.done).take n := by
  have hx : (s.read r.cereal).2 = true := by
    have := (started s w r hr ho hc).1
    unfold start at this
    cases h : (s.read r.cereal).2 with
    | true => rfl
    | false => simp [h] at this
  have hst : (start s r).1.2 = { r with play := { r.play with cur := r.input } } := by
    unfold start; simp [hx]
  rw [updates_outcomes, hst]
  have := Rpl.play_all (τ := Int) (quiet n) (by
    intro u hu
    rw [quiet, List.mem_replicate] at hu
    rw [hu.2]; exact ⟨rfl, rfl⟩) { r.play with cur := r.input } hp
  rw [this]
  have hl : (quiet n).length = n := by simp [quiet]
  rw [hl, timeline_size r.input hs _ any]

/-- A recording in a screen of ten by five: the mouse is pressed at (3, 2), then an "a" is typed. -/
def tape : Rep where
  cereal := Saved.write ⟨[], []⟩
  input := [{ m := Rpl.resize ++ [0x31, 0x30, 0x2C, 0x35] },
    { t := some 7, b := [0x61] },
    { t := some 8, b := [0x1B, 0x5B, 0x3C, 0x30, 0x3B, 0x33, 0x3B, 0x32, 0x4D] }]
  play := { cur := [] }

example : saysSize tape.input := ⟨⟨10, 5⟩, fun _ => by
  show Rpl.sizeOf (Rpl.resize ++ [0x31, 0x30, 0x2C, 0x35]) _ = _
  have h : Rpl.resize.isPrefixOf (Rpl.resize ++ [0x31, 0x30, 0x2C, 0x35]) = true := by decide
  have h2 : Rpl.parseSize ((Rpl.resize ++ [0x31, 0x30, 0x2C, 0x35]).drop 7) = some ⟨10, 5⟩ := by decide +kernel
  rw [Rpl.sizeOf, if_pos h, h2]⟩

/-- Negation for **C115**: the mouse's mark is not taken away when the replay starts again: there is one before any
event of the mouse has been replayed. -/
theorem mark_left : let r := ((start ⟨[], []⟩ tape).1.2.updates (quiet 3)).1
    (start ⟨[], []⟩ tape).1.2.mark = {} ∧ (start ⟨[], []⟩ r).2 = true ∧ (start ⟨[], []⟩ r).1.2.mark.pt = ⟨3, 2⟩ ∧
    ((start ⟨[], []⟩ r).1.2.updates (quiet 1)).1.mark.pt = ⟨3, 2⟩ := by decide +kernel

/-- Negation for **C115**: a replay that was stepped to its end starts again paused, at the end: the client, in the state of the
beginning, is run at the time of the last frame, with what the user types. -/
theorem paused_left : let r := ((start ⟨[], []⟩ tape).1.2.updates [(false, 0, 0), (false, 1, 1), (false, 0, 0)])
    r.2 = [.run (some 7) ⟨10, 5⟩ (some [0x61]), .run (some 8) ⟨10, 5⟩ (some [0x1B, 0x5B, 0x3C, 0x30, 0x3B, 0x33, 0x3B, 0x32, 0x4D]), .done] ∧
    ((start ⟨[], []⟩ r.1).1.2.updates (quiet 1)).2 = [.run (some 8) ⟨10, 5⟩ none] := by decide +kernel

end Rst
end Anansi
