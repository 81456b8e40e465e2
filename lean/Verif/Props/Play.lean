import Verif.Model.Play
import Verif.Lemmas.Num
import Mathlib.Data.List.TakeWhile
/-
C72 Recorded screen sizes are read back.
C73 A replay shows the recorded frames in order.
-/
set_option autoImplicit false

namespace Anansi
namespace Rpl

theorem noDigit_nil : noDigit [] := by intro d h; simp at h

theorem itoaNat_no_comma (n : Nat) : ∀ b ∈ itoaNat n, decide (b ≠ 0x2C) = true := by
  intro b hb
  have := itoaNat_digits n b hb
  simp only [decide_eq_true_eq]
  rintro rfl
  simp at this

/-- **C72**: a recorded size is a message, and it reads back as the size. -/
theorem size_reads (x y : Nat) (hx : x < 2 ^ 32) (hy : y < 2 ^ 32) (old : Pt) : ∃ m,
    recordSize ⟨x, y⟩ = apc m ∧ parseSize (m.drop 7) = some ⟨x, y⟩ ∧ sizeOf m old = ⟨x, y⟩ := by
  have h : parseSize (itoaNat x ++ 0x2C :: itoaNat y) = some ⟨x, y⟩ := by
    unfold parseSize
    rw [List.dropWhile_append_of_pos (itoaNat_no_comma x), List.takeWhile_append_of_pos (itoaNat_no_comma x)]
    have hx' := decodeNumber_itoa x [] (by unfold numMaxVal; omega) noDigit_nil
    have hy' := decodeNumber_itoa y [] (by unfold numMaxVal; omega) noDigit_nil
    rw [List.append_nil] at hx' hy'
    have e : List.dropWhile (fun b : UInt8 => decide (b ≠ 0x2C)) (0x2C :: itoaNat y) = 0x2C :: itoaNat y := by
      rw [List.dropWhile_cons, if_neg (by decide)]
    have e' : List.takeWhile (fun b : UInt8 => decide (b ≠ 0x2C)) (0x2C :: itoaNat y) = [] := by
      rw [List.takeWhile_cons, if_neg (by decide)]
    rw [e, e', List.append_nil]
    simp only [hx', hy']
    rfl
  refine ⟨resize ++ (itoaNat x ++ 0x2C :: itoaNat y), ?_, ?_, ?_⟩
  · unfold recordSize apc
    rw [itoa_natCast, itoa_natCast]
    simp
  · rw [List.drop_left' (by rfl)]; exact h
  · unfold sizeOf
    rw [if_pos (by rw [List.isPrefixOf_iff_prefix]; exact List.prefix_append _ _), List.drop_left' (by rfl), h]

/-- Other messages do not change the size. -/
theorem size_other (m : Bytes) (h : ¬ resize <+: m) (old : Pt) : sizeOf m old = old := by
  unfold sizeOf
  rw [if_neg (by rw [List.isPrefixOf_iff_prefix]; exact h)]

/-- **C72**: a size message that is not a size does not change the size, either. -/
theorem size_bad (m : Bytes) (h : parseSize (m.drop 7) = none) (old : Pt) : sizeOf m old = old := by
  unfold sizeOf
  rw [h]
  split <;> rfl

/-- "resize:", then "8x2". -/
example : parseSize ((resize ++ [0x38, 0x78, 0x32]).drop 7) = none := by decide +kernel

/-- 80 by 24. -/
example : parseSize [0x38, 0x30, 0x2C, 0x32, 0x34] = some ⟨80, 24⟩ := by decide +kernel

/-- What follows a number is not looked at, so that other messages are taken for sizes. -/
theorem size_junk : parseSize [0x38, 0x78, 0x2C, 0x32, 0x2C, 0x2C] = some ⟨8, 2⟩ := by decide +kernel

/-! ### C73 -/

/-- The recorded session: for every frame with a time, its time, the size of the screen as the
messages up to it tell, and its bytes. -/
def Spec.timeline {τ : Type} (size : Pt) : List (Frame τ) → List (τ × Pt × Bytes)
  | [] => []
  | f :: l =>
    match f.t with
    | some t => (t, sizeOf f.m size, f.b) :: Spec.timeline (sizeOf f.m size) l
    | none => Spec.timeline (sizeOf f.m size) l

/-- The client is run with this. -/
def Spec.shown {τ : Type} (x : τ × Pt × Bytes) : Outcome τ := .run (some x.1) x.2.1 (some x.2.2)

/-- Advancing shows the next entry of the timeline, with the size in effect there. -/
theorem advance_spec {τ : Type} (l : List (Frame τ)) : ∀ (frame : Frame τ) (size : Pt),
    match Spec.timeline size l with
    | [] => (advance frame size l).2.2 = [] ∧ (l ≠ [] → (advance frame size l).1.t = none)
    | x :: rest => (advance frame size l).1.t = some x.1 ∧ (advance frame size l).2.1 = x.2.1 ∧
        (advance frame size l).1.b = x.2.2 ∧ Spec.timeline (advance frame size l).2.1 (advance frame size l).2.2 = rest := by
  induction l with
  | nil => intro frame size; exact ⟨rfl, fun h => absurd rfl h⟩
  | cons f l ih =>
    intro frame size
    rw [Spec.timeline]
    cases ht : f.t with
    | some t =>
      simp only [advance, ht, Option.isSome_some, if_true]
      trivial
    | none =>
      have ih := ih f (sizeOf f.m size)
      have e : advance frame size (f :: l) = advance f (sizeOf f.m size) l := by
        rw [advance]; simp [ht]
      rw [e]
      simp only
      cases h : Spec.timeline (sizeOf f.m size) l with
      | nil =>
        rw [h] at ih
        refine ⟨ih.1, fun _ => ?_⟩
        cases l with
        | nil => exact ht
        | cons g l => exact ih.2 (by simp)
      | cons x rest =>
        rw [h] at ih
        exact ih

/-- **C73**: without keys for the replay, the client is run once for every recorded frame with
a time, in order, with its time and bytes and the size of that time; then the replay is
done. -/
theorem play_all {τ : Type} (us : List (Bool × Nat × Nat)) (hu : ∀ u ∈ us, u.1 = false ∧ u.2.1 % 2 = 0) : ∀ (p : Play τ),
    p.pause = none → p.updates us =
      ((Spec.timeline p.size p.cur).map Spec.shown ++ List.replicate us.length Outcome.done).take us.length := by
  induction us with
  | nil => intro p _; simp [Play.updates]
  | cons u us ih =>
    intro p hp
    have ih := ih (fun v hv => hu v (by simp [hv]))
    obtain ⟨h1, h2⟩ := hu u (by simp)
    rw [Play.updates]
    by_cases hc : p.cur = []
    · have e : p.update u.1 u.2.1 u.2.2 = (p, .done) := by unfold Play.update; rw [if_pos hc]
      rw [e]
      simp only
      rw [ih p hp, hc]
      simp [Spec.timeline, List.replicate_succ]
    · have e : p.update u.1 u.2.1 u.2.2 =
          ((⟨(advance p.frame p.size p.cur).2.2, (advance p.frame p.size p.cur).1, none,
              (advance p.frame p.size p.cur).2.1⟩ : Play τ),
            if (advance p.frame p.size p.cur).1.t.isNone then .done
            else .run (advance p.frame p.size p.cur).1.t (advance p.frame p.size p.cur).2.1 (some (advance p.frame p.size p.cur).1.b)) := by
        unfold Play.update
        rw [if_neg hc, h1]
        simp only [Bool.false_eq_true, if_false, h2, Nat.zero_ne_one, hp]
        simp
        split <;> rfl
      rw [e]
      simp only
      rw [ih _ rfl]
      have ha := advance_spec p.cur p.frame p.size
      cases h : Spec.timeline p.size p.cur with
      | nil =>
        rw [h] at ha
        simp only [ha.1, ha.2 hc]
        simp [Spec.timeline, List.replicate_succ]
      | cons x rest =>
        rw [h] at ha
        obtain ⟨a1, a2, a3, a4⟩ := ha
        simp only
        rw [a4, a1, a2, a3, List.map_cons, List.cons_append, List.length_cons, List.take_succ_cons]
        simp only [Option.isNone_some, Bool.false_eq_true, if_false, List.cons.injEq]
        refine ⟨rfl, ?_⟩
        rw [List.take_append, List.take_append, List.take_replicate, List.take_replicate]
        congr 2
        omega

/-- The recorded input the client gets. -/
def delivered {τ : Type} (os : List (Outcome τ)) : List (τ × Pt × Bytes) :=
  os.filterMap fun
    | .run (some t) sz (some b) => some (t, sz, b)
    | _ => none

/-- **C73**: whatever the user presses, the recorded input the client gets is the first frames
of the recording, in order and none of them twice. -/
theorem play_prefix {τ : Type} (us : List (Bool × Nat × Nat)) : ∀ (p : Play τ),
    delivered (p.updates us) <+: Spec.timeline p.size p.cur := by
  induction us with
  | nil => intro p; exact List.nil_prefix
  | cons u us ih =>
    intro p
    rw [Play.updates]
    have hkeep : ∀ (q : Play τ) (o : Outcome τ), q.size = p.size → q.cur = p.cur → delivered [o] = [] →
        delivered (o :: q.updates us) <+: Spec.timeline p.size p.cur := by
      intro q o h1 h2 h3
      have e : delivered (o :: q.updates us) = delivered [o] ++ delivered (q.updates us) := by
        unfold delivered; rw [← List.filterMap_append]; rfl
      rw [e, h3, List.nil_append, ← h1, ← h2]
      exact ih q
    unfold Play.update
    split
    · exact hkeep p _ rfl rfl rfl
    · next hc =>
      split
      · exact hkeep p _ rfl rfl rfl
      · simp only
        generalize (if u.2.1 % 2 = 1 then if p.pause.isNone = true then p.frame.t else none else p.pause) = pause
        generalize (pause.isSome && decide (u.2.2 % 2 = 1)) = step
        generalize (if step = true then p.frame.t else pause) = pause'
        split
        · have ha := advance_spec p.cur p.frame p.size
          cases h : Spec.timeline p.size p.cur with
          | nil =>
            rw [h] at ha
            rw [ha.2 hc]
            simp only [Option.isNone_none, if_true]
            have := ih ⟨(advance p.frame p.size p.cur).2.2, (advance p.frame p.size p.cur).1, pause',
              (advance p.frame p.size p.cur).2.1⟩
            simp only [ha.1, Spec.timeline] at this
            simp only [ha.1]
            exact this
          | cons x rest =>
            rw [h] at ha
            obtain ⟨a1, a2, a3, a4⟩ := ha
            have := ih ⟨(advance p.frame p.size p.cur).2.2, (advance p.frame p.size p.cur).1, pause',
              (advance p.frame p.size p.cur).2.1⟩
            simp only [a4] at this
            rw [a1, a2, a3]
            simp only [Option.isNone_some, Bool.false_eq_true, if_false]
            rw [a2] at this
            exact (List.prefix_cons_inj x).mpr this
        · exact hkeep _ _ rfl rfl (by unfold delivered; cases p.frame.t <;> rfl)

/-- **C73**: a Ctrl-C while there are frames left stops the replay, without an error and with
nothing replayed; with none left the replay is done whatever is pressed. -/
theorem stop_stops {τ : Type} (p : Play τ) (spaces dots : Nat) :
    (p.cur ≠ [] → p.update true spaces dots = (p, .stopped)) ∧
    (∀ c, p.cur = [] → p.update c spaces dots = (p, .done)) := by
  refine ⟨fun h => ?_, fun c h => ?_⟩
  · unfold Play.update; rw [if_neg h, if_pos rfl]
  · unfold Play.update; rw [if_pos h]

/-- **C73**: and only a Ctrl-C stops it. -/
theorem only_stop_stops {τ : Type} (p : Play τ) (spaces dots : Nat) : (p.update false spaces dots).2 ≠ .stopped := by
  unfold Play.update
  simp only [Bool.false_eq_true, if_false]
  split_ifs <;> simp

/-- **C73**: while it is paused nothing is replayed, until a space or a dot. -/
theorem paused_stays {τ : Type} (p : Play τ) (spaces dots : Nat) (hc : p.cur ≠ []) (hp : p.pause.isSome = true) (h1 : spaces % 2 = 0)
    (h2 : dots % 2 = 0) : p.update false spaces dots = (p, .run p.frame.t p.size none) := by
  unfold Play.update
  rw [if_neg hc]
  have h3 : p.pause.isNone = false := by cases h : p.pause <;> simp_all
  simp [h1, h2, hp, h3]

/-- **C73**: a dot while it is paused replays one frame. -/
theorem paused_step {τ : Type} (p : Play τ) (spaces dots : Nat) (hp : p.pause.isSome = true) (hf : p.frame.t.isSome = true)
    (h1 : spaces % 2 = 0) (h2 : dots % 2 = 1) (x : τ × Pt × Bytes) (rest : List (τ × Pt × Bytes))
    (hx : Spec.timeline p.size p.cur = x :: rest) :
    (p.update false spaces dots).2 = Spec.shown x ∧ (p.update false spaces dots).1.pause.isSome = true ∧
      Spec.timeline (p.update false spaces dots).1.size (p.update false spaces dots).1.cur = rest := by
  have hc : p.cur ≠ [] := by intro h; rw [h] at hx; simp [Spec.timeline] at hx
  have ha := advance_spec p.cur p.frame p.size
  rw [hx] at ha
  obtain ⟨a1, a2, a3, a4⟩ := ha
  have h3 : p.pause.isNone = false := by cases h : p.pause <;> simp_all
  unfold Play.update
  rw [if_neg hc]
  simp only [Bool.false_eq_true, if_false, h1, h2, hp, h3, Nat.zero_ne_one, decide_true, Bool.and_self, if_true, Bool.true_or, a1,
    Option.isNone_some, a2, a3]
  rw [a2] at a4
  exact ⟨rfl, hf, a4⟩

/-- A resize, two frames, a pause before the second. -/
example : (Play.updates (τ := Nat) { cur := [{ b := [0] }, { m := resize ++ [0x39, 0x2C, 0x32] }, { t := some 5, b := [0x61] },
      { t := some 6, b := [0x62] }] } [(false, 0, 0), (false, 1, 0), (false, 0, 1), (false, 0, 0)]) =
    [.run (some 5) ⟨9, 2⟩ (some [0x61]), .run (some 5) ⟨9, 2⟩ none, .run (some 6) ⟨9, 2⟩ (some [0x62]), .done] := by decide +kernel

/-- Negation for **C73**: while the replay is paused (and in the update that pauses it) the
client gets what the user types, at the time of a recorded frame. -/
theorem paused_gets_keys : ∃ (p : Play Nat) (t : Nat), p.pause = none ∧ p.frame.t = some t ∧
    (p.update false 1 0).2 = .run (some t) p.size none :=
  ⟨{ cur := [{ t := some 6 }], frame := { t := some 5 } }, 5, rfl, rfl, by decide +kernel⟩

/-- Negation for **C73**: what is recorded without a time, as after a read error, never
reaches the client. -/
theorem untimed_dropped : Spec.timeline (τ := Nat) ⟨0, 0⟩ [{ t := some 5, m := [0x45] }, { b := [0x68] }, { t := some 6 }] =
    [(5, ⟨0, 0⟩, []), (6, ⟨0, 0⟩, [])] := by decide +kernel

end Rpl
end Anansi
