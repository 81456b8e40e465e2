import Verif.Model.Group
import Verif.Props.Profile
/-
C97: groups of workers and of profiles.
-/
set_option autoImplicit false

namespace Anansi

namespace Wks

namespace Spec

/-- The replies to calls made one after the other. -/
def replies (v : Reply) (tr : List Call) : List Call → List (Option Nat)
  | [] => []
  | c :: l => v tr c :: replies v (tr ++ [c]) l

/-- The first error. -/
def firstErr : List (Option Nat) → Option Nat
  | [] => none
  | some e :: _ => some e
  | none :: l => firstErr l

/-- The calls up to and including the first that fails. -/
def upto (v : Reply) (tr : List Call) : List Call → List Call
  | [] => []
  | c :: l => if (v tr c).isSome then [c] else c :: upto v (tr ++ [c]) l

end Spec
open Spec

/-- **C97**: workers are started in order, up to and including the first that fails, whose
error is returned. -/
theorem enter_order (v : Reply) : ∀ (l : List Nat) (tr : List Call),
    enter v tr l = (tr ++ upto v tr (l.map .start), firstErr (replies v tr (l.map .start)))
  | [], tr => by simp [enter, upto, replies, firstErr]
  | i :: l, tr => by
    unfold enter
    cases h : v tr (.start i) with
    | none => simp [enter_order v l, upto, replies, firstErr, h]
    | some e => simp [upto, replies, firstErr, h]

/-- **C97**: so are they notified. -/
theorem notify_order (v : Reply) : ∀ (l : List Nat) (tr : List Call),
    notify v tr l = (tr ++ upto v tr (l.map .notify), firstErr (replies v tr (l.map .notify)))
  | [], tr => by simp [notify, upto, replies, firstErr]
  | i :: l, tr => by
    unfold notify
    cases h : v tr (.notify i) with
    | none => simp [notify_order v l, upto, replies, firstErr, h]
    | some e => simp [upto, replies, firstErr, h]

theorem exitLoop_order (v : Reply) : ∀ (l : List Nat) (tr : List Call) (err : Option Nat),
    exitLoop v tr err l = (tr ++ l.map .stop, firstErr (err :: replies v tr (l.map .stop)))
  | [], tr, err => by cases err <;> simp [exitLoop, replies, firstErr]
  | i :: l, tr, err => by
    unfold exitLoop
    rw [exitLoop_order v l]
    cases err <;> simp [replies, firstErr]

/-- **C97**: all workers are stopped, from the last to the first, whatever fails; the first
error is returned. -/
theorem exit_order (v : Reply) (l : List Nat) (tr : List Call) :
    exit v tr l = (tr ++ (l.map .stop).reverse, firstErr (replies v tr (l.map .stop).reverse)) := by
  unfold exit
  rw [exitLoop_order, List.map_reverse]
  rfl

theorem upto_prefix (v : Reply) : ∀ (l tr : List Call), upto v tr l <+: l
  | [], _ => List.prefix_rfl
  | c :: l, tr => by
    unfold upto
    split
    · simp
    · rw [List.prefix_cons_inj]; exact upto_prefix v l _

theorem upto_ok (v : Reply) : ∀ (l tr : List Call), firstErr (replies v tr l) = none → upto v tr l = l
  | [], _, _ => rfl
  | c :: l, tr, h => by
    unfold upto
    cases hc : v tr c with
    | none => simp only [replies, hc, firstErr] at h; simp [upto_ok v l _ h]
    | some e => simp [replies, hc, firstErr] at h

theorem frames_calls (v : Reply) (ws : List Nat) : ∀ (n : Nat) (tr : List Call),
    ∃ l, (frames v ws n tr).1 = tr ++ l ∧ ∀ c ∈ l, ∃ i ∈ ws, c = .notify i
  | 0, tr => ⟨[], by simp [frames], by simp⟩
  | n + 1, tr => by
    have hu : ∀ c ∈ upto v tr (ws.map .notify), ∃ i ∈ ws, c = .notify i := by
      intro c hc
      obtain ⟨i, hi, e⟩ := List.mem_map.1 ((upto_prefix v _ tr).subset hc)
      exact ⟨i, hi, e.symm⟩
    unfold frames
    rw [notify_order]
    cases h : firstErr (replies v tr (ws.map .notify)) with
    | some e => exact ⟨_, rfl, hu⟩
    | none =>
      obtain ⟨l, h1, h2⟩ := frames_calls v ws n (tr ++ upto v tr (ws.map .notify))
      refine ⟨upto v tr (ws.map .notify) ++ l, by simp only [h1, List.append_assoc], fun c hc => ?_⟩
      rcases List.mem_append.1 hc with hc | hc
      · exact hu c hc
      · exact h2 c hc

/-- **C97**, a whole run: first workers are started, in order, then notified, then all of
them are stopped, once each, in reverse; no worker is notified unless all have been started;
and a run in which anything fails ends with an error. -/
theorem life_order (v : Reply) (ws : List Nat) (n : Nat) :
    ∃ s m, (life v ws n).1 = s ++ m ++ (ws.map .stop).reverse ∧ s <+: ws.map .start ∧
      (∀ c ∈ m, ∃ i ∈ ws, c = .notify i) ∧ (m ≠ [] → s = ws.map .start) ∧
      ((life v ws n).2 = none → s = ws.map .start) := by
  unfold life
  rw [enter_order]
  simp only [List.nil_append]
  cases h : firstErr (replies v [] (ws.map .start)) with
  | some e =>
    refine ⟨upto v [] (ws.map .start), [], ?_, upto_prefix v _ _, by simp, by simp, by simp⟩
    rw [exit_order]
    simp
  | none =>
    obtain ⟨l, h1, h2⟩ := frames_calls v ws n (upto v [] (ws.map .start))
    have hu := upto_ok v _ _ h
    refine ⟨upto v [] (ws.map .start), l, ?_, upto_prefix v _ _, h2, fun _ => hu, fun _ => hu⟩
    rw [exit_order]
    simp [h1]

/-- Three workers, of which the second fails when it is started, and the third when it is
stopped. -/
example : life (fun _ c => if c = .start 2 ∨ c = .stop 3 then some 7 else none) [1, 2, 3] 5 =
    ([.start 1, .start 2, .stop 3, .stop 2, .stop 1], some 7) := by decide

/-- Two workers over two frames. -/
example : life (fun _ _ => none) [1, 2] 2 =
    ([.start 1, .start 2, .notify 1, .notify 2, .notify 1, .notify 2, .stop 2, .stop 1], none) := by decide

end Wks

namespace Pfl

namespace Spec

/-- Every profile is active. -/
def allActive (c : Config) : Prop :=
  c.cpu.active = true ∧ c.trace.active = true ∧ ∀ s ∈ c.snaps, s.active = true

/-- No profile is active. -/
def noneActive (c : Config) : Prop :=
  c.cpu.active = false ∧ c.trace.active = false ∧ ∀ s ∈ c.snaps, s.active = false

end Spec

theorem isActive_iff (c : Config) : c.isActive = false ↔ Spec.noneActive c := by
  unfold Config.isActive Spec.noneActive
  simp [and_assoc]

theorem errOr_none (a b : Option Nat) : errOr a b = none ↔ a = none ∧ b = none := by
  cases a <;> simp [errOr]

theorem failed_none (i : Nat) (ok : Bool) : failed i ok = none ↔ ok = true := by
  cases ok <;> simp [failed]

theorem start_active (c : Ctx) (o : Calls) (h : (c.start o).2 = true) : (c.start o).1.active = true := by
  have key : ∀ (c : Ctx) (x : Nat), (c.startOn x o).2 = true → (c.startOn x o).1.active = true := by
    intro c x hx
    unfold Ctx.startOn at hx ⊢
    split
    · rename_i ha; exact ha
    · rename_i ha
      rw [if_neg ha] at hx
      split
      · rename_i hs; rw [if_pos hs] at hx; cases hx
      · rename_i hs
        rw [if_neg hs] at hx
        simp only at hx ⊢
        split
        · rename_i ht; rw [if_pos ht] at hx; cases hx
        · rename_i ht
          rw [if_neg ht] at hx
          split
          · rename_i hr; rw [if_pos hr] at hx; cases hx
          · rfl
  unfold Ctx.start at h ⊢
  split
  · rename_i x hf; rw [hf] at h; exact key _ _ h
  · rename_i hf
    rw [hf] at h
    simp only at h
    split
    · rename_i hc; rw [if_pos hc] at h; exact key _ _ h
    · rename_i hc; rw [if_neg hc] at h; cases h

theorem stop_inactive (c : Ctx) (o : Calls) (h : (c.stop o).2 = true) : (c.stop o).1.active = false := by
  unfold Ctx.stop at h ⊢
  split
  · rename_i ha; simpa using ha
  · rename_i ha
    rw [if_neg ha] at h
    simp only at h ⊢
    split
    · rename_i hs; rw [if_pos hs] at h; cases h
    · rfl

theorem snap_start_active (s : Snap) (o : SnapCalls) (h : (s.start o).2 = true) : (s.start o).1.active = true := by
  unfold Snap.start at h ⊢
  split
  · rfl
  · rename_i hf
    rw [hf] at h
    simp only at h
    split
    · rfl
    · rename_i hc; rw [if_neg hc] at h; cases h

theorem snap_stop_inactive (s : Snap) (o : SnapCalls) (h : s.active = true → s.f ≠ none) :
    (s.stop o).1.active = false := by
  unfold Snap.stop
  split
  · rename_i ha; simpa using ha
  · rename_i ha
    split
    · rename_i hf; exact absurd hf (h (by simpa using ha))
    · rfl

theorem startSnaps_spec : ∀ (l : List Snap) (i : Nat) (err : Option Nat) (os : List SnapCalls),
    (startSnaps i err l os).1.length = l.length ∧
    ((startSnaps i err l os).2 = none → err = none ∧ ∀ s ∈ (startSnaps i err l os).1, s.active = true)
  | [], i, err, os => ⟨rfl, fun h => ⟨h, by simp [startSnaps]⟩⟩
  | s :: l, i, err, os => by
    obtain ⟨h1, h2⟩ := startSnaps_spec l (i + 1) (errOr err (failed i (s.start (os.headD { profile := none })).2)) os.tail
    unfold startSnaps
    refine ⟨by rw [List.length_cons, List.length_cons, h1], fun h => ?_⟩
    obtain ⟨h3, h4⟩ := h2 h
    rw [errOr_none, failed_none] at h3
    refine ⟨h3.1, fun x hx => ?_⟩
    rcases List.mem_cons.1 hx with rfl | hx
    · exact snap_start_active _ _ h3.2
    · exact h4 x hx

theorem stopSnaps_spec : ∀ (l : List Snap) (i : Nat) (err : Option Nat) (os : List SnapCalls),
    (∀ s ∈ l, s.active = true → s.f ≠ none) →
    (stopSnaps i err l os).1.length = l.length ∧ ((stopSnaps i err l os).2 = none → err = none) ∧
      ∀ s ∈ (stopSnaps i err l os).1, s.active = false
  | [], i, err, os, _ => ⟨rfl, fun h => h, by simp [stopSnaps]⟩
  | s :: l, i, err, os, hl => by
    obtain ⟨h1, h2, h3⟩ := stopSnaps_spec l (i + 1) (errOr err (failed i (s.stop (os.headD { profile := none })).2))
      os.tail (fun x hx => hl x (by simp [hx]))
    unfold stopSnaps
    refine ⟨by rw [List.length_cons, List.length_cons, h1], fun h => ((errOr_none _ _).1 (h2 h)).1, fun x hx => ?_⟩
    rcases List.mem_cons.1 hx with rfl | hx
    · exact snap_stop_inactive _ _ (hl s (by simp))
    · exact h3 x hx

/-- **C97**: an odd number of presses on the control of all profiles, none of which is
active, starts every one of them if nothing fails; -/
theorem press_starts (c : Config) (n : Nat) (hn : n % 2 = 1) (h : Spec.noneActive c) (o1 o2 : Calls)
    (os : List SnapCalls) (he : (c.press n o1 o2 os).2 = none) : Spec.allActive (c.press n o1 o2 os).1 := by
  unfold Config.press at he ⊢
  rw [if_pos hn, (isActive_iff c).2 h] at he ⊢
  simp only [Bool.false_eq_true, if_false, Config.startAll] at he ⊢
  obtain ⟨_, h2⟩ := startSnaps_spec c.snaps 2 (errOr (failed 0 (c.cpu.start o1).2) (failed 1 (c.trace.start o2).2)) os
  obtain ⟨h3, h4⟩ := h2 he
  rw [errOr_none, failed_none, failed_none] at h3
  exact ⟨start_active _ _ h3.1, start_active _ _ h3.2, h4⟩

/-- and when any is active it stops every one of them if nothing fails. -/
theorem press_stops (c : Config) (n : Nat) (hn : n % 2 = 1) (h : ¬ Spec.noneActive c)
    (hf : ∀ s ∈ c.snaps, s.active = true → s.f ≠ none) (o1 o2 : Calls)
    (os : List SnapCalls) (he : (c.press n o1 o2 os).2 = none) : Spec.noneActive (c.press n o1 o2 os).1 := by
  have ha : c.isActive = true := by
    cases hi : c.isActive with
    | true => rfl
    | false => exact absurd ((isActive_iff c).1 hi) h
  unfold Config.press at he ⊢
  rw [if_pos hn, ha] at he ⊢
  simp only [if_true, Config.stopAll] at he ⊢
  obtain ⟨_, h2, h4⟩ := stopSnaps_spec c.snaps 2
    (errOr (failed 0 (c.cpu.stop o1).2) (failed 1 (c.trace.stop o2).2)) os hf
  have h3 := h2 he
  rw [errOr_none, failed_none, failed_none] at h3
  exact ⟨stop_inactive _ _ h3.1, stop_inactive _ _ h3.2, h4⟩

theorem press_even (c : Config) (n : Nat) (hn : n % 2 = 0) (o1 o2 : Calls) (os : List SnapCalls) :
    c.press n o1 o2 os = (c, none) := by
  unfold Config.press
  rw [if_neg (by omega)]

/-- What is always so of the profiles of a platform. -/
structure Held (c : Config) : Prop where
  cpu : Inv c.cpu
  trace : Inv c.trace
  files : ∀ s ∈ c.snaps, s.active = true → s.f ≠ none

theorem startSnaps_files : ∀ (l : List Snap) (i : Nat) (err : Option Nat) (os : List SnapCalls),
    (∀ s ∈ l, s.active = true → s.f ≠ none) → ∀ s ∈ (startSnaps i err l os).1, s.active = true → s.f ≠ none
  | [], _, _, _, _ => by simp [startSnaps]
  | s :: l, i, err, os, hl => by
    unfold startSnaps
    intro x hx
    rcases List.mem_cons.1 hx with rfl | hx
    · unfold Snap.start
      split
      · rename_i f hf; intro _; rw [show ({ s with active := true } : Snap).f = s.f from rfl, hf]; simp
      · split
        · simp
        · exact hl s (by simp)
    · exact startSnaps_files l _ _ _ (fun y hy => hl y (by simp [hy])) x hx

/-- Presses on the control keep it so. -/
theorem press_held (c : Config) (n : Nat) (o1 o2 : Calls) (os : List SnapCalls) (h : Held c) :
    Held (c.press n o1 o2 os).1 := by
  unfold Config.press
  split
  · split
    · refine ⟨stop_inv _ _ h.cpu, stop_inv _ _ h.trace, fun s hs ha => ?_⟩
      rw [(stopSnaps_spec c.snaps 2 _ os h.files).2.2 s hs] at ha
      cases ha
    · exact ⟨start_inv _ _ h.cpu, start_inv _ _ h.trace, startSnaps_files _ _ _ _ h.files⟩
  · exact h

/-- **C97**: whatever fails, every profile is tried: after stopping all of them neither
profiler of the runtime runs, and the others are all inactive. -/
theorem stop_tries_all (c : Config) (h : Held c) (o1 o2 : Calls) (os : List SnapCalls) :
    (c.stopAll o1 o2 os).1.cpu.running = none ∧ (c.stopAll o1 o2 os).1.trace.running = none ∧
      (c.stopAll o1 o2 os).1.snaps.length = c.snaps.length ∧
      ∀ s ∈ (c.stopAll o1 o2 os).1.snaps, s.active = false := by
  obtain ⟨h1, _, h3⟩ := stopSnaps_spec c.snaps 2
    (errOr (failed 0 (c.cpu.stop o1).2) (failed 1 (c.trace.stop o2).2)) os h.files
  exact ⟨stop_stops _ _ h.cpu, stop_stops _ _ h.trace, h1, h3⟩

namespace Spec

/-- The place of the first failure. -/
def firstFailed (i : Nat) : List Bool → Option Nat
  | [] => none
  | ok :: l => if ok then firstFailed (i + 1) l else some i

/-- Whether each of the profiles written at the end was started, given what the system
returns to each. -/
def startOks : List Snap → List SnapCalls → List Bool
  | [], _ => []
  | s :: l, os => (s.start (os.headD { profile := none })).2 :: startOks l os.tail

/-- The same of stopping. -/
def stopOks : List Snap → List SnapCalls → List Bool
  | [], _ => []
  | s :: l, os => (s.stop (os.headD { profile := none })).2 :: stopOks l os.tail

end Spec

theorem startSnaps_err : ∀ (l : List Snap) (i : Nat) (err : Option Nat) (os : List SnapCalls),
    (startSnaps i err l os).2 = errOr err (Spec.firstFailed i (Spec.startOks l os))
  | [], i, err, os => by cases err <;> rfl
  | s :: l, i, err, os => by
    unfold startSnaps
    simp only [startSnaps_err l, Spec.startOks, Spec.firstFailed]
    cases err <;> cases (s.start (os.headD { profile := none })).2 <;> simp [errOr, failed]

theorem stopSnaps_err : ∀ (l : List Snap) (i : Nat) (err : Option Nat) (os : List SnapCalls),
    (stopSnaps i err l os).2 = errOr err (Spec.firstFailed i (Spec.stopOks l os))
  | [], i, err, os => by cases err <;> rfl
  | s :: l, i, err, os => by
    unfold stopSnaps
    simp only [stopSnaps_err l, Spec.stopOks, Spec.firstFailed]
    cases err <;> cases (s.stop (os.headD { profile := none })).2 <;> simp [errOr, failed]

/-- **C97**: the error is the first of those of all the profiles, in order: the one of the
processor, the trace, and those written at the end. -/
theorem group_error (c : Config) (o1 o2 : Calls) (os : List SnapCalls) :
    (c.startAll o1 o2 os).2 =
      Spec.firstFailed 0 ((c.cpu.start o1).2 :: (c.trace.start o2).2 :: Spec.startOks c.snaps os) ∧
    (c.stopAll o1 o2 os).2 =
      Spec.firstFailed 0 ((c.cpu.stop o1).2 :: (c.trace.stop o2).2 :: Spec.stopOks c.snaps os) := by
  constructor
  · simp only [Config.startAll, startSnaps_err, Spec.firstFailed]
    cases (c.cpu.start o1).2 <;> cases (c.trace.start o2).2 <;> simp [errOr, failed]
  · simp only [Config.stopAll, stopSnaps_err, Spec.firstFailed]
    cases (c.cpu.stop o1).2 <;> cases (c.trace.stop o2).2 <;> simp [errOr, failed]

/-- **C97**: the spinner never fails: the place of its rune is one of four at any time. -/
theorem spinner_in_range (ns : Nat) (h : ns < 1000000000) : spinnerIndex ns < 4 := by
  unfold spinnerIndex
  omega

/-- It changes every quarter of a second. -/
theorem spinner_quarter (q ms : Nat) (h : ms < 250000000) : spinnerIndex (q * 250000000 + ms) = q := by
  unfold spinnerIndex
  omega

/-- Presses on the control: everything is started, then stopped. -/
example :
    let c : Config := { snaps := [{}, {}] }
    let o : SnapCalls := { profile := some [1] }
    Spec.noneActive c ∧ (c.press 1 {} {} [o, o]).2 = none ∧
    ((c.press 1 {} {} [o, o]).1.press 3 {} {} [o, o]).2 = none ∧
    ((c.press 1 {} {} [o, o]).1.snaps.map Snap.active) = [true, true] ∧
    (((c.press 1 {} {} [o, o]).1.press 3 {} {} [o, o]).1.snaps.map Snap.active) = [false, false] := by
  refine ⟨⟨rfl, rfl, by decide⟩, by decide +kernel, by decide +kernel, by decide +kernel, by decide +kernel⟩

/-- A failure of one profile to start does not keep the others from being started, and is
the error returned. -/
example :
    let c : Config := { snaps := [{}, {}] }
    let o : SnapCalls := { profile := some [1] }
    (c.press 1 { createOk := false } {} [{ o with createOk := false }, o]).2 = some 0 ∧
    (c.press 1 { createOk := false } {} [{ o with createOk := false }, o]).1.trace.active = true ∧
    ((c.press 1 { createOk := false } {} [{ o with createOk := false }, o]).1.snaps.map Snap.active) = [false, true] := by
  refine ⟨by decide +kernel, by decide +kernel, by decide +kernel⟩

end Pfl
end Anansi
