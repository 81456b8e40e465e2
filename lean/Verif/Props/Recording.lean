import Verif.Model.Recording
/-
C87: recordings are begun and ended cleanly.
-/
set_option autoImplicit false

namespace Anansi
namespace Rcd

namespace Spec

/-- Files used as they should be: opened one after the other, nothing done with one that is not
open, closed once.  Given how many have been opened, and those which are open; the result is the
same afterwards, `none` if something was wrong. -/
def use : Nat × List Nat → List Act → Option (Nat × List Nat)
  | s, [] => some s
  | (n, l), .opened h :: as => if h = n then use (n + 1, h :: l) as else none
  | (n, l), .write h _ :: as => if h ∈ l then use (n, l) as else none
  | (n, l), .read h :: as => if h ∈ l then use (n, l) as else none
  | (n, l), .remove h :: as => if h ∈ l then use (n, l) as else none
  | (n, l), .close h :: as => if h ∈ l then use (n, l.erase h) as else none

/-- What has been written to a file, in the order of writing (where it goes is in `Model/Sized.lean`). -/
def contents (h : Nat) : List Act → Bytes
  | [] => []
  | .write g b :: as => if g = h then b ++ contents h as else contents h as
  | _ :: as => contents h as

end Spec

theorem use_append (a b : List Act) : ∀ s, Spec.use s (a ++ b) = (Spec.use s a).bind fun s => Spec.use s b := by
  induction a with
  | nil => intro s; rfl
  | cons x a ih =>
    intro s
    obtain ⟨n, l⟩ := s
    cases x <;> simp only [List.cons_append, Spec.use] <;> split <;> simp [ih]

/-- What is always so. -/
structure Inv (p : Plat) : Prop where
  agree : p.input = p.recording
  files : Spec.use (0, []) p.acts = some (p.next, p.recording.toList)

theorem stop_inv (p : Plat) (h : Spec.use (0, []) p.acts = some (p.next, p.recording.toList)) :
    Inv p.stop ∧ p.stop.recording = none ∧ p.stop.next = p.next ∧ p.stop.replay = p.replay := by
  unfold Plat.stop
  cases hr : p.recording with
  | none => rw [hr] at h; exact ⟨⟨rfl, h⟩, rfl, rfl, rfl⟩
  | some g =>
    refine ⟨⟨rfl, ?_⟩, rfl, rfl, rfl⟩
    simp only
    rw [use_append, h, hr]
    simp [Spec.use]

/-- Begun with a file just opened. -/
theorem begin_inv (p : Plat) (h : Nat) (o : Begin) (hr : p.recording = none)
    (hf : Spec.use (0, []) p.acts = some (p.next, [h])) : Inv (p.setRecording (some h) o) := by
  have e : p.stop = { p with input := none } := by unfold Plat.stop; simp only [hr]
  unfold Plat.setRecording
  simp only [e]
  have hw : Spec.use (p.next, [h]) (o.acts h).1 = some (p.next, [h]) := by
    unfold Begin.acts; split
    · simp [Spec.use]
    · split <;> simp [Spec.use]
  split
  · refine ⟨rfl, ?_⟩
    simp only
    rw [use_append, hf]
    exact hw
  · refine ⟨rfl, ?_⟩
    simp only
    rw [use_append, use_append, hf]
    simp only [Option.bind_some, hw]
    simp [Spec.use]

theorem toggle_inv (p : Plat) (o : Calls) (h : Inv p) : Inv (p.toggle o).1 := by
  unfold Plat.toggle
  cases hr : p.recording with
  | none =>
    simp only
    have hf := h.files
    rw [hr] at hf
    split
    · apply begin_inv { p with next := p.next + 1, acts := p.acts ++ [Act.opened p.next], recording := none } _ _ rfl
      simp only
      rw [use_append, hf]
      simp [Spec.use]
    · exact (stop_inv p h.files).1
  | some g =>
    simp only
    obtain ⟨i, r, n, _⟩ := stop_inv p h.files
    have e : p.setRecording none o.start = p.stop := rfl
    rw [e]
    split
    · have hf := i.files
      rw [r] at hf
      have ha := i.agree
      rw [r] at ha
      generalize p.stop = q at *
      have e2 : ({ q with next := q.next + 1, acts := q.acts ++ [.opened q.next] } : Plat).loadReplay q.next o =
          if o.readOk then ({ q with next := q.next + 1, acts := q.acts ++ [.opened q.next] ++ [.read q.next], replay := some q.next }, true)
          else ({ q with next := q.next + 1, acts := q.acts ++ [.opened q.next] ++ [.read q.next] }, false) := by
        unfold Plat.loadReplay Plat.setRecording Plat.stop
        simp only [r]
        rw [← ha]
      have hu : Spec.use (0, []) (q.acts ++ [.opened q.next] ++ [.read q.next] ++ [.close q.next]) = some (q.next + 1, []) := by
        rw [use_append, use_append, use_append, hf]
        simp [Spec.use]
      rw [e2]
      split
      · exact ⟨ha.trans r.symm, by simp only [r]; exact hu⟩
      · exact ⟨ha.trans r.symm, by simp only [r]; exact hu⟩
    · exact i

theorem input_inv (p : Plat) (b : Bytes) (h : Inv p) : Inv (p.readInput b) := by
  unfold Plat.readInput
  split
  · exact h
  · rename_i g hi
    refine ⟨h.agree, ?_⟩
    have hr : p.recording = some g := by rw [← h.agree]; exact hi
    simp only
    rw [use_append, h.files, hr]
    simp [Spec.use]

theorem run_inv (l : List Op) : ∀ p : Plat, Inv p → Inv (p.run l) := by
  induction l with
  | nil => intro p h; exact h
  | cons x l ih =>
    intro p h
    apply ih
    cases x with
    | toggle o => exact toggle_inv p o h
    | input b => exact input_inv p b h

/-- **C87**: whatever is toggled and typed, and however the system calls go: input is recorded to the
file the platform says it is recording to; every file opened is used only while it is open and closed
once, and the only one open is that of the recording. -/
theorem recording_files (l : List Op) :
    ((({} : Plat).run l).input = (({} : Plat).run l).recording) ∧
    Spec.use (0, []) (({} : Plat).run l).acts = some ((({} : Plat).run l).next, (({} : Plat).run l).recording.toList) := by
  have h := run_inv l {} ⟨rfl, rfl⟩
  exact ⟨h.agree, h.files⟩

/-- **C87**: a toggle when not recording begins a recording if and only if the file can be
created and the state and size written; a file that cannot be written is removed and closed. -/
theorem toggle_begins (p : Plat) (o : Calls) (h : p.recording = none) :
    (p.toggle o).1.recording =
      (if o.openOk ∧ o.start.stateOk ∧ o.start.headOk ∧ o.start.sizeOk then some p.next else none) ∧
    (p.toggle o).1.replay = p.replay ∧
    (o.openOk = true → ¬ (o.start.stateOk ∧ o.start.headOk ∧ o.start.sizeOk) →
      ∃ w, (p.toggle o).1.acts = p.acts ++ .opened p.next :: w ++ [.remove p.next, .close p.next]) := by
  unfold Plat.toggle Plat.setRecording Plat.stop Begin.acts
  obtain ⟨ok, ⟨sb, s, hb, hd, zb, z⟩, r, c⟩ := o
  simp only [h]
  cases ok <;> cases s <;> cases hd <;> cases z <;> simp
  all_goals first
    | exact ⟨[_], rfl⟩
    | exact ⟨[_, _], rfl⟩
    | exact ⟨[_, _, _], rfl⟩

/-- **C87**: a toggle when recording ends the recording in any case, and loads it as the replay
if and only if it can be opened and read; otherwise the replay is what it was. -/
theorem toggle_ends (p : Plat) (o : Calls) (g : Nat) (h : p.recording = some g) :
    (p.toggle o).1.recording = none ∧ (p.toggle o).1.input = none ∧
    (p.toggle o).1.replay = (if o.openOk ∧ o.readOk then some p.next else p.replay) ∧
    ((p.toggle o).2 = .replayDone ↔ o.openOk ∧ o.readOk ∧ o.closeOk) ∧ (p.toggle o).2 ≠ .nil := by
  unfold Plat.toggle Plat.loadReplay Plat.setRecording Plat.stop
  obtain ⟨ok, b, r, c⟩ := o
  simp only [h]
  cases ok <;> cases r <;> cases c <;> simp

theorem contents_append (h : Nat) (a b : List Act) : Spec.contents h (a ++ b) = Spec.contents h a ++ Spec.contents h b := by
  induction a with
  | nil => rfl
  | cons x a ih =>
    cases x <;> simp only [List.cons_append, Spec.contents, ih]
    split <;> simp

/-- Input while recording. -/
theorem inputs_written (g : Nat) (l : List Bytes) : ∀ (p : Plat), p.input = some g →
    (p.run (l.map .input)).acts = p.acts ++ l.map (.write g) ∧ (p.run (l.map .input)).recording = p.recording ∧
      (p.run (l.map .input)).input = some g := by
  induction l with
  | nil => intro p h; simp [Plat.run, h]
  | cons b l ih =>
    intro p h
    have e : p.run ((b :: l).map .input) = (p.readInput b).run (l.map .input) := rfl
    have e2 : p.readInput b = { p with acts := p.acts ++ [.write g b] } := by unfold Plat.readInput; rw [h]
    rw [e, e2]
    obtain ⟨h1, h2, h3⟩ := ih { p with acts := p.acts ++ [.write g b] } h
    rw [h1, h2]
    refine ⟨by simp, rfl, h3⟩

/-- Nothing is written to files never opened. -/
theorem contents_fresh (as : List Act) : ∀ (n m : Nat) (l l' : List Nat), Spec.use (n, l) as = some (m, l') → (∀ x ∈ l, x < n) →
    ∀ h, m ≤ h → Spec.contents h as = [] ∧ n ≤ m := by
  induction as with
  | nil => intro n m l l' hu _ h hm; simp [Spec.use] at hu; exact ⟨rfl, by omega⟩
  | cons x as ih =>
    intro n m l l' hu hl h hm
    cases x with
    | opened g =>
      simp only [Spec.use] at hu
      split at hu
      · rename_i hg
        subst hg
        have := ih _ _ _ _ hu (by intro x hx; rcases List.mem_cons.1 hx with rfl | hx; omega; have := hl x hx; omega) h hm
        exact ⟨this.1, by omega⟩
      · simp at hu
    | write g b =>
      simp only [Spec.use] at hu
      split at hu
      · rename_i hg
        have h1 := ih _ _ _ _ hu hl h hm
        have h2 := hl g hg
        refine ⟨?_, h1.2⟩
        simp only [Spec.contents]
        rw [if_neg (by omega)]
        exact h1.1
      · simp at hu
    | read g =>
      simp only [Spec.use] at hu
      split at hu
      · exact ih _ _ _ _ hu hl h hm
      · simp at hu
    | remove g =>
      simp only [Spec.use] at hu
      split at hu
      · exact ih _ _ _ _ hu hl h hm
      · simp at hu
    | close g =>
      simp only [Spec.use] at hu
      split at hu
      · exact ih _ _ _ _ hu (fun x hx => hl x (List.mem_of_mem_erase hx)) h hm
      · simp at hu

/-- **C87**: after any history, to a recording begun and then ended are written the state, the size and all that
was read meanwhile, in that order, and nothing else. -/
theorem recording_holds (before : List Op) (o o' : Calls) (l : List Bytes)
    (hb : (({} : Plat).run before).recording = none)
    (h1 : o.openOk = true) (h2 : o.start.stateOk = true) (h3 : o.start.headOk = true) (h4 : o.start.sizeOk = true) :
    let p := ({} : Plat).run before
    let q := p.run (.toggle o :: l.map .input ++ [.toggle o'])
    Spec.contents p.next q.acts = o.start.state ++ o.start.head ++ o.start.size ++ l.flatten ∧ q.recording = none := by
  intro p q
  have hi := run_inv before {} ⟨rfl, rfl⟩
  have hf := hi.files
  have hnil := (contents_fresh _ _ _ _ _ hf (by simp) p.next (Nat.le_refl _)).1
  have hb' : p.recording = none := hb
  have eq : q = (((p.toggle o).1.run (l.map .input)).toggle o').1 := by
    show p.run _ = _
    simp only [Plat.run, List.cons_append, List.foldl_cons, List.foldl_append, List.foldl_nil]
    rfl
  have et : (p.toggle o).1 = ⟨some p.next, some p.next, p.replay, p.next + 1, p.acts ++ [.opened p.next] ++
      [.write p.next o.start.state, .write p.next o.start.head, .write p.next o.start.size]⟩ := by
    unfold Plat.toggle Plat.setRecording Plat.stop Begin.acts
    simp only [hb', h1, h2, h3, h4]
    rfl
  obtain ⟨a1, a2, a3⟩ := inputs_written p.next l (p.toggle o).1 (by rw [et])
  have hcw : ∀ l : List Bytes, Spec.contents p.next (l.map (.write p.next)) = l.flatten := by
    intro l
    induction l with
    | nil => rfl
    | cons b l ih => simp [Spec.contents, ih]
  have hc : Spec.contents p.next ((p.toggle o).1.run (l.map .input)).acts = o.start.state ++ o.start.head ++ o.start.size ++ l.flatten := by
    rw [a1, et]
    simp only [contents_append, hcw]
    rw [show Spec.contents p.next p.acts = [] from hnil]
    simp [Spec.contents]
  have hrec : ((p.toggle o).1.run (l.map .input)).recording = some p.next := by rw [a2, et]
  rw [eq]
  refine ⟨?_, (toggle_ends _ o' _ hrec).1⟩
  rw [← hc]
  generalize (p.toggle o).1.run (l.map .input) = s at *
  unfold Plat.toggle Plat.loadReplay Plat.setRecording Plat.stop
  simp only [hrec]
  split
  · split <;> simp [contents_append, Spec.contents]
  · simp [contents_append, Spec.contents]

/-- All goes well. -/
def fine : Calls := ⟨true, ⟨[1], true, [2], true, [3], true⟩, true, true⟩

example : (({} : Plat).run [.toggle fine, .input [9], .toggle fine]) =
    { recording := none, input := none, replay := some 1, next := 2,
      acts := [.opened 0, .write 0 [1], .write 0 [2], .write 0 [3], .write 0 [9], .close 0, .opened 1, .read 1, .close 1] } := by
  decide +kernel

/-- Negation for **C87**: that a recording could not be begun is not returned: neither when the
file cannot be created nor when the state cannot be written; the input is then not recorded. -/
theorem begin_failure_silent (p : Plat) (o : Calls) (h : p.recording = none) : (p.toggle o).2 = .nil := by
  unfold Plat.toggle
  simp only [h]
  split <;> rfl

/-- Negation for **C87**: a replay that has been loaded is not reported when the file cannot be closed. -/
theorem close_failure_hides : (({} : Plat).run [.toggle fine]).toggle { fine with closeOk := false } =
    ({ recording := none, input := none, replay := some 1, next := 2,
       acts := [.opened 0, .write 0 [1], .write 0 [2], .write 0 [3], .close 0, .opened 1, .read 1, .close 1] }, .failed) := by
  decide +kernel

end Rcd
end Anansi
