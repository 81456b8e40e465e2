import Verif.Model.LogSet
/-
C90: changing the log file.
-/
set_option autoImplicit false

namespace Anansi
namespace Lgs

namespace Spec

/-- What is logged, including what is said when the file is changed. -/
def said : List Op → Bytes
  | [] => []
  | .log p :: l => p ++ said l
  | .setFile _ _ m :: l => m ++ said l
  | _ :: l => said l

/-- Log lines, notifications, and changes to the files `n`, `n + 1`, … in order, all old ones
being closed. -/
def Steady : Nat → List Op → Prop
  | _, [] => True
  | n, .log _ :: l => Steady n l
  | n, .notify :: l => Steady n l
  | n, .setFile f ok _ :: l => f = some n ∧ ok = true ∧ Steady (n + 1) l
  | _, _ :: _ => False

/-- The number of changes. -/
def changes : List Op → Nat
  | [] => 0
  | .setFile _ _ _ :: l => changes l + 1
  | _ :: l => changes l

end Spec

/-- The files one after the other. -/
def cat (files : Nat → Bytes) (n : Nat) : Bytes := (List.range n).flatMap files

/-- While the worker is there: the file in use is the last one. -/
structure On (s : Sink) (n : Nat) : Prop where
  f : s.f = some n
  w : s.w = true
  alive : s.alive = true
  direct : s.direct = false
  closed : ∀ h, h ∈ s.closed ↔ h < n

theorem On.openf {s : Sink} {n : Nat} (h : On s n) : n ∉ s.closed := fun hc => by have := (h.closed n).1 hc; omega

theorem cat_append (s : Sink) (n : Nat) (b : Bytes) : cat (s.append n b).files (n + 1) = cat s.files (n + 1) ++ b := by
  have h : (List.range n).flatMap (s.append n b).files = (List.range n).flatMap s.files := by
    rw [List.flatMap_def, List.flatMap_def]
    congr 1
    apply List.map_congr_left
    intro i hi
    have : i ≠ n := by have := List.mem_range.1 hi; omega
    simp [Sink.append, this]
  unfold cat
  rw [List.range_succ, List.flatMap_append, List.flatMap_append, h]
  simp [Sink.append]

theorem steady_run (l : List Op) : ∀ (s : Sink) (n : Nat), On s n → Spec.Steady (n + 1) l → (∀ i, n < i → s.files i = []) →
    On (s.run l) (n + Spec.changes l) ∧
    cat (s.run l).files (n + Spec.changes l + 1) ++ (s.run l).fbuf = cat s.files (n + 1) ++ s.fbuf ++ Spec.said l ∧
    (s.run l).mem = s.mem ++ Spec.said l := by
  induction l with
  | nil => intro s n h _ _; exact ⟨h, by simp [Sink.run, Spec.changes, Spec.said], by simp [Sink.run, Spec.said]⟩
  | cons x l ih =>
    intro s n h hs hn
    have er : s.run (x :: l) = (s.op x).run l := rfl
    rw [er]
    cases x with
    | start => exact absurd hs (by simp [Spec.Steady])
    | stop => exact absurd hs (by simp [Spec.Steady])
    | log p =>
      have e : s.op (.log p) = { s with fbuf := s.fbuf ++ p, mem := s.mem ++ p } := by
        simp only [Sink.op, Sink.log, h.f, h.direct]; rfl
      rw [e]
      obtain ⟨a, b, c⟩ := ih { s with fbuf := s.fbuf ++ p, mem := s.mem ++ p } n ⟨h.f, h.w, h.alive, h.direct, h.closed⟩ hs hn
      refine ⟨a, ?_, ?_⟩
      · simp only [Spec.changes, Spec.said]; rw [b]; simp
      · simp only [Spec.said]; rw [c]; simp
    | notify =>
      have e : s.op .notify = { s.append n s.fbuf with fbuf := [] } := by
        simp only [Sink.op, Sink.notify, Sink.wake, h.w, h.alive, h.f, if_neg h.openf]; rfl
      rw [e]
      obtain ⟨a, b, c⟩ := ih { s.append n s.fbuf with fbuf := [] } n ⟨h.f, h.w, h.alive, h.direct, h.closed⟩ hs (by
        intro i hi
        have : i ≠ n := by omega
        simp [Sink.append, this, hn i hi])
      refine ⟨a, ?_, c⟩
      simp only [Spec.changes, Spec.said]
      rw [b]
      simp only
      rw [cat_append]
      simp
    | setFile f ok m =>
      obtain ⟨rfl, rfl, hs⟩ := hs
      have e : s.op (.setFile (some (n + 1)) true m) =
          { s with f := some (n + 1), closed := s.closed ++ [n], fbuf := s.fbuf ++ m, mem := s.mem ++ m } := by
        simp only [Sink.op, Sink.setFile, h.f, Sink.log, h.direct, Sink.start, h.w]
        simp
      rw [e]
      obtain ⟨a, b, c⟩ := ih { s with f := some (n + 1), closed := s.closed ++ [n], fbuf := s.fbuf ++ m, mem := s.mem ++ m } (n + 1)
        ⟨rfl, h.w, h.alive, h.direct, by
          intro i
          simp only [List.mem_append, List.mem_singleton, h.closed]
          omega⟩ hs (by intro i hi; exact hn i (by omega))
      have en : n + 1 + Spec.changes l = n + Spec.changes (.setFile (some (n + 1)) true m :: l) := by
        simp only [Spec.changes]; omega
      rw [en] at a b
      refine ⟨a, ?_, ?_⟩
      · rw [b]
        have : cat s.files (n + 1 + 1) = cat s.files (n + 1) := by
          unfold cat
          rw [List.range_succ, List.flatMap_append]
          simp [hn (n + 1) (by omega)]
        simp only [Spec.said]
        rw [this]; simp
      · simp only [Spec.said]; rw [c]; simp

/-- **C90**: however often the log file is changed, while lines are logged and written: when it is stopped
all that was logged since the first file was set is in the files, in order, except that
lines may be in a later file than the one set when they were logged; and all of it is in memory. -/
theorem no_line_lost_partial (m : Bytes) (l : List Op) (hl : Spec.Steady 1 l) :
    let s := ({} : Sink).run (.setFile (some 0) true m :: l ++ [.stop])
    cat s.files (Spec.changes l + 1) = Spec.said l ∧ s.fbuf = [] ∧ s.mem = m ++ Spec.said l ∧
      ∀ h, h < Spec.changes l → h ∈ (({} : Sink).run (.setFile (some 0) true m :: l)).closed := by
  intro s
  have e0 : ({} : Sink).op (.setFile (some 0) true m) = { f := some 0, w := true, alive := true, mem := m } := by
    simp [Sink.op, Sink.setFile, Sink.log, Sink.start]
  have er : ({} : Sink).run (.setFile (some 0) true m :: l) = ({ f := some 0, w := true, alive := true, mem := m } : Sink).run l := by
    show (({} : Sink).op _).run l = _
    rw [e0]
  have es : s = (({ f := some 0, w := true, alive := true, mem := m } : Sink).run l).stop := by
    show ({} : Sink).run (.setFile (some 0) true m :: l ++ [.stop]) = _
    rw [← er]
    simp only [Sink.run, List.cons_append, List.foldl_cons, List.foldl_append, List.foldl_nil]
    rfl
  obtain ⟨a, b, c⟩ := steady_run l { f := some 0, w := true, alive := true, mem := m } 0
    ⟨rfl, rfl, rfl, rfl, by simp⟩ hl (by simp)
  rw [er]
  simp only [Nat.zero_add] at a b
  rw [es]
  generalize ({ f := some 0, w := true, alive := true, mem := m } : Sink).run l = t at *
  have est : t.stop = { t.append (Spec.changes l) t.fbuf with fbuf := [], w := false, alive := false, direct := true } := by
    unfold Sink.stop Sink.wake
    simp only [a.f, a.w, a.alive, if_neg a.openf]
    rfl
  rw [est]
  refine ⟨?_, rfl, c, fun h hh => (a.closed h).2 hh⟩
  simp only
  rw [cat_append, b]
  simp [cat]

/-- **C90**: if nothing is waiting to be written, a change of the file keeps the old one as it is, and what is
logged from then on goes to the new one. -/
theorem change_when_flushed (s : Sink) (n h : Nat) (m : Bytes) (ps : List Bytes) (hf : s.f = some n) (hw : s.w = true)
    (ha : s.alive = true) (hd : s.direct = false) (hb : s.fbuf = []) (hh : h ≠ n)
    (ho : h ∉ s.closed) :
    let t := s.run (.setFile (some h) true m :: ps.map .log ++ [.notify])
    t.files n = s.files n ∧ t.files h = s.files h ++ m ++ ps.flatten ∧ n ∈ t.closed := by
  intro t
  have e : s.op (.setFile (some h) true m) =
      { s with f := some h, closed := s.closed ++ [n], fbuf := m, mem := s.mem ++ m } := by
    simp only [Sink.op, Sink.setFile, hf, Sink.log, hd, Sink.start, hw, hb]
    rw [if_neg (by simpa using fun h => hh h.symm)]
    simp
  have hl : ∀ (ps : List Bytes) (s : Sink), s.f = some h → s.direct = false →
      s.run (ps.map .log) = { s with fbuf := s.fbuf ++ ps.flatten, mem := s.mem ++ ps.flatten } := by
    intro ps
    induction ps with
    | nil => intro s _ _; simp [Sink.run]
    | cons p ps ih =>
      intro s h1 h2
      have er : s.run ((p :: ps).map .log) = (s.log p).run (ps.map .log) := rfl
      have e : s.log p = { s with fbuf := s.fbuf ++ p, mem := s.mem ++ p } := by
        simp only [Sink.log, h1, h2]; rfl
      rw [er, e, ih { s with fbuf := s.fbuf ++ p, mem := s.mem ++ p } h1 h2]
      simp
  have et : t = (({ s with f := some h, closed := s.closed ++ [n], fbuf := m, mem := s.mem ++ m } : Sink).run (ps.map .log)).notify := by
    show s.run _ = _
    rw [← e]
    simp only [Sink.run, List.cons_append, List.foldl_cons, List.foldl_append, List.foldl_nil]
    rfl
  rw [et, hl ps { s with f := some h, closed := s.closed ++ [n], fbuf := m, mem := s.mem ++ m } rfl hd]
  have hoc : h ∉ s.closed ++ [n] := by simp [ho, hh]
  simp only [Sink.notify, Sink.wake, hw, ha, if_neg hoc]
  refine ⟨?_, ?_, by simp [Sink.append]⟩
  · simp [Sink.append, hh.symm]
  · simp [Sink.append, List.append_assoc]

/-- A line, written; the file changed; another line. -/
example : let s := ({} : Sink).run [.setFile (some 0) true [1], .log [2], .notify, .setFile (some 1) true [3], .log [4], .stop]
    s.files 0 = [2] ∧ s.files 1 = [3, 4] ∧ s.mem = [1, 2, 3, 4] ∧ s.closed = [0] := by decide +kernel

/-- **C90**: setting the file there is already changes nothing, and keeps it open. -/
theorem same_file (s : Sink) (ok : Bool) (m : Bytes) : s.setFile s.f ok m = s := by
  unfold Sink.setFile
  rw [if_pos rfl]

/-- **C90**: once started, lines wait in memory for the worker, which is what keeps logging
from waiting for the file; a notification brings them there. -/
theorem started_buffers (s : Sink) (n : Nat) (ps : List Bytes) (hf : s.f = some n) (hw : s.w = false) (ho : n ∉ s.closed) :
    (s.run (.start :: ps.map .log)).files = s.files ∧
    (s.run (.start :: ps.map .log ++ [.notify])).files n = s.files n ++ s.fbuf ++ ps.flatten := by
  have hs : s.start = { s with w := true, alive := true, direct := false } := by simp [Sink.start, hf, hw]
  have hl : ∀ (ps : List Bytes) (s : Sink), s.f = some n → s.direct = false →
      s.run (ps.map .log) = { s with fbuf := s.fbuf ++ ps.flatten, mem := s.mem ++ ps.flatten } := by
    intro ps
    induction ps with
    | nil => intro s _ _; simp [Sink.run]
    | cons p ps ih =>
      intro s h1 h2
      have er : s.run ((p :: ps).map .log) = (s.log p).run (ps.map .log) := rfl
      have e : s.log p = { s with fbuf := s.fbuf ++ p, mem := s.mem ++ p } := by
        simp only [Sink.log, h1, h2]; rfl
      rw [er, e, ih { s with fbuf := s.fbuf ++ p, mem := s.mem ++ p } h1 h2]
      simp
  have e : s.run (.start :: ps.map .log) = 
      { s with w := true, alive := true, direct := false, fbuf := s.fbuf ++ ps.flatten, mem := s.mem ++ ps.flatten } := by
    show s.start.run _ = _
    rw [hs, hl ps { s with w := true, alive := true, direct := false } hf rfl]
  refine ⟨by rw [e], ?_⟩
  have en : s.run (.start :: ps.map .log ++ [.notify]) = (s.run (.start :: ps.map .log)).notify := by
    simp [Sink.run, List.foldl_append, Sink.op]
  rw [en, e]
  simp [Sink.notify, Sink.wake, hf, ho, Sink.append]

/-- Negation for **C90**: a line not yet written when the file is changed goes to the new file. -/
theorem pending_goes_to_new : let s := ({} : Sink).run [.setFile (some 0) true [1], .log [2], .setFile (some 1) true [3], .stop]
    s.files 0 = [] ∧ s.files 1 = [2, 3] := by decide +kernel

/-- Negation for **C90**: when there is no log file any more, what was not yet written is lost, and
the worker goes on. -/
theorem unset_loses : let s := ({} : Sink).run [.setFile (some 0) true [1], .log [2], .setFile none true [3], .stop]
    s.files 0 = [] ∧ s.w = true ∧ s.alive = true ∧ s.fbuf = [2, 3] := by decide +kernel

/-- Negation for **C90**: a file set later then gets nothing at all, not even when stopped. -/
theorem set_after_unset_dead (ps : List Bytes) :
    let s := ({} : Sink).run ([.setFile (some 0) true [1], .setFile none true [2], .notify, .setFile (some 1) true [3]] ++
      ps.map .log ++ [.notify, .stop])
    s.files 1 = [] ∧ s.f = some 1 := by
  intro s
  have e : s = ((({ f := some 1, w := true, alive := false, fbuf := [2], mem := [1, 2, 3], closed := [0] } : Sink).run (ps.map .log)).notify).stop := by
    show ({} : Sink).run _ = _
    simp only [Sink.run, List.foldl_append, List.foldl_cons, List.foldl_nil]
    rfl
  have hl : ∀ (ps : List Bytes) (s : Sink), s.f = some 1 → s.direct = false →
      s.run (ps.map .log) = { s with fbuf := s.fbuf ++ ps.flatten, mem := s.mem ++ ps.flatten } := by
    intro ps
    induction ps with
    | nil => intro s _ _; simp [Sink.run]
    | cons p ps ih =>
      intro s h1 h2
      have er : s.run ((p :: ps).map .log) = (s.log p).run (ps.map .log) := rfl
      have e : s.log p = { s with fbuf := s.fbuf ++ p, mem := s.mem ++ p } := by
        simp only [Sink.log, h1, h2]; rfl
      rw [er, e, ih { s with fbuf := s.fbuf ++ p, mem := s.mem ++ p } h1 h2]
      simp
  rw [e, hl ps _ rfl rfl]
  exact ⟨rfl, rfl⟩

/-- Negation for **C90**: when the file is changed while lines are written directly, the line saying so is lost,
even from memory. -/
theorem direct_change_drops_line :
    (({} : Sink).run [.setFile (some 0) true [1], .stop, .setFile (some 1) true [2], .stop]).mem = [1] ∧
    (({} : Sink).run [.setFile (some 0) true [1], .stop, .setFile (some 1) true [2], .stop]).files 1 = [] := by decide +kernel

end Lgs
end Anansi
