import Verif.Props.VCursor
/-
C36 and C37: flushing a virtual cursor, satisfiable hypotheses and negations.
-/
set_option autoImplicit false

namespace Anansi
open Vt Geom Render
namespace VCursor

/-! ### C37 -/

/-- **C37** (each outcome): a flush that succeeds delivers every buffered byte in order
and makes the real state the tracked one; one that would block forgets the real state and
keeps the tracked one together with exactly the bytes not yet taken; one that fails
forgets both and drops the rest.  Full statement: the real state equals the tracked one if
and only if everything was accepted.  "Only if" fails when both are forgotten
(`failed_flush_equal`). -/
theorem flush_outcomes_partial (v : VCursor) (o : Wrote) :
    ((v.writeTo o).2.2 = none → (v.writeTo o).2.1 = v.buf.buf ∧ (v.writeTo o).1.buf.buf = [] ∧
      (v.writeTo o).1.real = v.cur ∧ (v.writeTo o).1.cur = v.cur) ∧
    ((v.writeTo o).2.2 = some .wouldBlock → (v.writeTo o).2.1 ++ (v.writeTo o).1.buf.buf = v.buf.buf ∧
      (v.writeTo o).1.real = {} ∧ (v.writeTo o).1.cur = v.cur) ∧
    ((v.writeTo o).2.2 = some .other → (∃ k, (v.writeTo o).2.1 = v.buf.buf.take k) ∧
      (v.writeTo o).1.buf = .empty ∧ (v.writeTo o).1.real = {} ∧ (v.writeTo o).1.cur = {}) ∧
    (v.writeTo o).2.2 ≠ some .sub := by
  unfold writeTo
  by_cases hb : v.buf.buf = []
  · simp [hb, Buffer.writeTo]
  · rw [if_neg hb]
    cases o with
    | ok => simp [Buffer.writeTo]
    | block k => simp [Buffer.writeTo]
    | fail k => exact ⟨by simp, by simp, fun _ => ⟨⟨k, rfl⟩, rfl, rfl, rfl⟩, by simp⟩

/-- The outcome says which of them happens: a writer that takes everything gives the
first, and one that does not gives one of the others unless nothing was buffered. -/
theorem flush_error (v : VCursor) (o : Wrote) :
    (v.writeTo o).2.2 = none ↔ o = .ok ∨ v.buf.buf = [] := by
  unfold writeTo
  by_cases hb : v.buf.buf = []
  · simp [hb]
  · rw [if_neg hb]; cases o <;> simp [hb]

/-- When the tracked position is known, a flush that leaves bytes behind does not leave the
real state equal to the former tracked one: the "only if" of **C37** for such cursors. -/
theorem flush_only_if (v : VCursor) (o : Wrote) (h : v.cur ≠ {}) :
    (v.writeTo o).1.real = v.cur ↔ (v.writeTo o).2.2 = none := by
  unfold writeTo
  by_cases hb : v.buf.buf = []
  · simp [hb]
  · rw [if_neg hb]
    cases o with
    | ok => simp
    | block k => exact ⟨fun h' => absurd h'.symm h, fun h' => by simp at h'⟩
    | fail k => exact ⟨fun h' => absurd h'.symm h, fun h' => by simp at h'⟩

/-- **C37**, `Reset`: the tracked state is the last flushed one and nothing is buffered. -/
theorem reset_restores (v : VCursor) : v.reset.cur = v.real ∧ v.reset.buf = .empty ∧ v.reset.real = v.real :=
  ⟨rfl, rfl, rfl⟩

/-- Calls between flushes leave the real state alone, so that `Reset` goes back to the
last flush whatever happened since. -/
theorem sgrLoop_real : ∀ (l : List Attr) (v : VCursor), (v.sgrLoop l).1.real = v.real
  | [], _ => rfl
  | _ :: l, v => sgrLoop_real l _

theorem op_real (gr : Nat → Bool) (v v' : VCursor) (o : Op) (h : v.op gr o = some v') : v'.real = v.real := by
  cases o with
  | write p =>
    simp only [op, write, Option.bind_eq_some_iff, Option.map_eq_some_iff] at h
    obtain ⟨_, _, _, _, rfl⟩ := h; rfl
  | sgr l =>
    simp only [op, writeSGR, Option.some.injEq] at h
    subst h; split <;> exact sgrLoop_real l v
  | moveTo p =>
    simp only [op, VCursor.to, emit, Option.bind_eq_some_iff, Option.map_eq_some_iff] at h
    obtain ⟨_, _, _, _, rfl⟩ := h; rfl
  | show_ =>
    simp only [op, show_, emit, Option.bind_eq_some_iff, Option.map_eq_some_iff] at h
    obtain ⟨_, _, _, _, rfl⟩ := h; rfl
  | hide =>
    simp only [op, hide, emit, Option.bind_eq_some_iff, Option.map_eq_some_iff] at h
    obtain ⟨_, _, _, _, rfl⟩ := h; rfl
  | apply c =>
    simp only [op, apply, Option.map_eq_some_iff] at h
    obtain ⟨_, _, rfl⟩ := h; rfl

/-- **C37**: `Reset` after a successful flush and any calls at all is the state of that
flush. -/
theorem reset_after (gr : Nat → Bool) (v : VCursor) : ∀ (l : List Op) (v1 v2 : VCursor), v1.real = v.cur →
    v1.ops gr l = some v2 → v2.reset.cur = v.cur ∧ v2.reset.buf = .empty
  | [], v1, v2, h1, h => by
    simp only [ops, Option.some.injEq] at h; subst h
    exact ⟨h1, rfl⟩
  | o :: l, v1, v2, h1, h => by
    simp only [ops, Option.bind_eq_some_iff] at h
    obtain ⟨v', e1, e2⟩ := h
    exact reset_after gr v l v' v2 (by rw [op_real gr v1 v' o e1, h1]) e2

/-- Attempts in turn: the states, bytes and errors. -/
def flushes (v : VCursor) : List Wrote → VCursor × List (Bytes × Option FlushErr)
  | [] => (v, [])
  | o :: t =>
    let r := v.writeTo o
    let s := flushes r.1 t
    (s.1, (r.2.1, r.2.2) :: s.2)

/-- **C37**: a flush interrupted by would-block any number of times, wherever, and then
completed, delivers the buffered bytes exactly once and in order, and then the real state
is the tracked one. -/
theorem flush_resumes : ∀ (ks : List Nat) (v : VCursor), ks.sum < v.buf.buf.length →
    ∃ v' l, v.flushes (ks.map .block ++ [.ok]) = (v', l) ∧ (l.map (·.1)).flatten = v.buf.buf ∧
      l.map (·.2) = ks.map (fun _ => some .wouldBlock) ++ [none] ∧
      v'.buf.buf = [] ∧ v'.cur = v.cur ∧ v'.real = v.cur
  | [], v, hl => by
    have hb : v.buf.buf ≠ [] := by intro h; rw [h] at hl; simp at hl
    exact ⟨_, _, rfl, by simp [flushes, writeTo, hb], by simp [flushes, writeTo, hb],
      by simp [flushes, writeTo, hb, Buffer.writeTo], by simp [flushes, writeTo, hb], by simp [flushes, writeTo, hb]⟩
  | k :: ks, v, hl => by
    have hb : v.buf.buf ≠ [] := by intro h; rw [h] at hl; simp at hl
    rw [List.sum_cons] at hl
    have hw : v.writeTo (.block k) = ({ v with buf := v.buf.writeTo k, real := {} }, v.buf.buf.take k, some .wouldBlock) := by
      unfold writeTo; rw [if_neg hb]
    obtain ⟨v', l, e1, e2, e3, e4, e5, e6⟩ := flush_resumes ks { v with buf := v.buf.writeTo k, real := {} } (by
        simp only [Buffer.writeTo, List.length_drop]; omega)
    refine ⟨v', (v.buf.buf.take k, some .wouldBlock) :: l, ?_, ?_, by simp [e3], e4, e5, e6⟩
    · simp only [List.map_cons, List.cons_append, flushes, hw, e1]
    · simp only [List.map_cons, List.flatten_cons, e2, Buffer.writeTo, List.take_append_drop]

/-- A forgotten cursor agrees with every terminal. -/
theorem forgotten_follows (t : Term) : Follows {} t false :=
  ⟨fun h => by simp at h, fun _ => by decide, fun h => by simp [valid] at h, fun h => by simp at h,
    fun h => by simp at h⟩

/-- **C37**, after a failed flush, or after a flush that would block and a `Reset`: nothing
later relies on the former state.  Whatever the terminal's cursor, style and visibility
are, a session that can be followed from an unknown position does what it says. -/
theorem failed_then_session (gr : Nat → Bool) (v : VCursor) (o : Wrote)
    (ho : (v.writeTo o).2.2 ≠ none) (t : Term) (tw : t.w ≤ 2 ^ 32 - 1) (th : t.h ≤ 2 ^ 32 - 1)
    (l : List CurCall) (h : CurCall.Session gr t false l) :
    ∃ v' ops, (v.writeTo o).1.reset.ops gr (l.map CurCall.op) = some v' ∧ v'.buf.buf = text ops ∧
      t.run ops = l.foldl CurCall.after t ∧ Agree v'.cur (t.run ops) := by
  have hc : (v.writeTo o).1.reset.cur = {} := by
    unfold writeTo at ho ⊢
    by_cases hb : v.buf.buf = []
    · simp [hb] at ho
    · rw [if_neg hb] at ho ⊢
      cases o <;> simp [reset] at ho ⊢
  obtain ⟨v', ops, e1, e2, e3, e4, _⟩ := session_follow_partial gr l t (v.writeTo o).1.reset false tw th
    (by rw [hc]; exact forgotten_follows t) rfl h
  exact ⟨v', ops, e1, by rw [e2]; simp [reset, Buffer.reset], e3, e4⟩

/-- **C36** and **C37** together: a session followed by a successful flush, with anything
discarded by `Reset` afterwards, leaves a tracked cursor that agrees with the terminal
that received the flushed bytes. -/
theorem session_flush_reset (gr : Nat → Bool) (t : Term) (v : VCursor) (k : Bool)
    (tw : t.w ≤ 2 ^ 32 - 1) (th : t.h ≤ 2 ^ 32 - 1) (F : Follows v.cur t k) (hb : v.buf = .empty)
    (l : List CurCall) (h : CurCall.Session gr t k l) :
    ∃ v1 ops, v.ops gr (l.map CurCall.op) = some v1 ∧ (v1.writeTo .ok).2.1 = text ops ∧
      (v1.writeTo .ok).2.2 = none ∧ t.run ops = l.foldl CurCall.after t ∧
      ∀ later v2, (v1.writeTo .ok).1.ops gr later = some v2 →
        Agree v2.reset.cur (t.run ops) ∧ v2.reset.buf = .empty := by
  obtain ⟨v1, ops, e1, e2, e3, e4, _⟩ := session_follow_partial gr l t v k tw th F (by rw [Settled, hb]; rfl) h
  rw [hb] at e2
  have hn := (flush_error v1 .ok).mpr (Or.inl rfl)
  obtain ⟨g1, _, g3, _⟩ := (flush_outcomes_partial v1 .ok).1 hn
  refine ⟨v1, ops, e1, by rw [g1, e2]; rfl, hn, e3, fun later v2 h2 => ?_⟩
  obtain ⟨q1, q2⟩ := reset_after gr v1 later _ v2 g3 h2
  exact ⟨by rw [q1]; exact e4, q2⟩

/-- Negation for **C37**: after a failed flush that took nothing the real state equals
the tracked one, both being forgotten, and they differ from the state before. -/
theorem failed_flush_equal : ∃ v : VCursor, v.buf.buf ≠ [] ∧ (v.writeTo (.fail 0)).2.1 = [] ∧
    (v.writeTo (.fail 0)).1.real = (v.writeTo (.fail 0)).1.cur ∧ (v.writeTo (.fail 0)).1.cur ≠ v.cur :=
  ⟨{ cur := { pt := ⟨2, 1⟩ }, buf := ⟨[0x78], 1⟩ }, by decide, by decide, by decide, by decide⟩

/-- Deviation from the comment at `cursor.go:28-30` ("otherwise, Cursor and Real are both
zeroed"): a flush that would block keeps the tracked cursor. -/
theorem blocked_keeps_cursor (v : VCursor) (k : Nat) (h : v.cur ≠ {}) :
    (v.writeTo (.block k)).1.cur ≠ {} := by
  unfold writeTo; dsimp only; split <;> exact h

/-! ### C36: satisfiable hypotheses and negations -/

/-- The first step of `cursor_test.go:26-31`. -/
def helloCalls : List CurCall :=
  [.move 4 4, .style [{ fg := some (.indexed 1), bg := some (.indexed 2) }],
   .bits [.op (.put 0x68), .op (.put 0x65), .op (.put 0x6C), .op (.put 0x6C), .op (.put 0x6F)]]

/-- The second step, `cursor_test.go:32-36`. -/
def worldCalls : List CurCall :=
  [.move 4 5, .style [{ fg := some (.indexed 4), bg := some (.indexed 2) }],
   .bits [.op (.put 0x77), .op (.put 0x6F), .op (.put 0x72), .op (.put 0x6C), .op (.put 0x64)]]

/-- Both steps are a session that can be followed, from an unknown position. -/
example (t : Term) (hw : t.w = 80) (hh : t.h = 24) :
    CurCall.Session Screen.ascii t false (helloCalls ++ worldCalls) := by
  simp [helloCalls, worldCalls, CurCall.Session, CurCall.Ok, CurCall.after, CurCall.known, Bit.Flow, Bit.Ok,
    Bit.after, Bit.known, Term.step, hw, hh, Awkward, Bit.place, ascii_printable]

/-- Their bytes are those the repository's test expects. -/
example : ∃ v1 v2, ({} : VCursor).ops Screen.ascii (helloCalls.map CurCall.op) = some v1 ∧
    v1.buf.buf = "\x1b[5;5H\x1B[0;31;42mhello".toUTF8.toList ∧
    (v1.writeTo .ok).1.ops Screen.ascii (worldCalls.map CurCall.op) = some v2 ∧
    v2.buf.buf = "\x1b[6;5H\x1b[34mworld".toUTF8.toList :=
  ⟨(({} : VCursor).ops Screen.ascii (helloCalls.map CurCall.op)).getD {},
    (((({} : VCursor).ops Screen.ascii (helloCalls.map CurCall.op)).getD {}).writeTo .ok).1.ops Screen.ascii
      (worldCalls.map CurCall.op) |>.getD {}, by decide +kernel, by decide +kernel, by decide +kernel, by decide +kernel⟩

/-- **C36** for `Apply` as the last call: the bytes it writes take the terminal to the
applied state, and the tracked cursor agrees. -/
theorem apply_follow_partial (t : Term) (v : VCursor) (k : Bool) (F : Follows v.cur t k) (cs : Cursor)
    (x y : Nat) (hx : x < t.w) (hy : y < t.h) (hp : cs.pt = ⟨x + 1, y + 1⟩) (hv : cs.visible = true)
    (s : Sgr.Style) (hs : cs.attr = s.build) (hc : s.clear = false)
    (hj : k = true → ¬ Awkward t.w (Bit.place t) ⟨x + 1, y + 1⟩) :
    ∃ v' ops, v.apply cs = some v' ∧ v'.buf.buf = v.buf.buf ++ text ops ∧ Agree v'.cur (t.run ops) ∧
      t.run ops = { t with x := x, y := y, pend := false, style := s, vis := true } := by
  have hj' : valid v.cur.pt = true → ¬ Awkward t.w v.cur.pt ⟨x + 1, y + 1⟩ := by
    intro hv
    cases k with
    | false => rw [F.invalid] at hv; simp at hv
    | true =>
      have := hj rfl
      rwa [place_eq (F.agree.pos hv)] at this
  obtain ⟨q, o1, e1, e2, e3⟩ := cursor_to t v.cur x y hx hy (by
      intro hv
      rcases F.agree.pos hv with h | h
      · exact Or.inl h
      · refine Or.inr ⟨h, fun hrow => ?_⟩
        by_contra hne
        exact hj' hv (Or.inr ⟨by rw [h.2.2.2], hrow.symm, by dsimp only; omega⟩))
    (fun hv hver => hj' hv (Or.inl hver))
  obtain ⟨o2, f1, f2, f3⟩ := merge_sgr_shows { v.cur with pt := ⟨x + 1, y + 1⟩ } s hc
    { t with x := x, y := y, pend := false } F.agree.attr
  obtain ⟨c3, s3, b3, g1, g2, g3⟩ := show_text (({ v.cur with pt := ⟨x + 1, y + 1⟩ } : Cursor).mergeSGR s.build).1
  have hval : valid cs.pt = true := by
    rw [hp]; simp only [valid, Bool.and_eq_true, decide_eq_true_eq]; omega
  have hop : v.apply cs = some { v with cur := c3, buf := v.buf.write (text o1 ++ text o2 ++ b3) } := by
    unfold VCursor.apply Cursor.applyTo
    rw [hv, hval]
    simp only [Bool.and_self, if_true, hp, e1, Option.bind_some, e2, hs, g1, g2, Option.map_some, f1]
  have hat : ∀ b st, Term.At { t with x := x, y := y, pend := false, style := st, vis := b } ⟨x + 1, y + 1⟩ :=
    fun _ _ => ⟨⟨hx, hy⟩, rfl, rfl⟩
  rcases g3 with ⟨h1, h2, rfl, rfl⟩ | ⟨rfl, rfl⟩
  · rw [f3] at h1 h2
    have hvis : t.vis = true := by rw [F.agree.vis h1, h2]
    have hrun : t.run (o1 ++ o2) = { t with x := x, y := y, pend := false, style := s, vis := true } := by
      rw [run_append, e3, f2, ← hvis]
    refine ⟨_, o1 ++ o2, hop, by simp [Buffer.write, text_append], ?_, hrun⟩
    rw [hrun, f3]
    exact ⟨fun _ => Or.inl (hat _ _), fun _ => ⟨hc, rfl⟩, fun _ => h2.symm⟩
  · have hrun : t.run (o1 ++ o2 ++ [.show_]) = { t with x := x, y := y, pend := false, style := s, vis := true } := by
      rw [run_append, run_append, e3, f2]; rfl
    refine ⟨_, o1 ++ o2 ++ [.show_], hop, by simp [Buffer.write, text_append], ?_, hrun⟩
    rw [hrun, f3]
    exact ⟨fun _ => Or.inl (hat _ _), fun _ => ⟨hc, rfl⟩, fun _ => rfl⟩

/-- Negation for **C36**: the bytes written by `Apply` are processed again by the next
write, so that a relative move counts twice.  Moving to the first column, applying the
third and writing `x` is tracked as column 6 while the terminal is in column 4. -/
theorem apply_counts_twice (t : Term) (hw : t.w = 80) (hh : t.h = 24) :
    ∃ v ops, ({} : VCursor).ops Screen.ascii [.moveTo ⟨1, 1⟩, .apply { pt := ⟨3, 1⟩, visible := true }, .write [0x78]]
      = some v ∧ v.buf.buf = text ops ∧ v.cur.pt = ⟨6, 1⟩ ∧ (t.run ops).At ⟨4, 1⟩ := by
  refine ⟨(({} : VCursor).ops Screen.ascii [.moveTo ⟨1, 1⟩, .apply { pt := ⟨3, 1⟩, visible := true },
      .write [0x78]]).getD {}, [.cup 1 1, .forward (some 2), .sgr [0], .show_, .put 0x78], by decide +kernel,
    by decide +kernel, by decide +kernel, ?_⟩
  simp [Term.run, Term.step, Term.At, Term.Ok, hw, hh, count]

/-- Negation for **C36**: text that wraps is tracked past the margin. -/
theorem wrap_not_followed (t : Term) (hw : t.w = 2) (hh : t.h = 2) :
    ∃ v ops, ({} : VCursor).ops Screen.ascii [.moveTo ⟨1, 1⟩, .write [0x78, 0x79, 0x7A]] = some v ∧
      v.buf.buf = text ops ∧ v.cur.pt = ⟨4, 1⟩ ∧ (t.run ops).At ⟨2, 2⟩ := by
  refine ⟨(({} : VCursor).ops Screen.ascii [.moveTo ⟨1, 1⟩, .write [0x78, 0x79, 0x7A]]).getD {},
    [.cup 1 1, .put 0x78, .put 0x79, .put 0x7A], by decide +kernel, by decide +kernel, by decide +kernel, ?_⟩
  simp [Term.run, Term.step, Term.At, Term.Ok, Term.lineFeed, hw, hh]

/-- Negation for **C36**: a new line from an unknown position is tracked as the first
row, wherever the terminal is. -/
theorem newline_from_unknown (t : Term) (hw : t.w = 80) (hh : t.h = 24) (hy : t.y = 11) :
    ∃ v ops, ({} : VCursor).ops Screen.ascii [.write [0x0D, 0x0A]] = some v ∧
      v.buf.buf = text ops ∧ v.cur.pt = ⟨1, 1⟩ ∧ valid v.cur.pt = true ∧ (t.run ops).At ⟨1, 13⟩ := by
  refine ⟨(({} : VCursor).ops Screen.ascii [.write [0x0D, 0x0A]]).getD {}, [.cr, .lf], by decide +kernel,
    by decide +kernel, by decide +kernel, by decide +kernel, ?_⟩
  simp [Term.run, Term.step, Term.At, Term.Ok, Term.lineFeed, hw, hh, hy]

/-- Negation for **C36**: a motion by zero, which terminals take as one, is tracked as
none. -/
theorem zero_motion (t : Term) (hw : t.w = 80) (hh : t.h = 24) :
    ∃ v ops, ({} : VCursor).ops Screen.ascii [.moveTo ⟨1, 1⟩, .write [0x1B, 0x5B, 0x30, 0x43]] = some v ∧
      v.buf.buf = text ops ∧ v.cur.pt = ⟨1, 1⟩ ∧ (t.run ops).At ⟨2, 1⟩ := by
  refine ⟨(({} : VCursor).ops Screen.ascii [.moveTo ⟨1, 1⟩, .write [0x1B, 0x5B, 0x30, 0x43]]).getD {},
    [.cup 1 1, .forward (some 0)], by decide +kernel, by decide +kernel, by decide +kernel, ?_⟩
  simp [Term.run, Term.step, Term.At, Term.Ok, hw, hh, count]

end VCursor
end Anansi
