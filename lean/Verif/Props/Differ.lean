import Verif.Model.Differ
import Verif.Props.RenderMore
import Verif.Props.Record
/-
C34 and C35: flushing a screen differ.
-/
set_option autoImplicit false

namespace Anansi
open Vt Geom Render
namespace Differ

/-! ### C34 -/

/-- Flushing while bytes are left over sends those bytes and does nothing else. -/
theorem writeTo_left {gr : Nat → Bool} {d : Differ} (hs : d.v.sc.grid.isSub = false)
    (hb : d.v.buf.buf ≠ []) (o : Wrote) : d.writeTo gr o = d.finish d.real o := by
  unfold writeTo
  rw [if_neg (by simp [hs]), if_pos (List.length_pos_iff.mpr hb)]

/-- Attempts on leftover bytes, all but the last of which would block. -/
theorem resume_left {gr : Nat → Bool} : ∀ (ks : List Nat) (d : Differ), d.v.sc.grid.isSub = false →
    ks.sum < d.v.buf.buf.length →
    ∃ d' l, d.flushes gr (ks.map .block ++ [.ok]) = .ok (d', l) ∧ (l.map (·.1)).flatten = d.v.buf.buf ∧
      l.map (·.2) = ks.map (fun _ => some .wouldBlock) ++ [none] ∧
      d'.v.buf.buf = [] ∧ d'.v.sc = d.v.sc ∧ d'.real = d.real ∧ d'.user = d.user
  | [], d, hs, hl => by
    have hb : d.v.buf.buf ≠ [] := by intro h; rw [h] at hl; simp at hl
    refine ⟨{ d with v := { d.v with buf := d.v.buf.writeTo d.v.buf.buf.length } }, [(d.v.buf.buf, none)], ?_,
      by simp, by simp, by simp [Buffer.writeTo], rfl, rfl, rfl⟩
    simp only [List.map_nil, List.nil_append, flushes, writeTo_left hs hb, finish, if_neg hb]
    rfl
  | k :: ks, d, hs, hl => by
    have hb : d.v.buf.buf ≠ [] := by intro h; rw [h] at hl; simp at hl
    rw [List.sum_cons] at hl
    obtain ⟨d', l, e1, e2, e3, e4, e5, e6, e7⟩ := resume_left (gr := gr) ks
      { d with v := { d.v with buf := d.v.buf.writeTo k } } hs (by
        simp only [Buffer.writeTo, List.length_drop]; omega)
    refine ⟨d', (d.v.buf.buf.take k, some .wouldBlock) :: l, ?_, ?_, by simp [e3], e4, e5, e6, e7⟩
    · simp only [List.map_cons, List.cons_append, flushes, writeTo_left hs hb, finish, if_neg hb]
      show Except.map _ (flushes gr _ _) = _
      rw [e1]; rfl
    · simp only [List.map_cons, List.flatten_cons, e2, Buffer.writeTo, List.take_append_drop]

/-- **C34**, the bytes: a frame whose flush is interrupted by would-block any number of
times, wherever, is delivered exactly once and in order by the following flushes, leaving
nothing behind and the virtual screen's cells as they were; and the recorded cells are
then the shared ones.  Full statement: the recorded state also describes the frame, and
other calls may be made in between; both fail (`resume_forgets_style`,
`write_eats_frame`). -/
theorem resume_bytes_partial (gr : Nat → Bool) (d : Differ) (hs : d.v.sc.grid.isSub = false)
    (hb : d.v.buf.buf = []) (state : Screen) (b : Bytes)
    (hu : ({ d.v.sc with cur := d.user } : Screen).update gr d.real = some (state, b))
    (k : Nat) (ks : List Nat) (hk : (k :: ks).sum < b.length) :
    ∃ d' l, d.flushes gr ((k :: ks).map .block ++ [.ok]) = .ok (d', l) ∧ (l.map (·.1)).flatten = b ∧
      l.map (·.2) = (k :: ks).map (fun _ => some .wouldBlock) ++ [none] ∧
      d'.v.buf.buf = [] ∧ d'.v.sc.grid = d.v.sc.grid ∧ d'.real = share d.real state := by
  have hne : b ≠ [] := by intro h; rw [h] at hk; simp at hk
  rw [List.sum_cons] at hk
  obtain ⟨d', l, e1, e2, e3, e4, e5, e6, e7⟩ := resume_left (gr := gr) ks
    { d with v := ⟨{ d.v.sc with cur := d.user }, (d.v.buf.write b).writeTo k⟩, real := share d.real state } hs (by
      simp only [Buffer.writeTo, Buffer.write, hb, List.nil_append, List.length_drop]; omega)
  refine ⟨d', (b.take k, some .wouldBlock) :: l, ?_, ?_, by simp [e3], e4, by rw [e5], e6⟩
  · simp only [List.map_cons, List.cons_append, flushes]
    have hw : d.writeTo gr (.block k) = .ok ({ d with v := ⟨{ d.v.sc with cur := d.user }, (d.v.buf.write b).writeTo k⟩, real := share d.real state }, b.take k, some .wouldBlock) := by
      unfold writeTo
      rw [if_neg (by simp [hs]), if_neg (by simp [hb])]
      simp only [hu, finish, Buffer.write, hb, List.nil_append, if_neg hne]
    rw [hw]
    show Except.map _ (flushes gr _ _) = _
    rw [e1]; rfl
  · simp only [List.map_cons, List.flatten_cons, e2, Buffer.writeTo, Buffer.write, hb, List.nil_append,
      List.take_append_drop]

/-- **C34** without interruption: one flush delivers the frame and records its state. -/
theorem flush_frame (gr : Nat → Bool) (d : Differ) (hs : d.v.sc.grid.isSub = false)
    (hb : d.v.buf.buf = []) (state : Screen) (b : Bytes)
    (hu : ({ d.v.sc with cur := d.user } : Screen).update gr d.real = some (state, b)) :
    ∃ d', d.writeTo gr .ok = .ok (d', b, none) ∧ d'.v.buf.buf = [] ∧
      d'.v.sc = { d.v.sc with cur := d.user } ∧ d'.user = d.user ∧ d'.real = state := by
  unfold writeTo
  rw [if_neg (by simp [hs]), if_neg (by simp [hb])]
  simp only [hu, finish, Buffer.write, hb, List.nil_append]
  by_cases hne : b = []
  · rw [if_pos hne, hne]; exact ⟨_, rfl, rfl, rfl, rfl, rfl⟩
  · rw [if_neg hne]; exact ⟨_, rfl, by simp [Buffer.writeTo], rfl, rfl, rfl⟩

theorem invalid_empty (d : Differ) : empty d.invalidate.real.grid.rect = true := by
  have hg : d.invalidate.real.grid = (d.real.grid.resize (0, 0)).1 := by
    unfold invalidate Screen.resize; split <;> rfl
  rw [hg]
  unfold Grid.resize
  split
  · next h =>
    simp only [Geom.size, Grid.sz, Pt.mk.injEq] at h
    simp only [empty, Bool.or_eq_true, decide_eq_true_eq]; omega
  · split
    · simp [empty, ptAdd, Grid.sz]
    · dsimp only
      split <;> simp [empty, ptAdd, Grid.sz]

/-- **C35**, resizing: whatever was staged and wherever the user's cursor is, a new size
changes the virtual screen only and forgets what the terminal shows, so that the next frame is
a full redraw; the same size changes nothing. -/
theorem resize_forgets (d : Differ) (s : Nat × Nat) :
    (Grid.sz s = Geom.size d.v.sc.grid.rect → d.resize s = (d, false)) ∧
    (Grid.sz s ≠ Geom.size d.v.sc.grid.rect → (d.resize s).2 = true ∧ empty (d.resize s).1.real.grid.rect = true ∧
      (d.resize s).1.v.sc = (d.v.sc.resize s).1 ∧ (d.resize s).1.v.buf = d.v.buf ∧ (d.resize s).1.user = d.user ∧
      (d.resize s).1.real.cur = (d.real.resize (0, 0)).1.cur) := by
  have h2 : (d.v.sc.resize s).2 = decide (Grid.sz s ≠ Geom.size d.v.sc.grid.rect) := by
    unfold Screen.resize Grid.resize
    by_cases h : Grid.sz s = Geom.size d.v.sc.grid.rect
    · simp [h]
    · rw [if_neg h]
      split
      · simp [h]
      · dsimp only
        split <;> simp [h]
  have h1 : Grid.sz s = Geom.size d.v.sc.grid.rect → (d.v.sc.resize s).1 = d.v.sc := by
    intro h
    unfold Screen.resize Grid.resize
    simp [h]
  constructor
  · intro h
    unfold resize
    simp only [h2, h, ne_eq, not_true_eq_false, decide_false, Bool.false_eq_true, if_false, h1 h]
  · intro h
    have e : d.resize s = (invalidate { d with v := { d.v with sc := (d.v.sc.resize s).1 } }, true) := by
      unfold resize
      simp only [h2, h, ne_eq, not_false_eq_true, decide_true, if_true]
    rw [e]
    exact ⟨rfl, invalid_empty _, rfl, rfl, rfl, rfl⟩

/-- A screen of 3 by 1 becomes one of 2 by 1. -/
example : Grid.sz (2, 1) ≠ Geom.size (({ v := { sc := (({} : Screen).resize (3, 1)).1 } } : Differ).v.sc.grid.rect) := by
  decide +kernel

/-- **C34**, a failed flush: whatever was taken, everything staged is dropped and the
recorded screen is empty, so that the next frame is a full redraw. -/
theorem failed_flush (gr : Nat → Bool) (d d' : Differ) (k : Nat) (acc : Bytes)
    (h : d.writeTo gr (.fail k) = .ok (d', acc, some .other)) :
    d'.v.buf.buf = [] ∧ d'.user = {} ∧ empty d'.real.grid.rect = true := by
  have key : ∀ (d1 : Differ) (state : Screen), d1.finish state (.fail k) = .ok (d', acc, some .other) →
      d'.v.buf.buf = [] ∧ d'.user = {} ∧ empty d'.real.grid.rect = true := by
    intro d1 state h
    unfold finish at h
    dsimp only at h
    split at h
    · simp at h
    · simp only [reset, clear] at h
      revert h
      generalize Screen.clear _ = x
      intro h
      cases x with
      | error e => simp [Except.map] at h
      | ok sc =>
        simp only [Except.map, Except.ok.injEq, Prod.mk.injEq, and_true] at h
        rw [← h.1]
        exact ⟨rfl, rfl, invalid_empty _⟩
  unfold writeTo at h
  split at h
  · simp at h
  · split at h
    · exact key _ _ h
    · dsimp only at h
      split at h
      · simp at h
      · exact key _ _ h

theorem whole_not_sub {sc : Screen} {w h : Nat} (W : sc.Whole w h) : sc.grid.isSub = false := by
  rw [Grid.isSub_false, Grid.fullSize, W.rect, W.stride, W.len]
  have := W.hw
  have hd : w * h / w = h := Nat.mul_div_cancel_left h (by omega)
  have : w ≠ 0 := by omega
  simp [Geom.size, Grid.sz, hd, this]

/-! ### C35 -/

/-- **C35**, the flush itself: with nothing left over in the buffer, a flush that is
accepted brings a terminal of the screen's size to the virtual screen and the user's
cursor, and leaves the differ in a state from which the next flush can do the same:
nothing left over, and a recorded state which the terminal shows and whose cursor agrees
with the terminal's.  `Ready` says when the library's cursor motions are right (C32). -/
theorem flush_shows_partial (gr : Nat → Bool) (t : Term) (d : Differ) (w h : Nat)
    (hb : d.v.buf.buf = []) (W : d.v.sc.Whole w h) (tw : t.w = w) (th : t.h = h)
    (A : Agree d.real.cur t) (hg : ∀ c ∈ d.v.sc.grid.data, Drawable gr c) (hsp : Printable gr 0x20)
    (hf : ({ d.v.sc with cur := d.user } : Screen).shown = true →
      ({ d.v.sc with cur := d.user } : Screen).OnScreen w h ∧
        ∃ s : Sgr.Style, s.clear = false ∧ d.user.attr = s.build)
    (R : Ready t { d.v.sc with cur := d.user } d.real w h
      (if ({ d.v.sc with cur := d.user } : Screen).shown then [d.user.pt] else [])) :
    ∃ d' ops, d.writeTo gr .ok = .ok (d', text ops, none) ∧
      Shows (t.run ops) d.v.sc w h ∧
      (t.run ops).vis = ({ d.v.sc with cur := d.user } : Screen).shown ∧
      ((t.run ops).vis = true → (t.run ops).At d.user.pt ∧ d.user.attr = (t.run ops).style.build) ∧
      d'.v.buf.buf = [] ∧ d'.v.sc.grid = d.v.sc.grid ∧ d'.user = d.user ∧
      d'.real.Whole w h ∧ Shows (t.run ops) d'.real w h ∧ Agree d'.real.cur (t.run ops) := by
  have W' : ({ d.v.sc with cur := d.user } : Screen).Whole w h :=
    ⟨W.hw, W.hh, W.rect, W.stride, W.len, W.cap⟩
  obtain ⟨p, ops, h1, h2, h3, h4, h5, h6, h7⟩ := update_again_partial gr t _ d.real w h W' tw th A hg hsp hf R
  obtain ⟨d', e1, e2, e3, e4, e5⟩ := flush_frame gr d (whole_not_sub W) hb p _ h1
  refine ⟨d', ops, e1, h5, h6, fun hv => h7 (by rw [← h6]; exact hv), e2, by rw [e3], e4, ?_, ?_, ?_⟩
  · rw [e5]; exact h2
  · rw [e5]; exact h3
  · rw [e5]; exact h4

/-- A call that leaves nothing in the buffer: text that is processed to the end, a
style that is already in force, or a move. -/
def Complete : VScreen → VScreen.Op → Prop
  | _, .write p => (process p).rest = []
  | v, .sgr l => (v.sgrLoop l).2 = 0
  | _, .moveTo _ => True

theorem sgrLoop_none : ∀ (l : List Attr) (v : VScreen), (v.sgrLoop l).2 = 0 → (v.sgrLoop l).1.buf = v.buf
  | [], v, _ => rfl
  | a :: t, v, h => by
    unfold VScreen.sgrLoop at h ⊢
    dsimp only at h ⊢
    split at h
    · next hd =>
      rw [if_pos hd]
      dsimp only at h ⊢
      have hl : 0 < (Sgr.append (v.sc.cur.mergeSGR a).2).length := by
        rcases Nat.eq_zero_or_pos (Sgr.append (v.sc.cur.mergeSGR a).2).length with h0 | h0
        · exfalso
          have := List.length_eq_zero_iff.mp h0
          unfold Sgr.append at this
          split at this
          · exact absurd this (by decide)
          · exact absurd (List.append_eq_nil_iff.mp this).2 (by decide)
        · exact h0
      omega
    · next hd =>
      rw [if_neg hd]
      exact sgrLoop_none t _ h

/-- **C35**, the staging: after any sequence of complete calls nothing is left over. -/
theorem staged_complete (gr : Nat → Bool) : ∀ (l : List VScreen.Op) (v v' : VScreen),
    v.buf = .empty → (∀ v1 l1 o l2, l = l1 ++ o :: l2 → v.ops gr l1 = .ok v1 → Complete v1 o) →
    v.ops gr l = .ok v' → v'.buf = .empty
  | [], v, v', hb, _, h => by simp only [VScreen.ops, Except.ok.injEq] at h; rw [← h]; exact hb
  | o :: t, v, v', hb, hc, h => by
    have h0 := hc v [] o t rfl rfl
    unfold VScreen.ops at h
    cases hs : v.op gr o with
    | error e => rw [hs] at h; simp [Except.bind] at h
    | ok v1 =>
      rw [hs] at h
      refine staged_complete gr t v1 v' ?_ (fun v2 l1 o' l2 e1 e2 => ?_) h
      · cases o with
        | moveTo p => simp only [VScreen.op, Except.ok.injEq] at hs; rw [← hs]; exact hb
        | sgr l =>
          simp only [VScreen.op, Except.ok.injEq, VScreen.writeSGR] at hs
          have h0 : (v.sgrLoop l).2 = 0 := h0
          rw [h0, if_neg (by omega)] at hs
          rw [← hs, sgrLoop_none l v h0]; exact hb
        | write p =>
          have h0 : (process p).rest = [] := h0
          simp only [VScreen.op, VScreen.write, VScreen.process, hb, Buffer.write, Buffer.empty, List.nil_append,
            Buffer.process?, Nat.zero_le, if_true, List.drop_zero, List.take_zero, h0, List.append_nil,
            Nat.zero_add] at hs
          cases hp : v.sc.processAll gr (process p).events with
          | error e => rw [hp] at hs; simp [Except.bind] at hs
          | ok sc =>
            rw [hp] at hs
            simp only [Except.bind, Except.ok.injEq] at hs
            rw [← hs]
            unfold Buffer.discard
            dsimp only
            split
            · simp [Buffer.empty]
            · next hl =>
              have : (process p).done = [] := List.length_eq_zero_iff.mp (by omega)
              simp [this, Buffer.empty]
      · apply hc v2 (o :: l1) o' l2 (by rw [e1]; rfl)
        unfold VScreen.ops
        rw [hs]; exact e2

end Differ
end Anansi
