import Verif.Model.Stall
import Verif.Props.Direct
import Verif.Props.Output
/-
C136: a frame that the terminal takes in two pieces is shown whole.
-/
set_option autoImplicit false

namespace Anansi
open Vt Geom Render

namespace Stl
open Outp Inp Direct

/-! ### Errors -/

/-- An error holds another one, at any depth. -/
inductive Spec.Holds : GoErr → GoErr → Prop
  | here (e : GoErr) : Holds e e
  | path {e c : GoErr} (op name : Bytes) : Holds e c → Holds (.path op name e) c
  | link {e c : GoErr} (op old new : Bytes) : Holds e c → Holds (.link op old new e) c
  | syscall {e c : GoErr} (name : Bytes) : Holds e c → Holds (.syscall name e) c

/-- An error that holds no other one. -/
def Spec.Bare (c : GoErr) : Prop := ∀ e, Spec.Holds c e → e = c

/-- **C136**: what an error is taken for is the one inside of it that holds no other, however deep; there is only one. -/
theorem unwrap_spec : ∀ e, (Spec.Holds e (unwrap e) ∧ Spec.Bare (unwrap e)) ∧ ∀ c, Spec.Holds e c → Spec.Bare c → c = unwrap e
  | .nil => ⟨⟨.here _, fun _ h => by cases h; rfl⟩, fun _ h _ => by cases h; rfl⟩
  | .errno _ => ⟨⟨.here _, fun _ h => by cases h; rfl⟩, fun _ h _ => by cases h; rfl⟩
  | .eof => ⟨⟨.here _, fun _ h => by cases h; rfl⟩, fun _ h _ => by cases h; rfl⟩
  | .other _ => ⟨⟨.here _, fun _ h => by cases h; rfl⟩, fun _ h _ => by cases h; rfl⟩
  | .path op name e => by
    obtain ⟨⟨h1, h2⟩, h3⟩ := unwrap_spec e
    refine ⟨⟨.path op name h1, h2⟩, fun c hc hb => ?_⟩
    cases hc with
    | here => exact absurd (hb e (.path op name (.here e))) (fun h => by have := congrArg sizeOf h; simp at this)
    | path _ _ h => exact h3 c h hb
  | .link op old new e => by
    obtain ⟨⟨h1, h2⟩, h3⟩ := unwrap_spec e
    refine ⟨⟨.link op old new h1, h2⟩, fun c hc hb => ?_⟩
    cases hc with
    | here => exact absurd (hb e (.link op old new (.here e))) (fun h => by have := congrArg sizeOf h; simp at this)
    | link _ _ _ h => exact h3 c h hb
  | .syscall name e => by
    obtain ⟨⟨h1, h2⟩, h3⟩ := unwrap_spec e
    refine ⟨⟨.syscall name h1, h2⟩, fun c hc hb => ?_⟩
    cases hc with
    | here => exact absurd (hb e (.syscall name (.here e))) (fun h => by have := congrArg sizeOf h; simp at this)
    | syscall _ h => exact h3 c h hb

/-- `write /dev/tty: resource temporarily unavailable` (`EAGAIN` is 11). -/
example : unwrap (.path [0x77] [0x2F] (.syscall [0x77] (.errno 11))) = .errno 11 := rfl

/-! ### Flushes -/

/-- What is written is what the update says. -/
theorem writeTo_update {gr : Nat → Bool} {d d' : Differ} {b : Bytes} (hs : d.v.sc.grid.isSub = false) (hb : d.v.buf.buf = [])
    (h : d.writeTo gr .ok = .ok (d', b, none)) :
    ∃ state, ({ d.v.sc with cur := d.user } : Screen).update gr d.real = some (state, b) := by
  unfold Differ.writeTo at h
  rw [if_neg (by simp [hs]), if_neg (by simp [hb])] at h
  cases hu : ({ d.v.sc with cur := d.user } : Screen).update gr d.real with
  | none => simp only [hu] at h; cases h
  | some r =>
    obtain ⟨state, b'⟩ := r
    simp only [hu, Differ.finish, Buffer.write, hb, List.nil_append] at h
    refine ⟨state, ?_⟩
    split at h
    · next hn =>
      rw [hn]
      simp only [Except.ok.injEq, Prod.mk.injEq] at h
      rw [← h.2.1]
    · simp only [Except.ok.injEq, Prod.mk.injEq] at h
      rw [← h.2.1]

theorem mask_back (v u m : BitVec 64) : ((v &&& ~~~m ||| u &&& m) &&& ~~~m) ||| (v &&& m) = v := by
  refine BitVec.eq_of_getLsbD_eq fun i hi => ?_
  simp only [BitVec.getLsbD_or, BitVec.getLsbD_and, BitVec.getLsbD_not, hi, decide_true, Bool.true_and]
  cases v.getLsbD i <;> cases u.getLsbD i <;> cases m.getLsbD i <;> rfl

/-- A flush in two pieces writes what one in one piece would, and gives the file its flags back. -/
theorem flush_pieces (gr : Nat → Bool) (f : File) {d : Differ} {state : Screen} {b : Bytes} (hs : d.v.sc.grid.isSub = false)
    (hb : d.v.buf.buf = []) (hu : ({ d.v.sc with cur := d.user } : Screen).update gr d.real = some (state, b)) (k : Nat) (hk : k < b.length) :
    ∃ d' f', flush gr f d (.block k) .ok = .ok (d', f', b.length, none) ∧ f'.written = f.written ++ b ∧ (f.polled = false → f'.flags = f.flags) ∧
      d'.v.sc = { d.v.sc with cur := d.user } ∧ d'.v.buf.buf = [] ∧ d'.user = d.user ∧ d'.real = Differ.share d.real state := by
  have hne : b ≠ [] := by intro h; rw [h] at hk; simp at hk
  have h1 : d.writeTo gr (.block k) = .ok ({ d with v := ⟨{ d.v.sc with cur := d.user }, (d.v.buf.write b).writeTo k⟩, real := Differ.share d.real state },
      b.take k, some .wouldBlock) := by
    unfold Differ.writeTo
    rw [if_neg (by simp [hs]), if_neg (by simp [hb])]
    simp only [hu, Differ.finish, Buffer.write, hb, List.nil_append, if_neg hne]
  have hd : ((d.v.buf.write b).writeTo k).buf = b.drop k := by simp [Buffer.writeTo, Buffer.write, hb]
  have hdn : b.drop k ≠ [] := by
    intro h
    rw [List.drop_eq_nil_iff] at h
    omega
  have h2 : Differ.writeTo gr { d with v := ⟨{ d.v.sc with cur := d.user }, (d.v.buf.write b).writeTo k⟩, real := Differ.share d.real state } .ok =
      .ok ({ d with v := ⟨{ d.v.sc with cur := d.user }, ((d.v.buf.write b).writeTo k).writeTo (b.drop k).length⟩, real := Differ.share d.real state },
        b.drop k, none) := by
    rw [Differ.writeTo_left (by exact hs) (by show ((d.v.buf.write b).writeTo k).buf ≠ []; rw [hd]; exact hdn)]
    unfold Differ.finish
    simp only [hd, if_neg hdn]
  obtain ⟨f', hf'⟩ : ∃ f' : File, f' = (took ((took f (b.take k)).fd.fd.setfl ((took f (b.take k)).fd.flags &&& ~~~O_NONBLOCK)) (b.drop k)).fd.setfl
    (took f (b.take k)).fd.flags := ⟨_, rfl⟩
  have e : flush gr f d (.block k) .ok = .ok ({ d with v := ⟨{ d.v.sc with cur := d.user }, ((d.v.buf.write b).writeTo k).writeTo (b.drop k).length⟩, real := Differ.share d.real state },
      f', (b.take k).length + (b.drop k).length, none) := by
    unfold flush blockingFlush
    rw [h1]
    simp only [Except.bind, if_true]
    rw [h2, hf']
    rfl
  rw [show (b.take k).length + (b.drop k).length = b.length by rw [← List.length_append, List.take_append_drop]] at e
  refine ⟨_, f', e, ?_, fun hp => ?_, rfl, ?_, rfl, rfl⟩
  · rw [hf']
    have hset : ∀ (f : File) v, (f.setfl v).written = f.written := fun _ _ => rfl
    rw [hset, fd_written]
    show (File.written _ ++ b.drop k) = _
    rw [hset, fd_written, fd_written]
    show (f.written ++ b.take k) ++ b.drop k = _
    rw [List.append_assoc, List.take_append_drop]
  · have hfd : ∀ f : File, f.polled = false → f.fd = f := fun f h => by unfold File.fd; simp [h]
    rw [hf', hfd (took f (b.take k)) hp, hfd (took f (b.take k)) hp, hfd (took (File.setfl (took f (b.take k)) _) _) hp]
    exact mask_back f.flags _ SETFL_MASK
  · show (((d.v.buf.write b).writeTo k).buf).drop (b.drop k).length = []
    rw [hd]
    exact List.drop_length

/-- In one piece. -/
theorem flush_whole (gr : Nat → Bool) (f : File) {d d' : Differ} {b : Bytes} (h : d.writeTo gr .ok = .ok (d', b, none)) (second : Wrote) :
    flush gr f d .ok second = .ok (d', took f b, b.length, none) := by
  unfold flush
  rw [h]
  rfl

/-- **C136**: if it would block again although it was made to block, what it has taken both times is counted, the flags are given back,
the error is returned and just the rest is kept, with which the next flush goes on. -/
theorem flush_again (gr : Nat → Bool) (f : File) {d : Differ} {state : Screen} {b : Bytes} (hs : d.v.sc.grid.isSub = false)
    (hb : d.v.buf.buf = []) (hu : ({ d.v.sc with cur := d.user } : Screen).update gr d.real = some (state, b)) (k j : Nat) (hk : k + j < b.length) :
    ∃ d' f', flush gr f d (.block k) (.block j) = .ok (d', f', k + j, some .wouldBlock) ∧ f'.written = f.written ++ b.take (k + j) ∧
      (f.polled = false → f'.flags = f.flags ∧ f'.polled = false) ∧ d'.v.buf.buf = b.drop (k + j) ∧
      ∃ d'' f'', flush gr f' d' .ok .ok = .ok (d'', f'', b.length - (k + j), none) ∧ f''.written = f.written ++ b ∧ d''.v.buf.buf = [] := by
  have hne : b ≠ [] := by intro h; rw [h] at hk; simp at hk
  have h1 : d.writeTo gr (.block k) = .ok ({ d with v := ⟨{ d.v.sc with cur := d.user }, (d.v.buf.write b).writeTo k⟩, real := Differ.share d.real state },
      b.take k, some .wouldBlock) := by
    unfold Differ.writeTo
    rw [if_neg (by simp [hs]), if_neg (by simp [hb])]
    simp only [hu, Differ.finish, Buffer.write, hb, List.nil_append, if_neg hne]
  have hd : ((d.v.buf.write b).writeTo k).buf = b.drop k := by simp [Buffer.writeTo, Buffer.write, hb]
  have hdn : b.drop k ≠ [] := by
    intro h
    rw [List.drop_eq_nil_iff] at h
    omega
  have h2 : Differ.writeTo gr { d with v := ⟨{ d.v.sc with cur := d.user }, (d.v.buf.write b).writeTo k⟩, real := Differ.share d.real state } (.block j) =
      .ok ({ d with v := ⟨{ d.v.sc with cur := d.user }, ((d.v.buf.write b).writeTo k).writeTo j⟩, real := Differ.share d.real state },
        (b.drop k).take j, some .wouldBlock) := by
    rw [Differ.writeTo_left (by exact hs) (by show ((d.v.buf.write b).writeTo k).buf ≠ []; rw [hd]; exact hdn)]
    unfold Differ.finish
    simp only [hd, if_neg hdn]
  have hd2 : (((d.v.buf.write b).writeTo k).writeTo j).buf = b.drop (k + j) := by
    show (((d.v.buf.write b).writeTo k).buf).drop j = _
    rw [hd, List.drop_drop]
  have hdn2 : b.drop (k + j) ≠ [] := by
    intro h
    rw [List.drop_eq_nil_iff] at h
    omega
  obtain ⟨f', hf'⟩ : ∃ f' : File, f' = (took ((took f (b.take k)).fd.fd.setfl ((took f (b.take k)).fd.flags &&& ~~~O_NONBLOCK)) ((b.drop k).take j)).fd.setfl
    (took f (b.take k)).fd.flags := ⟨_, rfl⟩
  have e : flush gr f d (.block k) (.block j) = .ok ({ d with v := ⟨{ d.v.sc with cur := d.user }, ((d.v.buf.write b).writeTo k).writeTo j⟩, real := Differ.share d.real state },
      f', (b.take k).length + ((b.drop k).take j).length, some .wouldBlock) := by
    unfold flush blockingFlush
    rw [h1]
    simp only [Except.bind, if_true]
    rw [h2, hf']
    rfl
  rw [show (b.take k).length + ((b.drop k).take j).length = k + j by simp only [List.length_take, List.length_drop]; omega] at e
  have hw : f'.written = f.written ++ b.take (k + j) := by
    rw [hf']
    have hset : ∀ (f : File) v, (f.setfl v).written = f.written := fun _ _ => rfl
    rw [hset, fd_written]
    show (File.written _ ++ (b.drop k).take j) = _
    rw [hset, fd_written, fd_written]
    show (f.written ++ b.take k) ++ (b.drop k).take j = _
    rw [List.append_assoc, List.take_add]
  refine ⟨_, f', e, hw, fun hp => ?_, hd2, ?_⟩
  · have hfd : ∀ f : File, f.polled = false → f.fd = f := fun f h => by unfold File.fd; simp [h]
    rw [hf', hfd (took f (b.take k)) hp, hfd (took f (b.take k)) hp, hfd (took (File.setfl (took f (b.take k)) _) _) hp]
    exact ⟨mask_back f.flags _ SETFL_MASK, hp⟩
  · have h3 : Differ.writeTo gr { d with v := ⟨{ d.v.sc with cur := d.user }, ((d.v.buf.write b).writeTo k).writeTo j⟩, real := Differ.share d.real state } .ok =
        .ok ({ d with v := ⟨{ d.v.sc with cur := d.user }, (((d.v.buf.write b).writeTo k).writeTo j).writeTo (b.drop (k + j)).length⟩,
                      real := Differ.share d.real state }, b.drop (k + j), none) := by
      rw [Differ.writeTo_left (by exact hs) (by show (((d.v.buf.write b).writeTo k).writeTo j).buf ≠ []; rw [hd2]; exact hdn2)]
      unfold Differ.finish
      simp only [hd2, if_neg hdn2]
    have h4 := flush_whole gr f' h3 .ok
    rw [List.length_drop] at h4
    refine ⟨_, _, h4, ?_, ?_⟩
    · show f'.written ++ b.drop (k + j) = _
      rw [hw, List.append_assoc, List.take_append_drop]
    · show ((((d.v.buf.write b).writeTo k).writeTo j).buf).drop (b.length - (k + j)) = []
      rw [hd2, ← List.length_drop]
      exact List.drop_length

/-- Two bytes, one byte, and the rest. -/
example : ((flush Screen.ascii {} { v := ⟨{ grid := { rect := ⟨⟨1, 1⟩, ⟨3, 2⟩⟩, stride := 2, len := 2, cells := [⟨97, 0⟩, ⟨98, 0⟩] } }, .empty⟩ }
    (.block 2) (.block 1)).toOption.map fun r => (r.2.1.written.length, r.2.2.1, r.2.2.2, decide (3 < r.1.v.buf.buf.length))) =
    some (3, 3, some .wouldBlock, true) := by decide +kernel

/-- **C136**: if the file fails for another reason, or the screen is a part of another, there is no second attempt: the result does not
depend on what that would do, the file has just the bytes it took and its flags are not touched, and the error is returned. -/
theorem flush_fails (gr : Nat → Bool) (f f' : File) {d d' : Differ} {state : Screen} {b : Bytes} (hb : d.v.buf.buf = [])
    (hu : ({ d.v.sc with cur := d.user } : Screen).update gr d.real = some (state, b)) (hne : b ≠ []) (k n : Nat) (second : Wrote) (e : Option FlushErr)
    (h : flush gr f d (.fail k) second = .ok (d', f', n, e)) :
    f'.flags = f.flags ∧ f'.polled = f.polled ∧ n = f'.written.length - f.written.length ∧
      (d.v.sc.grid.isSub = true → f'.written = f.written ∧ e = some .sub) ∧
      (d.v.sc.grid.isSub = false → f'.written = f.written ++ b.take k ∧ e = some .other ∧ d'.v.buf.buf = []) ∧
      ∀ other, flush gr f d (.fail k) other = .ok (d', f', n, e) := by
  cases hs : d.v.sc.grid.isSub with
  | true =>
    have h1 : d.writeTo gr (.fail k) = .ok (d, [], some .sub) := by
      unfold Differ.writeTo
      rw [if_pos hs]
    unfold flush at h ⊢
    rw [h1] at h ⊢
    simp only [Except.bind, Option.some.injEq, reduceCtorEq, if_false, Except.ok.injEq, Prod.mk.injEq] at h ⊢
    obtain ⟨r1, r2, r3, r4⟩ := h
    subst r1 r2 r3 r4
    simp [took]
  | false =>
    cases hw : d.writeTo gr (.fail k) with
    | error x =>
      unfold flush at h
      rw [hw] at h
      cases h
    | ok r =>
      have h2 : r.2.1 = b.take k ∧ r.2.2 = some .other ∧ r.1.v.buf.buf = [] := by
        unfold Differ.writeTo at hw
        rw [if_neg (by simp [hs]), if_neg (by simp [hb])] at hw
        simp only [hu, Differ.finish, Buffer.write, hb, List.nil_append, if_neg hne] at hw
        unfold Differ.reset Differ.clear at hw
        revert hw
        cases Screen.clear _ with
        | error x => intro hw; cases hw
        | ok q =>
          intro hw
          simp only [Except.map, Except.ok.injEq] at hw
          rw [← hw]
          refine ⟨rfl, rfl, ?_⟩
          simp [Differ.invalidate, Buffer.reset]
      unfold flush at h ⊢
      rw [hw] at h ⊢
      simp only [Except.bind, h2.2.1, Option.some.injEq, reduceCtorEq, if_false, Except.ok.injEq, Prod.mk.injEq] at h ⊢
      obtain ⟨r1, r2, r3, r4⟩ := h
      subst r1 r2 r3 r4
      rw [h2.1]
      simp [took, h2.2.2]

/-- A frame that fails after two bytes; what a second attempt would do does not matter. -/
example : ((flush Screen.ascii {} { v := ⟨{ grid := { rect := ⟨⟨1, 1⟩, ⟨3, 2⟩⟩, stride := 2, len := 2, cells := [⟨97, 0⟩, ⟨98, 0⟩] } }, .empty⟩ }
    (.fail 2) .ok).toOption.map fun r => (r.2.1.written.length, r.2.2)) = some (2, 2, some .other) := by decide +kernel

theorem forgets_grid {d : Differ} {s : Nat × Nat} (P : Grid.Whole d.real.grid s) (hs : s.1 = 0 → s.2 = 0) (hz : s = (0, 0) → valid d.real.cur.pt = false) :
    valid d.invalidate.real.cur.pt = false ∧ Grid.Whole d.invalidate.real.grid (0, 0) ∧
      d.invalidate.real.cur = { d.real.cur with pt := d.invalidate.real.cur.pt } ∧ d.invalidate.v = d.v := by
  obtain ⟨R, hb⟩ := Grid.whole_resize (t := (0, 0)) P hs
  unfold Differ.invalidate Screen.resize
  by_cases h0 : s = (0, 0)
  · rw [hb]
    simp only [h0, ne_eq, not_true_eq_false, decide_false, Bool.false_eq_true, if_false]
    exact ⟨hz h0, R, trivial, trivial⟩
  · rw [hb]
    simp only [h0, ne_eq, not_false_eq_true, decide_true, if_true]
    have hin : ptIn d.real.cur.pt (d.real.grid.resize (0, 0)).1.rect = false := by
      have hsz := R.size
      simp only [Geom.size, Grid.sz, Pt.mk.injEq] at hsz
      rw [← Bool.not_eq_true, ptIn_iff]
      unfold Mem
      omega
    rw [hin]
    exact ⟨by simp [valid, zp], R, rfl, trivial⟩

theorem share_whole {real state : Screen} {s : Nat × Nat} (P : Grid.Whole real.grid s) : Grid.Whole (Differ.share real state).grid s := by
  unfold Differ.share
  split
  · next h =>
    refine ⟨P.size, P.len, P.stride, ?_, by simp only; rw [h]; exact P.cap⟩
    rcases P.min with hm | hm
    · exact Or.inl hm
    · refine Or.inr ?_
      have : state.grid.cells = [] := by
        rw [hm] at h
        exact List.eq_nil_of_length_eq_zero h
      rw [this, hm]
  · exact P

theorem share_cur (real state : Screen) : (Differ.share real state).cur = real.cur := by
  unfold Differ.share
  split <;> rfl

/-- **C136**: a drawn frame is flushed into a terminal that takes any part of it and then would block: the terminal gets all of
it, once and in order, and shows it as if it had taken it at once; the number of bytes is right, and the file has its flags back. -/
theorem stalled_shown_partial (gr : Nat → Bool) (hsp : Printable gr 0x20) {d : Differ} {t : Term} {old : Option Screen} {a : Pt}
    (Y : Synced d t old a) (v : VScreen) (W : v.sc.Whole t.w t.h) (hb : v.buf.buf = []) (pic : Term) (S : Shows pic v.sc t.w t.h)
    (hp : ∀ x y, Printable gr (pic.cell x y).rune) (user : Cursor) (hu : Direct.Spec.Placed t.w t.h user)
    (Z : Direct.Spec.Easy t old a v.sc user) (f : File) :
    ∃ ops, (∀ x y, x < t.w → y < t.h → (t.run ops).cell x y = pic.cell x y) ∧ (t.run ops).vis = Direct.Spec.seen user ∧
      (Direct.Spec.seen user = true → (t.run ops).At user.pt ∧ user.attr = (t.run ops).style.build) ∧
      (∃ d', flush gr f { d with v, user } .ok .ok = .ok (d', took f (text ops), (text ops).length, none)) ∧
      ∀ k, k < (text ops).length → ∃ d' f', flush gr f { d with v, user } (.block k) .ok = .ok (d', f', (text ops).length, none) ∧
        f'.written = f.written ++ text ops ∧ (f.polled = false → f'.flags = f.flags) ∧
        -- all is right for a redraw, if the frame has changed neither the style nor whether the cursor is seen
        ((t.run ops).style = t.style → (t.run ops).vis = t.vis → ∀ cell x y pend,
          Synced d'.invalidate { t.run ops with cell, x, y, pend } none zp) := by
  obtain ⟨d', ops, h1, h2, h3, h4, h5, h6, h7⟩ := flushed gr hsp Y v W hb pic S hp user hu Z
  have hsub : v.sc.grid.isSub = false := Differ.whole_not_sub W
  obtain ⟨state, hup⟩ := writeTo_update (d := { d with v, user }) hsub hb h1
  refine ⟨ops, h4, h5, fun h => ⟨(h6 h).1, (h6 h).2.1⟩, ⟨d', flush_whole gr f h1 .ok⟩, fun k hk => ?_⟩
  obtain ⟨d2, f', g1, g2, g3, g4, g5, g6, g7⟩ := flush_pieces gr f (d := { d with v, user }) hsub hb hup k hk
  refine ⟨d2, f', g1, g2, g3, fun hst hvis cell x y pend => ?_⟩
  have hw := Y.whole.hw
  have hh := Y.whole.hh
  have hG : ∃ s, Grid.Whole d.real.grid s ∧ (s.1 = 0 → s.2 = 0) ∧ (s = (0, 0) → valid d.real.cur.pt = false) := by
    cases old with
    | some o =>
      refine ⟨_, Y.known.1.toGrid, fun h => ?_, fun h => ?_⟩
      · simp only at h; omega
      · rw [Prod.mk.injEq] at h; omega
    | none =>
      obtain ⟨h1, s, h2, h3, -⟩ := Y.known
      exact ⟨s, h2, h3, fun _ => h1⟩
  obtain ⟨s, P, hs, hz⟩ := hG
  have hcur : d2.real.cur = d.real.cur := by rw [g7]; exact share_cur _ _
  obtain ⟨k1, k2, k3, k4⟩ := forgets_grid (d := d2) (s := s) (by rw [g7]; exact share_whole P) hs (by rw [hcur]; exact hz)
  refine ⟨?_, ⟨fun hv => absurd hv (by rw [k1]; simp), ?_, ?_⟩, ⟨k1, (0, 0), k2, fun _ => rfl, ?_⟩, smooth_unknown k1, by rw [k3, hcur]; exact Y.pen⟩
  · show d2.invalidate.v.sc.Whole (t.run ops).w (t.run ops).h
    rw [k4, g4, h2, h3]
    exact ⟨W.hw, W.hh, W.rect, W.stride, W.len, W.cap⟩
  · rw [k3, hcur]
    show _ → (t.run ops).style.clear = false ∧ _ = (t.run ops).style.build
    rw [hst]
    exact Y.agree.attr
  · rw [k3, hcur]
    show _ → (t.run ops).vis = _
    rw [hvis]
    exact Y.agree.vis
  · show (0, 0) ≠ ((t.run ops).w, (t.run ops).h)
    rw [h2]
    intro h; rw [Prod.mk.injEq] at h; omega

/-! ### Examples, and what a stall breaks -/

/-- One row of six. -/
def line6 (l : List Nat) : Screen :=
  { grid := { rect := ⟨⟨1, 1⟩, ⟨7, 2⟩⟩, stride := 6, len := 6, cells := l.map (⟨·, 0⟩) } }

/-- `ab` on a screen of two cells, and how it looks. -/
def two : Screen := { grid := { rect := ⟨⟨1, 1⟩, ⟨3, 2⟩⟩, stride := 2, len := 2, cells := [⟨97, 0⟩, ⟨98, 0⟩] } }

def twoPic : Term := { clearTerm 2 1 with cell := fun x _ => ⟨if x = 0 then 97 else 98, {}⟩ }

/-- The hypotheses of `stalled_shown_partial` hold for a first frame. -/
example : ∃ d a, Synced d (clearTerm 2 1) none a ∧ two.Whole 2 1 ∧ Shows twoPic two 2 1 ∧
    (∀ x y, Printable Screen.ascii (twoPic.cell x y).rune) ∧ Direct.Spec.Placed 2 1 {} ∧ Direct.Spec.Easy (clearTerm 2 1) none a two {} := by
  refine ⟨_, _, new_synced (clearTerm 2 1) (by decide) (by decide), ⟨by decide, by decide, rfl, rfl, rfl, by decide⟩, ⟨rfl, rfl, ?_⟩, ?_, ?_, ?_, ?_⟩
  · intro x y hx hy
    have hy : y = 0 := by omega
    subst hy
    have hx : x = 0 ∨ x = 1 := by omega
    rcases hx with rfl | rfl
    · exact ⟨⟨97, 0⟩, rfl, rfl, rfl, by decide⟩
    · exact ⟨⟨98, 0⟩, rfl, rfl, rfl, by decide⟩
  · intro x y
    show Printable _ (if x = 0 then 97 else 98)
    split <;> exact ⟨by decide, by decide, by decide, by decide, by decide⟩
  · intro h
    simp [Direct.Spec.seen] at h
  · decide +kernel
  · intro _ _
    rfl

/-- A frame: the cells are drawn and flushed, the first write being this. -/
def go (d : Differ) (l : List Nat) (o : Wrote) : Except Fault (Differ × Bytes) :=
  (flush Screen.ascii {} { d with v := ⟨line6 l, .empty⟩, user := {} } o .ok).map fun r => (r.1, r.2.1.written)

/-- Frames; what each writes. -/
def goes (d : Differ) : List (List Nat × Wrote) → Except Fault (List Bytes)
  | [] => .ok []
  | (l, o) :: fs => (go d l o).bind fun r => (goes r.1 fs).map fun s => r.2 :: s

/-- Negation: after a frame that was taken in two pieces, the record of the cursor is the one before it.  `abcde` is shown,
then an `x` in place of the `a`, which is taken in two pieces, then a `z` in place of the `e`: it is written where the `x`
is, since the cursor is taken to be at the end of the line. -/
theorem stalled_misplaces :
    (goes {} [([97, 98, 99, 100, 101, 0], .ok), ([120, 98, 99, 100, 101, 0], .block 1), ([120, 98, 99, 100, 122, 0], .ok)]).toOption =
      some [text [.hide, .eraseAll, .cup 1 1, .sgr [0], .put 97, .put 98, .put 99, .put 100, .put 101],
        text [.back (some 5), .put 120], text [.back none, .put 122]] ∧
    ((clearTerm 6 1).run [.hide, .eraseAll, .cup 1 1, .sgr [0], .put 97, .put 98, .put 99, .put 100, .put 101,
      .back (some 5), .put 120, .back none, .put 122]).cell 0 0 = ⟨122, {}⟩ ∧
    ((clearTerm 6 1).run [.hide, .eraseAll, .cup 1 1, .sgr [0], .put 97, .put 98, .put 99, .put 100, .put 101,
      .back (some 5), .put 120, .back none, .put 122]).cell 4 0 = ⟨101, {}⟩ ∧
    -- taken at once, it is written where it belongs
    (goes {} [([97, 98, 99, 100, 101, 0], .ok), ([120, 98, 99, 100, 101, 0], .ok), ([120, 98, 99, 100, 122, 0], .ok)]).toOption.map (·.drop 2) =
      some [text [.forward (some 3), .put 122]] := by
  decide +kernel

end Stl
end Anansi
