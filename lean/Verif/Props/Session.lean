import Verif.Model.Session
import Mathlib.Data.List.Induction
import Verif.Spec.Session
import Verif.Props.TermRun
import Verif.Props.Mode
import Verif.Props.Differ
import Verif.Props.Output
/-
**C127**: a program that uses the platform leaves the terminal as it found it, with all that was drawn meanwhile
by others.
-/
set_option autoImplicit false

namespace Anansi
namespace Sess
open Ctx Vts

/-! ### The strings written -/

namespace Spec

/-- The alternate screen, reports of the mouse, and a clean state. -/
def setOps : List Vts.Op := [.set 1049, .set 1006, .set 1002, .set 1003, .softReset, .vt (.sgr [])]

/-- And back. -/
def resetOps : List Vts.Op := [.vt (.sgr []), .softReset, .reset 1003, .reset 1002, .reset 1006, .reset 1049]

/-- The modes for reports of the mouse: in extended form, of presses and drags, of all motions. -/
def mouse : List Nat := [1006, 1002, 1003]

end Spec
open Sess.Spec

theorem mode_call (cut : Bytes → List Bytes) (m : BitVec 64) (sb rb : Bytes)
    (h : ((modeSet m).bind Seq.append, (modeReset m).bind Seq.append) = (some sb, some rb)) :
    modeCall cut m = some (.pair (cut sb) (cut rb)) := by
  simp only [Prod.mk.injEq] at h
  obtain ⟨h1, h2⟩ := h
  unfold modeCall
  cases hs : modeSet m with
  | none => simp [hs] at h1
  | some s =>
    cases hr : modeReset m with
    | none => simp [hr] at h2
    | some r =>
      rw [hs, Option.bind_some] at h1
      rw [hr, Option.bind_some] at h2
      simp [h1, h2]

theorem seq_call (cut : Bytes → List Bytes) (s : Option Seq) (b : Bytes) (h : s.bind Seq.append = some b) :
    seqCall cut s = some (.seq (cut b)) := by
  unfold seqCall
  cases s with
  | none => simp at h
  | some s => rw [Option.bind_some] at h; simp [h]

/-- **C127**, the strings: entering the terminal of a new platform tells the terminal to show the alternate screen, to
report the mouse and to start from a clean state, and exiting tells it the opposite in the opposite order; however
arrays grow and bytes are appended. -/
theorem mode_tells (grow : Nat → Nat → Nat) (cut : Bytes → List Bytes) (hc : ∀ b, (cut b).flatten = b) :
    ∃ m, mode grow cut = some m ∧ Tells (m.enter true) setOps ∧ Tells (m.exit true) resetOps := by
  have e : (calls cut).mapM id = some
      [.pair (cut (Vts.text [.set 1049])) (cut (Vts.text [.reset 1049])), .pair (cut (Vts.text [.set 1006])) (cut (Vts.text [.reset 1006])),
        .pair (cut (Vts.text [.set 1002])) (cut (Vts.text [.reset 1002])), .pair (cut (Vts.text [.set 1003])) (cut (Vts.text [.reset 1003])),
        .seq (cut (Vts.text [.softReset])), .seq (cut [0x1B, 0x5B, 0x00, 0x6D])] := by
    unfold calls
    simp only [List.map_cons, List.map_nil, List.cons_append, List.nil_append]
    rw [mode_call cut modeAlternateScreen (Vts.text [.set 1049]) (Vts.text [.reset 1049]) (by decide +kernel),
      mode_call cut modeMouseSgrExt (Vts.text [.set 1006]) (Vts.text [.reset 1006]) (by decide +kernel),
      mode_call cut modeMouseBtnEvent (Vts.text [.set 1002]) (Vts.text [.reset 1002]) (by decide +kernel),
      mode_call cut modeMouseAnyEvent (Vts.text [.set 1003]) (Vts.text [.reset 1003]) (by decide +kernel),
      seq_call cut softReset (Vts.text [.softReset]) (by decide +kernel),
      seq_call cut sgrReset [0x1B, 0x5B, 0x00, 0x6D] (by decide +kernel)]
    rfl
  refine ⟨_, by unfold mode; rw [e]; rfl, ?_, ?_⟩
  · rw [(ModeBuf.mode_strings grow _).1]
    simp only [List.flatMap_cons, List.flatMap_nil, ModeBuf.Op.setBytes, hc]
    decide +kernel
  · rw [(ModeBuf.mode_strings grow _).2]
    simp only [List.reverse_cons, List.reverse_nil, List.nil_append, List.cons_append, List.flatMap_cons, List.flatMap_nil,
      ModeBuf.Op.resetBytes, hc]
    decide +kernel

example (b : Bytes) : (b.map fun x => [x]).flatten = b := by induction b <;> simp_all

/-! ### A whole program -/

namespace Spec

/-- Following a history: whether the terminal's mode is entered, or nothing when anything was out of turn: the
mode entered twice or exited twice, a context after it entered or exited outside of it, one before it within, or a
program's own action where it should not be. -/
def nest1 : Option Bool → Ev → Option Bool
  | none, _ => none
  | some on, .enter j => if j = 3 then (if on then none else some true) else if on = decide (3 < j) then some on else none
  | some on, .exit j => if j = 3 then (if on then some false else none) else if on = decide (3 < j) then some on else none
  | some on, .close _ => if on then none else some on
  | some on, .user _ w => if on = w then some on else none

def nest (tr : List Ev) : Option Bool := tr.foldl nest1 (some false)

end Spec

/-- What is drawn at each event, other than by the mode, given what happened before: nothing by input, output and
attributes or when closing, and outside nothing hides the cursor.  NUL bytes are not written. -/
structure Draws where
  ops : List Ev → Ev → List Vt.Op
  none_enter : ∀ tr i, i < 3 → ops tr (.enter i) = []
  none_exit : ∀ tr i, i < 3 → ops tr (.exit i) = []
  none_close : ∀ tr i, ops tr (.close i) = []
  shown : ∀ tr n, .hide ∉ ops tr (.user n false)
  noNul : ∀ tr e, 0 ∉ Vt.text (ops tr e)

/-- Everything over a history, in turn. -/
def through {α : Type} (f : List Ev → Ev → List α) : List Ev → List Ev → List α
  | _, [] => []
  | pre, e :: l => f pre e ++ through f (pre ++ [e]) l

theorem through_append {α : Type} (f : List Ev → Ev → List α) : ∀ (a b pre : List Ev),
    through f pre (a ++ b) = through f pre a ++ through f (pre ++ a) b
  | [], b, pre => by simp [through]
  | e :: a, b, pre => by
    simp only [List.cons_append, through, through_append f a b, List.append_assoc, List.nil_append]

theorem through_snoc {α : Type} (f : List Ev → Ev → List α) (a : List Ev) (e : Ev) :
    through f [] (a ++ [e]) = through f [] a ++ f a e := by
  rw [through_append]; simp [through]

/-- The bytes written at an event. -/
def wrote (m : ModeBuf) (W : Draws) (tr : List Ev) (e : Ev) : Bytes :=
  if e = .enter 3 then m.enter true else if e = .exit 3 then m.exit true else Vt.text (W.ops tr e)

/-- What the terminal is told at an event. -/
def told (W : Draws) (tr : List Ev) (e : Ev) : List Vts.Op :=
  if e = .enter 3 then setOps else if e = .exit 3 then resetOps else (W.ops tr e).map .vt

/-- What is drawn at an event by others: those who use the terminal while the program does not. -/
def others (W : Draws) (tr : List Ev) (e : Ev) : List Vt.Op :=
  match e with
  | .user _ false => W.ops tr e
  | _ => []

theorem text_vt (l : List Vt.Op) : Vts.text (l.map .vt) = Vt.text l := by
  simp [Vts.text, Vt.text, List.flatMap_map, Vts.Op.bytes]

theorem text_append (a b : List Vts.Op) : Vts.text (a ++ b) = Vts.text a ++ Vts.text b := by simp [Vts.text]

theorem told_tells (m : ModeBuf) (W : Draws) (h1 : Tells (m.enter true) setOps) (h2 : Tells (m.exit true) resetOps) :
    ∀ (tr pre : List Ev), Tells (through (wrote m W) pre tr) (through (told W) pre tr)
  | [], _ => rfl
  | e :: l, pre => by
    have ih := told_tells m W h1 h2 l (pre ++ [e])
    unfold Tells at ih h1 h2 ⊢
    simp only [through, List.filter_append, text_append, ih]
    congr 1
    unfold wrote told
    split
    · exact h1
    · split
      · exact h2
      · rw [text_vt]
        apply List.filter_eq_self.2
        intro b hb
        simp only [ne_eq, decide_not, Bool.not_eq_true', decide_eq_false_iff_not]
        rintro rfl
        exact W.noNul _ _ hb

/-! #### Running -/

/-- What holds of a run: of the terminal, and of the history. -/
structure Keeps' (l : List Nat) (P : Bool → List Ev → Prop) (on : Bool) (s : List Ev × Ctx.Term) : Prop where
  act : s.2.active = on
  ctx : s.2.ctx.getD base = l
  got : on = true → s.2.ctx = some l ∧ s.2.under = true
  hist : P on s.1

theorem run_hist (v : Env) (hv : v.Calm) (l : List Nat) (P : Bool → List Ev → Prop)
    (hen : ∀ tr, P false tr → P true (tr ++ l.map Ev.enter)) (hex : ∀ tr, P true tr → P false (tr ++ l.reverse.map Ev.exit))
    (hus : ∀ on tr n, P on tr → P on (tr ++ [.user n on]))
    (hcl : ∀ tr cs, (∀ e ∈ cs, e.isClose = true) → P false tr → P false (tr ++ cs)) : ∀ (p : Prog) (on : Bool)
    (s : List Ev × Ctx.Term), p.Tagged on → p.WithoutFine → Keeps' l P on s → Keeps' l P on (run v p s).1
  | .ret r, on, s, _, _, I => I
  | .user n w p, on, s, h, hw, I => by
    refine run_hist v hv l P hen hex hus hcl p on _ h.2 hw ⟨I.act, I.ctx, I.got, ?_⟩
    rw [h.1]
    exact hus on _ n I.hist
  | .runWith body k, on, s, h, hw, I => by
    simp only [run]
    split
    · next ha =>
      rw [I.act] at ha
      refine run_hist v hv l P hen hex hus hcl (k _) on _ (h.2 _) (hw.2 _) ?_
      rw [ha] at I ⊢
      exact run_hist v hv l P hen hex hus hcl body true s h.1 hw.1 I
    · next ha =>
      have hon : on = false := by rw [← I.act]; simpa using ha
      subst hon
      have hlist : ({ s.2 with active := true, under := true } : Ctx.Term).init.list = l := I.ctx
      rw [hlist, Calm.enter hv]
      simp only [if_true]
      have I1 : Keeps' l P true (s.1 ++ l.map Ev.enter, ({ s.2 with active := true, under := true } : Ctx.Term).init) :=
        ⟨rfl, I.ctx, fun _ => ⟨by simp [Term.init, I.ctx], rfl⟩, hen _ I.hist⟩
      have I2 := run_hist v hv l P hen hex hus hcl body true _ h.1 hw.1 I1
      generalize run v body _ = b at I2 ⊢
      refine run_hist v hv l P hen hex hus hcl (k _) false _ (h.2 _) (hw.2 _) ⟨rfl, I2.ctx, by simp, ?_⟩
      have hb : b.1.2.list = l := by simp [Term.list, (I2.got rfl).1]
      obtain ⟨cs, h1, h2⟩ := closeLoop_mono v l.reverse (exitAll v b.1.1 l).1 .ok
      show P false (closeAll v _ _).1
      rw [hb, closeAll, h1, Calm.exit hv]
      exact hcl _ _ h2 (hex _ I2.hist)
  | .runWithout body k, on, s, h, hw, I => by
    simp only [run]
    split
    · next ha =>
      have hon : on = true := by rw [← I.act]; exact ha
      subst hon
      have hs : s.2.list = l := by simp [Term.list, (I.got rfl).1]
      rw [hs, Calm.exit hv]
      simp only [if_true]
      have I1 : Keeps' l P false (s.1 ++ l.reverse.map Ev.exit, { s.2 with active := false }) :=
        ⟨rfl, I.ctx, by simp, hex _ I.hist⟩
      have I2 := run_hist v hv l P hen hex hus hcl body false _ h.1 hw.2.1 I1
      have hf := fine_ok v body (s.1 ++ l.reverse.map Ev.exit, { s.2 with active := false }) hw.1
      have hk := run_under v body (s.1 ++ l.reverse.map Ev.exit, { s.2 with active := false }) (I.got rfl).2
      rw [if_pos hf]
      generalize run v body _ = b at I2 hk ⊢
      have hc := hk.2.2 l (I.got rfl).1
      have hb : b.1.2.list = l := by simp [Term.list, hc]
      rw [hb, Calm.enter hv]
      exact run_hist v hv l P hen hex hus hcl (k _) true _ (h.2 _) (hw.2.2 _) ⟨rfl, I2.ctx, fun _ => ⟨hc, hk.1⟩, hen _ I2.hist⟩
    · next ha =>
      have hon : on = false := by rw [← I.act]; simpa using ha
      subst hon
      exact run_hist v hv l P hen hex hus hcl (k _) false _ (h.2 _) (hw.2.2 _)
        (run_hist v hv l P hen hex hus hcl body false s h.1 hw.2.1 I)
  | .addContext cs k, on, s, h, _, _ => h.elim

theorem nest_snoc (tr : List Ev) (e : Ev) : nest (tr ++ [e]) = nest1 (nest tr) e := by simp [nest]

theorem nest_append (a b : List Ev) : nest (a ++ b) = b.foldl nest1 (nest a) := by simp [nest]

theorem nest_later : ∀ (cs : List Nat), (∀ i ∈ cs, 3 < i) →
    (cs.map Ev.enter).foldl nest1 (some true) = some true ∧ (cs.map Ev.exit).foldl nest1 (some true) = some true
  | [], _ => ⟨rfl, rfl⟩
  | i :: cs, h => by
    have hi := h i List.mem_cons_self
    have ih := nest_later cs fun j hj => h j (List.mem_cons_of_mem _ hj)
    have h3 : i ≠ 3 := by omega
    simp only [List.map_cons, List.foldl_cons, nest1, if_neg h3, hi, decide_true, if_true]
    exact ih

theorem nest_closes : ∀ (cs : List Ev), (∀ e ∈ cs, e.isClose = true) → cs.foldl nest1 (some false) = some false
  | [], _ => rfl
  | e :: cs, h => by
    have he := h e List.mem_cons_self
    have ih := nest_closes cs fun j hj => h j (List.mem_cons_of_mem _ hj)
    cases e with
    | close i => simpa [nest1] using ih
    | _ => simp [Ev.isClose] at he

/-- Along any program the contexts are entered and exited in turn, with those that come after the mode within it. -/
theorem run_nested (v : Env) (hv : v.Calm) (p : Prog) (t : Ctx.Term) (ha : t.active = false) (cs : List Nat)
    (hc : t.contexts = base ++ cs) (hcs : ∀ i ∈ cs, 3 < i) (ht : p.Tagged false) (hw : p.WithoutFine) :
    nest (run v p ([], t)).1.1 = some false := by
  have I := run_hist v hv (base ++ cs) (fun on tr => nest tr = some on) ?_ ?_ ?_ ?_ p false ([], t) ht hw
    ⟨ha, hc, by simp, rfl⟩
  · exact I.hist
  · intro tr h
    show nest _ = _
    rw [nest_append, h, List.map_append, List.foldl_append]
    exact (nest_later cs hcs).1
  · intro tr h
    show nest _ = _
    rw [nest_append, h, List.reverse_append, List.map_append, List.foldl_append,
      (nest_later cs.reverse fun i hi => hcs i (by simpa using hi)).2]
    rfl
  · intro on tr n h
    show nest _ = _
    rw [nest_snoc, h]
    simp [nest1]
  · intro tr es he h
    show nest _ = _
    rw [nest_append, h]
    exact nest_closes es he

/-! #### What the terminal shows -/

/-- A terminal in its usual state: with the main screen and the cursor shown, no reports of the mouse, and none of the
modes that a soft reset takes back.  A soft reset leaves the saved cursor alone. -/
structure Usual (s : Tty) : Prop where
  main : s.alt = false
  vis : s.t.vis = true
  keeps : s.homes = false
  modes : ∀ p ∈ mouse ++ softModes, s.mode p = false

theorem vts_append (s : Tty) (a b : List Vts.Op) : s.run (a ++ b) = (s.run a).run b := List.foldl_append

theorem run_vt (l : List Vt.Op) : ∀ s : Tty, s.run (l.map .vt) = { s with t := s.t.run l } := by
  induction l with
  | nil => intro s; rfl
  | cons o l ih => intro s; exact ih _

theorem lineFeed_frame (t : Vt.Term) : t.lineFeed.w = t.w ∧ t.lineFeed.h = t.h ∧ t.lineFeed.bce = t.bce ∧ t.lineFeed.vis = t.vis := by
  unfold Vt.Term.lineFeed; split <;> exact ⟨rfl, rfl, rfl, rfl⟩

theorem step_frame (t : Vt.Term) (o : Vt.Op) : (t.step o).w = t.w ∧ (t.step o).h = t.h ∧ (t.step o).bce = t.bce ∧
    (o ≠ .hide → t.vis = true → (t.step o).vis = true) := by
  cases o with
  | put r =>
    unfold Vt.Term.step
    simp only
    split
    · have h := lineFeed_frame { t with x := 0 }
      exact ⟨h.1, h.2.1, h.2.2.1, fun _ hv => by rw [h.2.2.2]; exact hv⟩
    · exact ⟨rfl, rfl, rfl, fun _ h => h⟩
  | lf => have h := lineFeed_frame t; exact ⟨h.1, h.2.1, h.2.2.1, fun _ hv => by rw [show (t.step .lf).vis = t.vis from h.2.2.2]; exact hv⟩
  | hide => exact ⟨rfl, rfl, rfl, fun h => absurd rfl h⟩
  | show_ => exact ⟨rfl, rfl, rfl, fun _ _ => rfl⟩
  | _ => exact ⟨rfl, rfl, rfl, fun _ h => h⟩

theorem run_frame (l : List Vt.Op) : ∀ t : Vt.Term, (t.run l).w = t.w ∧ (t.run l).h = t.h ∧ (t.run l).bce = t.bce ∧
    (.hide ∉ l → t.vis = true → (t.run l).vis = true) := by
  induction l with
  | nil => intro t; exact ⟨rfl, rfl, rfl, fun _ h => h⟩
  | cons o l ih =>
    intro t
    have h1 := step_frame t o
    have h2 := ih (t.step o)
    refine ⟨h2.1.trans h1.1, h2.2.1.trans h1.2.1, h2.2.2.1.trans h1.2.2.1, fun h hv => ?_⟩
    exact h2.2.2.2 (fun hm => h (List.mem_cons_of_mem _ hm)) (h1.2.2.2 (fun e => h (e ▸ List.mem_cons_self)) hv)

/-- Compared with a terminal `o` that only others draw on: outside, the terminal is the same. -/
structure Out (s : Tty) (o : Vt.Term) (S : Tty) : Prop where
  t : S.t = o
  alt : S.alt = false
  mode : S.mode = s.mode
  keeps : S.homes = false

/-- Within, the alternate screen is shown and the mouse reported; all there was is kept. -/
structure In (s : Tty) (o : Vt.Term) (S : Tty) : Prop where
  alt : S.alt = true
  hidden : S.hidden = o.cell
  saved : S.saved = cursor o
  size : S.t.w = o.w ∧ S.t.h = o.h ∧ S.t.bce = o.bce
  mode : S.mode = fun p => if p ∈ mouse then true else s.mode p
  keeps : S.homes = false

theorem enters (s : Tty) (hs : Usual s) (o : Vt.Term) (S : Tty) (h : Out s o S) : In s o (S.run setOps) where
  alt := rfl
  hidden := by
    show (if S.alt = true then S.hidden else S.t.cell) = _
    rw [h.alt, h.t]; rfl
  saved := by
    show (if S.homes = true then _ else cursor S.t) = _
    rw [h.keeps, h.t]; rfl
  size := by
    show S.t.w = o.w ∧ S.t.h = o.h ∧ S.t.bce = o.bce
    rw [h.t]; exact ⟨rfl, rfl, rfl⟩
  mode := by
    funext q
    show (if q ∈ softModes then false else if q = 1003 then true else if q = 1002 then true else if q = 1006 then true else S.mode q) = _
    rw [h.mode]
    by_cases hq : q ∈ softModes
    · have hm := hs.modes q (List.mem_append_right _ hq)
      have hn : q ∉ mouse := by
        simp only [softModes, List.mem_cons, List.not_mem_nil, or_false] at hq
        rcases hq with rfl | rfl | rfl | rfl <;> decide
      rw [if_pos hq, if_neg hn, hm]
    · rw [if_neg hq]
      simp only [mouse, List.mem_cons, List.not_mem_nil, or_false]
      split_ifs <;> first | rfl | omega
  keeps := h.keeps

theorem exits (s : Tty) (hs : Usual s) (o : Vt.Term) (ho : o.vis = true) (S : Tty) (h : In s o S) : Out s o (S.run resetOps) where
  t := by
    show recall { S.t with cell := if S.alt = true then S.hidden else S.t.cell, style := {}, vis := true } (if S.homes = true then _ else S.saved) = _
    rw [h.alt, h.keeps, h.saved, h.hidden]
    obtain ⟨w, h', b, c, x, y, pn, st, vi⟩ := o
    simp only at ho
    subst ho
    have := h.size
    simp only at this
    simp [recall, cursor, this]
  alt := rfl
  mode := by
    funext q
    show (if q = 1006 then false else if q = 1002 then false else if q = 1003 then false else if q ∈ softModes then false else S.mode q) = _
    rw [h.mode]
    by_cases hq : q ∈ mouse ++ softModes
    · rw [hs.modes q hq]
      simp only [mouse, List.mem_append, List.mem_cons, List.not_mem_nil, or_false] at hq
      split_ifs <;> first | rfl | (exfalso; simp_all)
    · have h1 : q ∉ mouse := fun a => hq (List.mem_append_left _ a)
      have h2 : q ∉ softModes := fun a => hq (List.mem_append_right _ a)
      simp only [if_neg h1, if_neg h2]
      simp only [mouse, List.mem_cons, List.not_mem_nil, or_false, not_or] at h1
      rw [if_neg h1.1, if_neg h1.2.1, if_neg h1.2.2]
  keeps := h.keeps

/-- Along a history in turn. -/
theorem follows (W : Draws) (s : Tty) (hs : Usual s) : ∀ (tr : List Ev) (on : Bool), nest tr = some on →
    (s.t.run (through (others W) [] tr)).vis = true ∧
    (on = false → Out s (s.t.run (through (others W) [] tr)) (s.run (through (told W) [] tr))) ∧
    (on = true → In s (s.t.run (through (others W) [] tr)) (s.run (through (told W) [] tr))) := by
  intro tr
  induction tr using List.reverseRecOn with
  | nil =>
    intro on h
    simp only [nest, List.foldl_nil, Option.some.injEq] at h
    subst h
    exact ⟨hs.vis, fun _ => ⟨rfl, hs.main, rfl, hs.keeps⟩, by simp⟩
  | append_singleton a e ih =>
    intro on h
    rw [nest_snoc] at h
    cases hn : nest a with
    | none => rw [hn] at h; simp [nest1] at h
    | some b =>
    rw [hn] at h
    obtain ⟨hv, h0, h1⟩ := ih b hn
    simp only [through_snoc, vts_append, Vt.run_append]
    generalize s.t.run (through (others W) [] a) = o at hv h0 h1 ⊢
    generalize s.run (through (told W) [] a) = S at h0 h1 ⊢
    -- drawing within
    have within : ∀ l : List Vt.Op, In s o S → In s o (S.run (l.map .vt)) := by
      intro l H
      rw [run_vt]
      have hf := run_frame l S.t
      exact ⟨H.alt, H.hidden, H.saved, ⟨hf.1.trans H.size.1, hf.2.1.trans H.size.2.1, hf.2.2.1.trans H.size.2.2⟩, H.mode, H.keeps⟩
    cases e with
    | enter j =>
      show (o.run []).vis = true ∧ (on = false → Out s (o.run []) _) ∧ (on = true → In s (o.run []) _)
      rw [show o.run [] = o from rfl]
      refine ⟨hv, ?_⟩
      simp only [nest1] at h
      by_cases hj : j = 3
      · subst hj
        rw [if_pos rfl] at h
        cases b with
        | true => simp at h
        | false =>
          simp only [Bool.false_eq_true, if_false, Option.some.injEq] at h
          subst h
          rw [show told W a (.enter 3) = setOps from rfl]
          exact ⟨by simp, fun _ => enters s hs o S (h0 rfl)⟩
      · rw [if_neg hj] at h
        have ht : told W a (.enter j) = (W.ops a (.enter j)).map .vt := by simp [told, hj]
        rw [ht]
        split at h
        · next hb =>
          simp only [Option.some.injEq] at h; subst h
          cases b with
          | false =>
            have : j < 3 := by have := of_decide_eq_false hb.symm; omega
            rw [W.none_enter a j this]
            exact ⟨fun _ => h0 rfl, by simp⟩
          | true => exact ⟨by simp, fun _ => within _ (h1 rfl)⟩
        · simp at h
    | exit j =>
      show (o.run []).vis = true ∧ (on = false → Out s (o.run []) _) ∧ (on = true → In s (o.run []) _)
      rw [show o.run [] = o from rfl]
      refine ⟨hv, ?_⟩
      simp only [nest1] at h
      by_cases hj : j = 3
      · subst hj
        rw [if_pos rfl] at h
        cases b with
        | false => simp at h
        | true =>
          simp only [if_true, Option.some.injEq] at h
          subst h
          rw [show told W a (.exit 3) = resetOps from rfl]
          exact ⟨fun _ => exits s hs o hv S (h1 rfl), by simp⟩
      · rw [if_neg hj] at h
        have ht : told W a (.exit j) = (W.ops a (.exit j)).map .vt := by simp [told, hj]
        rw [ht]
        split at h
        · next hb =>
          simp only [Option.some.injEq] at h; subst h
          cases b with
          | false =>
            have : j < 3 := by have := of_decide_eq_false hb.symm; omega
            rw [W.none_exit a j this]
            exact ⟨fun _ => h0 rfl, by simp⟩
          | true => exact ⟨by simp, fun _ => within _ (h1 rfl)⟩
        · simp at h
    | close j =>
      show (o.run []).vis = true ∧ (on = false → Out s (o.run []) _) ∧ (on = true → In s (o.run []) _)
      rw [show o.run [] = o from rfl]
      refine ⟨hv, ?_⟩
      have ht : told W a (.close j) = (W.ops a (.close j)).map .vt := rfl
      rw [ht, W.none_close]
      cases b with
      | true => simp [nest1] at h
      | false =>
        simp only [nest1, Bool.false_eq_true, if_false, Option.some.injEq] at h
        subst h
        exact ⟨fun _ => h0 rfl, by simp⟩
    | user n w =>
      have ht : told W a (.user n w) = (W.ops a (.user n w)).map .vt := rfl
      rw [ht]
      simp only [nest1] at h
      split at h
      · next hb =>
        simp only [Option.some.injEq] at h; subst h; subst hb
        cases b with
        | true => exact ⟨hv, by simp, fun _ => within _ (h1 rfl)⟩
        | false =>
          have H := h0 rfl
          rw [show others W a (.user n false) = W.ops a (.user n false) from rfl]
          refine ⟨(run_frame _ o).2.2.2 (W.shown a n) hv, fun _ => ?_, by simp⟩
          rw [run_vt]
          exact ⟨by rw [H.t], H.alt, H.mode, H.keeps⟩
      · simp at h

/-- **C127**: a program runs on the terminal of a new platform, with any contexts added to it, suspending and resuming
as it likes; whatever it draws and others draw meanwhile, the terminal shows in the end what it would show if it had not
run: the main screen with what the others have drawn, the cursor where they left it and as they left it; and all modes
are as they were.  Whenever the program itself draws, the alternate screen is shown and the mouse is reported in the
extended form; whenever others draw, the terminal is as if only they had drawn on it. -/
theorem session_restored_partial (grow : Nat → Nat → Nat) (cut : Bytes → List Bytes) (hc : ∀ b, (cut b).flatten = b)
    (v : Env) (hv : v.Calm) (p : Prog) (t : Ctx.Term) (ha : t.active = false) (cs : List Nat)
    (ht : t.contexts = base ++ cs) (hcs : ∀ i ∈ cs, 3 < i) (hp : p.Tagged false) (hw : p.WithoutFine)
    (W : Draws) (s : Tty) (hs : Usual s) (tr : List Ev) (htr : (run v p ([], t)).1.1 = tr) :
    ∃ m, mode grow cut = some m ∧ Tells (through (wrote m W) [] tr) (through (told W) [] tr) ∧
      (s.run (through (told W) [] tr)).t = s.t.run (through (others W) [] tr) ∧
      (s.run (through (told W) [] tr)).alt = false ∧
      (s.run (through (told W) [] tr)).mode = s.mode ∧
      ∀ a n w b, tr = a ++ .user n w :: b → (s.run (through (told W) [] a)).alt = w ∧
        (s.run (through (told W) [] a)).mode = (fun q => if w ∧ q ∈ mouse then true else s.mode q) ∧
        (if w then (s.run (through (told W) [] a)).hidden = (s.t.run (through (others W) [] a)).cell
          else (s.run (through (told W) [] a)).t = s.t.run (through (others W) [] a)) := by
  obtain ⟨m, hm, h1, h2⟩ := mode_tells grow cut hc
  have hn := run_nested v hv p t ha cs ht hcs hp hw
  rw [htr] at hn
  obtain ⟨-, ho, -⟩ := follows W s hs tr false hn
  have H := ho rfl
  refine ⟨m, hm, told_tells m W h1 h2 tr [], H.t, H.alt, H.mode, ?_⟩
  intro a n w b hab
  have hna : nest a = some w := by
    rw [hab, nest_append] at hn
    cases hx : nest a with
    | none =>
      exfalso
      rw [hx] at hn
      have : ∀ l : List Ev, l.foldl nest1 none = none := by
        intro l; induction l with
        | nil => rfl
        | cons e l ih => exact ih
      rw [this] at hn; simp at hn
    | some on =>
      rw [hx, List.foldl_cons] at hn
      simp only [nest1] at hn
      split at hn
      · next e => rw [e]
      · have : ∀ l : List Ev, l.foldl nest1 none = none := by
          intro l; induction l with
          | nil => rfl
          | cons e l ih => exact ih
        rw [this] at hn; simp at hn
  obtain ⟨-, g0, g1⟩ := follows W s hs a w hna
  cases w with
  | false =>
    have G := g0 rfl
    exact ⟨G.alt, by rw [G.mode]; simp, G.t⟩
  | true =>
    have G := g1 rfl
    exact ⟨G.alt, by rw [G.mode]; simp, G.hidden⟩

/-- A terminal with something on it. -/
def tty : Tty where
  t := ⟨80, 24, true, fun a b => ⟨0x41 + a % 20 + b, {}⟩, 3, 4, false, { bold := true }, true⟩
  hidden := fun _ _ => Vt.blank
  alt := false
  saved := ⟨7, 8, false, {}⟩
  mode := fun p => p == 7
  homes := false

/-- The program draws `!` and hides the cursor, its screen shows it again; others write `ok`. -/
def draws : Draws where
  ops := fun _ e => match e with
    | .user _ true => [.cup 1 1, .put 0x21, .hide]
    | .user _ false => [.put 0x6F, .put 0x6B, .cr, .lf]
    | .exit 6 => [.sgr [], .show_]
    | _ => []
  none_enter := by intro tr i hi; rfl
  none_exit := by
    intro tr i hi
    split
    · simp_all
    · simp_all
    · next h => simp only [Ev.exit.injEq] at h; omega
    · rfl
  none_close := by intros; rfl
  shown := by intro tr n; simp
  noNul := by
    intro tr e
    split <;> decide +kernel

/-- A program that is suspended once, on a platform's terminal. -/
def prog : Prog :=
  .user 0 false (.runWith (.user 1 true (.runWithout (.user 2 false (.ret .ok)) fun _ => .user 3 true (.ret (.err 1)))) .ret)

def term : Ctx.Term := { ctx := some [0, 1, 2, 3, 4, 5, 6, 7, 8, 9] }

example : Usual tty ∧ prog.Tagged false ∧ prog.WithoutFine ∧ term.active = false ∧ term.contexts = base ++ [4, 5, 6, 7, 8, 9] ∧
    (tty.run (through (told draws) [] (run calm prog ([], term)).1.1)).t.cell 4 4 = ⟨0x6B, { bold := true }⟩ :=
  ⟨⟨rfl, rfl, rfl, by decide⟩, by simp [prog, Prog.Tagged], by simp [prog, Prog.WithoutFine, Prog.Fine], rfl, rfl, by decide +kernel⟩

/-! ### What is not restored -/

/-- **C127**, one that has a single saved cursor and takes it home at a soft reset: the screen is shown again, but the
cursor ends in the first cell, without renditions, wherever it was. -/
theorem homes_loses_cursor (s : Tty) (hs : s.alt = false) (hh : s.homes = true) (ds : List Vt.Op) :
    (s.run (setOps ++ ds.map .vt ++ resetOps)).t.cell = s.t.cell ∧ (s.run (setOps ++ ds.map .vt ++ resetOps)).alt = false ∧
    cursor (s.run (setOps ++ ds.map .vt ++ resetOps)).t = ⟨0, 0, false, {}⟩ := by
  rw [vts_append, vts_append, run_vt]
  refine ⟨?_, rfl, ?_⟩
  · show (if s.alt = true then s.hidden else s.t.cell) = _
    rw [hs]; rfl
  · show (if s.homes = true then _ else _) = _
    rw [if_pos hh]

/-- A context whose `Enter` fails. -/
def failing (i : Nat) : Env := ⟨fun _ e => if e = .enter i then .err 1 else .ok, fun _ => false⟩

/-- **C127**, negation: if a context before the mode fails to be entered (the attributes, say, because they cannot be
set), the mode is reset though it was never set: the cursor jumps to wherever it was saved last. -/
theorem failed_enter_moves (W : Draws) (s : Tty) (hs : Usual s) :
    (run (failing 2) (.runWith (.ret .ok) .ret) ([], {})).1.1 =
      [.enter 0, .enter 1, .enter 2, .exit 3, .exit 2, .exit 1, .exit 0] ∧
    cursor (s.run (through (told W) [] (run (failing 2) (.runWith (.ret .ok) .ret) ([], {})).1.1)).t = s.saved := by
  have h : (run (failing 2) (.runWith (.ret .ok) .ret) ([], {})).1.1 =
      [.enter 0, .enter 1, .enter 2, .exit 3, .exit 2, .exit 1, .exit 0] := by decide +kernel
  refine ⟨h, ?_⟩
  rw [h]
  simp only [through, told, reduceCtorEq, if_false, if_true, Ev.enter.injEq, Ev.exit.injEq, Nat.reduceEqDiff,
    W.none_enter _ 0 (by omega), W.none_enter _ 1 (by omega), W.none_enter _ 2 (by omega),
    W.none_exit _ 0 (by omega), W.none_exit _ 1 (by omega), W.none_exit _ 2 (by omega), List.map_nil, List.nil_append, List.append_nil]
  show (if s.homes = true then _ else s.saved) = _
  rw [hs.keeps]; rfl

/-- **C127**, negation: if a function run without the terminal's context fails, the mode is reset a second time when the
program ends: the cursor is back where it was before the program, though others have written since. -/
theorem failed_without_moves (W : Draws) (s : Tty) (hs : Usual s) :
    cursor (s.run (through (told W) [] (run calm (.runWith (.runWithout (.user 0 false (.ret (.err 1))) .ret) .ret) ([], {})).1.1)).t =
      cursor s.t := by
  have h : (run calm (.runWith (.runWithout (.user 0 false (.ret (.err 1))) .ret) .ret) ([], {})).1.1 =
      [.enter 0, .enter 1, .enter 2, .enter 3] ++ [.exit 3, .exit 2, .exit 1, .exit 0] ++ [.user 0 false] ++
        [.exit 3, .exit 2, .exit 1, .exit 0] ++ [.close 3, .close 2, .close 1, .close 0] := by decide +kernel
  rw [h]
  simp only [List.cons_append, List.nil_append, through, told, reduceCtorEq, if_false, if_true, Ev.enter.injEq, Ev.exit.injEq, Nat.reduceEqDiff,
    W.none_enter _ 0 (by omega), W.none_enter _ 1 (by omega), W.none_enter _ 2 (by omega),
    W.none_exit _ 0 (by omega), W.none_exit _ 1 (by omega), W.none_exit _ 2 (by omega), W.none_close, List.map_nil, List.nil_append, List.append_nil]
  rw [vts_append, vts_append, vts_append, run_vt]
  show (if s.homes = true then _ else if s.homes = true then _ else if s.homes = true then _ else cursor s.t) = _
  rw [hs.keeps]; rfl

/-- With others that write a line, that is not where they left it. -/
example : cursor (tty.t.run (through (others draws) [] [.user 0 false])) = ⟨0, 5, false, { bold := true }⟩ ∧
    cursor tty.t = ⟨3, 4, false, { bold := true }⟩ := by decide +kernel

/-! ### The screen -/

theorem cleared (d : Differ) (w h : Nat) (W : d.v.sc.Whole w h) : ∃ d1, d.reset = .ok d1 ∧ d1.real = d.real ∧ d1.user = {} ∧
    d1.v.buf = ⟨[], 0⟩ ∧ d1.v.sc.Whole w h ∧ ∀ c ∈ d1.v.sc.grid.data, c = {} := by
  have hns := Differ.whole_not_sub W
  have hc : d.v.sc.grid.clear = some (List.replicate d.v.sc.grid.len ({} : Cell) ++ d.v.sc.grid.cells.drop d.v.sc.grid.len) := by
    unfold Grid.clear; rw [hns]; simp
  refine ⟨⟨{}, ⟨{ cur := d.real.cur, grid := { d.v.sc.grid with cells := List.replicate d.v.sc.grid.len ({} : Cell) ++ d.v.sc.grid.cells.drop d.v.sc.grid.len } }, ⟨[], 0⟩⟩, d.real⟩,
    by unfold Differ.reset Differ.clear Screen.clear; rw [hc]; rfl, rfl, rfl, rfl, ?_, ?_⟩
  · refine ⟨W.hw, W.hh, W.rect, W.stride, W.len, ?_⟩
    show w * h ≤ (List.replicate d.v.sc.grid.len ({} : Cell) ++ _).length
    rw [List.length_append, List.length_replicate, W.len]
    omega
  · intro c hc
    unfold Grid.data at hc
    simp only at hc
    rw [List.take_append_of_le_length (by simp)] at hc
    exact List.eq_of_mem_replicate (List.mem_of_mem_take hc)

/-- **C127**, the platform's screen: when it is exited, the terminal's rendition is plain and its cursor visible,
whatever it showed, and nothing else changes; all that was staged is dropped.  What is not written for an error stays in
the buffer. -/
theorem screen_exited (d : Differ) (w h : Nat) (W : d.v.sc.Whole w h) (out : Outp.Output) (f : Outp.File) (hf : out.file = some f)
    (y : Outp.Sys) (t : Vt.Term) (A : Agree d.real.cur t) :
    ∃ d' out' f' e ops rest, d.exit out y = .ok (d', out', e) ∧ out'.file = some f' ∧
      f'.written ++ rest = f.written ++ Vt.text ops ∧ (e = .nil → rest = []) ∧ d'.v.buf.buf = rest ∧
      t.run ops = { t with style := {}, vis := true } ∧
      d'.real = { d.real with cur := { d.real.cur with attr := 0, attrKnown := true, visible := true, visKnown := true } } ∧
      d'.user = {} ∧ d'.v.sc.Whole w h ∧ ∀ c ∈ d'.v.sc.grid.data, c = {} := by
  obtain ⟨d1, e1, e2, e3, e4, e5, e6⟩ := cleared d w h W
  obtain ⟨o1, g1, g2, g3⟩ := merge_sgr_shows d.real.cur {} rfl t A.attr
  have z : ({} : Sgr.Style).build = 0 := by decide +kernel
  rw [z] at g1 g3
  obtain ⟨c', q, b, k1, k2, k3⟩ := show_text (d.real.cur.mergeSGR 0).1
  obtain ⟨o2, hb, hrun, hc'⟩ : ∃ o2, b = Vt.text o2 ∧ (t.run o1).run o2 = { t with style := {}, vis := true } ∧
      c' = { d.real.cur with attr := 0, attrKnown := true, visible := true, visKnown := true } := by
    rw [g3] at k3
    rcases k3 with ⟨v1, v2, v3, v4⟩ | ⟨v3, v4⟩
    · refine ⟨[], v4, ?_, ?_⟩
      · rw [g2]
        have hv : t.vis = true := by rw [A.vis v1]; exact v2
        obtain ⟨_, _, _, _, _, _, _, _, vi⟩ := t
        simp only at hv
        subst hv
        rfl
      · rw [v3]
        simp only at v1 v2
        simp [v1, v2]
    · exact ⟨[.show_], v4, by rw [g2]; rfl, by rw [v3]⟩
  have hops : sgrText (d.real.cur.mergeSGR 0).2 ++ b = Vt.text (o1 ++ o2) := by rw [g1, hb, Vt.text_append]
  have hx : d.exit out y = (if (Vt.text (o1 ++ o2)).length > 0 then
      .ok ({ d1 with real := { d.real with cur := c' }, v := { d1.v with buf := (d1.v.buf.write (Vt.text (o1 ++ o2))).writeTo ((Vt.text (o1 ++ o2)).length - (out.flush (Vt.text (o1 ++ o2)) y).2.1.length) } },
        (out.flush (Vt.text (o1 ++ o2)) y).1, (out.flush (Vt.text (o1 ++ o2)) y).2.2)
      else .ok ({ d1 with real := { d.real with cur := c' }, v := { d1.v with buf := d1.v.buf.write (Vt.text (o1 ++ o2)) } }, out, .nil)) := by
    unfold Differ.exit
    rw [e1]
    simp only [Except.bind, e2, k1, k2, hops, e4, Buffer.write, List.nil_append]
  by_cases hl : (Vt.text (o1 ++ o2)).length > 0
  · obtain ⟨f', wr, l1, l2, l3, -, l5⟩ := Outp.flush_loses_nothing out f (Vt.text (o1 ++ o2)) y hf
    rw [if_pos hl] at hx
    refine ⟨_, _, f', _, o1 ++ o2, (out.flush (Vt.text (o1 ++ o2)) y).2.1, hx, l1, ?_, l5, ?_, ?_, ?_, e3, e5, e6⟩
    · rw [l2, List.append_assoc, ← l3]
    · simp only [e4, Buffer.write, Buffer.writeTo, List.nil_append]
      have : (Vt.text (o1 ++ o2)).length - (out.flush (Vt.text (o1 ++ o2)) y).2.1.length = wr.length := by
        have := congrArg List.length l3
        rw [List.length_append] at this
        omega
      rw [this]
      conv_lhs => rw [l3]
      exact List.drop_left
    · rw [Vt.run_append]; exact hrun
    · rw [hc']
  · rw [if_neg hl] at hx
    have h0 : Vt.text (o1 ++ o2) = [] := List.length_eq_zero_iff.1 (by omega)
    refine ⟨_, _, f, _, o1 ++ o2, [], hx, hf, ?_, fun _ => rfl, ?_, ?_, ?_, e3, e5, e6⟩
    · rw [h0]
    · simp only [e4, Buffer.write, h0]; rfl
    · rw [Vt.run_append]; exact hrun
    · rw [hc']

theorem resize_pt (sc : Screen) (z : Nat × Nat) : (sc.resize z).1.cur = sc.cur ∨
    (sc.resize z).1.cur = { sc.cur with pt := Geom.zp } := by
  unfold Screen.resize
  split
  · simp only
    split
    · exact Or.inl rfl
    · exact Or.inr rfl
  · exact Or.inl rfl

theorem forgets_pt (d : Differ) (hw : (∃ w h, d.real.Whole w h) ∨ Geom.valid d.real.cur.pt = false) :
    Geom.valid d.invalidate.real.cur.pt = false ∧ d.invalidate.real.cur.attr = d.real.cur.attr ∧
      d.invalidate.real.cur.visible = d.real.cur.visible := by
  have hz : Geom.valid Geom.zp = false := by decide
  unfold Differ.invalidate
  simp only
  rcases hw with ⟨w, h, W⟩ | hp
  · have : (d.real.resize (0, 0)).1.cur = { d.real.cur with pt := Geom.zp } := by
      have hns := Differ.whole_not_sub W
      have h1 := W.hw
      have h2 := W.hh
      unfold Screen.resize Grid.resize
      rw [hns]
      have hne : Grid.sz (0, 0) ≠ Geom.size d.real.grid.rect := by
        rw [W.rect]; simp [Grid.sz, Geom.size]; omega
      rw [if_neg hne]
      simp only [Bool.false_eq_true, if_false, Nat.zero_mul, Nat.not_lt_zero, gt_iff_lt, if_true, W.rect]
      rw [if_neg]
      simp [Geom.ptIn, Geom.ptAdd, Grid.sz, Geom.zp]
    rw [this]
    exact ⟨hz, rfl, rfl⟩
  · rcases resize_pt d.real (0, 0) with h | h <;> rw [h]
    · exact ⟨hp, rfl, rfl⟩
    · exact ⟨hz, rfl, rfl⟩

/-- **C127**, resuming: after that, whatever happened to the terminal meanwhile, once the mode is set and the screen entered
again, its recorded cursor agrees with the terminal's, it takes the terminal's size, and the next frame is drawn in full. -/
theorem screen_resumed (d : Differ) (ha : d.real.cur.attr = 0) (hv : d.real.cur.visible = true)
    (hw : (∃ w h, d.real.Whole w h) ∨ Geom.valid d.real.cur.pt = false) (sz : Nat × Nat) (s : Tty) :
    Agree (d.enter (some sz)).real.cur (s.run setOps).t ∧ Geom.empty (d.enter (some sz)).real.grid.rect = true := by
  have h1 := forgets_pt d hw
  have key : ∀ c : Cursor, Geom.valid c.pt = false → c.attr = 0 → c.visible = true → Agree c (s.run setOps).t := by
    intro c c1 c2 c3
    refine ⟨by rw [c1]; simp, fun _ => ⟨rfl, ?_⟩, fun _ => ?_⟩
    · rw [c2]
      show (0 : Attr) = ({} : Sgr.Style).build
      decide +kernel
    · rw [c3]; rfl
  have e : (d.enter (some sz)) = (d.invalidate.resize sz).1 := rfl
  rw [e]
  unfold Differ.resize
  simp only
  split
  · have h2 := forgets_pt { d.invalidate with v := { d.invalidate.v with sc := (d.invalidate.v.sc.resize sz).1 } } (Or.inr h1.1)
    exact ⟨key _ h2.1 (by rw [h2.2.1]; exact h1.2.1.trans ha) (by rw [h2.2.2]; exact h1.2.2.trans hv), Differ.invalid_empty _⟩
  · exact ⟨key _ h1.1 (h1.2.1.trans ha) (h1.2.2.trans hv), Differ.invalid_empty _⟩

/-- **C127**, negation: if the terminal's size cannot be had when the screen is entered again, `Enter` returns no error but
forgets nothing: wherever the terminal's cursor is now, the next frame is drawn as if it were still where it was. -/
theorem size_error_stale (d : Differ) (hp : Geom.valid d.real.cur.pt = true) (s : Tty) (h1 : ¬ s.t.At d.real.cur.pt)
    (h2 : ¬ s.t.Past d.real.cur.pt) : d.enter none = d ∧ ¬ Agree (d.enter none).real.cur (s.run setOps).t := by
  refine ⟨rfl, fun A => ?_⟩
  rcases A.pos hp with h | h
  · exact h1 h
  · exact h2 h

/-- A screen of two cells that shows `x` in bold, with the cursor hidden. -/
def differ : Differ where
  v := { sc := (({} : Screen).resize (2, 1)).1 }
  real := { cur := { pt := ⟨2, 1⟩, attr := ({ bold := true } : Sgr.Style).build, attrKnown := true, visKnown := true },
            grid := ((({} : Screen).resize (2, 1)).1).grid }

example : differ.v.sc.Whole 2 1 ∧ differ.real.Whole 2 1 :=
  ⟨⟨by decide, by decide, by decide +kernel, by decide +kernel, by decide +kernel, by decide +kernel⟩,
    ⟨by decide, by decide, by decide +kernel, by decide +kernel, by decide +kernel, by decide +kernel⟩⟩

example : Agree differ.real.cur ⟨2, 1, true, fun _ _ => Vt.blank, 1, 0, false, { bold := true }, false⟩ :=
  ⟨fun _ => Or.inl ⟨⟨by decide, by decide⟩, rfl, by decide⟩, fun _ => ⟨rfl, rfl⟩, fun _ => rfl⟩

example : (differ.exit { file := some {} } { first := ⟨100, .other⟩, second := ⟨0, .other⟩ }).toOption.map (fun r => (r.2.1.file.map (·.written), r.2.2)) =
    some (some (Vt.text [.sgr [0], .show_]), .nil) := by decide +kernel

end Sess
end Anansi
