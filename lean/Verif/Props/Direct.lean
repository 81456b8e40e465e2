import Verif.Props.Render
import Verif.Props.Differ
import Verif.Props.Emulate
/-
C131: drawing frame after frame through the differ shows on the terminal what drawing on the terminal
directly would show.
-/
set_option autoImplicit false

namespace Anansi
open Vt Geom Render

namespace Direct
open Anansi.Spec

/-- What a client does in a frame, up to the flush: `Clear`, calls on the screen, and setting the user
cursor (`screen.go:22-55`). -/
def draw (gr : Nat → Bool) (d : Differ) (calls : List VScreen.Op) (user : Cursor) : Except Fault Differ :=
  d.clear.bind fun d => (d.v.ops gr calls).map fun v => { d with v, user }

namespace Spec

/-- What the calls would have drawn on a terminal just cleared. -/
def picture (w h : Nat) (calls : List ScreenCall) : Term := (ScreenCall.runs (clearTerm w h) .exact calls).1

/-- No style is left hanging: after the last call that sets a style something is written. -/
def finished : List ScreenCall → Bool → Bool
  | [], e => e
  | .write _ :: t, _ => finished t true
  | .style _ :: t, _ => finished t false
  | .move _ :: t, e => finished t e

/-- The cells to write: those which look different from what was shown, or all that hold anything if
nothing is known to be shown. -/
def cells (w h : Nat) (old : Option Screen) (sc : Screen) : List Pt :=
  points w h (match old with | some o => altered o sc | none => drawn sc)

/-- Where the cursor is after writing there. -/
def stop (a : Pt) (l : List Pt) : Pt :=
  match l.getLast? with
  | some p => ⟨p.x + 1, p.y⟩
  | none => a

/-- The user's cursor is to be seen. -/
def seen (user : Cursor) : Bool := user.visible && valid user.pt

/-- The user's cursor is hidden, or on the screen and in some style. -/
def Placed (w h : Nat) (user : Cursor) : Prop :=
  seen user = true → (∃ x y : Nat, x < w ∧ y < h ∧ user.pt = ⟨x + 1, y + 1⟩) ∧ ∃ s : Sgr.Style, s.clear = false ∧ user.attr = s.build

/-- Where the cursor rests after a frame. -/
def rest (w h : Nat) (old : Option Screen) (a : Pt) (sc : Screen) (user : Cursor) : Pt :=
  if seen user then user.pt else stop a (cells w h old sc)

/-- The frame takes no awkward jumps, and erasing everything does not colour the screen. -/
structure Easy (t : Term) (old : Option Screen) (a : Pt) (sc : Screen) (user : Cursor) : Prop where
  jumps : Smooth t.w a (cells t.w t.h old sc ++ if seen user then [user.pt] else [])
  plain : old = none → t.bce = true → t.style.bg = none

end Spec

/-! ### Buffers -/

theorem write_empties (gr : Nat → Bool) {v v' : VScreen} {p : Bytes} (h : v.write gr p = .ok v') (S : Emu.Settled v') : v'.buf.buf = [] := by
  unfold VScreen.write VScreen.process at h
  split at h
  · cases h
  · next evs b _ =>
    revert h
    cases v.sc.processAll gr evs with
    | error e => intro h; cases h
    | ok sc =>
      intro h
      injection h with h
      subst h
      unfold Emu.Settled Buffer.discard at S
      show (Buffer.discard _).buf = []
      unfold Buffer.discard
      split at S
      · rename_i h0
        rw [if_pos h0]
        simp only at S ⊢
        exact List.length_eq_zero_iff.mp S.symm
      · rename_i h0
        rw [if_neg h0]
        have S' : b.off = b.buf.length := S
        exact List.length_eq_zero_iff.mp (by omega)

/-- The calls of a frame: the screen is the picture, and nothing is left over. -/
theorem staged (gr : Nat → Bool) : ∀ (l : List ScreenCall) (v : VScreen) (t : Term) (ph : Phase) (e : Bool),
    Emulates v.sc t ph → Emu.Settled v → ScreenCall.Session gr t ph l → (e = true → v.buf.buf = []) → Spec.finished l e = true →
    ∃ v', v.ops gr (l.map ScreenCall.op) = .ok v' ∧ v'.buf.buf = [] ∧
      Emulates v'.sc (ScreenCall.runs t ph l).1 (ScreenCall.runs t ph l).2
  | [], v, _, _, e, E, S, _, hb, hf => ⟨v, rfl, hb hf, E⟩
  | c :: l, v, t, ph, e, E, S, h, hb, hf => by
    obtain ⟨v1, e1, e2, e3⟩ := Emu.call_step gr E S c h.1
    have hnext : ∃ e', (e' = true → v1.buf.buf = []) ∧ Spec.finished l e' = true := by
      cases c with
      | write a => exact ⟨true, fun _ => write_empties gr e1 e2, hf⟩
      | style a => exact ⟨false, fun h => (by cases h), hf⟩
      | move p =>
        refine ⟨e, fun he => ?_, hf⟩
        injection e1 with e1
        rw [← e1]
        exact hb he
    obtain ⟨e', hb', hf'⟩ := hnext
    obtain ⟨v2, g1, g2, g3⟩ := staged gr l v1 _ _ e' e3 e2 h.2 hb' hf'
    refine ⟨v2, ?_, g2, g3⟩
    simp only [List.map_cons, VScreen.ops, e1]
    exact g1

/-! ### What is drawn can be shown -/

theorem printed_feed {gr : Nat → Bool} {t : Term} (hsp : Printable gr 0x20) (h : ∀ x y, Printable gr (t.cell x y).rune) (x y : Nat) :
    Printable gr (t.lineFeed.cell x y).rune := by
  unfold Term.lineFeed Term.erased
  split
  · exact h x y
  · simp only
    split
    · exact h _ _
    · split <;> exact hsp

theorem erased_print {gr : Nat → Bool} (hsp : Printable gr 0x20) (t : Term) : Printable gr t.erased.rune := by
  unfold Term.erased
  split <;> exact hsp

theorem act_print {gr : Nat → Bool} (hsp : Printable gr 0x20) {t : Term} {ph : Phase} (a : Act) (ok : a.Ok gr t ph)
    (h : ∀ x y, Printable gr (t.cell x y).rune) : ∀ x y, Printable gr ((a.after t).cell x y).rune := by
  have her : ∀ (r : Nat → Nat → Bool) x y, Printable gr ((Act.erase t r).cell x y).rune := by
    intro r x y
    unfold Act.erase
    simp only
    split
    · exact erased_print hsp t
    · exact h x y
  intro x y
  cases a with
  | op o =>
    cases o with
    | put r =>
      have h1 : Printable gr r := ok.1
      have key : ∀ u : Term, (∀ x y, Printable gr (u.cell x y).rune) →
          Printable gr (if x = u.x ∧ y = u.y then (⟨r, u.style⟩ : Glyph) else u.cell x y).rune := by
        intro u hu
        split
        · exact h1
        · exact hu x y
      refine key (if t.pend then { t with x := 0 }.lineFeed else t) ?_
      split
      · exact printed_feed hsp (t := { t with x := 0 }) h
      · exact h
    | lf => exact printed_feed hsp h x y
    | eraseAll => exact erased_print hsp t
    | sgr l => exact absurd ok (by simp [Act.Ok])
    | _ => exact h x y
  | sgr l => exact h x y
  | home => exact h x y
  | row n => exact h x y
  | eraseAbove => exact her _ x y
  | eraseRight => exact her _ x y
  | eraseLeft => exact her _ x y
  | eraseLine => exact her _ x y

theorem flow_print {gr : Nat → Bool} (hsp : Printable gr 0x20) : ∀ (l : List Act) (t : Term) (ph : Phase), Act.Flow gr t ph l →
    (∀ x y, Printable gr (t.cell x y).rune) → ∀ x y, Printable gr ((Act.run t ph l).1.cell x y).rune
  | [], _, _, _, h => h
  | a :: l, _, _, f, h => flow_print hsp l _ _ f.2 (act_print hsp a f.1 h)

theorem calls_print {gr : Nat → Bool} (hsp : Printable gr 0x20) : ∀ (l : List ScreenCall) (t : Term) (ph : Phase),
    ScreenCall.Session gr t ph l → (∀ x y, Printable gr (t.cell x y).rune) → ∀ x y, Printable gr ((ScreenCall.runs t ph l).1.cell x y).rune
  | [], _, _, _, h => h
  | c :: l, t0, _, s, h => by
    refine calls_print hsp l _ _ s.2 ?_
    cases c with
    | write a => exact flow_print hsp a _ _ s.1 h
    | style a =>
      intro x y
      have : ∀ (a : List Sgr.Style) (t : Term), (a.foldl (fun t s => { t with style := s }) t).cell = t.cell := by
        intro a
        induction a with
        | nil => intro t; rfl
        | cons s a ih => intro t; rw [List.foldl_cons, ih]
      show Printable gr ((a.foldl (fun t s => { t with style := s }) t0).cell x y).rune
      rw [this]
      exact h x y
    | move p => exact h

theorem drawable_of {gr : Nat → Bool} {sc : Screen} {t : Term} {w h : Nat} (W : sc.Whole w h) (S : Shows t sc w h)
    (hp : ∀ x y, Printable gr (t.cell x y).rune) : ∀ c ∈ sc.grid.data, Drawable gr c := by
  intro c hc
  obtain ⟨i, hi, rfl⟩ := List.getElem_of_mem hc
  have hl := data_length W
  have hw := W.hw
  have hiw : i < w * h := by omega
  obtain ⟨hc', hd⟩ := data_get W hiw
  have hmod : i % w < w := Nat.mod_lt _ (by omega)
  have hdiv : i / w < h := by rw [Nat.div_lt_iff_lt_mul (by omega), Nat.mul_comm]; exact hiw
  obtain ⟨c, e, k1, k2, k3⟩ := S.2.2 (i % w) (i / w) hmod hdiv
  unfold Screen.look at e
  rw [Nat.div_add_mod'] at e
  have : sc.grid.data[i] = c := by
    rw [List.getElem?_eq_getElem hi] at hd
    rw [List.getElem?_eq_getElem hc'] at e
    injection hd with hd
    injection e with e
    rw [hd, e]
  rw [this]
  refine ⟨?_, _, k2, k3⟩
  by_cases hz : c.rune = 0
  · exact Or.inl hz
  · right
    have := hp (i % w) (i / w)
    rw [k1] at this
    simpa [ink, hz] using this

theorem feed_size (t : Term) : t.lineFeed.w = t.w ∧ t.lineFeed.h = t.h := by
  unfold Term.lineFeed
  split <;> exact ⟨rfl, rfl⟩

theorem act_size (t : Term) (a : Act) : (a.after t).w = t.w ∧ (a.after t).h = t.h := by
  cases a with
  | op o =>
    cases o with
    | put r =>
      show (t.step (.put r)).w = t.w ∧ (t.step (.put r)).h = t.h
      unfold Term.step
      simp only
      split
      · exact feed_size _
      · exact ⟨rfl, rfl⟩
    | lf => exact feed_size t
    | _ => exact ⟨rfl, rfl⟩
  | _ => exact ⟨rfl, rfl⟩

theorem run_size : ∀ (l : List Act) (t : Term) (ph : Phase), (Act.run t ph l).1.w = t.w ∧ (Act.run t ph l).1.h = t.h
  | [], _, _ => ⟨rfl, rfl⟩
  | a :: l, t, ph => by
    obtain ⟨h1, h2⟩ := run_size l (a.after t) (a.next t ph)
    obtain ⟨k1, k2⟩ := act_size t a
    exact ⟨h1.trans k1, h2.trans k2⟩

theorem runs_size : ∀ (l : List ScreenCall) (t : Term) (ph : Phase), (ScreenCall.runs t ph l).1.w = t.w ∧ (ScreenCall.runs t ph l).1.h = t.h
  | [], _, _ => ⟨rfl, rfl⟩
  | c :: l, t, ph => by
    obtain ⟨h1, h2⟩ := runs_size l (c.run t ph).1 (c.run t ph).2
    have hc : (c.run t ph).1.w = t.w ∧ (c.run t ph).1.h = t.h := by
      cases c with
      | write a => exact run_size a t ph
      | style a =>
        have : ∀ (a : List Sgr.Style) (t : Term), (a.foldl (fun t s => { t with style := s }) t).w = t.w ∧
            (a.foldl (fun t s => { t with style := s }) t).h = t.h := by
          intro a
          induction a with
          | nil => intro t; exact ⟨rfl, rfl⟩
          | cons s a ih => intro t; rw [List.foldl_cons]; exact ih _
        exact this a t
      | move p => exact ⟨rfl, rfl⟩
    exact ⟨h1.trans hc.1, h2.trans hc.2⟩

/-! ### Looking the same -/

theorem flags_inj : ∀ (a b c d e f a' b' c' d' e' f' : Bool),
    Sgr.flagIf a Sgr.bold ||| Sgr.flagIf b Sgr.dim ||| Sgr.flagIf c Sgr.italic ||| Sgr.flagIf d Sgr.underscore |||
      Sgr.flagIf e Sgr.negative ||| Sgr.flagIf f Sgr.conceal =
    Sgr.flagIf a' Sgr.bold ||| Sgr.flagIf b' Sgr.dim ||| Sgr.flagIf c' Sgr.italic ||| Sgr.flagIf d' Sgr.underscore |||
      Sgr.flagIf e' Sgr.negative ||| Sgr.flagIf f' Sgr.conceal →
    a = a' ∧ b = b' ∧ c = c' ∧ d = d' ∧ e = e' ∧ f = f' := by
  decide +kernel

theorem build_inj {s t : Sgr.Style} (hs : s.clear = false) (ht : t.clear = false) (h : s.build = t.build) : s = t := by
  have h1 := Sgr.fgMask_inj (congrArg (· &&& Sgr.fgMask) h)
  have h2 := Sgr.bgMask_inj (congrArg (· &&& Sgr.bgMask) h)
  have h3 := congrArg (· &&& Sgr.attrMask) h
  simp only [Sgr.build_flags] at h3
  obtain ⟨k1, k2, k3, k4, k5, k6⟩ := flags_inj _ _ _ _ _ _ _ _ _ _ _ _ h3
  cases s; cases t
  simp only at *
  subst k1 k2 k3 k4 k5 k6 h1 h2 hs ht
  rfl

/-- Two terminals that show the same screen look the same. -/
theorem same_look {t u : Term} {sc : Screen} {w h : Nat} (T : Shows t sc w h) (U : Shows u sc w h) (x y : Nat) (hx : x < w) (hy : y < h) :
    t.cell x y = u.cell x y := by
  obtain ⟨c, e1, k1, k2, k3⟩ := T.2.2 x y hx hy
  obtain ⟨c', e2, m1, m2, m3⟩ := U.2.2 x y hx hy
  rw [e1] at e2
  injection e2 with e2
  subst e2
  have := build_inj k2 m2 (k3.symm.trans m3)
  have hr := k1.trans m1.symm
  cases ht : t.cell x y; cases hu : u.cell x y
  rw [ht] at this hr; rw [hu] at this hr
  simp only at this hr
  rw [this, hr]

/-! ### Where the cursor rests -/

theorem smooth_append (w : Nat) : ∀ (l q : List Pt) (a : Pt),
    Smooth w a (l ++ q) ↔ Smooth w a l ∧ Smooth w (Spec.stop a l) q
  | [], q, a => by simp [Smooth, Spec.stop]
  | p :: l, q, a => by
    have hs : Spec.stop a (p :: l) = Spec.stop ⟨p.x + 1, p.y⟩ l := by
      cases l with
      | nil => simp [Spec.stop]
      | cons b l =>
        unfold Spec.stop
        rw [List.getLast?_cons_cons]
        cases h : (b :: l).getLast? with
        | none => simp at h
        | some c => rfl
    simp only [List.cons_append, Smooth]
    rw [smooth_append w l q, hs, and_assoc]

theorem apply_hidden {sc : Screen} (hs : sc.shown = false) {c c' : Cursor} {b : Bytes} (h : sc.cur.applyTo c = some (c', b)) :
    c'.pt = c.pt := by
  unfold Cursor.applyTo at h
  have hs' : ¬ (sc.cur.visible && valid sc.cur.pt) = true := by
    have : (sc.cur.visible && valid sc.cur.pt) = false := hs
    rw [this]; simp
  rw [if_neg hs'] at h
  obtain ⟨c3, sq, b3, g1, g2, g3⟩ := hide_text c
  rw [g1, Option.bind_some] at h
  simp only [g2, Option.map_some, Option.some.injEq, Prod.mk.injEq] at h
  rw [← h.1]
  rcases g3 with ⟨-, -, k, -⟩ | ⟨k, -⟩ <;> rw [k]

/-- As `update_core`, with what is known of the recorded cursor when the cursor is hidden. -/
theorem update_core_rest {gr : Nat → Bool} {t : Term} {sc prior : Screen} {w h : Nat} {q : List Pt}
    (W : sc.Whole w h) (tw : t.w = w) (th : t.h = h) (A : Agree prior.cur t)
    (hg : ∀ c ∈ sc.grid.data, Drawable gr c) (hsp : Printable gr 0x20)
    (R : Ready t sc prior w h q) (hs : sc.shown = false) {prior' : Screen} {b : Bytes}
    (hu : sc.update gr prior = some (prior', b)) : Smooth w prior'.cur.pt q := by
  unfold Screen.update at hu
  obtain ⟨c1, s1, b1, g1, g2, g3⟩ := hide_text prior.cur
  have hhide : ∃ o1, b1 = text o1 ∧ Agree c1 (t.run o1) ∧ c1.pt = prior.cur.pt ∧
      (t.run o1).cell = t.cell ∧ (t.run o1).w = t.w ∧ (t.run o1).h = t.h ∧ (t.run o1).bce = t.bce ∧
      (t.run o1).style = t.style := by
    rcases g3 with ⟨k1, k2, k3, k4⟩ | ⟨k3, k4⟩
    · exact ⟨[], by rw [k4]; rfl, by rw [k3]; exact A, by rw [k3], rfl, rfl, rfl, rfl, rfl⟩
    · refine ⟨[.hide], k4, ?_, by rw [k3], rfl, rfl, rfl, rfl, rfl⟩
      rw [k3]; exact ⟨fun hv => A.pos hv, fun hv => A.attr hv, fun _ => rfl⟩
  obtain ⟨o1, hb1, A1, hpt1, hcell1, hw1, hh1, hbce1, hst1⟩ := hhide
  have R1 : Ready (t.run o1) sc { prior with cur := c1 } w h q := by
    cases R with
    | diff P S J =>
      refine .diff (P.cur c1) ⟨hw1.trans S.1, hh1.trans S.2.1, ?_⟩ (by rw [hpt1]; exact J)
      intro x y hx hy; rw [hcell1]; exact S.2.2 x y hx hy
    | full s P hs hne B J =>
      exact .full s P hs hne (by rw [hbce1, hst1]; exact B) (by rw [hpt1]; exact J)
  obtain ⟨c2, o2, e1, A2, S2, _, _, _, J2⟩ :=
    grid_ok W (hw1.trans tw) (hh1.trans th) A1 hg hsp R1
  obtain ⟨c3, o3, f1, -⟩ := apply_ok S2.1 S2.2.1 A2 J2 (fun h => by rw [hs] at h; cases h)
  have hP : ∃ s, Grid.Whole prior.grid s ∧ (s.1 = 0 → s.2 = 0) := by
    cases R with
    | diff P S J => exact ⟨_, P.toGrid, fun h0 => absurd h0 (by have := W.hw; dsimp only; omega)⟩
    | full s P hs hne B J => exact ⟨s, P, hs⟩
  obtain ⟨s, P, hs'⟩ := hP
  obtain ⟨-, -, r3⟩ := record_ok (p := { prior with cur := c3 }) W P hs'
  have hpt := apply_hidden hs f1
  rw [g1, Option.bind_some] at hu
  simp only [g2, Option.bind_some, e1, f1, Option.map_some, Option.some.injEq, Prod.mk.injEq] at hu
  rw [← hu.1]
  rcases r3 with r3 | ⟨-, r3⟩
  · rw [r3, hpt]; exact J2
  · rw [r3]
    cases q with
    | nil => trivial
    | cons p q =>
      simp only [Smooth] at J2 ⊢
      exact ⟨fun hv => absurd hv (by simp [valid, zp]), J2.2⟩

/-! ### The style of the recorded cursor -/

/-- The style is known, or is what it was. -/
def Kept (c c' : Cursor) : Prop := c'.attrKnown = true ∨ (c'.attrKnown = c.attrKnown ∧ c'.attr = c.attr)

theorem Kept.trans {a b c : Cursor} (h : Kept a b) (k : Kept b c) : Kept a c := by
  rcases k with k | ⟨k1, k2⟩
  · exact Or.inl k
  · rcases h with h | ⟨h1, h2⟩
    · exact Or.inl (k1.trans h)
    · exact Or.inr ⟨k1.trans h1, k2.trans h2⟩

theorem bind_some {α β : Type} {x : Option α} {f : α → Option β} {b : β} (h : x.bind f = some b) : ∃ a, x = some a ∧ f a = some b := by
  cases x with
  | none => cases h
  | some a => exact ⟨a, rfl, h⟩

theorem map_some {α β : Type} {x : Option α} {f : α → β} {b : β} (h : x.map f = some b) : ∃ a, x = some a ∧ f a = b := by
  cases x with
  | none => cases h
  | some a => exact ⟨a, rfl, Option.some.inj h⟩

theorem merge_known (c : Cursor) (a : Attr) : (c.mergeSGR a).1.attrKnown = true := by
  unfold Cursor.mergeSGR
  split
  · rfl
  · rename_i h; simpa using h

theorem process_known {gr : Nat → Bool} {c c' : Cursor} {ev : Event} (h : c.processANSI gr ev = some c') : c'.attrKnown = c.attrKnown := by
  have hm : ∀ on a, c.modes on a = some c' → c'.attrKnown = c.attrKnown := by
    intro on a h
    unfold Cursor.modes at h
    split at h
    · obtain ⟨v, -, h⟩ := map_some h; rw [← h]
    · rw [Option.some.inj h]
  unfold Cursor.processANSI Cursor.processEscape at h
  simp only at h
  repeat' split at h
  all_goals first | exact hm _ _ h | (rw [← Option.some.inj h])

theorem cell_known {gr : Nat → Bool} {c : Cursor} {p : Pt} {r : Nat} {a : Attr} {w : Cursor × Bytes} (h : writeCell gr c p r a = some w) :
    w.1.attrKnown = true := by
  unfold writeCell at h
  obtain ⟨m, -, h⟩ := bind_some h
  simp only at h
  obtain ⟨mv, -, h⟩ := bind_some h
  obtain ⟨c', h1, h⟩ := map_some h
  rw [← h]
  exact (process_known h1).trans (merge_known _ _)

theorem full_kept {gr : Nat → Bool} {style : StyleFn} {rect : Rect} : ∀ (l : List Cell) (p : Pt) (c : Cursor) (r : Cursor × Bytes),
    fullLoop gr style rect l p c = some r → Kept c r.1
  | [], _, c, r, h => by rw [← Option.some.inj h]; exact Or.inr ⟨rfl, rfl⟩
  | x :: l, p, c, r, h => by
    unfold fullLoop at h
    simp only at h
    split at h
    · obtain ⟨w, h1, h⟩ := bind_some h
      obtain ⟨q, h2, h⟩ := map_some h
      rw [← h]
      exact Kept.trans (Or.inl (cell_known h1)) (full_kept l _ _ q h2)
    · exact full_kept l _ _ _ h

theorem diff_kept {gr : Nat → Bool} {style : StyleFn} {fr : Nat} {fa : Attr} {rect : Rect} {prior : Grid} :
    ∀ (l : List Cell) (p : Pt) (b : Bool) (c : Cursor) (r : Cursor × Bytes), diffLoop gr style fr fa rect prior l p b c = some r → Kept c r.1
  | [], _, _, c, r, h => by rw [← Option.some.inj h]; exact Or.inr ⟨rfl, rfl⟩
  | x :: l, p, b, c, r, h => by
    have ih := fun p b c r h => diff_kept (gr := gr) (style := style) (fr := fr) (fa := fa) (rect := rect) (prior := prior) l p b c r h
    have key : ∀ (ra : Nat × Attr) (b : Bool), (if ra.1 ≠ 0 then
        (writeCell gr c p ra.1 ra.2).bind fun w => (diffLoop gr style fr fa rect prior l (next rect p) b w.1).map fun r => (r.1, w.2 ++ r.2)
      else diffLoop gr style fr fa rect prior l (next rect p) b c) = some r → Kept c r.1 := by
      intro ra b h
      split at h
      · obtain ⟨w, h1, h⟩ := bind_some h
        obtain ⟨q, h2, h⟩ := map_some h
        rw [← h]
        exact Kept.trans (Or.inl (cell_known h1)) (ih _ _ _ q h2)
      · exact ih _ _ _ _ h
    unfold diffLoop at h
    simp only at h
    split at h
    · split at h
      · cases h
      · split at h
        · have key2 : ∀ (pr : Nat) (pa : Attr) (ra : Nat × Attr), (if ra.1 = pr ∧ ra.2 = pa then
                diffLoop gr style fr fa rect prior l (next rect p) b c
              else if ra.1 ≠ 0 then
                (writeCell gr c p ra.1 ra.2).bind fun w => (diffLoop gr style fr fa rect prior l (next rect p) true w.1).map fun r => (r.1, w.2 ++ r.2)
              else diffLoop gr style fr fa rect prior l (next rect p) true c) = some r → Kept c r.1 := by
            intro pr pa ra h
            split at h
            · exact ih _ _ _ _ h
            · exact key _ _ h
          exact key2 _ _ _ h
        · cases h
      · exact key _ _ h
    · exact key _ _ h

theorem hide_kept {c : Cursor} {v : Cursor × Seq} (h : c.hide = some v) : Kept c v.1 := by
  unfold Cursor.hide at h
  split at h
  · obtain ⟨s, -, h⟩ := map_some h; rw [← h]; exact Or.inr ⟨rfl, rfl⟩
  · rw [← Option.some.inj h]; exact Or.inr ⟨rfl, rfl⟩

theorem apply_kept {u c : Cursor} {r : Cursor × Bytes} (h : u.applyTo c = some r) : Kept c r.1 := by
  unfold Cursor.applyTo at h
  split at h
  · obtain ⟨m, -, h⟩ := bind_some h
    obtain ⟨mv, -, h⟩ := bind_some h
    simp only at h
    obtain ⟨v, h1, h⟩ := bind_some h
    obtain ⟨vb, -, h⟩ := map_some h
    rw [← h]
    left
    unfold Cursor.show_ at h1
    split at h1
    · obtain ⟨s, -, h1⟩ := map_some h1; rw [← h1]; exact merge_known _ _
    · rw [← Option.some.inj h1]; exact merge_known _ _
  · obtain ⟨v, h1, h⟩ := bind_some h
    obtain ⟨vb, -, h⟩ := map_some h
    rw [← h]
    exact hide_kept h1

theorem resize_kept (sc : Screen) (s : Nat × Nat) : Kept sc.cur (sc.resize s).1.cur := by
  unfold Screen.resize
  simp only
  split
  · right
    simp only
    split <;> exact ⟨rfl, rfl⟩
  · exact Or.inr ⟨rfl, rfl⟩

theorem update_kept {gr : Nat → Bool} {sc prior : Screen} {r : Screen × Bytes} (h : sc.update gr prior = some r) : Kept prior.cur r.1.cur := by
  unfold Screen.update at h
  obtain ⟨v, h1, h⟩ := bind_some h
  obtain ⟨vb, -, h⟩ := bind_some h
  obtain ⟨g, h2, h⟩ := bind_some h
  obtain ⟨a, h3, h⟩ := map_some h
  simp only at h
  rw [← h]
  have k2 : Kept v.1 g.1.cur := by
    unfold writeGrid writeGridFull writeGridDiff at h2
    split at h2
    · rw [← Option.some.inj h2]; exact Or.inr ⟨rfl, rfl⟩
    split at h2
    · obtain ⟨q, h4, h2⟩ := map_some h2
      simp only at h4
      obtain ⟨x1, -, h4⟩ := bind_some h4
      obtain ⟨x2, -, h4⟩ := bind_some h4
      obtain ⟨x3, h5, h4⟩ := map_some h4
      rw [← h2, ← h4]
      exact full_kept _ _ _ _ h5
    · simp only at h2
      obtain ⟨q, h4, h2⟩ := map_some h2
      rw [← h2]
      exact diff_kept _ _ _ _ _ h4
  have k4 := resize_kept { g.1 with cur := a.1 } ((dx sc.grid.rect).toNat, (dy sc.grid.rect).toNat)
  exact ((hide_kept h1).trans k2).trans ((apply_kept h3).trans k4)

/-! ### Frames -/

/-- The differ's record is right about the terminal: `old` is what it last drew, if the terminal still
shows that, and `a` is where the cursor rests. -/
structure Synced (d : Differ) (t : Term) (old : Option Screen) (a : Pt) : Prop where
  whole : d.v.sc.Whole t.w t.h
  agree : Agree d.real.cur t
  known : match old with
    | some o => d.real.Whole t.w t.h ∧ Shows t d.real t.w t.h ∧ ∀ i, i < t.w * t.h → d.real.grid.cells[i]? = o.grid.cells[i]?
    | none => valid d.real.cur.pt = false ∧ ∃ s, Grid.Whole d.real.grid s ∧ (s.1 = 0 → s.2 = 0) ∧ s ≠ (t.w, t.h)
  rest : ∀ q, Smooth t.w a q → Smooth t.w d.real.cur.pt q
  pen : d.real.cur.attrKnown = true ∨ d.real.cur.attr = 0

theorem ready_of {d : Differ} {t : Term} {old : Option Screen} {a : Pt} (Y : Synced d t old a) {sc : Screen} {q : List Pt}
    (hj : Smooth t.w a (Spec.cells t.w t.h old sc ++ q)) (hb : old = none → t.bce = true → t.style.bg = none) (c : Cursor) :
    Ready t { sc with cur := c } d.real t.w t.h q := by
  cases old with
  | some o =>
    obtain ⟨P, S, hc⟩ := Y.known
    refine .diff P S ?_
    have : points t.w t.h (altered d.real { sc with cur := c }) = Spec.cells t.w t.h (some o) sc := by
      unfold Spec.cells points
      congr 1
      apply List.filter_congr
      intro i hi
      simp only [List.mem_range] at hi
      unfold altered
      rw [hc i hi]
    rw [this]
    exact Y.rest _ hj
  | none =>
    obtain ⟨-, s, P, hs, hne⟩ := Y.known
    exact .full s P hs hne (hb rfl) (Y.rest _ hj)

/-- A drawn frame, of which everything was processed, is flushed: the terminal looks like the picture, its
cursor is the user's, and the record is right again. -/
theorem flushed (gr : Nat → Bool) (hsp : Printable gr 0x20) {d : Differ} {t : Term} {old : Option Screen} {a : Pt}
    (Y : Synced d t old a) (v : VScreen) (W : v.sc.Whole t.w t.h) (hb : v.buf.buf = []) (pic : Term) (S : Shows pic v.sc t.w t.h)
    (hp : ∀ x y, Printable gr (pic.cell x y).rune) (user : Cursor) (hu : Spec.Placed t.w t.h user) (Z : Spec.Easy t old a v.sc user) :
    ∃ d' ops, Differ.writeTo gr { d with v, user } .ok = .ok (d', text ops, none) ∧
      (t.run ops).w = t.w ∧ (t.run ops).h = t.h ∧
      (∀ x y, x < t.w → y < t.h → (t.run ops).cell x y = pic.cell x y) ∧
      (t.run ops).vis = Spec.seen user ∧
      (Spec.seen user = true → (t.run ops).At user.pt ∧ user.attr = (t.run ops).style.build ∧ d'.real.cur.pt = user.pt) ∧
      Synced d' (t.run ops) (some v.sc) (Spec.rest t.w t.h old a v.sc user) := by
  have hg := drawable_of W S hp
  have W' : ({ v.sc with cur := user } : Screen).Whole t.w t.h := ⟨W.hw, W.hh, W.rect, W.stride, W.len, W.cap⟩
  have hsh : ({ v.sc with cur := user } : Screen).shown = Spec.seen user := rfl
  have R := ready_of (sc := v.sc) Y Z.jumps Z.plain user
  obtain ⟨p, ops, h1, h2, h3, h4, h5, h6⟩ := update_core W' rfl rfl Y.agree hg hsp hu R
  obtain ⟨A', h7⟩ := h6 (fun h => by rw [← hsh, if_pos h])
  obtain ⟨d', f1, f2, f3, f4, f5⟩ := Differ.flush_frame gr { d with v, user } (Differ.whole_not_sub W) hb p _ h1
  have hS : Shows (t.run ops) v.sc t.w t.h := h2
  refine ⟨d', ops, f1, h2.1, h2.2.1, fun x y hx hy => same_look hS S x y hx hy, h3, fun h => ⟨(h7 h).1, (h7 h).2.1, by rw [f5]; exact (h7 h).2.2⟩, ?_⟩
  refine ⟨?_, by rw [f5]; exact A', ⟨?_, ?_, ?_⟩, ?_, ?_⟩
  · rw [h2.1, h2.2.1, f3]; exact W'
  · rw [h2.1, h2.2.1, f5]; exact h4
  · rw [f5]
    refine ⟨rfl, rfl, fun x y hx hy => ?_⟩
    rw [h2.1] at hx ⊢
    rw [h2.2.1] at hy
    obtain ⟨c, hc, hi⟩ := h2.2.2 x y hx hy
    exact ⟨c, by unfold Screen.look at *; rw [h5 _ (Screen.idx_lt hx hy)]; exact hc, hi⟩
  · intro i hi
    rw [h2.1, h2.2.1] at hi
    rw [f5]
    exact h5 i hi
  · intro q hq
    rw [h2.1] at hq ⊢
    rw [f5]
    unfold Spec.rest at hq
    by_cases hv : Spec.seen user = true
    · rw [if_pos hv] at hq
      rw [(h7 hv).2.2]
      exact hq
    · rw [if_neg hv] at hq
      have hv' : Spec.seen user = false := by simpa using hv
      have hj := Z.jumps
      rw [if_neg hv, List.append_nil] at hj
      exact update_core_rest W' rfl rfl Y.agree hg hsp (ready_of (sc := v.sc) Y ((smooth_append _ _ _ _).2 ⟨hj, hq⟩) Z.plain user) hv' h1
  · rw [f5]
    rcases update_kept h1 with k | ⟨k1, k2⟩
    · exact Or.inl k
    · simp only at k1 k2
      rw [k1, k2]
      exact Y.pen

/-- **C131**, a frame: what a client draws with calls that a terminal would follow is, after the flush, on
the terminal as if the calls had been made on the terminal itself, just cleared; its cursor is the
user's.  The record is right again. -/
theorem frame_shown (gr : Nat → Bool) (hsp : Printable gr 0x20) {d : Differ} {t : Term} {old : Option Screen} {a : Pt}
    (Y : Synced d t old a) (calls : List ScreenCall) (hs : ScreenCall.Session gr (clearTerm t.w t.h) .exact calls)
    (hf : Spec.finished calls true = true) (user : Cursor) (hu : Spec.Placed t.w t.h user) :
    ∃ d1, draw gr d (calls.map ScreenCall.op) user = .ok d1 ∧
      (Spec.Easy t old a d1.v.sc user → ∃ d' ops, d1.writeTo gr .ok = .ok (d', text ops, none) ∧
        (t.run ops).w = t.w ∧ (t.run ops).h = t.h ∧
        (∀ x y, x < t.w → y < t.h → (t.run ops).cell x y = (Spec.picture t.w t.h calls).cell x y) ∧
        (t.run ops).vis = Spec.seen user ∧
        (Spec.seen user = true → (t.run ops).At user.pt ∧ user.attr = (t.run ops).style.build) ∧
        Synced d' (t.run ops) (some d1.v.sc) (Spec.rest t.w t.h old a d1.v.sc user)) := by
  obtain ⟨sc, e1, E⟩ := clear_emulates Y.whole
  obtain ⟨v, e2, hb, E2⟩ := staged gr calls ⟨sc, d.v.buf.reset⟩ (clearTerm t.w t.h) .exact true E rfl hs (fun _ => rfl) hf
  have hd : draw gr d (calls.map ScreenCall.op) user = .ok { d with v, user } := by
    unfold draw Differ.clear
    rw [e1]
    show ((VScreen.ops gr ⟨sc, d.v.buf.reset⟩ (calls.map ScreenCall.op)).map _) = _
    rw [e2]
    rfl
  refine ⟨_, hd, fun Z => ?_⟩
  simp only at Z
  obtain ⟨pw, ph⟩ := runs_size calls (clearTerm t.w t.h) .exact
  have W : v.sc.Whole t.w t.h := by
    have := E2.whole
    rw [pw, ph] at this
    exact this
  have S : Shows (Spec.picture t.w t.h calls) v.sc t.w t.h := by
    have := E2.shows
    rw [pw, ph] at this
    exact this
  have hp : ∀ x y, Printable gr ((Spec.picture t.w t.h calls).cell x y).rune := calls_print hsp calls _ _ hs fun _ _ => hsp
  obtain ⟨d', ops, h1, h2, h3, h4, h5, h6, h7⟩ := flushed gr hsp Y v W hb _ S hp user hu Z
  exact ⟨d', ops, h1, h2, h3, h4, h5, fun h => ⟨(h6 h).1, (h6 h).2.1⟩, h7⟩

/-! ### Sessions -/

theorem forgets {d : Differ} {t : Term} {old : Option Screen} {a : Pt} (Y : Synced d t old a) :
    valid d.invalidate.real.cur.pt = false ∧ Grid.Whole d.invalidate.real.grid (0, 0) ∧
      d.invalidate.real.cur = { d.real.cur with pt := d.invalidate.real.cur.pt } ∧ d.invalidate.v = d.v := by
  have hw := Y.whole.hw
  have hh := Y.whole.hh
  have hG : ∃ s, Grid.Whole d.real.grid s ∧ (s.1 = 0 → s.2 = 0) ∧ (s = (0, 0) → valid d.real.cur.pt = false) := by
    cases old with
    | some o =>
      refine ⟨_, Y.known.1.toGrid, fun h => ?_, fun h => ?_⟩
      · simp only at h; omega
      · rw [Prod.mk.injEq] at h; omega
    | none =>
      obtain ⟨h1, s, h2, h3, -⟩ := Y.known
      exact ⟨s, h2, h3, fun _ => h1⟩
  obtain ⟨s, P, hs, hz⟩ := hG
  obtain ⟨R, hb⟩ := Grid.whole_resize (t := (0, 0)) P hs
  unfold Differ.invalidate Screen.resize
  by_cases h0 : s = (0, 0)
  · rw [hb]
    simp only [h0, ne_eq, not_true_eq_false, decide_false, Bool.false_eq_true, if_false]
    exact ⟨hz h0, R, trivial, trivial⟩
  · rw [hb]
    simp only [h0, ne_eq, not_false_eq_true, decide_true, if_true]
    have hin : ptIn d.real.cur.pt (d.real.grid.resize (0, 0)).1.rect = false := by
      have hsz := R.size
      simp only [Geom.size, Grid.sz, Pt.mk.injEq] at hsz
      rw [← Bool.not_eq_true, ptIn_iff]
      unfold Mem
      omega
    rw [hin]
    exact ⟨by simp [valid, zp], R, rfl, trivial⟩

theorem smooth_unknown {w : Nat} {a b : Pt} (h : valid b = false) : ∀ q, Smooth w a q → Smooth w b q
  | [], _ => trivial
  | _ :: _, hq => ⟨fun hv => absurd hv (by rw [h]; simp), hq.2⟩

/-- What happens to a program with a screen: it draws a frame; the terminal is given another size, with
anything on it; or something else has written on the terminal, and the screen is invalidated. -/
inductive Turn
  | frame (calls : List ScreenCall) (user : Cursor)
  | resize (w h : Nat) (cell : Nat → Nat → Glyph) (x y : Nat) (pend : Bool)
  | redraw (cell : Nat → Nat → Glyph) (x y : Nat) (pend : Bool)

/-- Every frame, whose calls a terminal would follow, is drawn without a fault, and, if it is easy to show,
is on the terminal after its flush as if it had been drawn there directly. -/
def Shown (gr : Nat → Bool) : Differ → Term → Option Screen → Pt → List Turn → Prop
  | _, _, _, _, [] => True
  | d, t, old, a, .frame calls user :: l =>
    ScreenCall.Session gr (clearTerm t.w t.h) .exact calls → Spec.finished calls true = true → Spec.Placed t.w t.h user →
    ∃ d1, draw gr d (calls.map ScreenCall.op) user = .ok d1 ∧
      (Spec.Easy t old a d1.v.sc user → ∃ d' ops, d1.writeTo gr .ok = .ok (d', text ops, none) ∧
        (∀ x y, x < t.w → y < t.h → (t.run ops).cell x y = (Spec.picture t.w t.h calls).cell x y) ∧
        (t.run ops).vis = Spec.seen user ∧
        (Spec.seen user = true → (t.run ops).At user.pt ∧ user.attr = (t.run ops).style.build) ∧
        Shown gr d' (t.run ops) (some d1.v.sc) (Spec.rest t.w t.h old a d1.v.sc user) l)
  | d, t, _, _, .resize w h cell x y pend :: l =>
    1 ≤ w → 1 ≤ h → (w, h) ≠ (t.w, t.h) → Shown gr (d.resize (w, h)).1 { t with w, h, cell, x, y, pend } none zp l
  | d, t, _, _, .redraw cell x y pend :: l => Shown gr d.invalidate { t with cell, x, y, pend } none zp l

/-- After a redraw was asked for, whatever is on the terminal, the record is right. -/
theorem redraw_synced {d : Differ} {t : Term} {old : Option Screen} {a : Pt} (Y : Synced d t old a) (cell : Nat → Nat → Glyph)
    (x y : Nat) (pend : Bool) : Synced d.invalidate { t with cell, x, y, pend } none zp := by
  obtain ⟨h1, h2, h3, h4⟩ := forgets Y
  have hw := Y.whole.hw
  refine ⟨by rw [h4]; exact Y.whole, ⟨fun hv => absurd hv (by rw [h1]; simp), ?_, ?_⟩, ⟨h1, (0, 0), h2, fun _ => rfl, ?_⟩, smooth_unknown h1, by rw [h3]; exact Y.pen⟩
  · rw [h3]; exact Y.agree.attr
  · rw [h3]; exact Y.agree.vis
  · intro h; rw [Prod.mk.injEq] at h; simp only at h; omega

/-- After the screen was given the terminal's new size, whatever is on the terminal, the record is right. -/
theorem resize_synced {d : Differ} {t : Term} {old : Option Screen} {a : Pt} (Y : Synced d t old a) (w h : Nat) (hw : 1 ≤ w) (hh : 1 ≤ h)
    (hne : (w, h) ≠ (t.w, t.h)) (cell : Nat → Nat → Glyph) (x y : Nat) (pend : Bool) :
    Synced (d.resize (w, h)).1 { t with w, h, cell, x, y, pend } none zp := by
  have hsz : Grid.sz (w, h) ≠ Geom.size d.v.sc.grid.rect := by
    rw [Y.whole.rect]
    simp only [Grid.sz, Geom.size, ne_eq, Pt.mk.injEq]
    rw [ne_eq, Prod.mk.injEq] at hne
    omega
  obtain ⟨R, hb⟩ := Grid.whole_resize (t := (w, h)) Y.whole.toGrid (fun h0 => absurd h0 (by have := Y.whole.hw; simp only; omega))
  have e : (d.resize (w, h)).1 = Differ.invalidate { d with v := { d.v with sc := (d.v.sc.resize (w, h)).1 } } := by
    have h2 : (d.v.sc.resize (w, h)).2 = true := by
      unfold Screen.resize
      rw [hb]
      simp [Ne.symm hne]
    unfold Differ.resize
    simp only [h2, if_true]
  have hW : (d.v.sc.resize (w, h)).1.Whole w h := by
    unfold Screen.resize
    split
    · exact R.toScreen hw hh _
    · exact R.toScreen hw hh _
  obtain ⟨h1, h2, h3, -⟩ := forgets Y
  have hr : (Differ.invalidate { d with v := { d.v with sc := (d.v.sc.resize (w, h)).1 } }).real = d.invalidate.real := rfl
  have hv : (Differ.invalidate { d with v := { d.v with sc := (d.v.sc.resize (w, h)).1 } }).v.sc = (d.v.sc.resize (w, h)).1 := rfl
  rw [e]
  refine ⟨by rw [hv]; exact hW, ?_, ⟨by rw [hr]; exact h1, (0, 0), by rw [hr]; exact h2, fun _ => rfl, ?_⟩, by rw [hr]; exact smooth_unknown h1,
    by rw [hr, h3]; exact Y.pen⟩
  · rw [hr]
    refine ⟨fun hv => absurd hv (by rw [h1]; simp), ?_, ?_⟩
    · rw [h3]; exact Y.agree.attr
    · rw [h3]; exact Y.agree.vis
  · intro h; rw [Prod.mk.injEq] at h; simp only at h; omega

/-- A new differ is given the size of a terminal, of which nothing else is known. -/
theorem new_synced (t : Term) (hw : 1 ≤ t.w) (hh : 1 ≤ t.h) : Synced (({} : Differ).resize (t.w, t.h)).1 t none zp := by
  obtain ⟨W, -⟩ := Screen.whole_of_resize t.w t.h hw hh
  have hsz : Grid.sz (t.w, t.h) ≠ Geom.size ({} : Differ).v.sc.grid.rect := by
    show Grid.sz (t.w, t.h) ≠ Geom.size zr
    simp only [Grid.sz, Geom.size, zr, zp, ne_eq, Pt.mk.injEq]
    omega
  obtain ⟨-, -, h3, -, -, -⟩ := (Differ.resize_forgets {} (t.w, t.h)).2 hsz
  have hr : (({} : Differ).resize (t.w, t.h)).1.real = {} := by
    unfold Differ.resize
    simp only
    split
    · show (({} : Screen).resize (0, 0)).1 = {}
      decide +kernel
    · rfl
  refine ⟨by rw [h3]; exact W, ?_, ⟨by rw [hr]; decide, (0, 0), ?_, fun _ => rfl, ?_⟩, fun q hq => by rw [hr]; exact hq, by rw [hr]; exact Or.inr rfl⟩
  · rw [hr]
    exact ⟨fun h => absurd h (by decide), fun h => absurd h (by decide), fun h => absurd h (by decide)⟩
  · rw [hr]
    exact ⟨by decide, rfl, rfl, Or.inr rfl, by simp⟩
  · intro h; rw [Prod.mk.injEq] at h; omega

/-- **C131**: on any terminal, whatever it shows at first, through any sequence of frames, changes of size and
redraws: every frame is on the terminal as if it had been drawn there directly.  Partial: frames that are
not `Easy` (see C32). -/
theorem session_shown_partial (gr : Nat → Bool) (hsp : Printable gr 0x20) (t : Term) (hw : 1 ≤ t.w) (hh : 1 ≤ t.h) (l : List Turn) :
    Shown gr (({} : Differ).resize (t.w, t.h)).1 t none zp l := by
  have key : ∀ (l : List Turn) (d : Differ) (t : Term) (old : Option Screen) (a : Pt), Synced d t old a → Shown gr d t old a l := by
    intro l
    induction l with
    | nil => intro d t old a _; trivial
    | cons x l ih =>
      intro d t old a Y
      cases x with
      | frame calls user =>
        intro hs hf hu
        obtain ⟨d1, h1, h2⟩ := frame_shown gr hsp Y calls hs hf user hu
        refine ⟨d1, h1, fun Z => ?_⟩
        obtain ⟨d', ops, k1, -, -, k4, k5, k6, k7⟩ := h2 Z
        exact ⟨d', ops, k1, k4, k5, k6, ih _ _ _ _ k7⟩
      | resize w h cell x y pend => exact fun h1 h2 h3 => ih _ _ _ _ (resize_synced Y w h h1 h2 h3 cell x y pend)
      | redraw cell x y pend => exact ih _ _ _ _ (redraw_synced Y cell x y pend)
  exact key l _ _ _ _ (new_synced t hw hh)

/-! ### Examples, and a frame that comes out wrong -/

/-- `hi`, and the cursor after it. -/
def hello : List ScreenCall := [.move ⟨1, 1⟩, .write [.op (.put 0x68), .op (.put 0x69)]]

def after : Cursor := { pt := ⟨3, 1⟩, visible := true, attrKnown := true }

/-- `a` on the first row, and `b` below and to the right of it. -/
def diagonal : List ScreenCall := [.move ⟨1, 1⟩, .write [.op (.put 0x61)], .move ⟨2, 2⟩, .write [.op (.put 0x62)]]

/-- The hypotheses of a frame hold for a greeting. -/
example (t : Term) (hw : t.w = 4) (hh : t.h = 2) (hb : t.style.bg = none) :
    ScreenCall.Session Screen.ascii (clearTerm t.w t.h) .exact hello ∧ Spec.finished hello true = true ∧ Spec.Placed t.w t.h after ∧
      ∃ d1, draw Screen.ascii (({} : Differ).resize (t.w, t.h)).1 (hello.map ScreenCall.op) after = .ok d1 ∧
        Spec.Easy t none zp d1.v.sc after := by
  rw [hw, hh]
  have p : ∀ r, r = 0x68 ∨ r = 0x69 → Printable Screen.ascii r := by
    rintro r (rfl | rfl) <;> exact ⟨by decide, by decide, by decide, by decide, by decide⟩
  refine ⟨?_, rfl, fun _ => ⟨⟨2, 0, by decide, by decide, rfl⟩, {}, rfl, by decide +kernel⟩, ?_⟩
  · simp only [hello, ScreenCall.Session, ScreenCall.Ok, Act.Flow, Act.Ok, p 0x68 (Or.inl rfl), p 0x69 (Or.inr rfl), true_and]
    decide +kernel
  · have e : ∃ d1, draw Screen.ascii (({} : Differ).resize (4, 2)).1 (hello.map ScreenCall.op) after = .ok d1 ∧
        Spec.cells 4 2 none d1.v.sc = [⟨1, 1⟩, ⟨2, 1⟩] := by
      have h : ((draw Screen.ascii (({} : Differ).resize (4, 2)).1 (hello.map ScreenCall.op) after).toOption.map
          fun d => Spec.cells 4 2 none d.v.sc) = some [⟨1, 1⟩, ⟨2, 1⟩] := by decide +kernel
      revert h
      cases draw Screen.ascii (({} : Differ).resize (4, 2)).1 (hello.map ScreenCall.op) after with
      | error f => intro h; cases h
      | ok d => intro h; exact ⟨d, rfl, Option.some.inj h⟩
    obtain ⟨d1, e1, e2⟩ := e
    refine ⟨d1, e1, ?_, fun _ _ => hb⟩
    rw [hw, hh, e2]
    decide +kernel

/-- Negation: the diagonal, drawn on a terminal, has `b` on the second row; drawn through the differ, it has
`b` on the first.  The frame is one a terminal would follow, with nothing left hanging. -/
theorem diagonal_wrong (t : Term) (hw : t.w = 2) (hh : t.h = 2) :
    ScreenCall.Session Screen.ascii (clearTerm 2 2) .exact diagonal ∧ Spec.finished diagonal true = true ∧
      ((Spec.picture 2 2 diagonal).cell 1 1).rune = 0x62 ∧
      ∃ d1 d' ops, draw Screen.ascii (({} : Differ).resize (2, 2)).1 (diagonal.map ScreenCall.op) {} = .ok d1 ∧
        d1.writeTo Screen.ascii .ok = .ok (d', text ops, none) ∧ ((t.run ops).cell 1 0).rune = 0x62 ∧ ((t.run ops).cell 1 1).rune = 0x20 := by
  have p : ∀ r, r = 0x61 ∨ r = 0x62 → Printable Screen.ascii r := by
    rintro r (rfl | rfl) <;> exact ⟨by decide, by decide, by decide, by decide, by decide⟩
  refine ⟨?_, rfl, by decide +kernel, ?_⟩
  · simp only [diagonal, ScreenCall.Session, ScreenCall.Ok, Act.Flow, Act.Ok, p 0x61 (Or.inl rfl), p 0x62 (Or.inr rfl), true_and]
    decide +kernel
  · have e : (((draw Screen.ascii (({} : Differ).resize (2, 2)).1 (diagonal.map ScreenCall.op) {}).bind fun d =>
        d.writeTo Screen.ascii .ok).toOption.map (·.2)) = some (text [.hide, .eraseAll, .cup 1 1, .sgr [0], .put 0x61, .put 0x62], none) := by
      decide +kernel
    revert e
    cases draw Screen.ascii (({} : Differ).resize (2, 2)).1 (diagonal.map ScreenCall.op) {} with
    | error f => intro e; cases e
    | ok d =>
      intro e
      change (d.writeTo Screen.ascii .ok).toOption.map (·.2) = _ at e
      refine ⟨d, ?_⟩
      revert e
      cases d.writeTo Screen.ascii .ok with
      | error f => intro e; cases e
      | ok r =>
        intro e
        refine ⟨r.1, _, rfl, congrArg Except.ok (Prod.ext rfl (Option.some.inj e)), ?_, ?_⟩
        · simp [Term.run, Term.step, hw]
        · simp only [Term.run, Term.step, hw, hh, List.foldl_cons, List.foldl_nil, Term.erased]
          simp only [Bool.false_eq_true, if_false, Nat.min_def]
          cases t.bce <;> simp [blank]

end Direct
end Anansi
