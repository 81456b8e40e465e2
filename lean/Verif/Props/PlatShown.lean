import Verif.Props.Direct
/-
C132: what a program that runs on the platform draws is what the terminal shows.
-/
set_option autoImplicit false

namespace Anansi
open Vt Geom Render

namespace Direct
open Anansi.Spec

/-- `platform.go:204-205` and `screen.go:212-221` `SizeToTerm`: the terminal says its size. -/
def sizeTo (d : Differ) (s : Nat × Nat) : Differ := (d.invalidate.resize s).1

/-- The screen in a frame of the platform, before the client draws: changes of size found while polling
(`platform.go:204-205`), `Reset`, and on a redraw `Invalidate` and `SizeToTerm` (`platform.go:253-281`).
Whether there is a redraw is left open: it may be asked for at any time. -/
def begin (d : Differ) (winch : Option (Nat × Nat)) (redraw : Option (Nat × Nat)) : Except Fault Differ :=
  let d := match winch with | some s => sizeTo d s | none => d
  d.reset.map fun d => match redraw with | some s => sizeTo d.invalidate s | none => d

/-- The frame: then the client makes its calls and sets the user cursor. -/
def platFrame (gr : Nat → Bool) (d : Differ) (winch redraw : Option (Nat × Nat)) (calls : List VScreen.Op) (user : Cursor) :
    Except Fault Differ :=
  (begin d winch redraw).bind fun d => (d.v.ops gr calls).map fun v => { d with v, user }

namespace Spec

/-- A blank page: of the terminal's size, in its style or in none. -/
def Page (t p : Term) : Prop :=
  p = { clearTerm t.w t.h with style := p.style, vis := p.vis } ∧ (p.style = t.style ∨ p.style = {})

/-- The calls begin by saying where. -/
def starts : List ScreenCall → Bool
  | [] => true
  | .move _ :: _ => true
  | _ => false

end Spec

theorem resize_same {sc : Screen} {w h : Nat} (W : sc.Whole w h) : sc.resize (w, h) = (sc, false) := by
  have hg : sc.grid.resize (w, h) = (sc.grid, false) := by
    unfold Grid.resize
    rw [if_pos]
    rw [W.rect]
    simp only [Grid.sz, Geom.size, Pt.mk.injEq]
    omega
  unfold Screen.resize
  rw [hg]
  rfl

theorem sizeTo_same {d : Differ} {w h : Nat} (W : d.v.sc.Whole w h) : sizeTo d (w, h) = d.invalidate := by
  have h2 : d.invalidate.v.sc.resize (w, h) = (d.v.sc, false) := resize_same W
  unfold sizeTo Differ.resize
  simp only [h2]
  rfl

/-- After the terminal said its size, old or new, whatever is on it, the record is right. -/
theorem sizeTo_synced {d : Differ} {t : Term} {old : Option Screen} {a : Pt} (Y : Synced d t old a) (w h : Nat) (hw : 1 ≤ w) (hh : 1 ≤ h)
    (cell : Nat → Nat → Glyph) (x y : Nat) (pend : Bool) : Synced (sizeTo d (w, h)) { t with w, h, cell, x, y, pend } none zp := by
  have Y1 := redraw_synced Y t.cell t.x t.y t.pend
  by_cases hne : (w, h) = (t.w, t.h)
  · rw [Prod.mk.injEq] at hne
    obtain ⟨rfl, rfl⟩ := hne
    rw [sizeTo_same Y.whole]
    exact redraw_synced Y cell x y pend
  · exact resize_synced Y1 w h hw hh hne cell x y pend

/-- The screen at the beginning of a frame is a blank page, with the style of the recorded cursor. -/
theorem reset_page {d : Differ} {t : Term} {old : Option Screen} {a : Pt} (Y : Synced d t old a) :
    ∃ sc : Screen, d.reset = .ok { d with v := ⟨{ sc with cur := d.real.cur }, d.v.buf.reset⟩, user := {} } ∧
      sc.Whole t.w t.h ∧ ∃ p, Spec.Page t p ∧ Emulates { sc with cur := { d.real.cur with pt := zp } } p .exact := by
  obtain ⟨sc, e1, E⟩ := clear_emulates Y.whole
  refine ⟨sc, ?_, E.whole, ?_⟩
  · unfold Differ.reset Differ.clear
    rw [e1]
    rfl
  · have hpen : ∃ st : Sgr.Style, (st = t.style ∨ st = {}) ∧ st.clear = false ∧ d.real.cur.attr = st.build := by
      rcases Y.pen with h | h
      · obtain ⟨h1, h2⟩ := Y.agree.attr h
        exact ⟨_, Or.inl rfl, h1, h2⟩
      · exact ⟨{}, Or.inr rfl, rfl, by rw [h]; decide⟩
    obtain ⟨st, h1, h2, h3⟩ := hpen
    refine ⟨{ clearTerm t.w t.h with style := st, vis := d.real.cur.visible }, ⟨rfl, h1⟩, ?_⟩
    have hW := E.whole
    refine ⟨⟨hW.hw, hW.hh, hW.rect, hW.stride, hW.len, hW.cap⟩, E.ok, ⟨rfl, rfl, E.shows.2.2⟩, h2, h3, rfl, rfl, rfl⟩

/-- Where the cursor was does not matter to calls that begin by saying where. -/
theorem starts_ops (gr : Nat → Bool) (sc : Screen) (c : Cursor) (b : Buffer) : ∀ (calls : List ScreenCall), Spec.starts calls = true → calls ≠ [] →
    VScreen.ops gr ⟨{ sc with cur := c }, b⟩ (calls.map ScreenCall.op) =
      VScreen.ops gr ⟨{ sc with cur := { c with pt := zp } }, b⟩ (calls.map ScreenCall.op)
  | [], _, h => absurd rfl h
  | .move _ :: _, _, _ => rfl
  | .write _ :: _, h, _ => by cases h
  | .style _ :: _, h, _ => by cases h

/-- **C132**, a frame: there is a blank page, such that what the client draws on it is, after the flush, on
the terminal; if the terminal was written on by something else, a redraw was asked for. -/
theorem plat_frame_shown (gr : Nat → Bool) (hsp : Printable gr 0x20) {d : Differ} {t t1 : Term} {old : Option Screen} {a : Pt}
    (Y : Synced d t old a) (redraw : Bool) (cell : Nat → Nat → Glyph) (x y : Nat) (pend : Bool) (ht1 : t1 = { t with cell, x, y, pend })
    (hr : redraw = false → t1 = t) :
    ∃ p, Spec.Page t1 p ∧ ∀ (calls : List ScreenCall), ScreenCall.Session gr p .exact calls → Spec.starts calls = true →
      Spec.finished calls true = true → ∀ user, Spec.Placed t1.w t1.h user →
      ∃ d1, platFrame gr d none (if redraw then some (t1.w, t1.h) else none) (calls.map ScreenCall.op) user = .ok d1 ∧
        (Spec.Easy t1 (if redraw then none else old) (if redraw then zp else a) d1.v.sc user →
          ∃ d' ops, d1.writeTo gr .ok = .ok (d', text ops, none) ∧ (t1.run ops).w = t1.w ∧ (t1.run ops).h = t1.h ∧
            (∀ x y, x < t1.w → y < t1.h → (t1.run ops).cell x y = (ScreenCall.runs p .exact calls).1.cell x y) ∧
            (t1.run ops).vis = Spec.seen user ∧
            (Spec.seen user = true → (t1.run ops).At user.pt ∧ user.attr = (t1.run ops).style.build) ∧
            Synced d' (t1.run ops) (some d1.v.sc)
              (Spec.rest t1.w t1.h (if redraw then none else old) (if redraw then zp else a) d1.v.sc user)) := by
  have hw1 : t1.w = t.w := by rw [ht1]
  have hh1 : t1.h = t.h := by rw [ht1]
  have hs1 : t1.style = t.style := by rw [ht1]
  obtain ⟨sc, e1, W0, p, hP, E⟩ := reset_page Y
  refine ⟨p, ⟨by rw [hw1, hh1]; exact hP.1, by rw [hs1]; exact hP.2⟩, fun calls hs hst hf user hu => ?_⟩
  have pw : p.w = t1.w := by rw [hP.1, hw1]; rfl
  have ph : p.h = t1.h := by rw [hP.1, hh1]; rfl
  have hcell : ∀ x y, p.cell x y = blank := by intro x y; rw [hP.1]; rfl
  -- the differ before the calls
  let v0 : VScreen := ⟨{ sc with cur := d.real.cur }, d.v.buf.reset⟩
  have Y0 : Synced { d with v := v0, user := {} } t old a :=
    ⟨⟨W0.hw, W0.hh, W0.rect, W0.stride, W0.len, W0.cap⟩, Y.agree, Y.known, Y.rest, Y.pen⟩
  have hbegin : ∃ d2, begin d none (if redraw then some (t1.w, t1.h) else none) = .ok d2 ∧ d2.v = v0 ∧
      Synced d2 t1 (if redraw then none else old) (if redraw then zp else a) := by
    unfold begin
    simp only [e1]
    cases redraw with
    | false => rw [hr rfl]; exact ⟨_, rfl, rfl, Y0⟩
    | true =>
      have Y1 := redraw_synced Y0 cell x y pend
      rw [← ht1] at Y1
      refine ⟨_, rfl, ?_, ?_⟩
      · show (sizeTo (Differ.invalidate { d with v := v0, user := {} }) (t1.w, t1.h)).v = v0
        rw [sizeTo_same Y1.whole]
        rfl
      · exact sizeTo_synced Y1 t1.w t1.h Y1.whole.hw Y1.whole.hh t1.cell t1.x t1.y t1.pend
  obtain ⟨d2, b1, b2, Y2⟩ := hbegin
  have hops : ∃ v, v0.ops gr (calls.map ScreenCall.op) = .ok v ∧ v.buf.buf = [] ∧ v.sc.Whole t1.w t1.h ∧
      Shows (ScreenCall.runs p .exact calls).1 v.sc t1.w t1.h := by
    by_cases hne : calls = []
    · subst hne
      refine ⟨v0, rfl, rfl, by rw [hw1, hh1]; exact Y0.whole, ?_⟩
      have := E.shows
      rw [pw, ph] at this
      exact ⟨this.1, this.2.1, this.2.2⟩
    · obtain ⟨v, g1, g2, g3⟩ := staged gr calls ⟨_, d.v.buf.reset⟩ p .exact true E rfl hs (fun _ => rfl) hf
      rw [← starts_ops gr sc d.real.cur _ calls hst hne] at g1
      obtain ⟨q1, q2⟩ := runs_size calls p .exact
      refine ⟨v, g1, g2, ?_, ?_⟩
      · have := g3.whole; rw [q1, q2, pw, ph] at this; exact this
      · have := g3.shows; rw [q1, q2, pw, ph] at this; exact this
  obtain ⟨v, g1, g2, g3, g4⟩ := hops
  refine ⟨{ d2 with v, user }, ?_, fun Z => ?_⟩
  · unfold platFrame
    rw [b1]
    show (d2.v.ops gr _).map _ = _
    rw [b2, g1]
    rfl
  · obtain ⟨d', ops, h1, h2, h3, h4, h5, h6, h7⟩ :=
      flushed gr hsp Y2 v g3 g2 _ g4 (calls_print hsp calls _ _ hs fun x y => by rw [hcell]; exact hsp) user hu Z
    exact ⟨d', ops, h1, h2, h3, h4, h5, fun h => ⟨(h6 h).1, (h6 h).2.1⟩, h7⟩

/-! ### Sessions -/

/-- What happened to the terminal before a frame: nothing; it was given a size, and said so, with anything
on it then; something else has written on it, and the user has asked for a redraw. -/
inductive Before
  | same
  | sized (w h : Nat) (cell : Nat → Nat → Glyph) (x y : Nat) (pend : Bool)
  | garbled (cell : Nat → Nat → Glyph) (x y : Nat) (pend : Bool)

def Before.term (t : Term) : Before → Term
  | .same => t
  | .sized w h cell x y pend => { t with w, h, cell, x, y, pend }
  | .garbled cell x y pend => { t with cell, x, y, pend }

def Before.winch : Before → Option (Nat × Nat)
  | .sized w h _ _ _ _ => some (w, h)
  | _ => none

/-- The sizes are of at least one cell. -/
def Before.Ok : Before → Prop
  | .sized w h _ _ _ _ => 1 ≤ w ∧ 1 ≤ h
  | _ => True

/-- What is known of the terminal is forgotten. -/
def Before.forgets (redraw : Bool) : Before → Bool
  | .same => redraw
  | _ => true

/-- A redraw is asked for (or the platform sees fit). -/
def Before.redraws (redraw : Bool) : Before → Bool
  | .garbled _ _ _ _ => true
  | _ => redraw

/-- A frame: what happened before, whether there is a redraw, what the client does. -/
structure PTurn where
  before : Before
  redraw : Bool
  calls : List ScreenCall
  user : Cursor

/-- Every frame has its blank page; if the client's calls are ones that a terminal would follow on it, they
are carried out without a fault; and, if the frame is easy to show, the terminal looks after its flush
as if they had been carried out on the page, and the cursor is the user's. -/
def PShown (gr : Nat → Bool) : Differ → Term → Option Screen → Pt → List PTurn → Prop
  | _, _, _, _, [] => True
  | d, t, old, a, f :: l =>
    let t1 := f.before.term t
    let old1 := if f.before.forgets f.redraw then none else old
    let a1 := if f.before.forgets f.redraw then zp else a
    f.before.Ok → ∃ p, Spec.Page t1 p ∧
      (ScreenCall.Session gr p .exact f.calls → Spec.starts f.calls = true → Spec.finished f.calls true = true →
        Spec.Placed t1.w t1.h f.user →
        ∃ d1, platFrame gr d f.before.winch (if f.before.redraws f.redraw then some (t1.w, t1.h) else none)
            (f.calls.map ScreenCall.op) f.user = .ok d1 ∧
          (Spec.Easy t1 old1 a1 d1.v.sc f.user →
            ∃ d' ops, d1.writeTo gr .ok = .ok (d', text ops, none) ∧
              (∀ x y, x < t1.w → y < t1.h → (t1.run ops).cell x y = (ScreenCall.runs p .exact f.calls).1.cell x y) ∧
              (t1.run ops).vis = Spec.seen f.user ∧
              (Spec.seen f.user = true → (t1.run ops).At f.user.pt ∧ f.user.attr = (t1.run ops).style.build) ∧
              PShown gr d' (t1.run ops) (some d1.v.sc) (Spec.rest t1.w t1.h old1 a1 d1.v.sc f.user) l))

theorem synced_shown (gr : Nat → Bool) (hsp : Printable gr 0x20) : ∀ (l : List PTurn) (d : Differ) (t : Term) (old : Option Screen) (a : Pt),
    Synced d t old a → PShown gr d t old a l
  | [], _, _, _, _, _ => trivial
  | ⟨b, redraw, calls, user⟩ :: l, d, t, old, a, Y => by
    intro hb
    cases b with
    | same =>
      obtain ⟨p, hP, h⟩ := plat_frame_shown gr hsp (t1 := t) Y redraw t.cell t.x t.y t.pend rfl (fun _ => rfl)
      refine ⟨p, hP, fun h1 h2 h3 h4 => ?_⟩
      obtain ⟨d1, k1, k2⟩ := h calls h1 h2 h3 user h4
      refine ⟨d1, k1, fun Z => ?_⟩
      obtain ⟨d', ops, m1, -, -, m4, m5, m6, m7⟩ := k2 Z
      exact ⟨d', ops, m1, m4, m5, m6, synced_shown gr hsp l _ _ _ _ m7⟩
    | sized w h cell x y pend =>
      have Y1 := sizeTo_synced Y w h hb.1 hb.2 cell x y pend
      obtain ⟨p, hP, h⟩ := plat_frame_shown gr hsp (t1 := { t with w, h, cell, x, y, pend }) Y1 redraw cell x y pend rfl (fun _ => rfl)
      refine ⟨p, hP, fun h1 h2 h3 h4 => ?_⟩
      obtain ⟨d1, k1, k2⟩ := h calls h1 h2 h3 user h4
      rw [show (if redraw then (none : Option Screen) else none) = none by cases redraw <;> rfl,
        show (if redraw then zp else zp) = zp by cases redraw <;> rfl] at k2
      refine ⟨d1, k1, fun Z => ?_⟩
      obtain ⟨d', ops, m1, -, -, m4, m5, m6, m7⟩ := k2 Z
      exact ⟨d', ops, m1, m4, m5, m6, synced_shown gr hsp l _ _ _ _ m7⟩
    | garbled cell x y pend =>
      obtain ⟨p, hP, h⟩ := plat_frame_shown gr hsp (t1 := { t with cell, x, y, pend }) Y true cell x y pend rfl (fun h => (by cases h))
      refine ⟨p, hP, fun h1 h2 h3 h4 => ?_⟩
      obtain ⟨d1, k1, k2⟩ := h calls h1 h2 h3 user h4
      refine ⟨d1, k1, fun Z => ?_⟩
      obtain ⟨d', ops, m1, -, -, m4, m5, m6, m7⟩ := k2 Z
      exact ⟨d', ops, m1, m4, m5, m6, synced_shown gr hsp l _ _ _ _ m7⟩

/-- **C132**: a program that runs on the platform, from entering the terminal on (`screen.go:190`).  Partial:
frames that are not `Easy`, and calls that do not begin by saying where. -/
theorem plat_shown_partial (gr : Nat → Bool) (hsp : Printable gr 0x20) (t : Term) (hw : 1 ≤ t.w) (hh : 1 ≤ t.h) (l : List PTurn) :
    PShown gr (sizeTo {} (t.w, t.h)) t none zp l := by
  have e : ({} : Differ).invalidate = {} := by decide +kernel
  have Y := new_synced t hw hh
  rw [← e] at Y
  exact synced_shown gr hsp l _ _ _ _ Y

/-! ### Examples, and frames that come out wrong -/

/-- The hypotheses of a frame hold for a greeting, on any page. -/
example (t p : Term) (hw : t.w = 4) (hh : t.h = 2) (hP : Spec.Page t p) :
    ScreenCall.Session Screen.ascii p .exact hello ∧ Spec.starts hello = true ∧ Spec.finished hello true = true := by
  have h : ∀ r, r = 0x68 ∨ r = 0x69 → Printable Screen.ascii r := by
    rintro r (rfl | rfl) <;> exact ⟨by decide, by decide, by decide, by decide, by decide⟩
  refine ⟨?_, rfl, rfl⟩
  rw [hP.1, hw, hh]
  exact ⟨trivial, ⟨⟨h 0x68 (Or.inl rfl), by simp [ScreenCall.run]⟩, ⟨h 0x69 (Or.inr rfl), by simp [ScreenCall.run, Act.next, Term.step, clearTerm]⟩, trivial⟩, trivial⟩

/-- A frame on a screen of two by two with hidden cursor, and its flush. -/
def go (d : Differ) (redraw : Bool) (calls : List ScreenCall) : Except Fault (Differ × Bytes) :=
  (platFrame Screen.ascii d none (if redraw then some (2, 2) else none) (calls.map ScreenCall.op) {}).bind fun d =>
    (d.writeTo Screen.ascii .ok).map fun r => (r.1, r.2.1)

def goes (d : Differ) : List (Bool × List ScreenCall) → Except Fault Differ
  | [] => .ok d
  | f :: l => (go d f.1 f.2).bind fun r => goes r.1 l

/-- `a`, and `b` in bold. -/
def ab : List ScreenCall := [.move ⟨1, 1⟩, .write [.op (.put 0x61)], .style [{ bold := true }], .write [.op (.put 0x62)]]

/-- Negation: the same frame drawn twice shows differently the second time, since the style of the cursor is
the one in which the last changed cell was written: `a` becomes bold. -/
theorem style_carries_over :
    (goes (sizeTo {} (2, 2)) [(true, ab)]).toOption.map (fun d => d.real.grid.cells.take 2) = some [⟨0x61, 0⟩, ⟨0x62, Sgr.Style.build { bold := true }⟩] ∧
    (goes (sizeTo {} (2, 2)) [(true, ab), (false, ab)]).toOption.map (fun d => d.real.grid.cells.take 2) =
      some [⟨0x61, Sgr.Style.build { bold := true }⟩, ⟨0x62, Sgr.Style.build { bold := true }⟩] := by
  decide +kernel

def ac : List ScreenCall := [.move ⟨1, 1⟩, .write [.op (.put 0x61)], .write [.op (.put 0x62)]]

/-- Negation: a text that does not say where it is to be is lost, if the cell changed last was in the last column
and the cursor is hidden: `d` is written, and nothing is on the screen. -/
theorem unplaced_text_lost :
    (goes (sizeTo {} (2, 2)) [(true, ac), (false, [.move ⟨1, 1⟩, .write [.op (.put 0x61)], .write [.op (.put 0x63)]]),
      (false, [.write [.op (.put 0x64)]])]).toOption.map (fun d => d.real.grid.cells) = some [{}, {}, {}, {}] := by
  decide +kernel

/-- A frame with hidden cursor, and its flush: what is on the screen and what is written. -/
def turn (d : Differ) (winch redraw : Option (Nat × Nat)) (calls : List ScreenCall) : Except Fault (Differ × Bytes) :=
  (platFrame Screen.ascii d winch redraw (calls.map ScreenCall.op) {}).bind fun d =>
    (d.writeTo Screen.ascii .ok).map fun r => (r.1, r.2.1)

/-- `ab` in the second row. -/
def below : List ScreenCall := [.move ⟨1, 2⟩, .write [.op (.put 0x61), .op (.put 0x62)]]

/-- Negation: the size is asked for again on a redraw, after the screen was cleared.  A window of four by two becomes two
by two, which is noticed when polling, and four by two again before the redraw this causes: the client draws nothing, and
the terminal shows what was drawn in the frame before. -/
theorem stale_cells_shown :
    ((turn (sizeTo {} (4, 2)) none (some (4, 2)) below).bind fun r => (turn r.1 (some (2, 2)) (some (4, 2)) []).map Prod.snd).toOption =
      some (text [.eraseAll, .cup 2 1, .put 0x61, .put 0x62]) ∧
    ((turn (sizeTo {} (4, 2)) none (some (4, 2)) below).bind fun r => (turn r.1 (some (2, 2)) (some (2, 2)) []).map Prod.snd).toOption =
      some (text [.eraseAll]) := by
  decide +kernel

end Direct
end Anansi
