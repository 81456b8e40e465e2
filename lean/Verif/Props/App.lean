import Verif.Model.App
import Verif.Props.TypedShown
import Verif.Props.InputRead
/-
C134: what is typed at a terminal is what it shows, from the bytes that are read to the bytes that are written.
-/
set_option autoImplicit false

namespace Anansi
open Vt Geom Render

namespace App
open Anansi.Spec Typ Evq Frm Direct
open Typ.Spec (Stroke Sent edited)
open Direct.Spec (Place)

/-! ### Reading -/

/-- The input can be read without waiting for ever: it is a file not yet set to be read so, or it is set. -/
def Able (s : Inp.Input) : Prop := (s.file = true ∧ s.nonblock = false) ∨ (s.nonblock = true ∧ s.nonblocking = true)

/-- Reading all that there is reads it, and the input can be read so again. -/
theorem readAny_able (s : Inp.Input) (ds : List Inp.Chunk) (h : Able s) :
    ∃ s', s.readAny (ds.map (fun d => Inp.Avail.data d.1 d.2.1 d.2.2) ++ [.nothing]) true true =
        some (s', (ds.flatMap fun d => d.1 :: d.2.1).length, .nil, []) ∧ Able s' := by
  have key : ∀ (ds : List Inp.Chunk) (x : Inp.Input) (n : Nat), x.nonblocking = true →
      ∃ b f, x.readLoop n (ds.map (fun d => Inp.Avail.data d.1 d.2.1 d.2.2) ++ [.nothing]) =
        some ({ x with buf := b, full := f }, n + (ds.flatMap fun d => d.1 :: d.2.1).length, .wouldBlock, []) := by
    intro ds
    induction ds with
    | nil =>
      intro x n hx
      exact ⟨x.buf, false, by simp [Inp.Input.readLoop, hx]⟩
    | cons d ds ih =>
      intro x n hx
      have hx' : ({ x with buf := x.buf ++ d.1 :: d.2.1, full := d.2.2 } : Inp.Input).nonblocking = true := hx
      obtain ⟨b, f, hi⟩ := ih _ (n + (d.2.1.length + 1)) hx'
      refine ⟨b, f, ?_⟩
      simp only [List.map_cons, List.cons_append, Inp.Input.readLoop]
      rw [hi]
      simp; omega
  have hset : (s.setNonblock true true true).2 = true ∧ (s.setNonblock true true true).1.nonblocking = true ∧
      (s.setNonblock true true true).1.nonblock = true := by
    rcases h with ⟨h1, h2⟩ | ⟨h1, h2⟩
    · obtain ⟨a, b⟩ := Inp.setNonblock_nonblocking s h1 h2
      refine ⟨b, a, ?_⟩
      unfold Inp.Input.setNonblock
      rw [if_neg (by rw [h2]; decide)]
      unfold Inp.Input.setFlags
      have hfd : ∀ x : Inp.Input, x.fd.nonblock = x.nonblock := by intro x; unfold Inp.Input.fd; split <;> rfl
      simp [h1, Inp.Input.setfl, hfd]
    · have : s.setNonblock true true true = (s, true) := by
        unfold Inp.Input.setNonblock
        rw [if_pos h1.symm]
      rw [this]
      exact ⟨rfl, h2, h1⟩
  obtain ⟨g1, g2, g3⟩ := hset
  obtain ⟨b, f, hk⟩ := key ds { (s.setNonblock true true true).1 with ateof := false } 0 g2
  unfold Inp.Input.readAny
  simp only [g1, Bool.not_true, Bool.false_eq_true, if_false, hk]
  rw [Nat.zero_add]
  exact ⟨_, rfl, Or.inr ⟨g3, g2⟩⟩

/-! ### Polling -/

variable {σ ε : Type}

/-- What a poll says of the size. -/
def sized (s : Pt) : Poll → Pt
  | .resize z => Frm.sizeTo s z
  | _ => s

theorem polls_append (a b : List Poll) : ∀ (p : Plat σ) (err : Option (Err ε)),
    p.polls err (a ++ b) = (p.polls err a).bind fun r => r.1.polls r.2 b := by
  induction a with
  | nil => intro p err; rfl
  | cons q a ih =>
    intro p err
    simp only [List.cons_append, Plat.polls, Option.bind_assoc]
    congr 1
    funext r
    exact ih _ _

theorem polls_noread (l : List Poll) (h : ∀ q ∈ l, Frm.Spec.Poll.reads q = false) (hs : ∀ sig, Poll.stop sig ∉ l) : ∀ (p : Plat σ),
    p.polls (none : Option (Err ε)) l = some ({ p with size := l.foldl sized p.size }, none) := by
  induction l with
  | nil => intro p; rfl
  | cons q l ih =>
    intro p
    have ih := ih (fun q hq => h q (by simp [hq])) (fun sig hm => hs sig (by simp [hm]))
    cases q with
    | stop sig => exact absurd (by simp) (hs sig)
    | resize z =>
      simp only [Plat.polls, Plat.poll, Option.bind_some, List.foldl_cons, sized]
      exact ih _
    | input av g s => simp [Frm.Spec.Poll.reads] at h

/-- The keys typed in a frame are its events, and the sizes are the terminal's. -/
theorem polls_sent (gr : Nat → Bool) (l : List Poll) (b : Bytes) (h : Sent l b) (ks : List Stroke) (hk : ∀ k ∈ ks, k.Ok gr)
    (hb : b = ks.flatMap Stroke.bytes) (hs : ∀ sig, Poll.stop sig ∉ l) (p : Plat σ) (h0 : p.input.buf = []) (ha : Able p.input)
    (he : Frm.Spec.live p.events = []) :
    ∃ q : Plat σ, p.polls (none : Option (Err ε)) l = some (q, none) ∧ q.input.buf = [] ∧ Able q.input ∧ Frm.Spec.live q.events = ks.map ev ∧
      q.size = l.foldl sized p.size ∧ q.client = p.client ∧ q.hud = p.hud := by
  have hex : ∃ q : Plat σ, p.polls (none : Option (Err ε)) l = some (q, none) ∧ Able q.input ∧ q.size = l.foldl sized p.size ∧
      q.client = p.client ∧ q.hud = p.hud := by
    cases h with
    | none _ h => exact ⟨_, polls_noread l h hs p, ha, rfl, rfl, rfl⟩
    | some a c cs hra hrc =>
      have hsa : ∀ sig, Poll.stop sig ∉ a := fun sig hm => hs sig (by simp [hm])
      have hsc : ∀ sig, Poll.stop sig ∉ c := fun sig hm => hs sig (by simp [hm])
      obtain ⟨inp, r1, r2⟩ := readAny_able p.input cs ha
      rw [polls_append, polls_noread a hra hsa]
      simp only [Option.bind_some, Plat.polls, Plat.poll, r1]
      split
      · rename_i hn
        obtain ⟨e1, -⟩ := readAny_reads cs p.input _ r1
        rw [h0, List.nil_append, hb, ← items_bytes] at e1
        have hd := drain_all (ks.map item) (by simpa using fun k hk' => item_ok gr k (hk k hk')) inp e1
        simp only [Option.bind_some, decodeInput, hd]
        refine ⟨_, polls_noread c hrc hsc _, r2, ?_, rfl, rfl⟩
        rw [List.foldl_append]
        rfl
      · simp only [Option.bind_some]
        refine ⟨_, polls_noread c hrc hsc _, r2, ?_, rfl, rfl⟩
        rw [List.foldl_append]
        rfl
  obtain ⟨q, q1, q2, q3, q4, q5⟩ := hex
  obtain ⟨es, t1, t2, t3⟩ := polls_events l p none _ q1
  obtain ⟨u1, u2⟩ := typed_strokes gr l b h ks hk hb p.input _ es h0 t1
  refine ⟨q, q1, u1, q2, ?_, q3, q4, q5⟩
  rcases Nat.le_one_iff_eq_zero_or_eq_one.1 (sent_once l b h) with hz | hz
  · obtain ⟨a1, a2⟩ := t2 hz
    rw [a1, he, ← u2, a2]
  · rw [t3 hz, u2]
    show List.filter _ _ = _
    rw [List.filter_eq_self]
    intro e he
    simpa using live_ev ks gr hk e he

/-! ### Updating -/

theorem sum_none : ∀ l : List Nat, (∀ n ∈ l, n = 0) → l.sum = 0
  | [], _ => rfl
  | n :: l, h => by
    rw [List.sum_cons, h n (by simp), sum_none l fun m hm => h m (by simp [hm])]

theorem sum_some (m : Nat) : ∀ l : List Nat, m ∈ l → m ≤ l.sum
  | n :: l, h => by
    rw [List.sum_cons]
    rcases List.mem_cons.1 h with rfl | h
    · omega
    · have := sum_some m l h
      omega

theorem count_zero (r : Nat) (es : Events) (h : ∀ e ∈ Frm.Spec.live es, e.kind = .rune → e.esc ≠ r) : (countRune [r] 0 es).2 = 0 := by
  rw [(countRune_strikes [r] es 0).2, Nat.zero_add]
  refine sum_none _ fun n hn => ?_
  simp only [List.mem_map, List.mem_filter, decide_eq_true_eq] at hn
  obtain ⟨e, ⟨he, hr⟩, rfl⟩ := hn
  rw [List.count_eq_zero, List.mem_singleton]
  exact h e (List.mem_filter.2 ⟨he, by simp [hr]⟩) hr

theorem count_pos (r : Nat) (es : Events) (e : Ev) (he : e ∈ Frm.Spec.live es) (hk : e.kind = .rune) (hr : e.esc = r) :
    0 < (countRune [r] 0 es).2 := by
  rw [(countRune_strikes [r] es 0).2, Nat.zero_add]
  have hm : 1 ∈ (es.filter fun e => e.kind = .rune).map fun e => [r].count e.esc := by
    rw [List.mem_map]
    exact ⟨e, List.mem_filter.2 ⟨(List.mem_filter.1 he).1, by simp [hk]⟩, by simp [hr]⟩
  exact Nat.lt_of_lt_of_le Nat.one_pos (sum_some _ _ hm)

theorem live_count (rs : List Nat) (es : Events) : ∀ e ∈ Frm.Spec.live (countRune rs 0 es).1, e ∈ Frm.Spec.live es := by
  intro e he
  rw [(countRune_strikes rs es 0).1, live_strike] at he
  exact (List.mem_filter.1 he).1

theorem ev_esc (gr : Nat → Bool) (hct : Ctl gr) (k : Stroke) (hk : k.Ok gr) (hr : (ev k).kind = .rune) :
    (ev k).esc ≠ 0x12 ∧ ((ev k).esc = 0x0B → k = .hud) := by
  obtain ⟨c1, c2, c3, c4, c5, c6⟩ := hct
  cases k with
  | char r =>
    obtain ⟨h1, h2, h3⟩ := hk
    rw [ev_char r h3]
    refine ⟨fun h => ?_, fun h => ?_⟩
    · simp only at h; rw [h, c5] at h1; cases h1
    · simp only at h; rw [h, c1] at h1; cases h1
  | hud => exact ⟨by decide, fun _ => rfl⟩
  | _ => revert hr; decide

/-- What the client gets in a frame: the keys but those for the platform; the display stays hidden, and there is
a redraw if one was asked for. -/
theorem update_view (gr : Nat → Bool) (hct : Ctl gr) (client : σ → View → Left σ ε) (q : Plat σ) (f : Frame ε) (ks : List Stroke)
    (hk : ∀ k ∈ ks, k.Ok gr ∧ k ≠ .hud) (he : Frm.Spec.live q.events = ks.map ev) :
    let u := q.update client f none
    Frm.Spec.live u.2.1.events = (ks.map ev).filter (fun e => !Frm.Spec.ownKey e) ∧ u.2.1.hud = q.hud ∧
      (.redraw ∈ ks → u.2.1.redraw = true) ∧ u.2.2 = (client q.client u.2.1).err ∧ u.1.input = q.input ∧
      u.1.events = (client q.client u.2.1).events ∧ u.1.client = (client q.client u.2.1).state ∧
      u.1.size = (client q.client u.2.1).size ∧ u.1.hud = (client q.client u.2.1).hud := by
  intro u
  obtain ⟨h1, h2, h3⟩ := update_events client q f none
  rw [he] at h1
  have hr : (countRune [0x12] 0 (countRune [0x0C] 0 q.events).1).2 = 0 := by
    apply count_zero
    intro e hm hrune
    have := live_count _ _ e hm
    rw [he, List.mem_map] at this
    obtain ⟨k, hk', rfl⟩ := this
    exact (ev_esc gr hct k (hk k hk').1 hrune).1
  have hh : (countRune [0x0B] 0 (countRune [0x12] 0 (countRune [0x0C] 0 q.events).1).1).2 = 0 := by
    apply count_zero
    intro e hm hrune hesc
    have := live_count _ _ e (live_count _ _ e hm)
    rw [he, List.mem_map] at this
    obtain ⟨k, hk', rfl⟩ := this
    exact (hk k hk').2 ((ev_esc gr hct k (hk k hk').1 hrune).2 hesc)
  refine ⟨h1, ?_, fun hm => ?_, ?_, h2, h3, rfl, rfl, rfl⟩
  · show (if (countRune [0x0B] 0 (countRune [0x12] 0 (countRune [0x0C] 0 q.events).1).1).2 % 2 = 1 then !q.hud else q.hud) = q.hud
    rw [hh]; rfl
  · have hpos : 0 < (countRune [0x0C] 0 q.events).2 :=
      count_pos 0x0C q.events (ev .redraw) (by rw [he]; exact List.mem_map_of_mem hm) (by decide) (by decide)
    show (decide ((countRune [0x0C] 0 q.events).2 > 0) || _ || _) = true
    rw [decide_eq_true hpos]; rfl
  · show errOr (if (countRune [0x12] 0 (countRune [0x0C] 0 q.events).1).2 % 2 = 1 then errOr none f.toggle else none) _ = _
    rw [hr]; rfl

/-! ### The screen while polling -/

theorem polled_same : ∀ (l : List Poll) (d : Differ) (s : Pt), (∀ z, Poll.resize z ∉ l) → l.foldl polled d = d ∧ l.foldl sized s = s
  | [], _, _, _ => ⟨rfl, rfl⟩
  | .stop _ :: l, d, s, h => polled_same l d s fun z hz => h z (by simp [hz])
  | .input _ _ _ :: l, d, s, h => polled_same l d s fun z hz => h z (by simp [hz])
  | .resize z :: _, _, _, h => absurd (by simp) (h z)

/-- Sizes that terminals have. -/
def Sizes (l : List Poll) : Prop := ∀ z, Poll.resize z ∈ l → ∃ w h : Nat, z = some ⟨w, h⟩ ∧ 1 ≤ w ∧ 1 ≤ h

/-- After changes of size that the polls tell of, a session goes on from nothing recorded, at the last size. -/
theorem polled_going {p : Place} (cell : Nat → Nat → Glyph) (x y : Nat) (pend : Bool) (w h : Nat) :
    ∀ (l : List Poll) (d : Differ) (t : Term) (old : Option Screen) (a : Pt), Going p d t old a → Sizes l → (∃ z, Poll.resize z ∈ l) →
      (⟨w, h⟩ : Pt) = l.foldl sized ⟨t.w, t.h⟩ → Going p (l.foldl polled d) { t with w, h, cell, x, y, pend } none zp
  | [], _, _, _, _, _, _, hz, _ => by simp at hz
  | .stop _ :: l, d, t, old, a, G, hs, hz, hw => by
    refine polled_going cell x y pend w h l d t old a G (fun z hm => hs z (by simp [hm])) ?_ hw
    simpa using hz
  | .input _ _ _ :: l, d, t, old, a, G, hs, hz, hw => by
    refine polled_going cell x y pend w h l d t old a G (fun z hm => hs z (by simp [hm])) ?_ hw
    simpa using hz
  | .resize z :: l, d, t, old, a, G, hs, _, hw => by
    obtain ⟨w1, h1, rfl, hw1, hh1⟩ := hs z (by simp)
    have e : polled d (.resize (some ⟨w1, h1⟩)) = Direct.sizeTo d (w1, h1) := by
      simp [polled, sizeToTerm, Direct.sizeTo]
    have e2 : sized ⟨t.w, t.h⟩ (.resize (some ⟨w1, h1⟩)) = ⟨w1, h1⟩ := rfl
    rw [List.foldl_cons, e]
    rw [List.foldl_cons, e2] at hw
    have G1 := sizeTo_going G w1 h1 hw1 hh1 cell x y pend
    by_cases hz : ∃ z, Poll.resize z ∈ l
    · have := polled_going cell x y pend w h l _ { t with w := w1, h := h1, cell, x, y, pend } none zp G1 (fun z hm => hs z (by simp [hm])) hz hw
      exact this
    · have hz : ∀ z, Poll.resize z ∉ l := fun z hm => hz ⟨z, hm⟩
      obtain ⟨e3, -⟩ := polled_same l (Direct.sizeTo d (w1, h1)) ⟨w1, h1⟩ hz
      obtain ⟨-, e4⟩ := polled_same l (Direct.sizeTo d (w1, h1)) ⟨w1, h1⟩ hz
      rw [e4, Pt.mk.injEq] at hw
      obtain ⟨rfl, rfl⟩ : w = w1 ∧ h = h1 := by omega
      rw [e3]
      exact G1

/-- Drawing in the platform's order. -/
theorem draw_frame (gr : Nat → Bool) (d d1 : Differ) (redraw : Bool) (w h : Nat) (l l' : Edl.EditLine) (es : Events)
    (hf : lineFrame gr d none (if redraw then some (w, h) else none) l es = .ok (d1, l')) :
    ∃ (f : Edl.Frame) (v : VScreen) (u : Cursor), App.draw gr d redraw (some ⟨w, h⟩) l es = .ok (d1, f) ∧ f.line = l' ∧ l.update gr es v u = .ok f := by
  unfold lineFrame begin at hf
  unfold App.draw
  cases hr : d.reset with
  | error x => simp only [hr] at hf; cases hf
  | ok d0 =>
    simp only [hr] at hf
    have key : ∀ d2 : Differ, ((l.update gr es d2.v d2.user).map fun f => (({ d2 with v := f.out, user := f.user } : Differ), f.line)) = .ok (d1, l') →
        ∃ (f : Edl.Frame) (v : VScreen) (u : Cursor), ((l.update gr es d2.v d2.user).map fun f => (({ d2 with v := f.out, user := f.user } : Differ), f)) = .ok (d1, f) ∧
          f.line = l' ∧ l.update gr es v u = .ok f := by
      intro d2 h2
      cases hu : l.update gr es d2.v d2.user with
      | error x => rw [hu] at h2; cases h2
      | ok f =>
        rw [hu] at h2
        have h2 : (({ d2 with v := f.out, user := f.user } : Differ), f.line) = (d1, l') := by injection h2
        rw [Prod.mk.injEq] at h2
        exact ⟨f, _, _, by rw [← h2.1]; rfl, h2.2, hu⟩
    cases redraw with
    | false => exact key d0 hf
    | true =>
      have e : sizeToTerm d0.invalidate (some ⟨w, h⟩) = Direct.sizeTo d0.invalidate (w, h) := by
        simp [sizeToTerm, Direct.sizeTo]
      show ∃ f v u, ((l.update gr es (sizeToTerm d0.invalidate (some ⟨w, h⟩)).v (sizeToTerm d0.invalidate (some ⟨w, h⟩)).user).map _) = _ ∧ _
      rw [e]
      exact key _ hf

/-! ### Specification -/

namespace Spec

/-- A frame, the keys that are typed in it, and the terminal at the time. -/
structure Moment (ε : Type) where
  frame : Frame ε
  keys : List Stroke
  term : Term

/-- What is assumed of a frame.  The bytes of the keys are what there is to read, in pieces cut anywhere, at one
time; nothing fails; no signal to stop comes; the terminal says its size truly, if asked; it has another size only
if it says so by a signal, and shows something else than before only then or if a redraw is asked for by a key; the box
is on it.  The keys are none that edit wrongly (C129), nor the one for the head-up display. -/
structure Moment.Ok {ε : Type} (gr : Nat → Bool) (p : Place) (t : Term) (s : Anansi.Spec.Line) (m : Moment ε) : Prop where
  fine : m.frame.telemetry = none ∧ m.frame.flush = none ∧ m.frame.notify = none
  sent : Sent m.frame.polls (m.keys.flatMap Stroke.bytes)
  goes : ∀ sig, Poll.stop sig ∉ m.frame.polls
  sizes : Sizes m.frame.polls
  size : (⟨m.term.w, m.term.h⟩ : Pt) = m.frame.polls.foldl sized ⟨t.w, t.h⟩
  asked : m.frame.termSize = some ⟨m.term.w, m.term.h⟩
  other : m.term = { t with w := m.term.w, h := m.term.h, cell := m.term.cell, x := m.term.x, y := m.term.y, pend := m.term.pend }
  same : (∀ z, Poll.resize z ∉ m.frame.polls) → .redraw ∉ m.keys → m.term = t
  fits : p.Fits m.term.w m.term.h
  keys : ∀ k ∈ m.keys, k.Ok gr ∧ k ≠ .hud
  simple : s.SimpleAll (m.keys.map Stroke.key)
  text : ∀ r ∈ (edited s m.keys).text, Printable gr r

/-- Frame after frame the program goes on, and writes to the terminal what makes it show the text that the keys
typed until then give, and the cursor in it. -/
def Shown (gr : Nat → Bool) (p : Place) {ε : Type} : Plat (Option State) → Term → Anansi.Spec.Line → List (Moment ε) → Prop
  | _, _, _, [] => True
  | q, t, s, m :: ms => m.Ok gr p t s → ∃ q' v a a' ops, App.frame gr q m.frame = .next q' v ∧ q.client = some a ∧ q'.client = some a' ∧
      a'.out = a.out ++ Vt.text ops ∧ p.Shows (m.term.run ops) (edited s m.keys) ∧ Shown gr p q' (m.term.run ops) (edited s m.keys) ms

end Spec

open App.Spec (Moment Shown)

/-- Between frames. -/
structure Inv (p : Place) (q : Plat (Option State)) (a : State) (t : Term) (s : Anansi.Spec.Line) : Prop where
  client : q.client = some a
  going : ∃ old at_, Going p a.screen t old at_
  edit : Edit p a.line s
  events : Frm.Spec.live q.events = []
  buf : q.input.buf = []
  able : Able q.input
  size : q.size = ⟨t.w, t.h⟩

/-- A frame. -/
theorem frame_shown (gr : Nat → Bool) (hgr : ∀ r, gr r = true → validRune r = true) (hct : Ctl gr) (hsp : Printable gr 0x20) (p : Place)
    (q : Plat (Option State)) (a : State) (t : Term) (s : Anansi.Spec.Line) (I : Inv p q a t s) (m : Moment ε) (hm : m.Ok gr p t s) :
    ∃ q' v a' ops, App.frame gr q m.frame = .next q' v ∧ q'.client = some a' ∧
      a'.out = a.out ++ Vt.text ops ∧ p.Shows (m.term.run ops) (edited s m.keys) ∧ Inv p q' a' (m.term.run ops) (edited s m.keys) := by
  obtain ⟨f, ks, t1⟩ := m
  obtain ⟨⟨n1, n2, n3⟩, hsent, hgo, hsz, hsize, hask, hoth, hsame, hfit, hk, hsim, htext⟩ := hm
  simp only at n1 n2 n3 hsent hgo hsz hsize hask hoth hsame hfit hk hsim htext
  have hk1 := fun k hk' => (hk k hk').1
  obtain ⟨old, pt, G⟩ := I.going
  -- polling
  obtain ⟨q1, e1, e2, e3, e4, e5, e6, e7⟩ := polls_sent (ε := ε) gr f.polls _ hsent ks hk1 rfl hgo q I.buf I.able I.events
  -- what the client gets
  obtain ⟨v1, v2, v3, v4, v5, v6, v7, v8, v9⟩ := update_view gr hct (App.client gr f) q1 f ks hk e4
  generalize hv : (q1.update (App.client gr f) f none).2.1 = v at v1 v2 v3 v4 v6 v7 v8 v9
  -- what is drawn
  have hline : ∃ d1 l', lineFrame gr (f.polls.foldl polled a.screen) none (if v.redraw then some (t1.w, t1.h) else none) a.line v.events = .ok (d1, l') ∧
      Edit p l' (edited s ks) ∧ d1.v.sc.Whole t1.w t1.h ∧ ∃ d' ops a', d1.writeTo gr .ok = .ok (d', Vt.text ops, none) ∧ p.Shows (t1.run ops) (edited s ks) ∧
        (t1.run ops).w = t1.w ∧ (t1.run ops).h = t1.h ∧ Going p d' (t1.run ops) (some d1.v.sc) a' := by
    by_cases hz : ∃ z, Poll.resize z ∈ f.polls
    · have G1 := polled_going t1.cell t1.x t1.y t1.pend t1.w t1.h f.polls a.screen t old pt G hsz hz hsize
      rw [← hoth] at G1
      exact line_frame gr hgr hct hsp p (t1 := t1) G1 v.redraw t1.cell t1.x t1.y t1.pend rfl (fun _ => rfl) hfit a.line s I.edit ks hk1 v.events v1 hsim htext
    · have hz : ∀ z, Poll.resize z ∉ f.polls := fun z hm => hz ⟨z, hm⟩
      obtain ⟨p1, p2⟩ := polled_same f.polls a.screen ⟨t.w, t.h⟩ hz
      rw [p2, Pt.mk.injEq] at hsize
      obtain ⟨hw, hh⟩ : t1.w = t.w ∧ t1.h = t.h := by omega
      rw [p1]
      refine line_frame gr hgr hct hsp p (t1 := t1) G v.redraw t1.cell t1.x t1.y t1.pend ?_ (fun hr => ?_) hfit a.line s I.edit ks hk1 v.events v1 hsim htext
      · rw [hw, hh] at hoth
        exact hoth
      · refine hsame hz fun hm => ?_
        rw [v3 hm] at hr
        cases hr
  obtain ⟨d1, l', k1, k2, k3, d', ops, pt', k4, k5, k6, k7, k8⟩ := hline
  obtain ⟨fr, vs, us, g1, g2, g3⟩ := draw_frame gr _ d1 v.redraw t1.w t1.h a.line l' v.events k1
  obtain ⟨-, -, g4⟩ := update_edits gr hgr hct a.line s ks hk1 v.events v1 I.edit.holds I.edit.ready hsim vs us fr g3
  have hcl : App.client gr f q1.client v = ({ state := some ⟨l', d', a.out ++ Vt.text ops⟩, events := fr.input, paused := v.paused, size := ⟨t1.w, t1.h⟩, hud := v.hud, err := none } : Left (Option State) ε) := by
    rw [e6, I.client]
    show left gr a.out v (App.draw gr (f.polls.foldl polled a.screen) v.redraw f.termSize a.line v.events) = _
    rw [hask, g1]
    unfold left flush
    simp only [k4, g2]
    congr 1
    rw [k3.rect]
    simp [Geom.size]
  rw [hcl] at v4 v6 v7 v8 v9
  have hfr := frame_err (App.client gr f) q f n1 _ e1
  simp only [v4, n2, n3, Frm.Spec.firstErr] at hfr
  refine ⟨_, _, _, ops, hfr, v7, rfl, k5, v7, ⟨_, _, k8⟩, k2, ?_, ?_, ?_, ?_⟩
  · rw [v6]; exact g4
  · rw [v5]; exact e2
  · rw [v5]; exact e3
  · rw [v8, k6, k7]

theorem inv_shown (gr : Nat → Bool) (hgr : ∀ r, gr r = true → validRune r = true) (hct : Ctl gr) (hsp : Printable gr 0x20) (p : Place) :
    ∀ (ms : List (Moment ε)) (q : Plat (Option State)) (a : State) (t : Term) (s : Anansi.Spec.Line), Inv p q a t s → Shown gr p q t s ms
  | [], _, _, _, _, _ => trivial
  | m :: ms, q, a, t, s, I => by
    intro hm
    obtain ⟨q', v, a', ops, h1, h2, h3, h4, h5⟩ := frame_shown gr hgr hct hsp p q a t s I m hm
    exact ⟨q', v, a, a', ops, h1, I.client, h2, h3, h4, inv_shown gr hgr hct hsp p ms q' a' _ _ h5⟩

/-- **C134**: a program that edits a line, run by the platform on a terminal that shows anything at first: from the bytes
that are read to those that are written.  Keys are typed, their bytes come in pieces cut anywhere, frame after frame; the
terminal is given other sizes, and is written on by others with a redraw asked for.  After each frame the terminal shows
exactly the text that all keys typed until then give, or the part around the cursor, and the cursor in it. -/
theorem end_to_end_partial (gr : Nat → Bool) (hgr : ∀ r, gr r = true → validRune r = true) (hct : Ctl gr) (hsp : Printable gr 0x20)
    (p : Place) (t : Term) (hw : 1 ≤ t.w) (hh : 1 ≤ t.h) (hbg : t.bce = true → t.style.bg = none) (l : Edl.EditLine) (s : Anansi.Spec.Line)
    (E : Edit p l s) (q : Plat (Option State)) (hc : q.client = some ⟨l, sizeToTerm {} (some ⟨t.w, t.h⟩), []⟩) (he : q.events = []) (hb : q.input.buf = [])
    (hi : q.input.file = true) (hn : q.input.nonblock = false) (hs : q.size = ⟨t.w, t.h⟩) (ms : List (Moment ε)) : Shown gr p q t s ms := by
  have e : ({} : Differ).invalidate = {} := by decide +kernel
  have Y := new_synced t hw hh
  rw [← e] at Y
  obtain ⟨h1, h2⟩ := sizeTo_cur {} (t.w, t.h)
  have hsz : sizeToTerm {} (some ⟨t.w, t.h⟩) = Direct.sizeTo {} (t.w, t.h) := by simp [sizeToTerm, Direct.sizeTo]
  refine inv_shown gr hgr hct hsp p ms q _ t s ⟨hc, ⟨none, zp, ?_⟩, E, by rw [he]; rfl, hb, Or.inl ⟨hi, hn⟩, hs⟩
  rw [hsz]
  refine ⟨Y, h1, ?_, ?_, fun o ho => (by cases ho), hbg⟩
  · rcases h2 with h2 | h2
    · exact Or.inl h2
    · exact Or.inl h2
  · intro hv
    simp [valid, zp] at hv

/-! ### Examples -/

/-- A frame in which `abc` is typed, and comes in two pieces. -/
def typedFrame : Frame Unit :=
  { time := 1, polls := [.input [.data 0x61 [] false, .data 0x62 [0x63] false, .nothing] true true], termSize := some ⟨5, 1⟩ }

/-- The program on a terminal of five columns and one row, with a line of three columns at its left. -/
def started : Plat (Option State) :=
  { client := some ⟨Direct.box 3, sizeToTerm {} (some ⟨5, 1⟩), []⟩, size := ⟨5, 1⟩ }

/-- The hypotheses of a frame hold. -/
example : (⟨typedFrame, abc, row 5⟩ : Moment Unit).Ok Screen.ascii ⟨0, 0, 3⟩ (row 5) ⟨[], 0⟩ := by
  have h : ∀ r ∈ [0x61, 0x62, 0x63], Printable Screen.ascii r := by
    intro r hr
    simp only [List.mem_cons, List.not_mem_nil, or_false] at hr
    rcases hr with rfl | rfl | rfl <;> exact ⟨by decide, by decide, by decide, by decide, by decide⟩
  refine ⟨⟨rfl, rfl, rfl⟩, ?_, by simp [typedFrame], by simp [typedFrame, Sizes], rfl, rfl, rfl, fun _ _ => rfl, ⟨by decide, by decide, by decide⟩, ?_,
    ⟨trivial, trivial, trivial, trivial⟩, h⟩
  · exact Sent.some [] [] [(0x61, [], false), (0x62, [0x63], false)] (by simp) (by simp)
  · intro k hk
    simp only [abc, List.mem_cons, List.not_mem_nil, or_false] at hk
    rcases hk with rfl | rfl | rfl <;> exact ⟨⟨by decide, by decide, by decide⟩, by decide⟩

/-- What the program leaves of a frame: what was written until then, and the text. -/
def written {ε : Type} : Done (Option State) ε → Option (Bytes × Bytes)
  | .next p _ => p.client.map fun a => (a.out, a.line.buf)
  | _ => none

/-- What it writes: `abc`, from the top on the left, and the cursor is put after it. -/
example : written (App.frame Screen.ascii started typedFrame) =
    some (Vt.text [.hide, .eraseAll, .cup 1 1, .sgr [0], .put 0x61, .put 0x62, .put 0x63, .put 0x20, .back none, .show_], [0x61, 0x62, 0x63]) := by
  decide +kernel

end App
end Anansi
