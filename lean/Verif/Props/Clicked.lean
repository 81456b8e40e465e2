import Verif.Props.Typing
import Verif.Props.Mouse
/-
C137: what is clicked at the terminal is what the client counts.
-/
set_option autoImplicit false

namespace Anansi
namespace Clk
open Evq Frm
open Anansi.Spec (MouseReport MouseButton)
open Typ.Spec (Sent seen)

variable {σ ε : Type}

namespace Spec

/-- What is done at a terminal: the mouse is used, or a key of one character is typed. -/
inductive Act
  | mouse (r : MouseReport)
  | key (r : Nat)
deriving DecidableEq, Repr

/-- What the terminal sends for it: `ESC [ < Cb ; Cx ; Cy M`, with `m` in place of `M` for a release; or the character. -/
def Act.bytes : Act → Bytes
  | .mouse r => [0x1B, 0x5B] ++ Mouse.reportArg r.code r.x r.y ++ [if r.released then 0x6D else 0x4D]
  | .key r => encodeRune r

/-- Places of the screen and buttons that terminals have, without the wheel's way to the right; characters that do not stand for
escape sequences. -/
def Act.Ok : Act → Prop
  | .mouse r => (1 ≤ r.x ∧ r.x ≤ 2 ^ 32 - 1) ∧ (1 ≤ r.y ∧ r.y ≤ 2 ^ 32 - 1) ∧ r.button ≠ .wheelRight
  | .key r => plainRune r ∧ isEscape r = false

/-- What can be pressed: a button of the mouse, in a box. -/
abbrev Target := MouseButton × Rect

/-- The button is pressed in the box, not released there nor held while the mouse moves. -/
def Act.presses (t : Target) : Act → Prop
  | .mouse r => r.button = t.1 ∧ r.moved = false ∧ r.released = false ∧ Geom.Mem ⟨r.x, r.y⟩ t.2
  | .key _ => False

instance decPresses (t : Target) : (a : Act) → Decidable (a.presses t)
  | .mouse _ => by unfold Act.presses; infer_instance
  | .key _ => by unfold Act.presses; infer_instance

/-- A key that the platform keeps: Ctrl-L, Ctrl-R, Ctrl-K. -/
def Act.own : Act → Bool
  | .mouse _ => false
  | .key r => r = 0x0C || r = 0x12 || r = 0x0B

/-- No press is one of two targets at once. -/
def Apart (ts : List Target) : Prop := ts.Pairwise fun s t => s.1 = t.1 → ∀ p, ¬ (Geom.Mem p s.2 ∧ Geom.Mem p t.2)

end Spec
open Clk.Spec

/-- What a client counts: one call of `CountPressesIn` (`event.go:90-102`) for each target, one after another. -/
def counts : List Target → Events → Events × List Nat
  | [], es => (es, [])
  | t :: ts, es =>
    let k := countPressesIn t.2 (BitVec.ofNat 8 t.1.number) 0 es
    let r := counts ts k.1
    (r.1, k.2 :: r.2)

/-! ### Decoding -/

/-- The items of the input. -/
def item : Act → InItem
  | .mouse r => .csi false (Mouse.reportArg r.code r.x r.y) (if r.released then 0x6D else 0x4D)
  | .key r => .rune r

theorem item_bytes (a : Act) : (item a).bytes = a.bytes := by
  cases a with
  | mouse r => simp [item, InItem.bytes, Act.bytes, c1Bytes]
  | key r => rfl

theorem item_ok (a : Act) (h : a.Ok) : (item a).Ok := by
  cases a with
  | key r => exact h.1
  | mouse r =>
    refine ⟨fun b hb => ?_, by split <;> decide, by split <;> decide⟩
    unfold Mouse.reportArg at hb
    simp only [List.mem_cons, List.mem_append] at hb
    rcases hb with rfl | hb | rfl | hb | rfl | hb
    · decide
    · have := itoaNat_digits _ b hb; omega
    · decide
    · have := itoaNat_digits _ b hb; omega
    · decide
    · have := itoaNat_digits _ b hb; omega

/-- The entry. -/
def ev (a : Act) : Ev := entry (item a).event.1 (item a).event.2

theorem ev_mouse (r : MouseReport) (h : (Act.mouse r).Ok) :
    ev (.mouse r) = ⟨.mouse, Mouse.reportId r.released, Mouse.reportArg r.code r.x r.y, Mouse.stateOf r, ⟨r.x, r.y⟩⟩ := by
  have := entry_report r.code r.x r.y r.released (by have := Mouse.code_lt r; omega) h.1.2 h.2.1.2 (.inl ⟨h.1.1, h.2.1.1⟩)
  have e : (item (.mouse r)).event = (Mouse.reportId r.released, Mouse.reportArg r.code r.x r.y) := by
    show ((0xEF80 + (if r.released then (0x6D : UInt8) else 0x4D).toNat, Mouse.reportArg r.code r.x r.y) : Nat × Bytes) = _
    unfold Mouse.reportId
    cases r.released <;> rfl
  unfold ev
  rw [e, this]
  rfl

theorem ev_key (r : Nat) (h : isEscape r = false) : ev (.key r) = ⟨.rune, r, [], 0, ⟨0, 0⟩⟩ := by
  unfold ev item InItem.event entry
  have hm : ¬ (r = csiId 0x4D ∨ r = csiId 0x6D) := by
    simp [isEscape, csiId] at h ⊢
    omega
  simp [h, hm]

theorem number_inj : ∀ a b : MouseButton, BitVec.ofNat 8 a.number = BitVec.ofNat 8 b.number → a = b := by
  intro a b
  cases a <;> cases b <;> decide

/-- The entry of an act counts for a target just if the act presses it. -/
theorem press_iff (t : Target) (a : Act) (h : a.Ok) : pressIn t.2 (BitVec.ofNat 8 t.1.number) (ev a) = true ↔ a.presses t := by
  cases a with
  | key r =>
    rw [ev_key r h.2]
    simp [pressIn, Act.presses]
  | mouse r =>
    obtain ⟨ms, e1, _, _, _, _, _, _, _, e9, _⟩ := Mouse.report_features_partial r h.1.2 h.2.1.2 h.2.2
    have e2 := Mouse.decode_report r.code r.x r.y r.released (by have := Mouse.code_lt r; omega) h.1.2 h.2.1.2
    rw [e1] at e2
    have hms : ms = Mouse.stateOf r := by
      have := congrArg Prod.fst e2
      exact this
    rw [ev_mouse r h]
    subst hms
    simp only [pressIn, decide_true, Bool.true_and, Bool.and_eq_true, decide_eq_true_eq, e9, Geom.ptIn_iff, Act.presses]
    cases hm : r.moved <;> cases hr : r.released <;> simp
    intro _
    exact ⟨fun h => number_inj _ _ h, fun h => by rw [h]⟩

theorem own_iff (a : Act) (h : a.Ok) : Frm.Spec.ownKey (ev a) = a.own := by
  cases a with
  | key r => rw [ev_key r h.2]; simp [Frm.Spec.ownKey, Act.own]
  | mouse r => rw [ev_mouse r h]; simp [Frm.Spec.ownKey, Act.own]

theorem press_not_own (t : Target) (a : Act) (h : a.presses t) : a.own = false := by
  cases a with
  | key r => exact h.elim
  | mouse r => rfl

theorem ev_live (acts : List Act) : Frm.Spec.live (acts.map ev) = acts.map ev := by
  unfold Frm.Spec.live
  rw [List.filter_eq_self]
  intro e he
  rw [List.mem_map] at he
  obtain ⟨a, _, rfl⟩ := he
  have : (ev a).kind ≠ .none := entry_live _ _
  simpa using this

/-! ### Counting -/

theorem countP_live (P : Ev → Bool) (h : ∀ e, P e = true → e.kind ≠ .none) (es : Events) : es.countP P = (Frm.Spec.live es).countP P := by
  unfold Frm.Spec.live
  rw [List.countP_filter]
  apply List.countP_congr
  intro e _
  constructor
  · intro hp; simp [hp, h e hp]
  · intro hp; simp at hp; exact hp.1

theorem press_live (box : Rect) (b : BitVec 8) (e : Ev) (h : pressIn box b e = true) : e.kind ≠ .none := by
  simp only [pressIn, Bool.and_eq_true, decide_eq_true_eq] at h
  rw [h.1.1]; decide

/-- What is there for a list of targets. -/
theorem counts_spec : ∀ (ts : List Target) (_ : Apart ts) (es : Events) (acts : List Act), (∀ a ∈ acts, a.Ok) →
    Frm.Spec.live es = acts.map ev →
    (counts ts es).2 = ts.map (fun t => acts.countP fun a => decide (a.presses t)) ∧
      Frm.Spec.live (counts ts es).1 = (acts.filter fun a => decide (∀ t ∈ ts, ¬ a.presses t)).map ev
  | [], _, es, acts, _, hl => by
    simp only [counts, List.map_nil, true_and]
    rw [hl]
    simp
  | t :: ts, hA, es, acts, hok, hl => by
    rw [Apart, List.pairwise_cons] at hA
    have hc : (countPressesIn t.2 (BitVec.ofNat 8 t.1.number) 0 es).2 = acts.countP fun a => decide (a.presses t) := by
      rw [countPressesIn_exact, Nat.zero_add]
      show es.countP _ = _
      rw [countP_live _ (press_live _ _), hl, List.countP_map]
      apply List.countP_congr
      intro a ha
      simp only [Function.comp_apply, decide_eq_true_eq]
      exact press_iff t a (hok a ha)
    have hl' : Frm.Spec.live (countPressesIn t.2 (BitVec.ofNat 8 t.1.number) 0 es).1 = (acts.filter fun a => decide (¬ a.presses t)).map ev := by
      rw [countPressesIn_exact]
      show Frm.Spec.live (strikeIf _ es) = _
      rw [live_strike, hl, List.filter_map]
      congr 1
      apply List.filter_congr
      intro a ha
      have := press_iff t a (hok a ha)
      simp only [Function.comp_apply]
      cases hp : pressIn t.2 (BitVec.ofNat 8 t.1.number) (ev a) with
      | true => rw [hp] at this; simp [this.1 rfl]
      | false => rw [hp] at this; simpa using this
    obtain ⟨i1, i2⟩ := counts_spec ts hA.2 _ _ (fun a ha => hok a (List.mem_of_mem_filter ha)) hl'
    refine ⟨?_, ?_⟩
    · show (countPressesIn t.2 _ 0 es).2 :: (counts ts _).2 = _
      rw [hc, i1, List.map_cons]
      congr 1
      refine List.map_congr_left fun s hs => ?_
      rw [List.countP_filter]
      apply List.countP_congr
      intro a _
      simp only [Bool.and_eq_true, decide_eq_true_eq, and_iff_left_iff_imp]
      intro h1 h2
      cases a with
      | key r => exact h1
      | mouse r => exact hA.1 s hs (by rw [← h2.1, h1.1]) _ ⟨h2.2.2.2, h1.2.2.2⟩
    · show Frm.Spec.live (counts ts _).1 = _
      rw [i2, List.filter_filter]
      congr 1
      apply List.filter_congr
      intro a _
      simp only [List.mem_cons, forall_eq_or_imp, Bool.decide_and, Bool.and_comm]

/-! ### Frames -/

/-- A frame in which the client saw `v`, whatever was there before. -/
theorem frame_shows (client : σ → View → Left σ ε) (p : Plat σ) (f : Frame ε) (v : View) (h1 : f.polls.countP Frm.Spec.Poll.reads ≤ 1)
    (h : (∃ p', p.frame client f = .next p' v) ∨ ∃ e, p.frame client f = .stop (some v) e) :
    ∃ inp es, Frm.Spec.typed p.input f.polls = some (inp, es) ∧ Frm.Spec.live es = es ∧
      Frm.Spec.live v.events = (if f.polls.countP Frm.Spec.Poll.reads = 0 then Frm.Spec.live p.events else es).filter (fun e => !Frm.Spec.ownKey e) ∧
      ∀ p', p.frame client f = .next p' v → p'.input = inp := by
  cases hm : f.telemetry with
  | some e =>
    have : p.frame client f = .stop none e := by unfold Plat.frame; simp [hm]
    rw [this] at h; simp at h
  | none =>
    cases hq : p.polls (none : Option (Err ε)) f.polls with
    | none =>
      have : p.frame client f = .hang := by unfold Plat.frame; simp [hm, hq]
      rw [this] at h; simp at h
    | some q =>
      obtain ⟨es, e1, e2, e3⟩ := polls_events f.polls p none q hq
      obtain ⟨u1, u2, u3⟩ := update_events client q.1 f q.2
      have hes : (Frm.Spec.live q.1.events) = if f.polls.countP Frm.Spec.Poll.reads = 0 then Frm.Spec.live p.events else es := by
        rcases Nat.le_one_iff_eq_zero_or_eq_one.1 h1 with hz | hz
        · rw [if_pos hz, (e2 hz).1]
        · rw [if_neg (by omega), e3 hz]; exact typed_live _ _ _ e1
      rw [hes] at u1
      have := frame_err client p f hm q hq
      cases hf : Frm.Spec.firstErr [(q.1.update client f q.2).2.2, f.flush, f.notify] with
      | some e =>
        simp only [hf] at this
        rw [this] at h ⊢
        simp only [reduceCtorEq, Done.stop.injEq, Option.some.injEq, exists_false, false_or, exists_and_left] at h
        rw [← h.1]
        exact ⟨_, es, e1, typed_live _ _ _ e1, u1, by simp⟩
      | none =>
        simp only [hf] at this
        rw [this] at h ⊢
        simp only [reduceCtorEq, Done.next.injEq, exists_false, or_false] at h
        obtain ⟨p', h2, h3⟩ := h
        rw [← h3]
        refine ⟨_, es, e1, typed_live _ _ _ e1, u1, ?_⟩
        intro p'' hp
        simp only [Done.next.injEq, and_true] at hp
        rw [← hp]
        exact u2

theorem items_bytes (acts : List Act) : (acts.map item).flatMap InItem.bytes = acts.flatMap Act.bytes := by
  rw [List.flatMap_map]
  congr 1; funext k; exact item_bytes k

theorem typed_acts (l : List Poll) (acts : List Act) (h : Sent l (acts.flatMap Act.bytes)) (hok : ∀ a ∈ acts, a.Ok)
    (inp inp' : Inp.Input) (es : Events) (h0 : inp.buf = []) (ht : Frm.Spec.typed inp l = some (inp', es)) :
    inp'.buf = [] ∧ es = acts.map ev := by
  have := Typ.typed_items l _ h (acts.map item) (by simpa using fun k hk' => item_ok k (hok k hk')) (by rw [items_bytes]) inp inp' es h0 ht
  rw [List.map_map] at this
  exact this

/-- A frame: what the client sees of what is done, and of what was left from before when nothing is read. -/
theorem frame_acts (client : σ → View → Left σ ε) (p : Plat σ) (f : Frame ε) (v : View) (acts old : List Act)
    (hs : Sent f.polls (acts.flatMap Act.bytes)) (hok : ∀ a ∈ acts, a.Ok) (hold : ∀ a ∈ old, a.Ok)
    (hb : p.input.buf = []) (he : Frm.Spec.live p.events = old.map ev)
    (h : (∃ p', p.frame client f = .next p' v) ∨ ∃ e, p.frame client f = .stop (some v) e) :
    ∃ more, (more = old ∨ more = []) ∧ Frm.Spec.live v.events = ((more ++ acts).filter fun a => !a.own).map ev ∧
      ∀ p', p.frame client f = .next p' v → p'.input.buf = [] := by
  obtain ⟨inp, es, e1, _, e3, e4⟩ := frame_shows client p f v (Typ.sent_once _ _ hs) h
  obtain ⟨t1, t2⟩ := typed_acts _ _ hs hok _ _ _ hb e1
  have own : ∀ l : List Act, (∀ a ∈ l, a.Ok) → (l.map ev).filter (fun e => !Frm.Spec.ownKey e) = (l.filter fun a => !a.own).map ev := by
    intro l hl
    rw [List.filter_map]
    congr 1
    apply List.filter_congr
    intro a ha
    simp only [Function.comp_apply, own_iff a (hl a ha)]
  by_cases hz : f.polls.countP Frm.Spec.Poll.reads = 0
  · rw [if_pos hz, he, own old hold] at e3
    have ha : acts = [] := by
      cases hs' : acts with
      | nil => rfl
      | cons a l =>
        exfalso
        rw [hs'] at hs
        generalize hbb : (a :: l).flatMap Act.bytes = bb at hs
        generalize f.polls = pl at hs hz
        cases hs with
        | none _ _ =>
          simp only [List.flatMap_cons, List.append_eq_nil_iff] at hbb
          exact Typ.item_ne_nil (item a) (by rw [item_bytes]; exact hbb.1)
        | some b c cs hb' hc' =>
          rw [List.countP_append, List.countP_cons_of_pos rfl] at hz
          omega
    refine ⟨old, .inl rfl, by rw [e3, ha, List.append_nil], fun p' hp => by rw [e4 p' hp]; exact t1⟩
  · rw [if_neg hz, t2, own acts hok] at e3
    exact ⟨[], .inr rfl, by rw [e3, List.nil_append], fun p' hp => by rw [e4 p' hp]; exact t1⟩

namespace Spec

/-- A client with things to press: in every frame it asks for each in turn, and adds what it is told to what it has counted.  It may
do anything else with what is left, but adds no events. -/
def Counts (ts : List Target) (hits : σ → List Nat) (client : σ → View → Left σ ε) : Prop :=
  ∀ s v, hits (client s v).state = List.zipWith (· + ·) (hits s) (counts ts v.events).2 ∧
    (Frm.Spec.live (client s v).events).Sublist (Frm.Spec.live (counts ts v.events).1)

/-- How often each of the targets is pressed. -/
def pressed (ts : List Target) (acts : List Act) : List Nat := ts.map fun t => acts.countP fun a => decide (a.presses t)

end Spec

theorem pressed_append (ts : List Target) (a b : List Act) : pressed ts (a ++ b) = List.zipWith (· + ·) (pressed ts a) (pressed ts b) := by
  unfold pressed
  rw [List.zipWith_map, List.zipWith_self]
  simp

/-- **C137**, the frames that a client sees: what it counts is what was pressed, and it has the rest, in order. -/
theorem clicked_frame_partial (client : σ → View → Left σ ε) (ts : List Target) (hA : Apart ts) (p : Plat σ) (f : Frame ε) (v : View)
    (acts : List Act) (hs : Sent f.polls (acts.flatMap Act.bytes)) (hok : ∀ a ∈ acts, a.Ok) (hb : p.input.buf = [])
    (he : Frm.Spec.live p.events = [])
    (h : (∃ p', p.frame client f = .next p' v) ∨ ∃ e, p.frame client f = .stop (some v) e) :
    (counts ts v.events).2 = pressed ts acts ∧
      Frm.Spec.live (counts ts v.events).1 = (acts.filter fun a => !a.own && decide (∀ t ∈ ts, ¬ a.presses t)).map ev := by
  obtain ⟨more, hm, h1, _⟩ := frame_acts client p f v acts [] hs hok (by simp) hb he h
  have hm : more = [] := by rcases hm with h | h <;> exact h
  rw [hm, List.nil_append] at h1
  obtain ⟨c1, c2⟩ := counts_spec ts hA v.events _ (fun a ha => hok a (List.mem_of_mem_filter ha)) h1
  refine ⟨?_, ?_⟩
  · rw [c1]
    unfold pressed
    refine List.map_congr_left fun t _ => ?_
    rw [List.countP_filter]
    apply List.countP_congr
    intro a _
    simp only [Bool.and_eq_true, decide_eq_true_eq, and_iff_left_iff_imp, Bool.not_eq_true']
    exact press_not_own t a
  · rw [c2, List.filter_filter]
    congr 1
    apply List.filter_congr
    intro a _
    rw [Bool.and_comm]

/-- **C137**: a program has things to press with the mouse.  The mouse is moved, pressed, released and turned, and keys are typed, in
any mixture; their bytes arrive in frames, some with input and some without, the bytes of a frame in pieces cut anywhere.  After any
number of frames the client has counted for each thing exactly the presses of its button in its box.  Missing, because it fails: the
wheel's way to the right (`wheel_clicks`), a frame with two reads (`Frm.second_read_drops`), and things that come to be where
something was pressed before (`late_click`). -/
theorem clicked_partial (ts : List Target) (hA : Apart ts) (hits : σ → List Nat) (client : σ → View → Left σ ε) (hC : Counts ts hits client)
    (fs : List (Frame ε × List Act)) (hs : ∀ x ∈ fs, Sent x.1.polls (x.2.flatMap Act.bytes) ∧ ∀ a ∈ x.2, a.Ok) :
    ∀ (p : Plat σ), Frm.Spec.live p.events = [] → p.input.buf = [] → (hits p.client).length = ts.length →
      let vs := (p.run client (fs.map (·.1))).1
      hits (seen client p.client vs) = List.zipWith (· + ·) (hits p.client) (pressed ts ((fs.take vs.length).flatMap (·.2))) := by
  suffices H : ∀ (p : Plat σ) (old : List Act), (∀ a ∈ old, a.Ok ∧ ∀ t ∈ ts, ¬ a.presses t) → Frm.Spec.live p.events = old.map ev →
      p.input.buf = [] → (hits p.client).length = ts.length →
      hits (seen client p.client (p.run client (fs.map (·.1))).1) =
        List.zipWith (· + ·) (hits p.client) (pressed ts ((fs.take (p.run client (fs.map (·.1))).1.length).flatMap (·.2))) by
    intro p he hb hlen
    exact H p [] (by simp) he hb hlen
  have zero : ∀ (l : List Nat), l.length = ts.length → l = List.zipWith (· + ·) l (pressed ts []) := by
    intro l hl
    unfold pressed
    apply List.ext_getElem
    · simp [hl]
    · intro i h1 h2; simp
  induction fs with
  | nil => intro p old _ _ _ hlen; exact zero _ hlen
  | cons x fs ih =>
    obtain ⟨f, acts⟩ := x
    intro p old hold he hb hlen
    have ih := ih (fun x hx => hs x (by simp [hx]))
    obtain ⟨hsent, hok⟩ := hs (f, acts) (by simp)
    simp only at hsent hok
    have step : ∀ w, ((∃ p', p.frame client f = .next p' w) ∨ ∃ e, p.frame client f = .stop (some w) e) →
        hits (client p.client w).state = List.zipWith (· + ·) (hits p.client) (pressed ts acts) ∧
        (∃ old' : List Act, (∀ a ∈ old', a.Ok ∧ ∀ t ∈ ts, ¬ a.presses t) ∧ Frm.Spec.live (client p.client w).events = old'.map ev) ∧
        ∀ p', p.frame client f = .next p' w → p'.input.buf = [] := by
      intro w hw
      obtain ⟨more, hm, h1, h2⟩ := frame_acts client p f w acts old hsent hok (fun a ha => (hold a ha).1) hb he hw
      have hmore : ∀ a ∈ more, a.Ok ∧ ∀ t ∈ ts, ¬ a.presses t := by
        rcases hm with rfl | rfl
        · exact hold
        · simp
      have hall : ∀ a ∈ (more ++ acts).filter (fun a => !a.own), a.Ok := by
        intro a ha
        rcases List.mem_append.1 (List.mem_of_mem_filter ha) with h | h
        · exact (hmore a h).1
        · exact hok a h
      obtain ⟨c1, c2⟩ := counts_spec ts hA w.events _ hall h1
      obtain ⟨d1, d2⟩ := hC p.client w
      refine ⟨?_, ?_, h2⟩
      · rw [d1, c1]
        congr 1
        unfold pressed
        refine List.map_congr_left fun t ht => ?_
        rw [List.countP_filter, List.countP_append]
        have z : List.countP (fun a => decide (a.presses t) && !a.own) more = 0 := by
          rw [List.countP_eq_zero]
          intro a ha
          simp [(hmore a ha).2 t ht]
        rw [z, Nat.zero_add]
        apply List.countP_congr
        intro a _
        simp only [Bool.and_eq_true, decide_eq_true_eq, and_iff_left_iff_imp, Bool.not_eq_true']
        exact press_not_own t a
      · rw [c2] at d2
        obtain ⟨l', g1, g2⟩ := List.sublist_map_iff.1 d2
        refine ⟨l', fun a ha => ?_, g2⟩
        have := g1.subset ha
        rw [List.mem_filter] at this
        exact ⟨hall a this.1, by simpa using this.2⟩
    by_cases ht : f.time = 0
    · simp only [List.map_cons, Plat.run, ht, if_true]; exact zero _ hlen
    cases hf : p.frame client f with
    | hang => simp only [List.map_cons, Plat.run, ht, hf, if_false]; exact zero _ hlen
    | stop w e =>
      simp only [List.map_cons, Plat.run, ht, hf, if_false]
      cases w with
      | none => exact zero _ hlen
      | some w =>
        obtain ⟨a, _⟩ := step w (.inr ⟨e, hf⟩)
        simpa [seen] using a
    | next p' w =>
      obtain ⟨a, ⟨old', b1, b2⟩, c⟩ := step w (.inl ⟨p', hf⟩)
      obtain ⟨l1, l2⟩ := Typ.frame_left client p p' f w hf
      have hl' : (hits p'.client).length = ts.length := by
        rw [l1, a]; simp [pressed, hlen]
      have := ih p' old' b1 (by rw [l2]; exact b2) (c p' hf) hl'
      simp only [List.map_cons, Plat.run, ht, hf, if_false, List.length_cons, List.take_succ_cons, List.flatMap_cons]
      rw [pressed_append]
      rw [l1, a] at this
      have hsn : seen client p.client (w :: (p'.run client (fs.map (·.1))).1) =
          seen client (client p.client w).state (p'.run client (fs.map (·.1))).1 := rfl
      rw [hsn, this]
      apply List.ext_getElem
      · simp [pressed, hlen]
      · intro i h1 h2; simp [Nat.add_assoc]

/-! ### Witnesses -/

/-- A client with things to press. -/
def counter (ts : List Target) (s : List Nat) (v : View) : Left (List Nat) Unit :=
  { state := List.zipWith (· + ·) s (counts ts v.events).2, events := (counts ts v.events).1, paused := v.paused, size := v.size,
    hud := v.hud, err := none }

theorem counter_counts (ts : List Target) : Counts ts id (counter ts) := fun _ _ => ⟨rfl, List.Sublist.refl _⟩

/-- Presses: the left button at a place. -/
def click (x y : Nat) : Act := .mouse ⟨.left, false, false, false, false, false, x, y⟩

/-- Two boxes side by side, and the wheel over both. -/
def three : List Target := [(.left, ⟨⟨1, 1⟩, ⟨5, 2⟩⟩), (.left, ⟨⟨5, 1⟩, ⟨9, 2⟩⟩), (.wheelUp, ⟨⟨1, 1⟩, ⟨9, 2⟩⟩)]

theorem three_apart : Apart three := by
  unfold Apart three
  simp only [List.pairwise_cons, List.mem_cons, List.not_mem_nil, or_false, forall_eq_or_imp, forall_eq, reduceCtorEq, false_implies,
    true_implies, and_true, List.Pairwise.nil, implies_true]
  rintro p ⟨h1, h2⟩
  unfold Geom.Mem at h1 h2
  simp only at h1 h2
  omega

/-- What is done in a frame whose bytes come in two pieces. -/
def doings : List Act :=
  [click 4 1, .mouse ⟨.left, false, false, false, false, true, 4, 1⟩, .key 0x61, click 5 1, .mouse ⟨.wheelUp, true, false, false, false, false, 8, 1⟩,
   .mouse ⟨.none, false, false, false, true, false, 2, 1⟩, click 5 2]

/-- A piece of the input. -/
def piece : Bytes → List Inp.Chunk
  | [] => []
  | c :: t => [(c, t, false)]

theorem piece_bytes (b : Bytes) : (piece b).flatMap (fun c => c.1 :: c.2.1) = b := by
  cases b <;> simp [piece]

/-- A frame whose input comes in two pieces. -/
def framesOf (acts : List Act) (k : Nat) : Frame Unit :=
  let b := acts.flatMap Act.bytes
  { time := 1, polls := [.input ((piece (b.take k) ++ piece (b.drop k)).map (fun c => .data c.1 c.2.1 c.2.2) ++ [.nothing]) true true] }

theorem framesOf_sent (acts : List Act) (k : Nat) : Sent (framesOf acts k).polls (acts.flatMap Act.bytes) := by
  have := Sent.some [] [] (piece ((acts.flatMap Act.bytes).take k) ++ piece ((acts.flatMap Act.bytes).drop k)) (by simp) (by simp)
  rw [List.flatMap_append, piece_bytes, piece_bytes, List.take_append_drop] at this
  exact this

/-- The hypotheses of `clicked_partial` are met: of the presses, one is outside of everything, and the release and the motion do not
count. -/
example :
    let fs : List (Frame Unit × List Act) := [(framesOf doings 7, doings), ({ time := 2 }, []), (framesOf [click 1 1] 3, [click 1 1])]
    let p : Plat (List Nat) := { client := [0, 0, 0] }
    (∀ x ∈ fs, Sent x.1.polls (x.2.flatMap Act.bytes) ∧ ∀ a ∈ x.2, a.Ok) ∧ (p.run (counter three) (fs.map (·.1))).1.length = 3 ∧
      seen (counter three) p.client (p.run (counter three) (fs.map (·.1))).1 = [2, 1, 1] ∧
      pressed three (doings ++ [click 1 1]) = [2, 1, 1] := by
  refine ⟨?_, by decide +kernel, by decide +kernel, by decide +kernel⟩
  intro x hx
  simp only [List.mem_cons, List.not_mem_nil, or_false] at hx
  rcases hx with rfl | rfl | rfl
  · refine ⟨framesOf_sent _ _, fun a ha => ?_⟩
    simp only [doings, click, List.mem_cons, List.not_mem_nil, or_false] at ha
    rcases ha with rfl | rfl | rfl | rfl | rfl | rfl | rfl <;> exact ⟨by decide, by decide⟩
  · exact ⟨Sent.none _ (by simp), by simp⟩
  · refine ⟨framesOf_sent _ _, fun a ha => ?_⟩
    simp only [click, List.mem_cons, List.not_mem_nil, or_false] at ha
    subst ha
    exact ⟨by decide, by decide, by decide⟩

/-- Negation for **C137**: the wheel turned to the right over something that is pressed with the right button counts as a press. -/
theorem wheel_clicks :
    let t : Target := (.right, ⟨⟨1, 1⟩, ⟨5, 2⟩⟩)
    let a : Act := .mouse ⟨.wheelRight, false, false, false, false, false, 2, 1⟩
    ¬ a.presses t ∧ seen (counter [t]) [0] (({ client := [0] } : Plat (List Nat)).run (counter [t]) [framesOf [a] 3]).1 = [1] := by
  decide +kernel

/-- A client whose thing to press appears only in its second frame. -/
def late (s : Nat × Nat) (v : View) : Left (Nat × Nat) Unit :=
  let k := if s.1 = 0 then (v.events, 0) else countPressesIn ⟨⟨1, 1⟩, ⟨5, 2⟩⟩ 1 0 v.events
  { state := (s.1 + 1, s.2 + k.2), events := k.1, paused := v.paused, size := v.size, hud := v.hud, err := none }

/-- Negation for **C137**: a press where there is nothing to press counts for what comes to be there later, until something else is
read. -/
theorem late_click : seen late (0, 0) (({ client := (0, 0) } : Plat (Nat × Nat)).run late [framesOf [click 2 1] 3, { time := 2 }]).1 = (2, 1) := by
  decide +kernel

end Clk
end Anansi
