import Verif.Props.LogDraw
import Verif.Props.HudEdit
import Verif.Model.HudUpdate
import Mathlib.Tactic.SplitIfs
/-
C99: the debug overlay around a client's frame.
-/
set_option autoImplicit false

namespace Anansi.Hud
open Geom Evq Lgv

/-! ### Saving and restoring the cursor -/

theorem delivers_decsc (f : UInt8) (hf : f = 0x37 ∨ f = 0x38) : Delivers [0x1B, f] [(escId f, [])] := by
  intro rest
  rw [process_escape (by simp) (e := escId f) (a := []) ?_ (by unfold escId; omega)]
  · simp
  · rcases hf with rfl | rfl <;>
    simp [decodeEscape, ansiDecodeRune, decodeRune, decodeESC, decodeESCLoop, escId, runeError]

/-- The virtual screen ignores both. -/
theorem decsc_ignored (gr : Nat → Bool) (f : UInt8) (hf : f = 0x37 ∨ f = 0x38) (v : VScreen) (S : Emu.Settled v) :
    ∃ v', v.write gr [0x1B, f] = .ok v' ∧ v'.sc = v.sc.home ∧ Emu.Settled v' := by
  apply Emu.write_step gr S (delivers_decsc f hf)
  have h1 : isEscape (escId f) = true := by rcases hf with rfl | rfl <;> decide
  have h2 : escId f ≠ ED ∧ escId f ≠ EL := by rcases hf with rfl | rfl <;> decide
  have h3 : ∀ (c : Cursor) (k : Pt → Pt), c.processEscape k (escId f) [] = some c := by
    rcases hf with rfl | rfl <;> intro c k <;> rfl
  simp only [Screen.processAll, Screen.processANSI, h1, if_true, Screen.processEscape, if_neg h2.1, if_neg h2.2, h3, Except.bind]

theorem home_whole {sc : Screen} {w h : Nat} (W : sc.Whole w h) : sc.home.Whole w h := by
  unfold Screen.home
  split
  · exact ⟨W.hw, W.hh, W.rect, W.stride, W.len, W.cap⟩
  · exact W

theorem home_look (sc : Screen) (w a b : Nat) : sc.home.look w a b = sc.look w a b := by
  unfold Screen.home
  split <;> rfl

theorem home_attr (sc : Screen) : sc.home.cur.attr = sc.cur.attr := by
  unfold Screen.home
  split <;> rfl

/-! ### The header -/

theorem segments_cons {gr : Nat → Bool} {v v' : VScreen} {s : Bytes} {l : List Bytes} {bs : List Rect}
    (h : segments gr v (s :: l) = .ok (bs, v')) :
    ∃ b v1 bs', rightSegment gr v s = .ok (b, v1) ∧ segments gr v1 l = .ok (bs', v') ∧ bs = b :: bs' := by
  rw [segments] at h
  cases h1 : rightSegment gr v s with
  | error e => rw [h1] at h; cases h
  | ok r =>
    rw [h1] at h
    simp only [Except.bind] at h
    cases h2 : segments gr r.2 l with
    | error e => rw [h2] at h; cases h
    | ok q =>
      rw [h2] at h
      cases h
      exact ⟨r.1, r.2, q.1, rfl, h2, rfl⟩

theorem press_apart {r s : Rect} (h : ∀ p, ¬ (Geom.Mem p r ∧ Geom.Mem p s)) (e : Ev) (hr : pressIn r 1 e = true) :
    pressIn s 1 e = false := by
  by_contra hc
  have hc : pressIn s 1 e = true := by cases hx : pressIn s 1 e <;> simp_all
  exact h e.pt ⟨(pressIn_press hr).2, (pressIn_press hc).2⟩

namespace Spec

/-- An odd number of left presses in the box. -/
def odd (b : Rect) (es : Events) : Bool := es.countP (pressIn b 1) % 2 = 1

/-- The events without the left presses in the boxes. -/
def without (bs : List Rect) (es : Events) : Events := strikeIf (fun e => bs.any fun b => pressIn b 1 e) es

/-- The overlay after left presses in the boxes of the time, the frame rate and the profiling
sign: an odd number of them opens or closes the details. -/
def clicked (bs : List Rect) (es : Events) (hud : Hud) : Hud :=
  { hud with
    timeDetail := xor hud.timeDetail (odd (bs.getD 0 ⟨⟨0, 0⟩, ⟨0, 0⟩⟩) es)
    fpsDetail := xor hud.fpsDetail (odd (bs.getD 1 ⟨⟨0, 0⟩, ⟨0, 0⟩⟩) es)
    profDetail := xor hud.profDetail (odd (bs.getD 2 ⟨⟨0, 0⟩, ⟨0, 0⟩⟩) es) }

/-- The texts of the header, from right to left. -/
def texts {ε : Type} (E : Env ε) (m : Mouse.MState × Pt) : List Bytes :=
  [E.time, E.fps, E.prof, E.size, E.flushed, E.mouse m]

end Spec

/-- **C99**, the visible overlay after the client has run, on a screen with room for the header:
the header is drawn in the first row over what the client drew, nothing else is; odd numbers of
left presses on the time, the frame rate and the profiling sign open or close their details, and
these presses are taken; then the details are drawn below if any are open, and the log. -/
theorem overlay_partial {ε : Type} (E : Env ε) {w h : Nat} (v : VScreen) (W : v.sc.Whole w h) (S : Emu.Settled v)
    (hud : Hud) (es : Events) (err : Option ε) (l : List (List Nat)) (hl : Spec.texts E hud.mouse = l.map encodeRunes)
    (hp : ∀ t ∈ l, t ≠ [] ∧ ∀ r ∈ t, Screen.Printable E.gr r) (hr : Spec.room l ≤ w) :
    ∃ v', (v'.sc.Whole w h ∧ Emu.Settled v' ∧ v'.sc.cur.attr = v.sc.cur.attr ∧
        ∀ a b, a < w → b < h → v'.sc.look w a b =
          match (if b = 0 then Spec.at_ (w - 1) a l else none) with
          | some r => some ⟨r, v.sc.cur.attr⟩
          | none => v.sc.look w a b) ∧
      overlay E (w + 1) hud es v err =
        (let hud1 := Spec.clicked (Spec.boxes (w - 1) l) es hud
        let es1 := Spec.without ((Spec.boxes (w - 1) l).take 3) es
        (if hud1.timeDetail ∨ hud1.profDetail ∨ hud1.fpsDetail then E.details hud1 es1 (goto v' ⟨w + 1, 2⟩)
          else .ok (hud1, es1, v', none)).bind fun d =>
        (logUpdate E.gr d.1.logs E.log d.2.1 d.2.2.1).bind fun q =>
        (q.2.2.write E.gr [0x1B, 0x38]).bind fun v =>
        .ok ({ d.1 with logs := q.1 }, q.2.1, v, errFirst err d.2.2.2)) := by
  have hw := W.hw
  obtain ⟨v0, f0, s0, S0⟩ := decsc_ignored E.gr 0x37 (Or.inl rfl) v S
  have W0 : v0.sc.Whole w h := by rw [s0]; exact home_whole W
  obtain ⟨v', g1, W1, S1, A1, L1⟩ := header_drawn_partial E.gr v0 W0 S0 l hp hr
  refine ⟨v', ⟨W1, S1, by rw [A1, s0, home_attr], fun a b ha hb => ?_⟩, ?_⟩
  · rw [L1 a b ha hb, s0, home_attr, home_look]
    rfl
  have hdis := boxes_disjoint l (w - 1) (by omega) fun t ht => (hp t ht).1
  rw [← hl] at g1
  unfold header at g1
  rw [max_x W0] at g1
  unfold overlay
  rw [f0]
  simp only [Except.bind] at g1 ⊢
  rw [mkPt_ok (by omega) (by omega)] at g1 ⊢
  simp only [Spec.texts] at g1 ⊢
  obtain ⟨b1, v1, bs1, h1, g2, e1⟩ := segments_cons g1
  obtain ⟨b2, v2, bs2, h2, g3, e2⟩ := segments_cons g2
  obtain ⟨b3, v3, bs3, h3, g4, e3⟩ := segments_cons g3
  obtain ⟨b4, v4, bs4, h4, g5, e4⟩ := segments_cons g4
  obtain ⟨b5, v5, bs5, h5, g6, e5⟩ := segments_cons g5
  obtain ⟨b6, v6, bs6, h6, g7, e6⟩ := segments_cons g6
  cases g7
  subst e6 e5 e4 e3 e2
  rw [e1] at hdis ⊢
  simp only [h1, countPressesIn_exact]
  simp only [h2, h3, h4, h5]
  have hd := List.pairwise_cons.1 hdis
  have hd2 := List.pairwise_cons.1 hd.2
  have d12 := hd.1 b2 (by simp)
  have d13 := hd.1 b3 (by simp)
  have d23 := hd2.1 b3 (by simp)
  have c2 : (strikeIf (pressIn b1 1) es).countP (pressIn b2 1) = es.countP (pressIn b2 1) :=
    count_strike _ _ _ (press_apart d12) (struck_not_in b2 1)
  have s2 : strikeIf (pressIn b2 1) (strikeIf (pressIn b1 1) es) = strikeIf (fun e => pressIn b1 1 e || pressIn b2 1 e) es :=
    strike_strike _ _ _ (struck_not_in b2 1)
  have c3 : (strikeIf (fun e => pressIn b1 1 e || pressIn b2 1 e) es).countP (pressIn b3 1) = es.countP (pressIn b3 1) := by
    apply count_strike _ _ _ _ (struck_not_in b3 1)
    intro e he
    rcases Bool.or_eq_true _ _ |>.mp he with he | he
    · exact press_apart d13 e he
    · exact press_apart d23 e he
  have s3 : strikeIf (pressIn b3 1) (strikeIf (fun e => pressIn b1 1 e || pressIn b2 1 e) es) =
      Spec.without [b1, b2, b3] es := by
    rw [strike_strike _ _ _ (struck_not_in b3 1)]
    unfold Spec.without
    congr 1
    funext e
    simp [Bool.or_assoc]
  have hc : Spec.clicked (b1 :: b2 :: b3 :: [b4, b5, b6]) es hud = { hud with
      timeDetail := xor hud.timeDetail (decide (es.countP (pressIn b1 1) % 2 = 1))
      fpsDetail := xor hud.fpsDetail (decide (es.countP (pressIn b2 1) % 2 = 1))
      profDetail := xor hud.profDetail (decide (es.countP (pressIn b3 1) % 2 = 1)) } := rfl
  have ht : List.take 3 (b1 :: b2 :: b3 :: [b4, b5, b6]) = [b1, b2, b3] := rfl
  simp only [Nat.zero_add, c2, s2, c3, s3, hc, ht]
  rw [mkPt_ok (by omega) (by omega)]
  by_cases p1 : es.countP (pressIn b1 1) % 2 = 1 <;> by_cases p2 : es.countP (pressIn b2 1) % 2 = 1 <;>
    by_cases p3 : es.countP (pressIn b3 1) % 2 = 1 <;>
    simp only [p1, p2, p3, if_true, if_false, decide_true, decide_false, Bool.xor_true, Bool.xor_false, h6]

/-! ### The whole frame -/

namespace Spec

/-- What the client is shown: everything but Ctrl-K. -/
def shown (es : Events) : Events := strikeIf (isRune [0x0B]) es

/-- Whether the overlay is shown after these events. -/
def visible (hud : Hud) (es : Events) : Bool := xor hud.visible (es.countP (isRune [0x0B]) % 2 = 1)

/-- The last that is known of the mouse. -/
def mouse (hud : Hud) (es : Events) : Mouse.MState × Pt :=
  ((es.filter fun e => e.kind = .mouse).getLast?.map fun e => (e.ms, e.pt)).getD hud.mouse

end Spec

/-- `Update` is the client's frame and then, if it is shown, the overlay. -/
theorem update_eq {ε : Type} (E : Env ε) (hud : Hud) (es : Events) (v : VScreen) :
    hud.update E es v =
      (let c := E.client (Spec.shown es) v
      let hud1 := { hud with mouse := Spec.mouse hud es, visible := Spec.visible hud es }
      if Spec.visible hud es then overlay E v.sc.grid.rect.max.x hud1 c.1 c.2.1 c.2.2
      else .ok ({ hud1 with active := 0 }, c.1, c.2.1, c.2.2)) := by
  unfold Hud.update
  simp only [lastMouse_exact]
  have hs : strikeIf (fun e => false && decide (e.kind = .mouse)) es = es := strike_none _ _ fun _ _ => rfl
  simp only [hs]
  have hk := (countRune_strikes [0x0B] es 0).1
  have hc := countRune_exact_partial [0x0B] es (by simp)
  simp only [hk, hc]
  unfold Spec.mouse Spec.visible Spec.shown
  generalize (es.filter fun e => e.kind = .mouse).getLast? = o
  by_cases hp : es.countP (isRune [0x0B]) % 2 = 1 <;> cases o <;>
    simp only [hp, if_true, if_false, decide_true, decide_false, Bool.xor_true, Bool.xor_false, Option.map_some, Option.map_none,
      Option.or_none, Option.getD_some, Option.getD_none] <;> rfl

/-- **C99**: hidden, the overlay is not there: the screen, the events and the error are the
client's, which was shown the events of the frame but Ctrl-K. -/
theorem hidden_transparent {ε : Type} (E : Env ε) (hud : Hud) (es : Events) (v : VScreen) (hv : Spec.visible hud es = false) :
    hud.update E es v =
      .ok ({ hud with mouse := Spec.mouse hud es, visible := false, active := 0 },
        (E.client (Spec.shown es) v).1, (E.client (Spec.shown es) v).2.1, (E.client (Spec.shown es) v).2.2) := by
  rw [update_eq]
  simp only [hv, Bool.false_eq_true, if_false]

/-- **C99**, the visible overlay without details: the client is run with the events of the frame
but Ctrl-K, and the header and the log are drawn over its output, nothing else; the error is the
client's. -/
theorem shown_partial {ε : Type} (E : Env ε) (hgr : ∀ r, 0x20 ≤ r → r < 0x7F → Screen.Printable E.gr r)
    (hel : Screen.Printable E.gr 0x2026) {w h : Nat} (hud : Hud) (es : Events) (v : VScreen) (W : v.sc.Whole w h)
    (hv : Spec.visible hud es = true) (c : Events × VScreen × Option ε) (hc : E.client (Spec.shown es) v = c)
    (Wc : c.2.1.sc.Whole w h) (Sc : Emu.Settled c.2.1)
    (l : List (List Nat)) (hl : Spec.texts E (Spec.mouse hud es) = l.map encodeRunes)
    (hp : ∀ t ∈ l, t ≠ [] ∧ ∀ r ∈ t, Screen.Printable E.gr r) (hr : Spec.room l ≤ w)
    (hd : xor hud.timeDetail (Spec.odd ((Spec.boxes (w - 1) l).getD 0 ⟨⟨0, 0⟩, ⟨0, 0⟩⟩) c.1) = false ∧
      xor hud.fpsDetail (Spec.odd ((Spec.boxes (w - 1) l).getD 1 ⟨⟨0, 0⟩, ⟨0, 0⟩⟩) c.1) = false ∧
      xor hud.profDetail (Spec.odd ((Spec.boxes (w - 1) l).getD 2 ⟨⟨0, 0⟩, ⟨0, 0⟩⟩) c.1) = false)
    (hs : E.log.Exact) (hlv : hud.logs.Good E.log.eols.length) (ls : List (List Nat))
    (hls : Anansi.Spec.linesOf E.log.buf = ls.map encodeRunes) (hlp : ∀ t ∈ ls, ∀ r ∈ t, Screen.Printable E.gr r) (hne : ls ≠ [])
    (hh : full hud.logs < h) (hw : ∀ a b, a ≤ ls.length → b ≤ ls.length → (Spec.title a b ls.length).length < w) :
    ∃ start e hud' v' es1, hud.update E es v =
        .ok (hud', logEvents w h hud.logs ls.length es1, v', c.2.2) ∧
      es1 = Spec.without ((Spec.boxes (w - 1) l).take 3) c.1 ∧
      (1 ≤ start ∧ start ≤ e ∧ e ≤ ls.length ∧
        e + 1 - start = min (if opened w h hud.logs es1 then full hud.logs else 1) ls.length) ∧
      (hud'.visible = true ∧ hud'.timeDetail = false ∧ hud'.fpsDetail = false ∧ hud'.profDetail = false ∧
        hud'.active = hud.active ∧ hud'.mouse = Spec.mouse hud es ∧ hud'.logs.expanded = opened w h hud.logs es1) ∧
      (v'.sc.Whole w h ∧ Emu.Settled v' ∧ v'.sc.cur.attr = c.2.1.sc.cur.attr) ∧
      ∀ a b, a < w → b < h → v'.sc.look w a b =
        match (Spec.over a b (if opened w h hud.logs es1 then
            (Spec.titleRow h (full hud.logs) ls.length, Spec.title start e ls.length) ::
              Spec.rows w h (Spec.titleRow h (full hud.logs) ls.length) ((ls.take e).drop (start - 1))
          else Spec.rows w h (h - 1) ((ls.take e).drop (start - 1)))).or
          (if b = 0 then Spec.at_ (w - 1) a l else none) with
        | some r => some ⟨r, c.2.1.sc.cur.attr⟩
        | none => c.2.1.sc.look w a b := by
  rw [update_eq, hc, max_x W]
  simp only [hv, if_true]
  obtain ⟨v1, ⟨W1, S1, A1, L1⟩, ho⟩ := overlay_partial E c.2.1 Wc Sc
    { hud with mouse := Spec.mouse hud es, visible := true } c.1 c.2.2 l hl hp hr
  rw [ho]
  have hcl : Spec.clicked (Spec.boxes (w - 1) l) c.1 { hud with mouse := Spec.mouse hud es, visible := true } =
      { hud with mouse := Spec.mouse hud es, visible := true, timeDetail := false, fpsDetail := false, profDetail := false } := by
    unfold Spec.clicked
    simp only [hd.1, hd.2.1, hd.2.2]
  simp only [hcl, Bool.false_eq_true, or_self, if_false, Except.bind]
  obtain ⟨start, e, lv', es', v2, h1, h2, ⟨h3, _⟩, ⟨W2, S2, A2⟩, L2⟩ := log_drawn E.gr hgr hel v1 W1 S1 hud.logs E.log hs hlv ls hls hlp hne
    (Spec.without ((Spec.boxes (w - 1) l).take 3) c.1) hh hw
  have ht := (log_taken E.gr v1 W1 hud.logs E.log _ hlv.1 hh _ h1).1
  simp only at ht
  have hll : E.log.eols.length = ls.length := by
    have := congrArg List.length hls
    rw [linesOf_length, List.length_map] at this
    rw [hs]; exact this
  obtain ⟨v3, f3, s3, S3⟩ := decsc_ignored E.gr 0x38 (Or.inr rfl) v2 S2
  rw [h1]
  simp only [f3]
  rw [ht, hll]
  refine ⟨start, e, { hud with mouse := Spec.mouse hud es, visible := true, timeDetail := false, fpsDetail := false, profDetail := false, logs := lv' },
    v3, _, ?_, rfl, h2, ⟨rfl, rfl, rfl, rfl, rfl, rfl, h3⟩, ⟨by rw [s3]; exact home_whole W2, S3, by rw [s3, home_attr, A2, A1]⟩, ?_⟩
  · cases c.2.2 <;> rfl
  · intro a b ha hb
    rw [s3, home_look, L2 a b ha hb, A1, L1 a b ha hb]
    generalize Spec.over a b _ = o
    cases o <;> rfl

/-! ### Examples and negations -/

/-- Short texts, a log of one line, and a client that moves its cursor, in a style, and fails
if it is shown a press. -/
def env0 : Env Unit where
  gr := gr0
  client es v := (es, (goto v ⟨3, 2⟩).writeSGR [Sgr.bold], if es.any fun e => e.kind = .mouse then some () else none)
  details hud es v := .ok (hud, es, v, none)
  log := logOf [[0x68, 0x69]]
  time := [0x54]
  fps := [0x46]
  prof := [0x50]
  size := [0x53]
  flushed := [0x57]
  mouse _ := [0x4D]

/-- The overlay with a view of two lines. -/
def hud0 : Hud := { visible := true, logs := { viewLines := 2 } }

/-- A row of the screen after a frame, as runes. -/
def rowAfter (w : Nat) (r : Except Fault (Hud × Events × VScreen × Option Unit)) (b : Nat) : List Nat :=
  match r with
  | .ok q => (List.range w).map fun a => ((q.2.2.1.sc.look w a b).map (·.rune)).getD 0
  | .error _ => []

/-- The header in the first row and the log in the last. -/
example : (List.range 4).map (rowAfter 16 (hud0.update env0 [] (blank 16 4))) =
    [[0, 0, 0, 0, 0x4D, 0, 0x57, 0, 0x53, 0, 0x50, 0, 0x46, 0, 0x54, 0], pad 16 "", pad 16 "", pad 16 "hi"] := by decide +kernel

/-- Ctrl-K hides it. -/
example : (hud0.update env0 [entry 0x0B []] (blank 16 4)).toOption.map (fun q => (q.1.visible, rowAfter 16 (.ok q) 0)) =
    some (false, pad 16 "") := by decide +kernel

/-- A press on the time opens its details. -/
example : (hud0.update env0 [entry (csiId 0x4D) (Mouse.reportArg 0 15 1)] (blank 16 4)).toOption.map
    (fun q => (q.1.timeDetail, q.1.fpsDetail, q.1.profDetail)) = some (true, false, false) := by decide +kernel

/-- Negation for **C99**: the client's cursor is not restored: the virtual screen ignores that it
is saved and restored. -/
theorem cursor_not_restored : (hud0.update env0 [] (blank 16 4)).toOption.map (fun q => decide (q.2.2.1.sc.cur.pt = ⟨3, 2⟩)) = some false ∧
    (env0.client [] (blank 16 4)).2.1.sc.cur.pt = ⟨3, 2⟩ := by decide +kernel

/-- Negation for **C99**: the overlay is drawn in the style the client ended with. -/
theorem overlay_in_client_style : (hud0.update env0 [] (blank 16 4)).toOption.map (fun q => q.2.2.1.sc.look 16 14 0) =
    some (some ⟨0x54, Sgr.bold⟩) := by decide +kernel

/-- Negation for **C99**: a press on the overlay is shown to the client too. -/
theorem press_reaches_client : (hud0.update env0 [entry (csiId 0x4D) (Mouse.reportArg 0 15 1)] (blank 16 4)).toOption.map
    (fun q => (q.1.timeDetail, q.2.2.2)) = some (true, some ()) := by decide +kernel

end Anansi.Hud
