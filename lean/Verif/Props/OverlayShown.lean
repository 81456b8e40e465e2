import Verif.Props.HudUpdate
import Verif.Props.PlatShown
import Verif.Props.TypedShown
/-
C142: the overlay, over what the client draws, is what the terminal shows.
-/
set_option autoImplicit false

namespace Anansi
open Vt Geom Render

namespace Direct
open Anansi.Spec

/-- `platform.go:190-226` with `hud.go:68-154`: the frame of a program with the overlay, which runs the client;
the client sets the user cursor. -/
def hudFrame {ε : Type} (E : Hud.Env ε) (hud : Hud.Hud) (es : Evq.Events) (d : Differ) (winch redraw : Option (Nat × Nat)) (user : Cursor) :
    Except Fault (Hud.Hud × Evq.Events × Differ × Option ε) :=
  (begin d winch redraw).bind fun d =>
  (hud.update E es d.v).map fun r => (r.1, r.2.1, { d with v := r.2.2.1, user }, r.2.2.2)

/-! ### Nothing is left over -/

theorem bind_ok' {α β : Type} {x : Except Fault α} {f : α → Except Fault β} {b : β} (h : x.bind f = .ok b) :
    ∃ a, x = .ok a ∧ f a = .ok b := by
  cases x with
  | error e => cases h
  | ok a => exact ⟨a, rfl, h⟩

/-- The overlay ends with a write. -/
theorem overlay_empties {ε : Type} (E : Hud.Env ε) (mx : Int) (hud : Hud.Hud) (es : Evq.Events) (v : VScreen) (err : Option ε)
    (r : Hud.Hud × Evq.Events × VScreen × Option ε) (h : Hud.overlay E mx hud es v err = .ok r) (S : Emu.Settled r.2.2.1) :
    r.2.2.1.buf.buf = [] := by
  unfold Hud.overlay at h
  obtain ⟨_, _, h⟩ := bind_ok' h
  obtain ⟨_, _, h⟩ := bind_ok' h
  obtain ⟨_, _, h⟩ := bind_ok' h
  obtain ⟨_, _, h⟩ := bind_ok' h
  obtain ⟨_, _, h⟩ := bind_ok' h
  obtain ⟨_, _, h⟩ := bind_ok' h
  obtain ⟨_, _, h⟩ := bind_ok' h
  obtain ⟨_, _, h⟩ := bind_ok' h
  obtain ⟨_, _, h⟩ := bind_ok' h
  obtain ⟨_, _, h⟩ := bind_ok' h
  obtain ⟨v', hw, h⟩ := bind_ok' h
  injection h with h
  subst h
  exact write_empties E.gr hw S

/-- The calls of a client: the screen is the picture, and everything is processed. -/
theorem settled_calls (gr : Nat → Bool) : ∀ (l : List ScreenCall) (v : VScreen) (t : Term) (ph : Phase),
    Emulates v.sc t ph → Emu.Settled v → ScreenCall.Session gr t ph l →
    ∃ v', v.ops gr (l.map ScreenCall.op) = .ok v' ∧ Emu.Settled v' ∧
      Emulates v'.sc (ScreenCall.runs t ph l).1 (ScreenCall.runs t ph l).2
  | [], v, _, _, E, S, _ => ⟨v, rfl, S, E⟩
  | c :: l, v, t, ph, E, S, h => by
    obtain ⟨v1, e1, e2, e3⟩ := Emu.call_step gr E S c h.1
    obtain ⟨v2, g1, g2, g3⟩ := settled_calls gr l v1 _ _ e3 e2 h.2
    refine ⟨v2, ?_, g2, g3⟩
    simp only [List.map_cons, VScreen.ops, e1]
    exact g1

/-! ### What is drawn over can be shown -/

theorem at_mem : ∀ (l : List (List Nat)) (e a r : Nat), Hud.Spec.at_ e a l = some r → ∃ t ∈ l, r ∈ t
  | [], _, _, _, h => by cases h
  | t :: l, e, a, r, h => by
    unfold Hud.Spec.at_ at h
    split at h
    · exact ⟨t, by simp, List.mem_of_getElem? h⟩
    · obtain ⟨u, hu, hr⟩ := at_mem l _ a r h
      exact ⟨u, by simp [hu], hr⟩

theorem over_mem : ∀ (l : List (Nat × List Nat)) (a b r : Nat), Hud.Spec.over a b l = some r → ∃ t ∈ l, r ∈ t.2
  | [], _, _, _, h => by cases h
  | (k, t) :: l, a, b, r, h => by
    unfold Hud.Spec.over at h
    cases ho : Hud.Spec.over a b l with
    | some q =>
      rw [ho, Option.some_or] at h
      obtain ⟨u, hu, hr⟩ := over_mem l a b r (ho.trans h)
      exact ⟨u, by simp [hu], hr⟩
    | none =>
      rw [ho, Option.none_or] at h
      split at h
      · exact ⟨(k, t), by simp, List.mem_of_getElem? h⟩
      · cases h

theorem rows_mem (w h : Nat) : ∀ (l : List (List Nat)) (y : Nat) (t : Nat × List Nat), t ∈ Hud.Spec.rows w h y l →
    ∀ r ∈ t.2, r = 0x2026 ∨ ∃ u ∈ l, r ∈ u
  | [], _, _, ht => by cases ht
  | u :: l, y, t, ht => by
    intro r hr
    unfold Hud.Spec.rows at ht
    rcases List.mem_cons.mp ht with rfl | ht
    · unfold Lgv.Spec.fit at hr
      simp only at hr
      split at hr
      · exact .inr ⟨u, by simp, hr⟩
      · rcases List.mem_append.mp hr with hr | hr
        · exact .inr ⟨u, by simp, List.mem_of_mem_take hr⟩
        · exact .inl (by simpa using hr)
    · rcases rows_mem w h l _ t ht r hr with e | ⟨q, hq, e⟩
      · exact .inl e
      · exact .inr ⟨q, by simp [hq], e⟩

namespace Spec

/-- The character of the overlay at a cell, if it has one there: of the log, the lines from `start` to `e` under
their title if the log is open, or of the header. -/
def overlaid (w h : Nat) (l : List (List Nat)) (n : Nat) (ls : List (List Nat)) (opened : Bool) (start e : Nat) (a b : Nat) : Option Nat :=
  (Hud.Spec.over a b (if opened then
      (Hud.Spec.titleRow h n ls.length, Hud.Spec.title start e ls.length) ::
        Hud.Spec.rows w h (Hud.Spec.titleRow h n ls.length) ((ls.take e).drop (start - 1))
    else Hud.Spec.rows w h (h - 1) ((ls.take e).drop (start - 1)))).or
    (if b = 0 then Hud.Spec.at_ (w - 1) a l else none)

/-- What is seen of a cell: the overlay's character in the style the client ended with, or what the client drew. -/
def seenOver (o : Option Nat) (st : Sgr.Style) (g : Glyph) : Glyph :=
  match o with
  | some r => ⟨r, st⟩
  | none => g

end Spec

theorem overlaid_mem {w h : Nat} {l : List (List Nat)} {n : Nat} {ls : List (List Nat)} {opened : Bool} {start e a b r : Nat}
    (ho : Spec.overlaid w h l n ls opened start e a b = some r) :
    r = 0x2026 ∨ r ∈ Hud.Spec.title start e ls.length ∨ (∃ u ∈ ls, r ∈ u) ∨ ∃ u ∈ l, r ∈ u := by
  have hrows : ∀ y, ∀ t ∈ Hud.Spec.rows w h y ((ls.take e).drop (start - 1)), r ∈ t.2 → r = 0x2026 ∨ ∃ u ∈ ls, r ∈ u := by
    intro y t ht hr
    rcases rows_mem w h _ y t ht r hr with g | ⟨u, hu, g⟩
    · exact .inl g
    · exact .inr ⟨u, List.mem_of_mem_take (List.mem_of_mem_drop hu), g⟩
  unfold Spec.overlaid at ho
  rcases Option.or_eq_some_iff.mp ho with g | ⟨-, g⟩
  · obtain ⟨t, ht, hr⟩ := over_mem _ _ _ _ g
    split at ht
    · rcases List.mem_cons.mp ht with rfl | ht
      · exact .inr (.inl hr)
      · rcases hrows _ t ht hr with k | k
        · exact .inl k
        · exact .inr (.inr (.inl k))
    · rcases hrows _ t ht hr with k | k
      · exact .inl k
      · exact .inr (.inr (.inl k))
  · split at g
    · exact .inr (.inr (.inr (at_mem _ _ _ _ g)))
    · cases g

/-- **C142**: a frame of a program with the overlay visible and its panels closed.  There is a blank page, such that
after the flush the terminal shows what the client draws on it, and over that the header and the log, in the style the client
ended with.  The client is given the events of the frame but Ctrl-K, and presses on the header and turns of the wheel
over the log are taken from what it leaves. -/
theorem overlay_shown_partial {ε : Type} (E : Hud.Env ε) (hgr : ∀ r, 0x20 ≤ r → r < 0x7F → Printable E.gr r) (hel : Printable E.gr 0x2026)
    {d : Differ} {t t1 : Term} {old : Option Screen} {a : Pt}
    (Y : Synced d t old a) (redraw : Bool) (cell : Nat → Nat → Glyph) (x y : Nat) (pend : Bool) (ht1 : t1 = { t with cell, x, y, pend })
    (hr : redraw = false → t1 = t) :
    ∃ p, Spec.Page t1 p ∧ ∀ (calls : List ScreenCall), ScreenCall.Session E.gr p .exact calls → Spec.starts calls = true →
      ∀ (hud : Hud.Hud) (es es0 : Evq.Events) (err : Option ε),
      (∀ v v', v.ops E.gr (calls.map ScreenCall.op) = .ok v' → E.client (Hud.Spec.shown es) v = (es0, v', err)) →
      Hud.Spec.visible hud es = true →
      ∀ (l : List (List Nat)), Hud.Spec.texts E (Hud.Spec.mouse hud es) = l.map encodeRunes →
      (∀ t ∈ l, t ≠ [] ∧ ∀ r ∈ t, Printable E.gr r) → Hud.Spec.room l ≤ t1.w →
      (xor hud.timeDetail (Hud.Spec.odd ((Hud.Spec.boxes (t1.w - 1) l).getD 0 ⟨⟨0, 0⟩, ⟨0, 0⟩⟩) es0) = false ∧
        xor hud.fpsDetail (Hud.Spec.odd ((Hud.Spec.boxes (t1.w - 1) l).getD 1 ⟨⟨0, 0⟩, ⟨0, 0⟩⟩) es0) = false ∧
        xor hud.profDetail (Hud.Spec.odd ((Hud.Spec.boxes (t1.w - 1) l).getD 2 ⟨⟨0, 0⟩, ⟨0, 0⟩⟩) es0) = false) →
      E.log.Exact → hud.logs.Good E.log.eols.length →
      ∀ (ls : List (List Nat)), Anansi.Spec.linesOf E.log.buf = ls.map encodeRunes → (∀ t ∈ ls, ∀ r ∈ t, Printable E.gr r) → ls ≠ [] →
      Hud.full hud.logs < t1.h → (∀ a b, a ≤ ls.length → b ≤ ls.length → (Hud.Spec.title a b ls.length).length < t1.w) →
      ∀ user, Spec.Placed t1.w t1.h user →
      ∃ start e hud' d1 es1, hudFrame E hud es d none (if redraw then some (t1.w, t1.h) else none) user =
          .ok (hud', Hud.logEvents t1.w t1.h hud.logs ls.length es1, d1, err) ∧
        es1 = Hud.Spec.without ((Hud.Spec.boxes (t1.w - 1) l).take 3) es0 ∧
        (1 ≤ start ∧ start ≤ e ∧ e ≤ ls.length ∧
          e + 1 - start = min (if Hud.opened t1.w t1.h hud.logs es1 then Hud.full hud.logs else 1) ls.length) ∧
        (hud'.visible = true ∧ hud'.timeDetail = false ∧ hud'.fpsDetail = false ∧ hud'.profDetail = false ∧
          hud'.active = hud.active ∧ hud'.mouse = Hud.Spec.mouse hud es ∧ hud'.logs.expanded = Hud.opened t1.w t1.h hud.logs es1) ∧
        (Spec.Easy t1 (if redraw then none else old) (if redraw then zp else a) d1.v.sc user →
          ∃ d' ops, d1.writeTo E.gr .ok = .ok (d', text ops, none) ∧ (t1.run ops).w = t1.w ∧ (t1.run ops).h = t1.h ∧
            (∀ x y, x < t1.w → y < t1.h → (t1.run ops).cell x y =
              Spec.seenOver (Spec.overlaid t1.w t1.h l (Hud.full hud.logs) ls (Hud.opened t1.w t1.h hud.logs es1) start e x y)
                (ScreenCall.runs p .exact calls).1.style ((ScreenCall.runs p .exact calls).1.cell x y)) ∧
            (t1.run ops).vis = Spec.seen user ∧
            (Spec.seen user = true → (t1.run ops).At user.pt ∧ user.attr = (t1.run ops).style.build) ∧
            Synced d' (t1.run ops) (some d1.v.sc)
              (Spec.rest t1.w t1.h (if redraw then none else old) (if redraw then zp else a) d1.v.sc user)) := by
  have hsp : Printable E.gr 0x20 := hgr _ (by omega) (by omega)
  have hw1 : t1.w = t.w := by rw [ht1]
  have hh1 : t1.h = t.h := by rw [ht1]
  have hs1 : t1.style = t.style := by rw [ht1]
  obtain ⟨sc, e1, W0, p, hP, Em⟩ := reset_page Y
  refine ⟨p, ⟨by rw [hw1, hh1]; exact hP.1, by rw [hs1]; exact hP.2⟩, ?_⟩
  intro calls hs hst hud es es0 err hc hv l hl hp hrm hd hlx hlg ls hls hlp hne hfh htw user hu
  have pw : p.w = t1.w := by rw [hP.1, hw1]; rfl
  have ph : p.h = t1.h := by rw [hP.1, hh1]; rfl
  have hcell : ∀ x y, p.cell x y = blank := by intro x y; rw [hP.1]; rfl
  -- the differ before the calls
  let v0 : VScreen := ⟨{ sc with cur := d.real.cur }, d.v.buf.reset⟩
  have Y0 : Synced { d with v := v0, user := {} } t old a :=
    ⟨⟨W0.hw, W0.hh, W0.rect, W0.stride, W0.len, W0.cap⟩, Y.agree, Y.known, Y.rest, Y.pen⟩
  have hbegin : ∃ d2, begin d none (if redraw then some (t1.w, t1.h) else none) = .ok d2 ∧ d2.v = v0 ∧
      Synced d2 t1 (if redraw then none else old) (if redraw then zp else a) := by
    unfold begin
    simp only [e1]
    cases redraw with
    | false => rw [hr rfl]; exact ⟨_, rfl, rfl, Y0⟩
    | true =>
      have Y1 := redraw_synced Y0 cell x y pend
      rw [← ht1] at Y1
      refine ⟨_, rfl, ?_, ?_⟩
      · show (sizeTo (Differ.invalidate { d with v := v0, user := {} }) (t1.w, t1.h)).v = v0
        rw [sizeTo_same Y1.whole]
        rfl
      · exact sizeTo_synced Y1 t1.w t1.h Y1.whole.hw Y1.whole.hh t1.cell t1.x t1.y t1.pend
  obtain ⟨d2, b1, b2, Y2⟩ := hbegin
  have W1 : v0.sc.Whole t1.w t1.h := by rw [hw1, hh1]; exact Y0.whole
  -- the client
  obtain ⟨R, hR⟩ : ∃ R, R = (ScreenCall.runs p .exact calls).1 := ⟨_, rfl⟩
  rw [← hR]
  have hops : ∃ v, v0.ops E.gr (calls.map ScreenCall.op) = .ok v ∧ Emu.Settled v ∧ v.sc.Whole t1.w t1.h ∧
      Shows R v.sc t1.w t1.h ∧ R.style.clear = false ∧ v.sc.cur.attr = R.style.build := by
    by_cases hn : calls = []
    · subst hn
      refine ⟨v0, rfl, rfl, W1, ?_, ?_, ?_⟩
      · have := Em.shows
        rw [pw, ph] at this
        rw [hR]
        exact ⟨this.1, this.2.1, this.2.2⟩
      · rw [hR]; exact Em.clear
      · rw [hR]; exact Em.attr
    · obtain ⟨v, g1, g2, g3⟩ := settled_calls E.gr calls ⟨_, d.v.buf.reset⟩ p .exact Em rfl hs
      rw [← starts_ops E.gr sc d.real.cur _ calls hst hn] at g1
      obtain ⟨q1, q2⟩ := runs_size calls p .exact
      refine ⟨v, g1, g2, ?_, ?_, ?_, ?_⟩
      · have := g3.whole; rw [q1, q2, pw, ph] at this; exact this
      · have := g3.shows; rw [q1, q2, pw, ph] at this; rw [hR]; exact this
      · rw [hR]; exact g3.clear
      · rw [hR]; exact g3.attr
  obtain ⟨v, g1, g2, g3, g4, g5, g6⟩ := hops
  -- the overlay
  obtain ⟨start, e, hud', v', es1, k1, k2, k3, k4, ⟨k5, k6, k7⟩, k8⟩ :=
    Hud.shown_partial E (fun r h1 h2 => printed (hgr r h1 h2)) (printed hel) hud es v0 W1 hv (es0, v, err) (hc v0 v g1) g3 g2 l hl
      (fun t ht => ⟨(hp t ht).1, fun r h => printed ((hp t ht).2 r h)⟩) hrm hd hlx hlg ls hls
      (fun t ht r h => printed (hlp t ht r h)) hne hfh htw
  have hbuf : v'.buf.buf = [] := by
    have k1' := k1
    rw [Hud.update_eq] at k1'
    simp only [hv, if_true] at k1'
    exact overlay_empties E _ _ _ _ _ _ k1' k6
  refine ⟨start, e, hud', { d2 with v := v', user }, es1, ?_, k2, k3, k4, fun Z => ?_⟩
  · unfold hudFrame
    rw [b1]
    show (hud.update E es d2.v).map _ = _
    rw [b2, k1]
    rfl
  · obtain ⟨pic, hpic⟩ : ∃ pic : Term, pic = { R with cell := fun x y => (Spec.seenOver
        (Spec.overlaid t1.w t1.h l (Hud.full hud.logs) ls (Hud.opened t1.w t1.h hud.logs es1) start e x y) R.style (R.cell x y)) } := ⟨_, rfl⟩
    have hprint : ∀ x y r, Spec.overlaid t1.w t1.h l (Hud.full hud.logs) ls (Hud.opened t1.w t1.h hud.logs es1) start e x y = some r →
        Printable E.gr r := by
      intro x y r ho
      rcases overlaid_mem ho with rfl | k | ⟨u, hu, k⟩ | ⟨u, hu, k⟩
      · exact hel
      · rw [← Hud.title_runes] at k
        obtain ⟨z, hz, rfl⟩ := List.mem_map.1 k
        have := Hud.title_ascii _ _ _ z hz
        exact hgr _ this.1 this.2
      · exact hlp u hu r k
      · exact (hp u hu).2 r k
    have S : Shows pic v'.sc t1.w t1.h := by
      refine ⟨by rw [hpic]; exact g4.1, by rw [hpic]; exact g4.2.1, fun x y hx hy => ?_⟩
      have hlook := k8 x y hx hy
      obtain ⟨c, hc1, hc2⟩ := g4.2.2 x y hx hy
      have hcellpic : pic.cell x y = Spec.seenOver
        (Spec.overlaid t1.w t1.h l (Hud.full hud.logs) ls (Hud.opened t1.w t1.h hud.logs es1) start e x y) R.style (R.cell x y) := by rw [hpic]
      rw [hcellpic]
      cases ho : Spec.overlaid t1.w t1.h l (Hud.full hud.logs) ls (Hud.opened t1.w t1.h hud.logs es1) start e x y with
      | none =>
        have ho' := ho
        unfold Spec.overlaid at ho'
        rw [ho'] at hlook
        exact ⟨c, hlook.trans hc1, hc2⟩
      | some r =>
        have ho' := ho
        unfold Spec.overlaid at ho'
        rw [ho'] at hlook
        refine ⟨_, hlook, ?_, g5, g6⟩
        have := (hprint x y r ho).c0
        show r = (ink _).1
        unfold ink
        simp only
        rw [if_neg (by omega)]
    have hpp : ∀ x y, Printable E.gr (pic.cell x y).rune := by
      intro x y
      have hcellpic : pic.cell x y = Spec.seenOver
        (Spec.overlaid t1.w t1.h l (Hud.full hud.logs) ls (Hud.opened t1.w t1.h hud.logs es1) start e x y) R.style (R.cell x y) := by rw [hpic]
      rw [hcellpic]
      cases ho : Spec.overlaid t1.w t1.h l (Hud.full hud.logs) ls (Hud.opened t1.w t1.h hud.logs es1) start e x y with
      | none =>
        show Printable E.gr (R.cell x y).rune
        rw [hR]
        exact calls_print hsp calls _ _ hs (fun x y => by rw [hcell]; exact hsp) x y
      | some r => exact hprint x y r ho
    obtain ⟨d', ops, h1, h2, h3, h4, h5, h6, h7⟩ := flushed E.gr hsp Y2 v' k5 hbuf pic S hpp user hu Z
    refine ⟨d', ops, h1, h2, h3, fun x y hx hy => ?_, h5, fun h => ⟨(h6 h).1, (h6 h).2.1⟩, h7⟩
    rw [h4 x y hx hy, hpic]

/-- What can be drawn is what some terminal shows. -/
theorem picture_of {gr : Nat → Bool} (hsp : Printable gr 0x20) {sc : Screen} {w h : Nat} (W : sc.Whole w h)
    (hd : ∀ x y c, x < w → y < h → sc.look w x y = some c → Drawable gr c) :
    ∃ pic : Term, Shows pic sc w h ∧ ∀ x y, Printable gr (pic.cell x y).rune := by
  have key : ∀ x y, ∃ g : Glyph, Printable gr g.rune ∧ (x < w → y < h → ∃ c, sc.look w x y = some c ∧ Inked (ink c) g) := by
    intro x y
    by_cases hxy : x < w ∧ y < h
    · have hi : y * w + x < sc.grid.cells.length := by
        have h1 := W.len
        have h2 := W.cap
        have h3 := Screen.idx_lt hxy.1 hxy.2
        omega
      have hl : sc.look w x y = some sc.grid.cells[y * w + x] := List.getElem?_eq_getElem hi
      obtain ⟨hr, s, s1, s2⟩ := hd x y _ hxy.1 hxy.2 hl
      refine ⟨⟨(ink sc.grid.cells[y * w + x]).1, s⟩, ?_, fun _ _ => ⟨_, hl, rfl, s1, s2⟩⟩
      unfold ink
      simp only
      split
      · exact hsp
      · rename_i h0
        exact hr.resolve_left h0
    · exact ⟨⟨0x20, {}⟩, hsp, fun a b => absurd ⟨a, b⟩ hxy⟩
  choose f hf using key
  exact ⟨{ clearTerm w h with cell := f }, ⟨rfl, rfl, fun x y hx hy => (hf x y).2 hx hy⟩, fun x y => (hf x y).1⟩

/-- **C142**: whatever is open in the overlay, what it leaves on the virtual screen, if it can be drawn at all, is what the
terminal shows after the flush. -/
theorem overlay_any_shown {ε : Type} (E : Hud.Env ε) (hsp : Printable E.gr 0x20)
    {d : Differ} {t t1 : Term} {old : Option Screen} {a : Pt}
    (Y : Synced d t old a) (redraw : Bool) (cell : Nat → Nat → Glyph) (x y : Nat) (pend : Bool) (ht1 : t1 = { t with cell, x, y, pend })
    (hr : redraw = false → t1 = t) (hud hud' : Hud.Hud) (es es' : Evq.Events) (err : Option ε) (d1 : Differ) (user : Cursor)
    (hu : Spec.Placed t1.w t1.h user) (hv : Hud.Spec.visible hud es = true)
    (h : hudFrame E hud es d none (if redraw then some (t1.w, t1.h) else none) user = .ok (hud', es', d1, err))
    (W : d1.v.sc.Whole t1.w t1.h) (S : Emu.Settled d1.v)
    (hd : ∀ x y c, x < t1.w → y < t1.h → d1.v.sc.look t1.w x y = some c → Drawable E.gr c)
    (Z : Spec.Easy t1 (if redraw then none else old) (if redraw then zp else a) d1.v.sc user) :
    ∃ d' ops, d1.writeTo E.gr .ok = .ok (d', text ops, none) ∧ Shows (t1.run ops) d1.v.sc t1.w t1.h ∧
      (t1.run ops).vis = Spec.seen user ∧
      (Spec.seen user = true → (t1.run ops).At user.pt ∧ user.attr = (t1.run ops).style.build) ∧
      Synced d' (t1.run ops) (some d1.v.sc)
        (Spec.rest t1.w t1.h (if redraw then none else old) (if redraw then zp else a) d1.v.sc user) := by
  obtain ⟨sc, e1, W0, -⟩ := reset_page Y
  let v0 : VScreen := ⟨{ sc with cur := d.real.cur }, d.v.buf.reset⟩
  have Y0 : Synced { d with v := v0, user := {} } t old a :=
    ⟨⟨W0.hw, W0.hh, W0.rect, W0.stride, W0.len, W0.cap⟩, Y.agree, Y.known, Y.rest, Y.pen⟩
  have hbegin : ∃ d2, begin d none (if redraw then some (t1.w, t1.h) else none) = .ok d2 ∧
      Synced d2 t1 (if redraw then none else old) (if redraw then zp else a) := by
    unfold begin
    simp only [e1]
    cases redraw with
    | false => rw [hr rfl]; exact ⟨_, rfl, Y0⟩
    | true =>
      have Y1 := redraw_synced Y0 cell x y pend
      rw [← ht1] at Y1
      exact ⟨_, rfl, sizeTo_synced Y1 t1.w t1.h Y1.whole.hw Y1.whole.hh t1.cell t1.x t1.y t1.pend⟩
  obtain ⟨d2, b1, Y2⟩ := hbegin
  unfold hudFrame at h
  rw [b1] at h
  have h' : (hud.update E es d2.v).map (fun r => (r.1, r.2.1, { d2 with v := r.2.2.1, user }, r.2.2.2)) = .ok (hud', es', d1, err) := h
  cases hup : hud.update E es d2.v with
  | error f => rw [hup] at h'; cases h'
  | ok r =>
    rw [hup] at h'
    injection h' with h'
    have hd1 : d1 = { d2 with v := r.2.2.1, user } := (congrArg (fun q => q.2.2.1) h').symm
    subst hd1
    have hbuf : r.2.2.1.buf.buf = [] := by
      rw [Hud.update_eq] at hup
      simp only [hv, if_true] at hup
      exact overlay_empties E _ _ _ _ _ _ hup S
    obtain ⟨pic, P, hpp⟩ := picture_of hsp W hd
    obtain ⟨d', ops, h1, h2, h3, h4, h5, h6, h7⟩ := flushed E.gr hsp Y2 r.2.2.1 W hbuf pic P hpp user hu Z
    refine ⟨d', ops, h1, ⟨h2, h3, fun x y hx hy => ?_⟩, h5, fun h => ⟨(h6 h).1, (h6 h).2.1⟩, h7⟩
    rw [h4 x y hx hy]
    exact P.2.2 x y hx hy

/-- **C142**: hidden, the overlay is not there: the frame is the client's. -/
theorem overlay_hidden {ε : Type} (E : Hud.Env ε) (hud : Hud.Hud) (es es0 : Evq.Events) (err : Option ε) (d d1 : Differ)
    (winch redraw : Option (Nat × Nat)) (calls : List VScreen.Op) (user : Cursor)
    (hc : ∀ v v', v.ops E.gr calls = .ok v' → E.client (Hud.Spec.shown es) v = (es0, v', err))
    (hv : Hud.Spec.visible hud es = false) (h : platFrame E.gr d winch redraw calls user = .ok d1) :
    hudFrame E hud es d winch redraw user =
      .ok ({ hud with mouse := Hud.Spec.mouse hud es, visible := false, active := 0 }, es0, d1, err) := by
  unfold platFrame at h
  obtain ⟨d2, e1, h⟩ := bind_ok' h
  unfold hudFrame
  rw [e1]
  show (hud.update E es d2.v).map _ = _
  rw [Hud.hidden_transparent E hud es d2.v hv]
  cases hv' : d2.v.ops E.gr calls with
  | error e => rw [hv'] at h; cases h
  | ok v' =>
    rw [hv'] at h
    injection h with h
    rw [hc _ _ hv', ← h]
    rfl

/-! ### Example -/

/-- The overlay with short texts and a log of one line over a client that greets. -/
def env1 : Hud.Env Unit :=
  { Hud.env0 with client := fun es v => (es, match v.ops Hud.gr0 (hello.map ScreenCall.op) with | .ok v' => v' | .error _ => v, none) }

def texts1 : List (List Nat) := [[0x54], [0x46], [0x50], [0x53], [0x57], [0x4D]]

/-- The hypotheses hold for it. -/
example (t p : Term) (hw : t.w = 40) (hh : t.h = 6) (hP : Spec.Page t p) :
    (∀ r, 0x20 ≤ r → r < 0x7F → Printable env1.gr r) ∧ Printable env1.gr 0x2026 ∧
    ScreenCall.Session env1.gr p .exact hello ∧ Spec.starts hello = true ∧
    (∀ v v', v.ops env1.gr (hello.map ScreenCall.op) = .ok v' → env1.client (Hud.Spec.shown []) v = ([], v', none)) ∧
    Hud.Spec.visible Hud.hud0 [] = true ∧ Hud.Spec.texts env1 (Hud.Spec.mouse Hud.hud0 []) = texts1.map encodeRunes ∧
    (∀ t ∈ texts1, t ≠ [] ∧ ∀ r ∈ t, Printable env1.gr r) ∧ Hud.Spec.room texts1 ≤ t.w ∧
    env1.log.Exact ∧ Hud.hud0.logs.Good env1.log.eols.length ∧ Anansi.Spec.linesOf env1.log.buf = [[0x68, 0x69]].map encodeRunes ∧
    Hud.full Hud.hud0.logs < t.h ∧ (∀ a b, a ≤ 1 → b ≤ 1 → (Hud.Spec.title a b 1).length < t.w) ∧ Spec.Placed t.w t.h {} := by
  have hg : ∀ r, 0x20 ≤ r → r < 0x7F → Printable env1.gr r := by
    intro r h1 h2
    refine ⟨h1, .inl h2, .inl (by omega), ?_, ?_⟩
    · unfold isEscape; simp; omega
    · show Hud.gr0 r = true
      unfold Hud.gr0; simp; omega
  refine ⟨hg, ⟨by decide, by decide, by decide, by decide, by decide⟩, ?_, rfl, ?_, by decide, by decide +kernel, ?_, ?_, rfl, ?_,
    by decide +kernel, ?_, ?_, ?_⟩
  · rw [hP.1, hw, hh]
    exact ⟨trivial, ⟨⟨hg 0x68 (by omega) (by omega), by simp [ScreenCall.run]⟩,
      ⟨hg 0x69 (by omega) (by omega), by simp [ScreenCall.run, Act.next, Term.step, clearTerm]⟩, trivial⟩, trivial⟩
  · intro v v' h
    have h' : v.ops Hud.gr0 (hello.map ScreenCall.op) = .ok v' := h
    show (_, (match v.ops Hud.gr0 (hello.map ScreenCall.op) with | .ok v' => v' | .error _ => v), _) = _
    rw [h']
    rfl
  · intro t ht
    refine ⟨fun h => by subst h; revert ht; decide, fun r hr => ?_⟩
    have : ∀ t ∈ texts1, ∀ r ∈ t, 0x20 ≤ r ∧ r < 0x7F := by decide
    exact hg r (this t ht r hr).1 (this t ht r hr).2
  · rw [hw]; decide
  · unfold Lgv.View.Good Lgv.View.Within; decide +kernel
  · rw [hh]; decide
  · intro a b ha hb
    rw [hw]
    have : ∀ a ≤ 1, ∀ b ≤ 1, (Hud.Spec.title a b 1).length < 40 := by decide +kernel
    exact this a ha b hb
  · exact fun h => by cases h

/-- And the frame on a new screen takes no awkward jumps: the greeting, the header in the first row and the log in the last. -/
example : ((hudFrame env1 Hud.hud0 [] (({} : Differ).resize (40, 6)).1 none none {}).toOption.map
    fun r => (Spec.cells 40 6 none r.2.2.1.v.sc).map fun p => (p.x, p.y)) =
    some [(1, 1), (2, 1), (29, 1), (31, 1), (33, 1), (35, 1), (37, 1), (39, 1), (1, 6), (2, 6)] := by decide +kernel

end Direct
end Anansi
