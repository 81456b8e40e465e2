import Mathlib.Data.List.GetD
import Verif.Props.InteractShown
import Verif.Props.OverlayShown
/-
`interact` with the debug overlay visible: what the terminal shows (C148).
-/
set_option autoImplicit false

namespace Anansi

namespace Itr
open Edl Evq

variable {gr : Nat → Bool} {cmd : List Bytes} {ts : List Spec.Item} {w h : Nat}

/-- What a frame in which no word is pressed or edited leaves besides the screen: presses on words and Ctrl-Z are taken from the
events, everything written was processed, and there is no style. -/
theorem idle_after {ε : Type} (hsp : Screen.Printable gr 0x20) (heq : Screen.Printable gr 0x3D)
    (world : List (List Bytes) → Outcome) (suspend : Option ε) (hud : Bool) (f : Full) (S : Setup gr cmd f.s ts w)
    (es : Events) (v : VScreen) (W : v.sc.Whole w h) (hh : rowOf hud + 2 ≤ h) (he : f.s.edid = 0)
    (hkeys : ∀ e ∈ es, isRune [0x03] e = false)
    (hp : ∀ i < ts.length, Hud.Spec.odd (Spec.place (rowOf hud) ts i) es = false) (hts : ts ≠ []) (o : Out ε)
    (ho : f.update gr world suspend hud es v = .ok o) :
    o.c.es = Hud.Spec.without ((List.range' 0 ts.length).map (Spec.place (rowOf hud) ts)) (strikeIf (isRune [0x1A]) es) ∧
      Emu.Settled o.c.v ∧ o.c.v.sc.cur.attr = 0 := by
  obtain ⟨sc, q, f1, v1, u1, u2, -, u4, -, u6, -⟩ := update_parts ho
  have hb : o.c.v.buf = q.2.v.buf ∧ o.c.v.sc.cur = q.2.v.sc.cur := by
    rw [u6]
    show v1.buf = _ ∧ v1.sc.cur = _
    unfold overlay at u4
    generalize (⟨1, if hud then 3 else 2⟩ : Pt) = p at u4
    simp only at u4
    split at u4
    · split at u4
      · cases u4
      · injection u4 with u4; rw [← u4]; exact ⟨rfl, rfl⟩
    · injection u4 with u4; rw [← u4]; exact ⟨rfl, rfl⟩
  obtain ⟨k1, k2⟩ := keys_left es hkeys
  obtain ⟨sc1, e1, W1, c1, L1⟩ := cleared_blank W
  rw [e1] at u1
  injection u1 with u1
  subst u1
  obtain ⟨R, B, hg⟩ := begun_ready W1 v.buf c1 hud (by omega)
  obtain ⟨v2, e2, R2, B2, -⟩ := words_idle_upto (y := rowOf hud) hsp heq world f S ts.length (Nat.le_refl _) ts.length 0
    ⟨strikeIf (isRune [0x1A]) es, ⟨sc1.to ⟨1, if hud then 2 else 1⟩, v.buf.reset⟩, {}⟩ (by omega) (by simpa [Spec.line] using R) B
    (fun m _ _ => by rw [he]; omega) (fun m _ hm => by
      show Hud.Spec.odd _ (strikeIf _ es) = false
      rw [odd_suspend]; exact hp m hm) (fun m l h1 h2 p => places_apart ts _ m l h1 h2 p)
  have hslot : Spec.slot cmd 0 = 0 := by simp [Spec.slot]
  rw [List.drop_zero, ← S.cmd_eq, List.drop_length, hslot] at e2
  simp only [List.map_nil, drawWords] at e2
  simp only [k1, k2] at u2
  rw [e2] at u2
  injection u2 with u2
  have hs : Emu.Settled q.2.v := by rw [← u2]; exact R2.settled
  refine ⟨by rw [u6, ← u2], ?_, ?_⟩
  · unfold Emu.Settled at hs ⊢; rw [hb.1]; exact hs
  · rw [hb.2, ← u2]
    rcases B2 with ⟨h0, -⟩ | ⟨h1, -⟩
    · exact (hts (List.length_eq_zero_iff.1 h0)).elim
    · exact h1

theorem odd_shown (b : Rect) (es : Events) : Hud.Spec.odd b (Hud.Spec.shown es) = Hud.Spec.odd b es := by
  unfold Hud.Spec.odd Hud.Spec.shown
  rw [Hud.count_strike _ _ _ ?_ (Hud.struck_not_in _ 1)]
  intro e he
  unfold isRune at he
  unfold pressIn
  simp only [Bool.and_eq_true, decide_eq_true_eq] at he
  simp [he.1]

theorem shown_key (es : Events) (h : ∀ e ∈ es, isRune [0x03] e = false) : ∀ e ∈ Hud.Spec.shown es, isRune [0x03] e = false := by
  intro e he
  unfold Hud.Spec.shown strikeIf at he
  obtain ⟨e', he', rfl⟩ := List.mem_map.1 he
  split
  · unfold isRune Ev.struck; simp
  · exact h e' he'

/-- A box of the header has no place in common with a word. -/
theorem header_apart (e : Nat) (l : List (List Nat)) (k i : Nat) (p : Pt) :
    ¬ (Geom.Mem p (Spec.place 1 ts i) ∧ Geom.Mem p ((Hud.Spec.boxes e l).getD k ⟨⟨0, 0⟩, ⟨0, 0⟩⟩)) := by
  rintro ⟨h1, h2⟩
  unfold Spec.place Hud.Spec.box Geom.Mem at h1
  simp only at h1
  rw [List.getD_eq_getElem?_getD] at h2
  cases hk : (Hud.Spec.boxes e l)[k]? with
  | none =>
    rw [hk] at h2
    unfold Geom.Mem at h2
    simp only [Option.getD_none] at h2
    omega
  | some b =>
    rw [hk] at h2
    simp only [Option.getD_some] at h2
    have hb := List.mem_of_getElem? hk
    unfold Hud.Spec.boxes at hb
    obtain ⟨q, -, rfl⟩ := List.mem_map.1 hb
    unfold Hud.Spec.box Geom.Mem at h2
    simp only at h2
    omega

end Itr

open Vt Geom Render

namespace Direct
open Anansi.Spec

namespace Spec

/-- Where the overlay shows nothing: the words in the second row, below them what the area has, except in the last row, and nothing
else. -/
def beneath (ts : List Itr.Spec.Item) (area : Nat → Nat → Glyph) (h x y : Nat) : Glyph :=
  if y = 1 then (words 0 ts).getD x blank else if 2 ≤ y ∧ y + 1 < h then area x (y - 2) else blank

end Spec

variable {cmd : List Bytes} {ts : List Itr.Spec.Item}

/-- **C148**: a frame of `interact`, of whatever command, with the overlay visible and its panels closed, in which no word is pressed
or edited: the terminal shows the overlay's header and log, in no style, and beneath them the words and the output area; the cursor is
hidden.  Nothing is run, and presses on the header and the log are the overlay's. -/
theorem interact_over_shown {ε : Type} (E : Hud.Env ε) (hgr : ∀ r, 0x20 ≤ r → r < 0x7F → Printable E.gr r) (hel : Printable E.gr 0x2026)
    {d : Differ} {t t1 : Term} {old : Option Screen} {a : Pt}
    (Y : Synced d t old a) (redraw : Bool) (cell : Nat → Nat → Glyph) (x y : Nat) (pend : Bool) (ht1 : t1 = { t with cell, x, y, pend })
    (hr : redraw = false → t1 = t) (world : List (List Bytes) → Itr.Outcome) (sus : Option ε) (f : Itr.Full)
    (S : Itr.Setup E.gr cmd f.s ts t1.w) (hts : ts ≠ []) (hpl : ∀ t ∈ ts, (∀ r ∈ t.text, Printable E.gr r) ∧ ∀ r ∈ t.val, Printable E.gr r)
    (hud : Hud.Hud) (es : Evq.Events) (hh : 3 ≤ t1.h) (he : f.s.edid = 0) (hkeys : ∀ e ∈ es, Evq.isRune [0x03] e = false)
    (hpress : ∀ i < ts.length, Hud.Spec.odd (Itr.Spec.place 1 ts i) es = false)
    (hsz : f.s.size = ((t1.w : Int), ((t1.h - 3 : Nat) : Int))) (A : Itr.Area f.out t1.w (t1.h - 3))
    (area : Nat → Nat → Glyph) (F : Filled E.gr f.out t1.w (t1.h - 3) area)
    (fail : Dem.Res ε → Option ε)
    (hc : ∀ v o, f.update E.gr world sus true (Hud.Spec.shown es) v = .ok o → E.client (Hud.Spec.shown es) v = (o.c.es, o.c.v, fail o.res))
    (hv : Hud.Spec.visible hud es = true) (l : List (List Nat)) (hl : Hud.Spec.texts E (Hud.Spec.mouse hud es) = l.map encodeRunes)
    (hp : ∀ t ∈ l, t ≠ [] ∧ ∀ r ∈ t, Printable E.gr r) (hrm : Hud.Spec.room l ≤ t1.w)
    (hd : xor hud.timeDetail (Hud.Spec.odd ((Hud.Spec.boxes (t1.w - 1) l).getD 0 ⟨⟨0, 0⟩, ⟨0, 0⟩⟩) es) = false ∧
        xor hud.fpsDetail (Hud.Spec.odd ((Hud.Spec.boxes (t1.w - 1) l).getD 1 ⟨⟨0, 0⟩, ⟨0, 0⟩⟩) es) = false ∧
        xor hud.profDetail (Hud.Spec.odd ((Hud.Spec.boxes (t1.w - 1) l).getD 2 ⟨⟨0, 0⟩, ⟨0, 0⟩⟩) es) = false)
    (hlx : E.log.Exact) (hlg : hud.logs.Good E.log.eols.length)
    (ls : List (List Nat)) (hls : Anansi.Spec.linesOf E.log.buf = ls.map encodeRunes) (hlp : ∀ t ∈ ls, ∀ r ∈ t, Printable E.gr r)
    (hne : ls ≠ []) (hfh : Hud.full hud.logs < t1.h) (htw : ∀ a b, a ≤ ls.length → b ≤ ls.length → (Hud.Spec.title a b ls.length).length < t1.w) :
    ∃ v o start e hud' d1 es1, f.update E.gr world sus true (Hud.Spec.shown es) v = .ok o ∧ o.f = f ∧
      hudFrame E hud es d none (if redraw then some (t1.w, t1.h) else none) {} =
          .ok (hud', Hud.logEvents t1.w t1.h hud.logs ls.length es1, d1, fail o.res) ∧
      es1 = Hud.Spec.without ((Hud.Spec.boxes (t1.w - 1) l).take 3) o.c.es ∧
      (1 ≤ start ∧ start ≤ e ∧ e ≤ ls.length ∧
        e + 1 - start = min (if Hud.opened t1.w t1.h hud.logs es1 then Hud.full hud.logs else 1) ls.length) ∧
      (hud'.visible = true ∧ hud'.timeDetail = false ∧ hud'.fpsDetail = false ∧ hud'.profDetail = false) ∧
      (Spec.Easy t1 (if redraw then none else old) (if redraw then zp else a) d1.v.sc {} →
        ∃ d' ops, d1.writeTo E.gr .ok = .ok (d', text ops, none) ∧ (t1.run ops).w = t1.w ∧ (t1.run ops).h = t1.h ∧
          (∀ x y, x < t1.w → y < t1.h → (t1.run ops).cell x y =
            Spec.seenOver (Spec.overlaid t1.w t1.h l (Hud.full hud.logs) ls (Hud.opened t1.w t1.h hud.logs es1) start e x y)
              {} (Spec.beneath ts area t1.h x y)) ∧
          (t1.run ops).vis = false ∧
          Synced d' (t1.run ops) (some d1.v.sc)
            (Spec.rest t1.w t1.h (if redraw then none else old) (if redraw then zp else a) d1.v.sc {})) := by
  have hsp : Printable E.gr 0x20 := hgr _ (by omega) (by omega)
  have heq : Printable E.gr 0x3D := hgr _ (by omega) (by omega)
  obtain ⟨d2, b1, W, Y2⟩ := begun Y redraw cell x y pend ht1 hr
  have hk := Itr.shown_key es hkeys
  have hpr : ∀ i < ts.length, Hud.Spec.odd (Itr.Spec.place (Itr.rowOf true) ts i) (Hud.Spec.shown es) = false := by
    intro i hi
    rw [Itr.odd_shown]; exact hpress i hi
  have hrow : Itr.rowOf true = 1 := rfl
  obtain ⟨o, o1, o2, o3, o4, o5⟩ := Itr.idle_shown (printed hsp) (printed heq) world sus true f S _ d2.v W
    (by rw [hrow]; omega) he hk hpr (by rw [hrow]; exact hsz) (by rw [hrow]; exact A)
  obtain ⟨o6, o7, o8⟩ := Itr.idle_after (printed hsp) (printed heq) world sus true f S _ d2.v W (by rw [hrow]; omega) he hk hpr hts o o1
  have hodd : ∀ k, Hud.Spec.odd ((Hud.Spec.boxes (t1.w - 1) l).getD k ⟨⟨0, 0⟩, ⟨0, 0⟩⟩) o.c.es =
      Hud.Spec.odd ((Hud.Spec.boxes (t1.w - 1) l).getD k ⟨⟨0, 0⟩, ⟨0, 0⟩⟩) es := by
    intro k
    rw [o6, Hud.odd_without, Itr.odd_suspend, Itr.odd_shown]
    intro c hc p
    obtain ⟨m, -, rfl⟩ := List.mem_map.1 hc
    rw [hrow]
    exact Itr.header_apart _ _ _ _ _
  obtain ⟨start, e, hud', v', es1, k1, k2, k3, k4, ⟨k5, k6, k7⟩, k8⟩ :=
    Hud.shown_partial E (fun r h1 h2 => printed (hgr r h1 h2)) (printed hel) hud es d2.v W hv (o.c.es, o.c.v, fail o.res) (hc d2.v o o1) o4 o7 l hl
      (fun t ht => ⟨(hp t ht).1, fun r h => printed ((hp t ht).2 r h)⟩) hrm (by simp only [hodd]; exact hd) hlx hlg ls hls
      (fun t ht r h => printed (hlp t ht r h)) hne hfh htw
  have hbuf : v'.buf.buf = [] := by
    have k1' := k1
    rw [Hud.update_eq] at k1'
    simp only [hv, if_true] at k1'
    exact overlay_empties E _ _ _ _ _ _ k1' k6
  refine ⟨d2.v, o, start, e, hud', { d2 with v := v', user := {} }, es1, o1, o2, ?_, k2, k3, ⟨k4.1, k4.2.1, k4.2.2.1, k4.2.2.2.1⟩, fun Z => ?_⟩
  · unfold hudFrame
    rw [b1]
    show (hud.update E es d2.v).map _ = _
    rw [k1]
    rfl
  have hline := same_line hsp heq ts 0 hpl
  have hll := hline.length_eq
  have hattr : (0 : Attr) = Sgr.Style.build {} := by decide
  let g : Nat → Nat → Glyph := fun x y =>
    if y = 1 then (Spec.words 0 ts).getD x blank else if (2 ≤ y ∧ y + 1 < t1.h) ∧ x < t1.w then area x (y - 2) else blank
  have key : ∀ x y, Printable E.gr (g x y).rune ∧ (x < t1.w → y < t1.h → ∃ c, o.c.v.sc.look t1.w x y = some c ∧ Inked (ink c) (g x y)) := by
    intro x y
    have hblank : Inked (ink ({} : Cell)) blank := ⟨rfl, rfl, hattr⟩
    rw [hrow] at o5
    show Printable E.gr (if y = 1 then _ else _ : Glyph).rune ∧ (_ → _ → ∃ c, _ ∧ Inked (ink c) (if y = 1 then _ else _))
    by_cases h0 : y = 1
    · rw [if_pos h0]
      have G := same_get hsp hline x
      refine ⟨G.2, fun hx hy => ⟨(Itr.Spec.line 0 ts).getD x {}, ?_, G.1⟩⟩
      rw [o5 x y hx hy]
      by_cases hx1 : x < (Itr.Spec.line 0 ts).length
      · rw [if_pos ⟨h0, hx1⟩, List.getD_eq_getElem _ _ hx1, List.getElem?_eq_getElem hx1]
      · rw [if_neg (fun h => hx1 h.2), if_neg (by omega), List.getD_eq_default _ _ (by omega)]
    · rw [if_neg h0]
      by_cases h1 : (2 ≤ y ∧ y + 1 < t1.h) ∧ x < t1.w
      · rw [if_pos h1]
        obtain ⟨c, c1, c2, c3⟩ := F x (y - 2) h1.2 (by omega)
        refine ⟨c3, fun hx hy => ⟨c, ?_, c2⟩⟩
        rw [o5 x y hx hy, if_neg (fun h => h0 h.1), if_pos (by omega)]
        exact c1
      · rw [if_neg h1]
        refine ⟨hsp, fun hx hy => ⟨{}, ?_, hblank⟩⟩
        rw [o5 x y hx hy, if_neg (fun h => h0 h.1), if_neg (by omega)]
  have hprint : ∀ x y r, Spec.overlaid t1.w t1.h l (Hud.full hud.logs) ls (Hud.opened t1.w t1.h hud.logs es1) start e x y = some r →
      Printable E.gr r := by
    intro x y r ho
    rcases overlaid_mem ho with rfl | k | ⟨u, hu, k⟩ | ⟨u, hu, k⟩
    · exact hel
    · rw [← Hud.title_runes] at k
      obtain ⟨z, hz, rfl⟩ := List.mem_map.1 k
      have := Hud.title_ascii _ _ _ z hz
      exact hgr _ this.1 this.2
    · exact hlp u hu r k
    · exact (hp u hu).2 r k
  obtain ⟨ov, hov⟩ : ∃ ov : Nat → Nat → Option Nat, ov = Spec.overlaid t1.w t1.h l (Hud.full hud.logs) ls (Hud.opened t1.w t1.h hud.logs es1) start e :=
    ⟨_, rfl⟩
  have hlook : ∀ x y, x < t1.w → y < t1.h → v'.sc.look t1.w x y =
      match ov x y with | some r => some ⟨r, 0⟩ | none => o.c.v.sc.look t1.w x y := by
    intro x y hx hy
    have := k8 x y hx hy
    simp only [o8] at this
    rw [hov]
    exact this
  rw [← hov] at hprint ⊢
  let pic : Term := { clearTerm t1.w t1.h with cell := fun x y => Spec.seenOver (ov x y) {} (g x y) }
  have P : Shows pic v'.sc t1.w t1.h := by
    refine ⟨rfl, rfl, fun x y hx hy => ?_⟩
    have h1 := hlook x y hx hy
    show ∃ c, _ ∧ Inked (ink c) (Spec.seenOver (ov x y) {} (g x y))
    cases ho : ov x y with
    | none =>
      rw [ho] at h1
      obtain ⟨c, c1, c2⟩ := (key x y).2 hx hy
      exact ⟨c, h1.trans c1, c2⟩
    | some r =>
      rw [ho] at h1
      refine ⟨_, h1, ?_, rfl, hattr⟩
      have := (hprint x y r ho).c0
      show r = (ink _).1
      unfold ink
      simp only
      rw [if_neg (by omega)]
  have hpp : ∀ x y, Printable E.gr (pic.cell x y).rune := by
    intro x y
    show Printable E.gr (Spec.seenOver (ov x y) {} (g x y)).rune
    cases ho : ov x y with
    | none => exact (key x y).1
    | some r => exact hprint x y r ho
  obtain ⟨d', ops, h1, h2, h3, h4, h5, -, h7⟩ := flushed E.gr hsp Y2 v' k5 hbuf pic P hpp {} (fun h => by cases h) Z
  refine ⟨d', ops, h1, h2, h3, fun x y hx hy => ?_, h5, h7⟩
  rw [h4 x y hx hy]
  show Spec.seenOver (ov x y) {} (g x y) = Spec.seenOver (ov x y) {} (Spec.beneath ts area t1.h x y)
  congr 1
  show (if y = 1 then _ else if (2 ≤ y ∧ y + 1 < t1.h) ∧ x < t1.w then _ else _ : Glyph) = Spec.beneath ts area t1.h x y
  unfold Spec.beneath
  by_cases h0 : y = 1
  · rw [if_pos h0, if_pos h0]
  · rw [if_neg h0, if_neg h0]
    by_cases h1 : 2 ≤ y ∧ y + 1 < t1.h
    · rw [if_pos h1, if_pos ⟨h1, hx⟩]
    · rw [if_neg h1, if_neg (fun h => h1 h.1)]

/-- **C148**, negation of the rest: when the overlay is hidden again and the last word of the command has a style, nothing of the new
frame reaches the terminal, which goes on showing the overlay, or whatever it showed. -/
theorem overlay_stays {ε : Type} (E : Hud.Env ε) (hsp : Printable E.gr 0x20) (heq : Printable E.gr 0x3D) {d : Differ} {t : Term}
    (W : d.v.sc.Whole t.w t.h) (redraw : Bool) (world : List (List Bytes) → Itr.Outcome) (sus : Option ε) (f : Itr.Full) {n : Nat × Nat}
    (hcmd : cmd ≠ []) (F : Itr.Fits cmd f n)
    (S : Itr.Setup E.gr cmd f.s ts t.w) (hlast : Itr.Spec.styled ts = true) (hud : Hud.Hud) (es : Evq.Events) (hh : 2 ≤ t.h) (he : f.s.edid = 0)
    (hkeys : ∀ e ∈ es, Evq.isRune [0x03] e = false) (hpress : ∀ i < ts.length, Hud.Spec.odd (Itr.Spec.place 0 ts i) es = false)
    (fail : Dem.Res ε → Option ε)
    (hc : ∀ v o, f.update E.gr world sus false (Hud.Spec.shown es) v = .ok o → E.client (Hud.Spec.shown es) v = (o.c.es, o.c.v, fail o.res))
    (hv : Hud.Spec.visible hud es = false) (d2 : Differ) (o : Itr.Out ε)
    (hb : begin d none (if redraw then some (t.w, t.h) else none) = .ok d2)
    (ho : f.update E.gr world sus false (Hud.Spec.shown es) d2.v = .ok o) :
    ∃ hud' d1 d', hudFrame E hud es d none (if redraw then some (t.w, t.h) else none) {} = .ok (hud', o.c.es, d1, fail o.res) ∧
      hud'.visible = false ∧ d1.writeTo E.gr .ok = .ok (d', text [.sgr [0]], none) ∧ (t.run [.sgr [0]]).cell = t.cell := by
  obtain ⟨d3, b1, W2⟩ := begun_whole d W redraw
  rw [hb] at b1
  injection b1 with b1
  subst b1
  have hk := Itr.shown_key es hkeys
  have hpr : ∀ i < ts.length, Hud.Spec.odd (Itr.Spec.place (Itr.rowOf false) ts i) (Hud.Spec.shown es) = false := by
    intro i hi
    rw [Itr.odd_shown]; exact hpress i hi
  have k := Itr.idle_left (printed hsp) (printed heq) world sus false f S _ d2.v W2 hh he hk hpr o ho
  rw [hlast, if_pos rfl] at k
  have W' : o.c.v.sc.Whole t.w t.h := by
    rcases Itr.frame_safe (ε := ε) E.gr world sus false hcmd F (Hud.Spec.shown es) d2.v W2 hh with ⟨o2, e2, -, -, W'⟩ | e2
    · rw [ho] at e2
      injection e2 with e2
      rw [e2]; exact W'
    · rw [ho] at e2; cases e2
  obtain ⟨d', m1, -⟩ := leftover_written E.gr { d2 with v := o.c.v, user := {} } W' (by
    show o.c.v.buf.buf ≠ []
    rw [k]; decide)
  refine ⟨{ hud with mouse := Hud.Spec.mouse hud es, visible := false, active := 0 }, { d2 with v := o.c.v, user := {} }, d', ?_, rfl, ?_, rfl⟩
  · unfold hudFrame
    rw [hb]
    show (hud.update E es d2.v).map _ = _
    rw [Hud.hidden_transparent E hud es d2.v hv, hc _ _ ho]
    rfl
  · rw [m1]
    show Except.ok (d', o.c.v.buf.buf, none) = _
    rw [k]
    have : text [.sgr [0]] = Itr.ends := by decide +kernel
    rw [this]

/-! ### Examples -/

/-- `interact ls` with the overlay of `Hud.env0`, which is hidden or not. -/
def envL (f : Itr.Full) (visible : Bool) : Hud.Env Unit :=
  { Hud.env0 with
    client := fun es v =>
      match (f.update Hud.gr0 Itr.worldX none visible es v : Except Fault (Itr.Out Unit)) with
      | .ok o => (o.c.es, o.c.v, none)
      | .error _ => (es, v, none) }

/-- What the command is after a frame. -/
def afterL (f : Itr.Full) (visible : Bool) (v : VScreen) : Itr.Full :=
  match (f.update Hud.gr0 Itr.worldX none visible [] v : Except Fault (Itr.Out Unit)) with
  | .ok o => o.f
  | .error _ => f

def vL : VScreen := (sizeTo {} (40, 6)).v
def startL : Itr.Full := ⟨(({} : Itr.St).setCmd [ascii "ls"]).getD {}, {}⟩
def fL : Itr.Full := afterL startL true vL
def tsL : List Itr.Spec.Item := [⟨false, [0x6C, 0x73], []⟩]

theorem printL : ∀ r, 0x20 ≤ r → r < 0x7F → Printable Hud.gr0 r := by
  intro r h1 h2
  refine ⟨h1, .inl h2, .inl (by omega), ?_, ?_⟩
  · unfold isEscape; simp; omega
  · unfold Hud.gr0; simp; omega

theorem setupL : Itr.Setup Hud.gr0 [ascii "ls"] fL.s tsL 40 := by
  refine ⟨⟨by decide +kernel, by decide +kernel, by decide +kernel, by decide +kernel, ?_⟩, ⟨by decide +kernel, by decide +kernel, ?_⟩, ?_,
    by decide +kernel⟩
  · rw [show fL.s.runs = [[ascii "ls"]] by decide +kernel]
    simp only [List.mem_singleton, forall_eq]
    exact ⟨[], by decide +kernel, by simp, by decide +kernel⟩
  · intro i h hv
    simp only [tsL, List.length_singleton, Nat.lt_one_iff] at h
    subst h
    cases hv
  · intro t ht
    simp only [tsL, List.mem_singleton] at ht
    subst ht
    refine ⟨fun r hr => printed (printL r ?_ ?_), fun r hr => by cases hr⟩ <;>
      (simp only [List.mem_cons, List.not_mem_nil, or_false] at hr; omega)

/-- The hypotheses of `interact_over_shown` about the command and the overlay hold for `interact ls` after its first frame; the
words of the output area are those of the outcome. -/
example : Itr.Setup Hud.gr0 [ascii "ls"] fL.s tsL 40 ∧ tsL ≠ [] ∧ fL.s.edid = 0 ∧ fL.s.size = (40, 3) ∧ Itr.Area fL.out 40 3 ∧
    (∀ v (o : Itr.Out Unit), fL.update Hud.gr0 Itr.worldX none true (Hud.Spec.shown []) v = .ok o →
      (envL fL true).client (Hud.Spec.shown []) v = (o.c.es, o.c.v, none)) ∧
    Hud.Spec.visible Hud.hud0 [] = true ∧ Hud.Spec.texts (envL fL true) (Hud.Spec.mouse Hud.hud0 []) = texts1.map encodeRunes ∧
    Hud.Spec.room texts1 ≤ 40 ∧ Itr.Spec.styled tsL = true := by
  refine ⟨setupL, by decide, by decide +kernel, by decide +kernel, ⟨by decide +kernel, by decide +kernel, by decide +kernel⟩, ?_, by decide,
    by decide +kernel, by decide, by decide⟩
  intro v o h
  show (match (fL.update Hud.gr0 Itr.worldX none true (Hud.Spec.shown []) v : Except Fault (Itr.Out Unit)) with
      | .ok o => (o.c.es, o.c.v, none)
      | .error _ => (_, v, none)) = _
  rw [h]

/-- The cells written in a frame, and what is flushed. -/
def flushedL (f : Itr.Full) (visible : Bool) (hud : Hud.Hud) (es : Evq.Events) (d : Differ) : Option (Hud.Hud × Differ × Bytes) := do
  let r ← (hudFrame (envL f visible) hud es d none none {}).toOption
  let q ← (r.2.2.1.writeTo Hud.gr0 .ok).toOption
  pure (r.1, q.1, q.2.1)

/-- `interact ls`: with the overlay there is everything; Ctrl-K hides the overlay, but nothing of that is flushed. -/
example : ((flushedL startL true Hud.hud0 [] (sizeTo {} (40, 6))).bind fun a =>
      (flushedL fL false a.1 [Evq.entry 0x0B []] a.2.1).map fun b => (a.2.2, b.1.visible, b.2.2)) =
    some (ascii ("\x1b[?25l\x1b[2J\x1b[1;29H\x1b[0mM\x1b[CW\x1b[CS\x1b[CP\x1b[CF\x1b[CT\r\n\x1b[32mls\r\n" ++
      "\x1b[0mstatus: ok\r\nls\x1b[6;1Hhi"), false, text [.sgr [0]]) := by decide +kernel

end Direct
end Anansi
