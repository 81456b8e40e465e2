import Verif.Props.InteractOver
import Verif.Props.InteractAside
/-
`interact` with the debug overlay visible while a value is edited: what the terminal shows (C148).
-/
set_option autoImplicit false

namespace Anansi

open Vt Geom Render

namespace Direct
open Anansi.Spec

variable {cmd : List Bytes} {ts : List Itr.Spec.Item}

namespace Spec

/-- Where the overlay shows nothing: a row of words in the second row, below it what the area has, except in the last row, and nothing
else. -/
def under (row : Nat → Glyph) (area : Nat → Nat → Glyph) (h x y : Nat) : Glyph :=
  if y = 1 then row x else if 2 ≤ y ∧ y + 1 < h then area x (y - 2) else blank

end Spec

/-- A frame of `interact` under the overlay that leaves no presses, a row of words and a cursor in it is shown. -/
theorem over_row_shown {ε : Type} (E : Hud.Env ε) (hgr : ∀ r, 0x20 ≤ r → r < 0x7F → Printable E.gr r) (hel : Printable E.gr 0x2026)
    {d d2 : Differ} {t1 : Term} {old : Option Screen} {a : Pt} (redraw : Bool)
    (b1 : begin d none (if redraw then some (t1.w, t1.h) else none) = .ok d2) (W : d2.v.sc.Whole t1.w t1.h)
    (Y2 : Synced d2 t1 (if redraw then none else old) (if redraw then zp else a)) (hud : Hud.Hud) (es : Evq.Events) (hh : 3 ≤ t1.h)
    (o : Itr.Out ε) (fail : Dem.Res ε → Option ε) (hc : E.client (Hud.Spec.shown es) d2.v = (o.c.es, o.c.v, fail o.res))
    (o4 : o.c.v.sc.Whole t1.w t1.h) (hes : ∀ e ∈ o.c.es, ¬ Itr.Spec.press e) (o7 : Emu.Settled o.c.v) (o8 : o.c.v.sc.cur.attr = 0)
    (row : Nat → Glyph)
    (hrow : ∀ x, Printable E.gr (row x).rune ∧ (x < t1.w → ∃ c, o.c.v.sc.look t1.w x 1 = some c ∧ Inked (ink c) (row x)))
    {out : VScreen} {area : Nat → Nat → Glyph} (F : Filled E.gr out t1.w (t1.h - 3) area)
    (hrest : ∀ x y, x < t1.w → y < t1.h → y ≠ 1 →
      o.c.v.sc.look t1.w x y = if 1 < y ∧ y + 1 < t1.h then out.sc.look t1.w x (y - 2) else some {})
    (col : Nat) (hcol : col < t1.w) (hu : o.c.user = { visible := true, pt := ⟨(col : Int) + 1, 2⟩ })
    (hv : Hud.Spec.visible hud es = true) (l : List (List Nat)) (hl : Hud.Spec.texts E (Hud.Spec.mouse hud es) = l.map encodeRunes)
    (hp : ∀ t ∈ l, t ≠ [] ∧ ∀ r ∈ t, Printable E.gr r) (hrm : Hud.Spec.room l ≤ t1.w)
    (hd : hud.timeDetail = false ∧ hud.fpsDetail = false ∧ hud.profDetail = false)
    (hlx : E.log.Exact) (hlg : hud.logs.Good E.log.eols.length)
    (ls : List (List Nat)) (hls : Anansi.Spec.linesOf E.log.buf = ls.map encodeRunes) (hlp : ∀ t ∈ ls, ∀ r ∈ t, Printable E.gr r)
    (hne : ls ≠ []) (hfh : Hud.full hud.logs < t1.h) (htw : ∀ a b, a ≤ ls.length → b ≤ ls.length → (Hud.Spec.title a b ls.length).length < t1.w) :
    ∃ start e hud' d1 es1, hudFrame E hud es d none (if redraw then some (t1.w, t1.h) else none) o.c.user =
          .ok (hud', Hud.logEvents t1.w t1.h hud.logs ls.length es1, d1, fail o.res) ∧
      (1 ≤ start ∧ start ≤ e ∧ e ≤ ls.length ∧
        e + 1 - start = min (if Hud.opened t1.w t1.h hud.logs es1 then Hud.full hud.logs else 1) ls.length) ∧
      (hud'.visible = true ∧ hud'.timeDetail = false ∧ hud'.fpsDetail = false ∧ hud'.profDetail = false) ∧
      (Spec.Easy t1 (if redraw then none else old) (if redraw then zp else a) d1.v.sc d1.user →
        ∃ d' ops, d1.writeTo E.gr .ok = .ok (d', text ops, none) ∧ (t1.run ops).w = t1.w ∧ (t1.run ops).h = t1.h ∧
          (∀ x y, x < t1.w → y < t1.h → (t1.run ops).cell x y =
            Spec.seenOver (Spec.overlaid t1.w t1.h l (Hud.full hud.logs) ls (Hud.opened t1.w t1.h hud.logs es1) start e x y)
              {} (Spec.under row area t1.h x y)) ∧
          (t1.run ops).vis = true ∧ (t1.run ops).x = col ∧ (t1.run ops).y = 1 ∧ (t1.run ops).pend = false ∧
          Synced d' (t1.run ops) (some d1.v.sc) d1.user.pt) := by
  have hsp : Printable E.gr 0x20 := hgr _ (by omega) (by omega)
  have hodd : ∀ b, Hud.Spec.odd b o.c.es = false := by
    intro b
    have := (Itr.no_press (d := b) hes).1
    unfold Hud.Spec.odd
    rw [this]
    rfl
  obtain ⟨start, e, hud', v', es1, k1, k2, k3, k4, ⟨k5, k6, k7⟩, k8⟩ :=
    Hud.shown_partial E (fun r h1 h2 => printed (hgr r h1 h2)) (printed hel) hud es d2.v W hv (o.c.es, o.c.v, fail o.res) hc o4 o7 l hl
      (fun t ht => ⟨(hp t ht).1, fun r h => printed ((hp t ht).2 r h)⟩) hrm (by simp only [hodd, Bool.bne_false, hd.1, hd.2.1, hd.2.2]; decide) hlx hlg ls hls
      (fun t ht r h => printed (hlp t ht r h)) hne hfh htw
  have hbuf : v'.buf.buf = [] := by
    have k1' := k1
    rw [Hud.update_eq] at k1'
    simp only [hv, if_true] at k1'
    exact overlay_empties E _ _ _ _ _ _ k1' k6
  refine ⟨start, e, hud', { d2 with v := v', user := o.c.user }, es1, ?_, k3, ⟨k4.1, k4.2.1, k4.2.2.1, k4.2.2.2.1⟩, fun Z => ?_⟩
  · unfold hudFrame
    rw [b1]
    show (hud.update E es d2.v).map _ = _
    rw [k1]
    rfl
  have hattr : (0 : Attr) = Sgr.Style.build {} := by decide
  let g : Nat → Nat → Glyph := fun x y =>
    if y = 1 then row x else if (2 ≤ y ∧ y + 1 < t1.h) ∧ x < t1.w then area x (y - 2) else blank
  have key : ∀ x y, Printable E.gr (g x y).rune ∧ (x < t1.w → y < t1.h → ∃ c, o.c.v.sc.look t1.w x y = some c ∧ Inked (ink c) (g x y)) := by
    intro x y
    show Printable E.gr (if y = 1 then _ else _ : Glyph).rune ∧ (_ → _ → ∃ c, _ ∧ Inked (ink c) (if y = 1 then _ else _))
    by_cases h0 : y = 1
    · rw [if_pos h0]
      refine ⟨(hrow x).1, fun hx _ => ?_⟩
      rw [h0]
      exact (hrow x).2 hx
    · rw [if_neg h0]
      by_cases h1 : (2 ≤ y ∧ y + 1 < t1.h) ∧ x < t1.w
      · rw [if_pos h1]
        obtain ⟨c, c1, c2, c3⟩ := F x (y - 2) h1.2 (by omega)
        refine ⟨c3, fun hx hy => ⟨c, ?_, c2⟩⟩
        rw [hrest x y hx hy h0, if_pos (by omega)]
        exact c1
      · rw [if_neg h1]
        refine ⟨hsp, fun hx hy => ⟨{}, ?_, ⟨rfl, rfl, hattr⟩⟩⟩
        rw [hrest x y hx hy h0, if_neg (by omega)]
  have hprint : ∀ x y r, Spec.overlaid t1.w t1.h l (Hud.full hud.logs) ls (Hud.opened t1.w t1.h hud.logs es1) start e x y = some r →
      Printable E.gr r := by
    intro x y r ho
    rcases overlaid_mem ho with rfl | k | ⟨u, hu, k⟩ | ⟨u, hu, k⟩
    · exact hel
    · rw [← Hud.title_runes] at k
      obtain ⟨z, hz, rfl⟩ := List.mem_map.1 k
      have := Hud.title_ascii _ _ _ z hz
      exact hgr _ this.1 this.2
    · exact hlp u hu r k
    · exact (hp u hu).2 r k
  obtain ⟨ov, hov⟩ : ∃ ov : Nat → Nat → Option Nat, ov = Spec.overlaid t1.w t1.h l (Hud.full hud.logs) ls (Hud.opened t1.w t1.h hud.logs es1) start e :=
    ⟨_, rfl⟩
  have hlook : ∀ x y, x < t1.w → y < t1.h → v'.sc.look t1.w x y =
      match ov x y with | some r => some ⟨r, 0⟩ | none => o.c.v.sc.look t1.w x y := by
    intro x y hx hy
    have := k8 x y hx hy
    simp only [o8] at this
    rw [hov]
    exact this
  rw [← hov] at hprint ⊢
  let pic : Term := { clearTerm t1.w t1.h with cell := fun x y => Spec.seenOver (ov x y) {} (g x y) }
  have P : Shows pic v'.sc t1.w t1.h := by
    refine ⟨rfl, rfl, fun x y hx hy => ?_⟩
    have h1 := hlook x y hx hy
    show ∃ c, _ ∧ Inked (ink c) (Spec.seenOver (ov x y) {} (g x y))
    cases ho : ov x y with
    | none =>
      rw [ho] at h1
      obtain ⟨c, c1, c2⟩ := (key x y).2 hx hy
      exact ⟨c, h1.trans c1, c2⟩
    | some r =>
      rw [ho] at h1
      refine ⟨_, h1, ?_, rfl, hattr⟩
      have := (hprint x y r ho).c0
      show r = (ink _).1
      unfold ink
      simp only
      rw [if_neg (by omega)]
  have hpp : ∀ x y, Printable E.gr (pic.cell x y).rune := by
    intro x y
    show Printable E.gr (Spec.seenOver (ov x y) {} (g x y)).rune
    cases ho : ov x y with
    | none => exact (key x y).1
    | some r => exact hprint x y r ho
  have hpt : o.c.user.pt = ⟨((col : Nat) : Int) + 1, ((1 : Nat) : Int) + 1⟩ := by
    rw [hu]
    rfl
  have hseen : Direct.Spec.seen o.c.user = true := by
    rw [Direct.Spec.seen, hpt, hu]
    simp [valid]
  obtain ⟨d', ops, h1, h2, h3, h4, h5, h6, h7⟩ := flushed E.gr hsp Y2 v' k5 hbuf pic P hpp o.c.user
    (fun _ => ⟨⟨_, _, hcol, by omega, hpt⟩, {}, rfl, by rw [hu]; exact hattr⟩) Z
  have hat := (h6 hseen).1
  rw [hpt] at hat
  obtain ⟨-, k9, k10⟩ := hat
  have g1 := congrArg Pt.x k10
  have g2 := congrArg Pt.y k10
  simp only at g1 g2
  refine ⟨d', ops, h1, h2, h3, fun x y hx hy => ?_, by rw [h5]; exact hseen, by omega, by omega, k9, ?_⟩
  swap
  · rw [show Spec.rest t1.w t1.h (if redraw then none else old) (if redraw then zp else a) v'.sc o.c.user = o.c.user.pt by
      unfold Spec.rest; rw [if_pos hseen]] at h7
    exact h7
  rw [h4 x y hx hy]
  show Spec.seenOver (ov x y) {} (g x y) = Spec.seenOver (ov x y) {} (Spec.under row area t1.h x y)
  congr 1
  show (if y = 1 then _ else if (2 ≤ y ∧ y + 1 < t1.h) ∧ x < t1.w then _ else _ : Glyph) = Spec.under row area t1.h x y
  unfold Spec.under
  by_cases h0 : y = 1
  · rw [if_pos h0, if_pos h0]
  · rw [if_neg h0, if_neg h0]
    by_cases h1 : 2 ≤ y ∧ y + 1 < t1.h
    · rw [if_pos h1, if_pos ⟨h1, hx⟩]
    · rw [if_neg h1, if_neg (fun h => h1 h.1)]


/-- **C148**, while a value is edited and its text is not empty, the overlay being visible and its panels closed: the terminal shows the
overlay's header and log, in no style, and beneath them the text over the name of the variable, the words around it, the output area,
and the cursor in the text, whether or not the last word has a style.  Nothing is run. -/
theorem interact_over_edit {ε : Type} (E : Hud.Env ε) (hgr : ∀ r, 0x20 ≤ r → r < 0x7F → Printable E.gr r) (hel : Printable E.gr 0x2026)
    (hz : E.gr 0x1A = false)
    {d : Differ} {t t1 : Term} {old : Option Screen} {a : Pt}
    (Y : Synced d t old a) (redraw : Bool) (cell : Nat → Nat → Glyph) (x y : Nat) (pend : Bool) (ht1 : t1 = { t with cell, x, y, pend })
    (hrd : redraw = false → t1 = t) (world : List (List Bytes) → Itr.Outcome) (sus : Option ε) (f : Itr.Full)
    (S : Itr.Setup E.gr cmd f.s ts t1.w) (hroom : (Itr.Spec.line 0 ts).length + 1 < t1.w)
    (hpl : ∀ t ∈ ts, (∀ r ∈ t.text, Printable E.gr r) ∧ ∀ r ∈ t.val, Printable E.gr r)
    (hud : Hud.Hud) (es : Evq.Events) (hh : 3 ≤ t1.h)
    (k : Nat) (hk : k < ts.length) (hvar : ts[k].var = true)
    (hkeys : ∀ e ∈ Hud.Spec.shown es, Evq.isRune [0x03] e = false)
    (hpress : ∀ e ∈ Hud.Spec.shown es, Itr.Spec.press e → Geom.Mem e.pt (Itr.Spec.place 1 ts k))
    (hch : Hud.Spec.odd (Itr.Spec.place 1 ts k) (Hud.Spec.shown es) = true ∧ f.s.edid = 0 ∨
      Hud.Spec.odd (Itr.Spec.place 1 ts k) (Hud.Spec.shown es) = false ∧ f.s.edid = k + 1 ∧ f.s.ed.state = .ready)
    (li : Edl.EditLine)
    (hli : li = ((Itr.Spec.begun cmd f.s 1 ts k (Hud.Spec.odd (Itr.Spec.place 1 ts k) (Hud.Spec.shown es))).handleAll E.gr (Hud.Spec.shown es)).1)
    (hst : li.state = .ready) (s : Anansi.Spec.Line) (hold : Edl.Holds li s) (hnt : s.text ≠ [])
    (hpr : ∀ r ∈ s.text, Printable E.gr r) (hview : 0 ≤ f.s.ed.view)
    (hw1 : 1 ≤ ts[k].text.length) (hw2 : ts[k].text.length = 1 → s.text.length ≤ 1)
    (hsz : f.s.size = ((t1.w : Int), ((t1.h - 3 : Nat) : Int))) (A : Itr.Area f.out t1.w (t1.h - 3))
    (area : Nat → Nat → Glyph) (F : Filled E.gr f.out t1.w (t1.h - 3) area)
    (fail : Dem.Res ε → Option ε)
    (hc : ∀ v o, f.update E.gr world sus true (Hud.Spec.shown es) v = .ok o → E.client (Hud.Spec.shown es) v = (o.c.es, o.c.v, fail o.res))
    (hv : Hud.Spec.visible hud es = true) (l : List (List Nat)) (hl : Hud.Spec.texts E (Hud.Spec.mouse hud es) = l.map encodeRunes)
    (hp : ∀ t ∈ l, t ≠ [] ∧ ∀ r ∈ t, Printable E.gr r) (hrm : Hud.Spec.room l ≤ t1.w)
    (hd : hud.timeDetail = false ∧ hud.fpsDetail = false ∧ hud.profDetail = false)
    (hlx : E.log.Exact) (hlg : hud.logs.Good E.log.eols.length)
    (ls : List (List Nat)) (hls : Anansi.Spec.linesOf E.log.buf = ls.map encodeRunes) (hlp : ∀ t ∈ ls, ∀ r ∈ t, Printable E.gr r)
    (hne : ls ≠ []) (hfh : Hud.full hud.logs < t1.h) (htw : ∀ a b, a ≤ ls.length → b ≤ ls.length → (Hud.Spec.title a b ls.length).length < t1.w) :
    ∃ (v : VScreen) (o : Itr.Out ε) (lo hi : Nat), f.update E.gr world sus true (Hud.Spec.shown es) v = .ok o ∧
      o.f = { f with s := { f.s with edid := k + 1, ed := { li with view := lo } } } ∧
      (lo < hi ∧ hi - lo ≤ ts[k].text.length ∧ lo ≤ s.cur ∧ s.cur ≤ hi ∧ hi ≤ s.text.length ∧
        (s.text.length ≤ ts[k].text.length → lo = 0 ∧ hi = s.text.length)) ∧
    ∃ start e hud' d1 es1, hudFrame E hud es d none (if redraw then some (t1.w, t1.h) else none) o.c.user =
          .ok (hud', Hud.logEvents t1.w t1.h hud.logs ls.length es1, d1, fail o.res) ∧
      (1 ≤ start ∧ start ≤ e ∧ e ≤ ls.length ∧
        e + 1 - start = min (if Hud.opened t1.w t1.h hud.logs es1 then Hud.full hud.logs else 1) ls.length) ∧
      (hud'.visible = true ∧ hud'.timeDetail = false ∧ hud'.fpsDetail = false ∧ hud'.profDetail = false) ∧
      (Spec.Easy t1 (if redraw then none else old) (if redraw then zp else a) d1.v.sc d1.user →
        ∃ d' ops, d1.writeTo E.gr .ok = .ok (d', text ops, none) ∧ (t1.run ops).w = t1.w ∧ (t1.run ops).h = t1.h ∧
          (∀ x y, x < t1.w → y < t1.h → (t1.run ops).cell x y =
            Spec.seenOver (Spec.overlaid t1.w t1.h l (Hud.full hud.logs) ls (Hud.opened t1.w t1.h hud.logs es1) start e x y)
              {} (Spec.under (Spec.aside ts k s.text s.cur lo hi) area t1.h x y)) ∧
          (t1.run ops).vis = true ∧ (t1.run ops).x = Itr.Spec.start ts k + (s.cur - lo) ∧ (t1.run ops).y = 1 ∧ (t1.run ops).pend = false ∧
          Synced d' (t1.run ops) (some d1.v.sc) d1.user.pt) := by
  have hsp : Printable E.gr 0x20 := hgr _ (by omega) (by omega)
  have heq : Printable E.gr 0x3D := hgr _ (by omega) (by omega)
  obtain ⟨d2, b1, W, Y2⟩ := begun Y redraw cell x y pend ht1 hrd
  have hrow1 : Itr.rowOf true = 1 := rfl
  obtain ⟨o, lo, hi, o1, o2, o3, o4, o5, o6, o7, o8, o9, o10, -, ⟨hes, o7', o8'⟩, o12⟩ :=
    Itr.edit_drawn_any (printed hsp) (printed heq) hz world sus true f S hroom (Hud.Spec.shown es) d2.v W hh k hk hvar hkeys hpress hch li hli hst
      s hold hnt (fun r h => printed (hpr r h)) hview hw1 hw2 hsz A
  rw [hrow1] at o9 o12
  refine ⟨d2.v, o, lo, hi, o1, o2, ⟨o3, o4, o5, o6, o7, o8⟩, ?_⟩
  have hl1 := same_line hsp heq (ts.take (k + 1)) 0 (fun t ht => hpl t (List.mem_of_mem_take ht))
  have hl2 := same_line hsp heq (ts.drop (k + 1)) (k + 1) (fun t ht => hpl t (List.mem_of_mem_drop ht))
  have hll1 := hl1.length_eq
  have hll2 := hl2.length_eq
  have hz0 : (0 : Attr) = Sgr.Style.build {} := by decide
  have hstart : Itr.Spec.start ts k + ts[k].text.length < t1.w := by
    have hfit := S.fits
    have h1 := Itr.line_succ ts k hk
    have h2 : (Itr.Spec.line 0 ts).length = (Itr.Spec.line 0 (ts.take (k + 1))).length + (Itr.Spec.line (k + 1) (ts.drop (k + 1))).length := by
      conv => lhs; rw [← List.take_append_drop (k + 1) ts, Itr.line_append]
      rw [List.length_append, List.length_take, Nat.zero_add, Nat.min_eq_left (by omega)]
    rw [h1, List.length_append] at h2
    unfold Itr.Spec.cells at h2
    simp only [List.length_append, List.length_replicate, List.length_map] at h2
    unfold Itr.Spec.start
    omega
  exact over_row_shown E hgr hel redraw b1 W Y2 hud es hh o fail (hc _ _ o1) o10 hes o7' o8'
    (Spec.aside ts k s.text s.cur lo hi) (fun x => by
      unfold Spec.aside
      unfold Itr.Spec.resume at o12
      simp only
      rw [← hll2]
      generalize he : Itr.Spec.start ts k + (hi - lo) + (if s.cur = hi then 1 else 0) = e at o12
      by_cases g1 : e ≤ x ∧ x < e + (Itr.Spec.line (k + 1) (ts.drop (k + 1))).length
      · rw [if_pos g1]
        have G := same_get hsp hl2 (x - e)
        refine ⟨G.2, fun hx => ⟨(Itr.Spec.line (k + 1) (ts.drop (k + 1))).getD (x - e) {}, ?_, G.1⟩⟩
        have hin : x - e < (Itr.Spec.line (k + 1) (ts.drop (k + 1))).length := by omega
        rw [o12 x 1 hx (by omega), if_pos ⟨rfl, g1⟩, List.getD_eq_getElem _ _ hin, List.getElem?_eq_getElem hin]
      · rw [if_neg g1]
        by_cases g2 : Itr.Spec.start ts k ≤ x ∧ x < Itr.Spec.start ts k + (hi - lo)
        · rw [if_pos g2]
          have hin : lo + (x - Itr.Spec.start ts k) < s.text.length := by omega
          have hm : Printable E.gr (s.text.getD (lo + (x - Itr.Spec.start ts k)) 0) := by
            rw [List.getD_eq_getElem _ _ hin]
            exact hpr _ (List.getElem_mem hin)
          refine ⟨hm, fun hx => ⟨⟨s.text.getD (lo + (x - Itr.Spec.start ts k)) 0, 0⟩,
            by rw [o12 x 1 hx (by omega), if_neg (fun h => g1 h.2), if_pos ⟨rfl, g2⟩], ?_, rfl, hz0⟩⟩
          have := hm.c0
          simp only [ink]
          rw [if_neg (by omega)]
        · rw [if_neg g2]
          by_cases g3 : x = Itr.Spec.start ts k + (hi - lo) ∧ s.cur = hi
          · rw [if_pos g3]
            refine ⟨hsp, fun hx => ⟨⟨0x20, 0⟩, by rw [o12 x 1 hx (by omega), if_neg (fun h => g1 h.2), if_neg (fun h => g2 h.2), if_pos ⟨rfl, g3⟩],
              rfl, rfl, hz0⟩⟩
          · rw [if_neg g3]
            have G := same_get hsp hl1 x
            refine ⟨G.2, fun hx => ⟨(Itr.Spec.line 0 (ts.take (k + 1))).getD x {}, ?_, G.1⟩⟩
            rw [o12 x 1 hx (by omega), if_neg (fun h => g1 h.2), if_neg (fun h => g2 h.2), if_neg (fun h => g3 h.2)]
            by_cases hx1 : x < (Itr.Spec.line 0 (ts.take (k + 1))).length
            · rw [if_pos ⟨rfl, hx1⟩, List.getD_eq_getElem _ _ hx1, List.getElem?_eq_getElem hx1]
            · rw [if_neg (fun h => hx1 h.2), if_neg (by omega), List.getD_eq_default _ _ (by omega)])
    F (fun x y hx hy h0 => by
      rw [o12 x y hx hy, if_neg (fun h => h0 h.1), if_neg (fun h => h0 h.1), if_neg (fun h => h0 h.1), if_neg (fun h => h0 h.1)])
    (Itr.Spec.start ts k + (s.cur - lo)) (by omega) (by
      rw [o9]
      simp only [Cursor.mk.injEq, Pt.mk.injEq, and_true]
      refine ⟨?_, by simp⟩
      push_cast
      omega)
    hv l hl hp hrm hd hlx hlg ls hls hlp hne hfh htw

/-- **C148**, while a value is edited and its text is empty: the terminal shows what it would show without the edit, and the cursor
where the name begins. -/
theorem interact_over_empty {ε : Type} (E : Hud.Env ε) (hgr : ∀ r, 0x20 ≤ r → r < 0x7F → Printable E.gr r) (hel : Printable E.gr 0x2026)
    (hz : E.gr 0x1A = false)
    {d : Differ} {t t1 : Term} {old : Option Screen} {a : Pt}
    (Y : Synced d t old a) (redraw : Bool) (cell : Nat → Nat → Glyph) (x y : Nat) (pend : Bool) (ht1 : t1 = { t with cell, x, y, pend })
    (hrd : redraw = false → t1 = t) (world : List (List Bytes) → Itr.Outcome) (sus : Option ε) (f : Itr.Full)
    (S : Itr.Setup E.gr cmd f.s ts t1.w)
    (hpl : ∀ t ∈ ts, (∀ r ∈ t.text, Printable E.gr r) ∧ ∀ r ∈ t.val, Printable E.gr r)
    (hud : Hud.Hud) (es : Evq.Events) (hh : 3 ≤ t1.h)
    (k : Nat) (hk : k < ts.length) (hvar : ts[k].var = true)
    (hkeys : ∀ e ∈ Hud.Spec.shown es, Evq.isRune [0x03] e = false)
    (hpress : ∀ e ∈ Hud.Spec.shown es, Itr.Spec.press e → Geom.Mem e.pt (Itr.Spec.place 1 ts k))
    (hch : Hud.Spec.odd (Itr.Spec.place 1 ts k) (Hud.Spec.shown es) = true ∧ f.s.edid = 0 ∨
      Hud.Spec.odd (Itr.Spec.place 1 ts k) (Hud.Spec.shown es) = false ∧ f.s.edid = k + 1 ∧ f.s.ed.state = .ready)
    (li : Edl.EditLine)
    (hli : li = ((Itr.Spec.begun cmd f.s 1 ts k (Hud.Spec.odd (Itr.Spec.place 1 ts k) (Hud.Spec.shown es))).handleAll E.gr (Hud.Spec.shown es)).1)
    (hst : li.state = .ready) (hold : Edl.Holds li ⟨[], 0⟩) (hview : 0 ≤ f.s.ed.view)
    (hw1 : 1 ≤ ts[k].text.length)
    (hsz : f.s.size = ((t1.w : Int), ((t1.h - 3 : Nat) : Int))) (A : Itr.Area f.out t1.w (t1.h - 3))
    (area : Nat → Nat → Glyph) (F : Filled E.gr f.out t1.w (t1.h - 3) area)
    (fail : Dem.Res ε → Option ε)
    (hc : ∀ v o, f.update E.gr world sus true (Hud.Spec.shown es) v = .ok o → E.client (Hud.Spec.shown es) v = (o.c.es, o.c.v, fail o.res))
    (hv : Hud.Spec.visible hud es = true) (l : List (List Nat)) (hl : Hud.Spec.texts E (Hud.Spec.mouse hud es) = l.map encodeRunes)
    (hp : ∀ t ∈ l, t ≠ [] ∧ ∀ r ∈ t, Printable E.gr r) (hrm : Hud.Spec.room l ≤ t1.w)
    (hd : hud.timeDetail = false ∧ hud.fpsDetail = false ∧ hud.profDetail = false)
    (hlx : E.log.Exact) (hlg : hud.logs.Good E.log.eols.length)
    (ls : List (List Nat)) (hls : Anansi.Spec.linesOf E.log.buf = ls.map encodeRunes) (hlp : ∀ t ∈ ls, ∀ r ∈ t, Printable E.gr r)
    (hne : ls ≠ []) (hfh : Hud.full hud.logs < t1.h) (htw : ∀ a b, a ≤ ls.length → b ≤ ls.length → (Hud.Spec.title a b ls.length).length < t1.w) :
    ∃ (v : VScreen) (o : Itr.Out ε), f.update E.gr world sus true (Hud.Spec.shown es) v = .ok o ∧
      o.f = { f with s := { f.s with edid := k + 1, ed := { li with view := 0 } } } ∧
    ∃ start e hud' d1 es1, hudFrame E hud es d none (if redraw then some (t1.w, t1.h) else none) o.c.user =
          .ok (hud', Hud.logEvents t1.w t1.h hud.logs ls.length es1, d1, fail o.res) ∧
      (1 ≤ start ∧ start ≤ e ∧ e ≤ ls.length ∧
        e + 1 - start = min (if Hud.opened t1.w t1.h hud.logs es1 then Hud.full hud.logs else 1) ls.length) ∧
      (hud'.visible = true ∧ hud'.timeDetail = false ∧ hud'.fpsDetail = false ∧ hud'.profDetail = false) ∧
      (Spec.Easy t1 (if redraw then none else old) (if redraw then zp else a) d1.v.sc d1.user →
        ∃ d' ops, d1.writeTo E.gr .ok = .ok (d', text ops, none) ∧ (t1.run ops).w = t1.w ∧ (t1.run ops).h = t1.h ∧
          (∀ x y, x < t1.w → y < t1.h → (t1.run ops).cell x y =
            Spec.seenOver (Spec.overlaid t1.w t1.h l (Hud.full hud.logs) ls (Hud.opened t1.w t1.h hud.logs es1) start e x y)
              {} (Spec.under ((Spec.words 0 ts).getD · blank) area t1.h x y)) ∧
          (t1.run ops).vis = true ∧ (t1.run ops).x = Itr.Spec.start ts k ∧ (t1.run ops).y = 1 ∧ (t1.run ops).pend = false ∧
          Synced d' (t1.run ops) (some d1.v.sc) d1.user.pt) := by
  have hsp : Printable E.gr 0x20 := hgr _ (by omega) (by omega)
  have heq : Printable E.gr 0x3D := hgr _ (by omega) (by omega)
  obtain ⟨d2, b1, W, Y2⟩ := begun Y redraw cell x y pend ht1 hrd
  have hrow1 : Itr.rowOf true = 1 := rfl
  obtain ⟨o, o1, o2, o9, o10, -, ⟨hes, o7', o8'⟩, o12⟩ :=
    Itr.edit_empty_any (printed hsp) (printed heq) hz world sus true f S (Hud.Spec.shown es) d2.v W hh k hk hvar hkeys hpress hch li hli hst
      hold hview hw1 hsz A
  rw [hrow1] at o9 o12
  refine ⟨d2.v, o, o1, o2, ?_⟩
  have hl1 := same_line hsp heq ts 0 hpl
  have hll1 := hl1.length_eq
  have hstart : Itr.Spec.start ts k + ts[k].text.length < t1.w := by
    have hfit := S.fits
    have h1 := Itr.line_succ ts k hk
    have h2 : (Itr.Spec.line 0 ts).length = (Itr.Spec.line 0 (ts.take (k + 1))).length + (Itr.Spec.line (k + 1) (ts.drop (k + 1))).length := by
      conv => lhs; rw [← List.take_append_drop (k + 1) ts, Itr.line_append]
      rw [List.length_append, List.length_take, Nat.zero_add, Nat.min_eq_left (by omega)]
    rw [h1, List.length_append] at h2
    unfold Itr.Spec.cells at h2
    simp only [List.length_append, List.length_replicate, List.length_map] at h2
    unfold Itr.Spec.start
    omega
  exact over_row_shown E hgr hel redraw b1 W Y2 hud es hh o fail (hc _ _ o1) o10 hes o7' o8'
    (fun x => (Spec.words 0 ts).getD x blank) (fun x => by
      have G := same_get hsp hl1 x
      refine ⟨G.2, fun hx => ⟨(Itr.Spec.line 0 ts).getD x {}, ?_, G.1⟩⟩
      rw [o12 x 1 hx (by omega)]
      by_cases hx1 : x < (Itr.Spec.line 0 ts).length
      · rw [if_pos ⟨rfl, hx1⟩, List.getD_eq_getElem _ _ hx1, List.getElem?_eq_getElem hx1]
      · rw [if_neg (fun h => hx1 h.2), if_neg (by omega), List.getD_eq_default _ _ (by omega)])
    F (fun x y hx hy h0 => by
      rw [o12 x y hx hy, if_neg (fun h => h0 h.1)])
    (Itr.Spec.start ts k) (by omega) (by rw [o9]; rfl)
    hv l hl hp hrm hd hlx hlg ls hls hlp hne hfh htw

/-! ### Examples -/

/-- `interact rm '$xy' z` with the overlay of `Hud.env0` on a terminal of 40 columns and 6 rows, after its first frame; then a press on
`$xy`, in the second row, and a character. -/
def fV : Itr.Full := afterL startA true vL
def keysV : Evq.Events := [Itr.clickX 5 2, Itr.Spec.typed 0x61]
def lineV (es : Evq.Events) : Edl.EditLine :=
  ((Itr.Spec.begun cmdA fV.s 1 tsA 1 (Hud.Spec.odd (Itr.Spec.place 1 tsA 1) es)).handleAll Hud.gr0 es).1

theorem setupV : Itr.Setup Hud.gr0 cmdA fV.s tsA 40 := by
  refine ⟨⟨by decide +kernel, by decide +kernel, by decide +kernel, by decide +kernel, ?_⟩, ⟨by decide +kernel, by decide +kernel, ?_⟩, ?_,
    by decide +kernel⟩
  · rw [show fV.s.runs = [] by decide +kernel]
    simp
  · intro i h hv
    have : i = 0 ∨ i = 1 ∨ i = 2 := by simp [tsA] at h; omega
    rcases this with rfl | rfl | rfl
    · cases hv
    · rw [show tsA[1] = (⟨true, [0x24, 0x78, 0x79], []⟩ : Itr.Spec.Item) from rfl]
      decide +kernel
    · cases hv
  · intro t ht
    simp only [tsA, List.mem_cons, List.not_mem_nil, or_false] at ht
    rcases ht with rfl | rfl | rfl <;> refine ⟨fun r hr => ?_, fun r hr => ?_⟩ <;>
      simp only [List.mem_cons, List.not_mem_nil, or_false] at hr
    all_goals
      apply printed
      apply printL <;> omega

/-- The hypotheses of `interact_over_edit` about the command, the keys and the overlay hold. -/
example : Itr.Setup Hud.gr0 cmdA fV.s tsA 40 ∧ (Itr.Spec.line 0 tsA).length + 1 < 40 ∧ tsA[1].var = true ∧
    Hud.Spec.shown keysV = keysV ∧ (∀ e ∈ keysV, Evq.isRune [0x03] e = false) ∧
    (∀ e ∈ keysV, Itr.Spec.press e → Geom.Mem e.pt (Itr.Spec.place 1 tsA 1)) ∧
    Hud.Spec.odd (Itr.Spec.place 1 tsA 1) keysV = true ∧ fV.s.edid = 0 ∧ (lineV keysV).state = .ready ∧
    Edl.Holds (lineV keysV) ⟨[0x61], 1⟩ ∧ 0 ≤ fV.s.ed.view ∧ fV.s.size = (40, 3) ∧ Itr.Area fV.out 40 3 ∧
    Hud.Spec.visible Hud.hud0 keysV = true := by
  refine ⟨setupV, by decide +kernel, rfl, by decide +kernel, by decide, ?_, by decide +kernel, by decide +kernel, by decide +kernel,
    ⟨by decide +kernel, by decide, by decide +kernel, Nat.le_refl 1⟩, by decide +kernel, by decide +kernel,
    ⟨by decide +kernel, by decide +kernel, by decide +kernel⟩, by decide +kernel⟩
  intro e he hp
  simp only [keysV, List.mem_cons, List.not_mem_nil, or_false] at he
  rcases he with rfl | rfl
  · unfold Geom.Mem; decide +kernel
  · exact absurd hp.1 (by decide)

/-- Those of `interact_over_empty` hold for a press alone. -/
example : Hud.Spec.odd (Itr.Spec.place 1 tsA 1) [Itr.clickX 5 2] = true ∧ (lineV [Itr.clickX 5 2]).state = .ready ∧
    Edl.Holds (lineV [Itr.clickX 5 2]) ⟨[], 0⟩ :=
  ⟨by decide +kernel, by decide +kernel, ⟨by decide +kernel, by decide, by decide +kernel, Nat.le_refl 0⟩⟩

/-- The two frames: the words are shown, and then the text over the name, with the cursor after it. -/
def framesV : Option (Bytes × Bytes) := do
  let a ← flushedL startA true Hud.hud0 [] (sizeTo {} (40, 6))
  let o ← (fV.update Hud.gr0 Itr.worldX none true keysV vL : Except Fault (Itr.Out Unit)).toOption
  let r ← (hudFrame (envL fV true) a.1 keysV a.2.1 none none o.c.user).toOption
  let q ← (r.2.2.1.writeTo Hud.gr0 .ok).toOption
  pure (a.2.2, q.2.1)

example : framesV = some (ascii ("\x1b[?25l\x1b[2J\x1b[1;29H\x1b[0mM\x1b[CW\x1b[CS\x1b[CP\x1b[CF\x1b[CT\r\n\x1b[32mrm\x1b[0m \x1b[36m$xy\x1b[0m z\r\n" ++
    "Define variables to run\x1b[6;1Hhi"), ascii "\x1b[2;4Ha  z \x1b[4D\x1b[?25h") := by decide +kernel

/-- What the output area has while there is nothing to run. -/
def areaV (a b : Nat) : Glyph :=
  if b = 0 then (("Define variables to run".toList.map Char.toNat).map fun r => (⟨r, {}⟩ : Glyph)).getD a blank else blank

theorem filledV : Filled Hud.gr0 fV.out 40 3 areaV := by
  have h : ∀ a < 40, ∀ b < 3, (fV.out.sc.look 40 a b).map (fun c => (ink c)) = some ((areaV a b).rune, 0) ∧
      (areaV a b).style = {} ∧ 0x20 ≤ (areaV a b).rune ∧ (areaV a b).rune < 0x7F := by decide +kernel
  intro a b ha hb
  obtain ⟨h1, h2, h3, h4⟩ := h a ha b hb
  rw [Option.map_eq_some_iff] at h1
  obtain ⟨c, c1, c2⟩ := h1
  refine ⟨c, c1, ?_, printL _ h3 h4⟩
  rw [c2]
  unfold Inked
  rw [h2]
  exact ⟨rfl, rfl, show (0 : Attr) = Sgr.Style.build {} by decide⟩

/-- All hypotheses of `interact_over_edit` together, on any terminal of this size: the cursor comes to be after the character, in the
second row. -/
example {d : Differ} {t : Term} {old : Option Screen} {a : Pt} (Y : Synced d t old a) (hw : t.w = 40) (hh : t.h = 6) :
    ∃ (v : VScreen) (o : Itr.Out Unit), fV.update Hud.gr0 Itr.worldX none true keysV v = .ok o ∧ ∃ hud' d1 es',
      hudFrame (envL fV true) Hud.hud0 keysV d none none o.c.user = .ok (hud', es', d1, none) ∧
      (Spec.Easy t old a d1.v.sc d1.user → ∃ d' ops, d1.writeTo Hud.gr0 .ok = .ok (d', text ops, none) ∧
        (t.run ops).vis = true ∧ (t.run ops).x = 4 ∧ (t.run ops).y = 1) := by
  have hk : Hud.Spec.shown keysV = keysV := by decide +kernel
  have h := interact_over_edit (ε := Unit) (cmd := cmdA) (ts := tsA) (envL fV true) printL
    ⟨by decide, by decide, by decide, by decide, by decide⟩ (by decide) Y false t.cell t.x t.y t.pend rfl (fun _ => rfl) Itr.worldX none fV
    (by rw [hw]; exact setupV) (by rw [hw]; decide +kernel)
    (by
      intro i hi
      simp only [tsA, List.mem_cons, List.not_mem_nil, or_false] at hi
      rcases hi with rfl | rfl | rfl <;> refine ⟨fun r hr => printL r ?_ ?_, fun r hr => printL r ?_ ?_⟩ <;>
        (simp only [List.mem_cons, List.not_mem_nil, or_false] at hr <;> omega))
    Hud.hud0 keysV (by rw [hh]; omega) 1 (by decide) rfl (by rw [hk]; decide)
    (by
      rw [hk]
      intro e he hp
      simp only [keysV, List.mem_cons, List.not_mem_nil, or_false] at he
      rcases he with rfl | rfl
      · unfold Geom.Mem; decide +kernel
      · exact absurd hp.1 (by decide))
    (.inl (by rw [hk]; exact ⟨by decide +kernel, by decide +kernel⟩)) (lineV keysV) (by rw [hk]; rfl) (by decide +kernel)
    ⟨[0x61], 1⟩ ⟨by decide +kernel, by decide, by decide +kernel, Nat.le_refl 1⟩ (by decide)
    (by
      intro r hr
      simp only [List.mem_singleton] at hr
      exact printL r (by omega) (by omega))
    (by decide +kernel) (by decide) (by decide) (by rw [hw, hh]; decide +kernel)
    (by rw [hw, hh]; exact ⟨by decide +kernel, by decide +kernel, by decide +kernel⟩) areaV (by rw [hw, hh]; exact filledV) (fun _ => none)
    (by
      intro v o h
      show (match (fV.update Hud.gr0 Itr.worldX none true (Hud.Spec.shown keysV) v : Except Fault (Itr.Out Unit)) with
          | .ok o => (o.c.es, o.c.v, none)
          | .error _ => (_, v, none)) = _
      have h' : fV.update Hud.gr0 Itr.worldX none true (Hud.Spec.shown keysV) v = .ok o := h
      rw [h'])
    (by decide +kernel) texts1 (by decide +kernel)
    (by
      intro t ht
      refine ⟨fun h => by subst h; revert ht; decide, fun r hr => ?_⟩
      have : ∀ t ∈ texts1, ∀ r ∈ t, 0x20 ≤ r ∧ r < 0x7F := by decide
      exact printL r (this t ht r hr).1 (this t ht r hr).2)
    (by rw [hw]; decide) (by decide) rfl (by unfold Lgv.View.Good Lgv.View.Within; decide +kernel) [[0x68, 0x69]] (by decide +kernel)
    (by
      intro t ht r hr
      simp only [List.mem_singleton] at ht
      subst ht
      simp only [List.mem_cons, List.not_mem_nil, or_false] at hr
      exact printL r (by omega) (by omega))
    (by decide) (by rw [hh]; decide)
    (by
      intro a b ha hb
      rw [hw]
      have : ∀ a ≤ 1, ∀ b ≤ 1, (Hud.Spec.title a b 1).length < 40 := by decide +kernel
      exact this a ha b hb)
  obtain ⟨v, o, lo, hi, h1, -, ⟨h2, -, h3, -, h5, h6⟩, start, e, hud', d1, es1, g1, -, -, g4⟩ := h
  rw [hk] at h1
  refine ⟨v, o, h1, hud', d1, _, g1, fun Z => ?_⟩
  obtain ⟨d', ops, k1, -, -, -, k5, k6, k7, -⟩ := g4 Z
  refine ⟨d', ops, k1, k5, ?_, k7⟩
  have := (h6 (by decide)).1
  rw [k6, this]
  decide +kernel

end Direct
end Anansi
