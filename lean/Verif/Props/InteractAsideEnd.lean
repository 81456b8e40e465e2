import Verif.Props.InteractAside
import Verif.Props.InteractSafe
/-
`interact`: what the frame that ends the edit of a variable before the last word shows (C149).
-/
set_option autoImplicit false

namespace Anansi

namespace Itr
open Edl Evq

variable {gr : Nat → Bool} {cmd : List Bytes} {ts : List Spec.Item} {w h y : Nat}

theorem word_next {world : List (List Bytes) → Outcome} {f : Full} {i j : Nat} {wd : Bytes} {c : Sh}
    {r : Full × Nat × Sh} (h : f.word gr world i j wd c = .ok r) : r.2.1 = if f.s.argi[j]? = some i then j + 1 else j := by
  unfold Full.word at h
  obtain ⟨d, -, h⟩ := bind_ok h
  simp only at h
  generalize hs : (if (countPressesIn d.1 1 0 c.es).2 % 2 = 1 then
    ({ f.s with edid := if f.s.edid = i + 1 then 0 else i + 1 } : St) else f.s) = s1 at h
  generalize hed : (if (countPressesIn d.1 1 0 c.es).2 % 2 = 1 ∧ f.s.edid ≠ i + 1 then
      ({ s1.ed.reset with buf := s1.val[j]?.getD [] } : EditLine) else s1.ed) = ed at h
  split at h
  · obtain ⟨fr, -, h⟩ := bind_ok h
    split at h
    · injection h with h; rw [← h]
    · obtain ⟨f2, -, rfl⟩ := map_ok h; rfl
    · obtain ⟨f2, -, rfl⟩ := map_ok h; rfl
  · injection h with h; rw [← h]

/-- A frame in which Enter or Escape ends the edit of a variable before the last word: the screen has the words as they were before the
frame, and the output area as it is after it. -/
theorem edit_ends_aside {ε : Type} (hsp : Screen.Printable gr 0x20) (heq : Screen.Printable gr 0x3D) (hz : gr 0x1A = false)
    (world : List (List Bytes) → Outcome) (suspend : Option ε) (hud : Bool) (f : Full) (S : Setup gr cmd f.s ts w)
    (es : Events) (v : VScreen) (W : v.sc.Whole w h) (hh : rowOf hud + 2 ≤ h)
    (k : Nat) (hk : k < ts.length) (hmore : k + 1 < ts.length) (hv : ts[k].var = true)
    (hkeys : ∀ e ∈ es, isRune [0x03] e = false)
    (hp : ∀ e ∈ es, Spec.press e → Geom.Mem e.pt (Spec.place (rowOf hud) ts k))
    (hed : ∀ m < k, f.s.edid ≠ m + 1)
    (hch : Hud.Spec.odd (Spec.place (rowOf hud) ts k) es = true ∧ f.s.edid ≠ k + 1 ∨
      Hud.Spec.odd (Spec.place (rowOf hud) ts k) es = false ∧ f.s.edid = k + 1 ∧ f.s.ed.state = .ready)
    (o : Out ε) (ho : f.update gr world suspend hud es v = .ok o) (l : EditLine)
    (hl : l = ((Spec.begun cmd f.s (rowOf hud) ts k (Hud.Spec.odd (Spec.place (rowOf hud) ts k) es)).handleAll gr es).1)
    (hr : l.state ≠ .ready) (A : Area o.f.out w (h - (rowOf hud + 2))) :
    o.c.user = {} ∧ o.c.v.sc.Whole w h ∧ o.c.v.buf.buf = (if Spec.styled ts then ends else []) ∧
      ∀ a b, a < w → b < h → o.c.v.sc.look w a b =
        if b = rowOf hud ∧ a < (Spec.line 0 ts).length then (Spec.line 0 ts)[a]?
        else if rowOf hud < b ∧ b + 1 < h then o.f.out.sc.look w a (b - (rowOf hud + 1)) else some {} := by
  have hc : cmd ≠ [] := by
    intro h0
    have := S.len
    rw [h0] at this
    simp at this
    rw [this] at hk
    simp at hk
  obtain ⟨k1, k2⟩ := keys_left es hkeys
  obtain ⟨sc, q, f1, v1, h1, h2, -, u4', u5', u6, -⟩ := update_parts ho
  obtain ⟨sc1, e1, W1, c1, LC⟩ := cleared_blank W
  rw [h1] at e1
  injection e1 with e1
  subst e1
  rw [k1] at h2
  simp only [k2] at h2
  obtain ⟨R, B, -⟩ := begun_ready W1 v.buf c1 hud (show rowOf hud < h by omega)
  -- the words before
  obtain ⟨v2, e2, R1, B1, L1⟩ := words_idle_upto (y := rowOf hud) hsp heq world f S k (by omega) k 0
    ⟨strikeIf (isRune [0x1A]) es, ⟨sc.to ⟨1, if hud then 2 else 1⟩, v.buf.reset⟩, {}⟩ (by omega) (by simpa [Spec.line] using R) B
    (fun m _ hm => hed m hm) (fun m _ hm => by
      show Hud.Spec.odd _ (strikeIf _ es) = false
      rw [odd_suspend]
      have : es.countP (pressIn (Spec.place (rowOf hud) ts m) 1) = 0 := by
        rw [List.countP_eq_zero]
        intro e he hq
        obtain ⟨p1, p2⟩ := press_of hq
        exact places_apart ts _ m k hm hk e.pt ⟨p2, hp e he p1⟩
      unfold Hud.Spec.odd
      rw [this]; rfl) (fun m l h1 h2 p => places_apart ts _ m l h1 h2 p)
  have hslot : Spec.slot cmd 0 = 0 := by simp [Spec.slot]
  rw [hslot, List.drop_zero, ← S.cmd_eq] at e2
  rw [e2, List.drop_eq_getElem_cons hk, List.map_cons] at h2
  simp only [drawWords] at h2
  obtain ⟨r, w1, w2⟩ := bind_ok h2
  have hnext := word_next w1
  rw [S.next k hk] at hnext
  -- the word
  unfold Full.word at w1
  obtain ⟨v3, e3, I3, -⟩ := S.draw hsp heq k hk v2 R1 B1
  obtain ⟨d, hd, w1⟩ := bind_ok w1
  rw [e3] at hd
  injection hd with hd
  subst hd
  simp only [countPressesIn_exact, Nat.zero_add, Hud.without_one, S.next k hk] at w1
  generalize hE : Hud.Spec.without [Spec.place (rowOf hud) ts k]
    (Hud.Spec.without ((List.range' 0 k).map (Spec.place (rowOf hud) ts)) (strikeIf (isRune [0x1A]) es)) = E at w1
  have hodd : Hud.Spec.odd (Spec.place (rowOf hud) ts k)
      (Hud.Spec.without ((List.range' 0 k).map (Spec.place (rowOf hud) ts)) (strikeIf (isRune [0x1A]) es)) =
      Hud.Spec.odd (Spec.place (rowOf hud) ts k) es := by
    rw [Hud.odd_without, odd_suspend]
    intro c hc p hm
    obtain ⟨m, hm', rfl⟩ := List.mem_map.1 hc
    have := List.mem_range'_1.1 hm'
    exact places_apart ts _ m k (by omega) hk p hm
  have hcount : (List.countP (pressIn (Spec.place (rowOf hud) ts k) 1)
      (Hud.Spec.without ((List.range' 0 k).map (Spec.place (rowOf hud) ts)) (strikeIf (isRune [0x1A]) es)) % 2 = 1) =
      (Hud.Spec.odd (Spec.place (rowOf hud) ts k) es = true) := by
    rw [← hodd]
    unfold Hud.Spec.odd
    simp
  simp only [hcount] at w1
  -- no presses are left
  have hE1 : ∀ e ∈ E, ¬ Spec.press e := by
    intro e he hpr
    rw [← hE] at he
    rcases strike_mem he with ⟨a1, a2⟩ | a
    · rcases strike_mem a1 with ⟨b1, -⟩ | b
      · rcases strike_mem b1 with ⟨c1, -⟩ | c
        · have := in_press hpr (hp e c1 hpr)
          simp only [List.any_cons, List.any_nil, Bool.or_false] at a2
          rw [this] at a2; cases a2
        · exact none_not_press c hpr
      · exact none_not_press b hpr
    · exact none_not_press a hpr
  have hE2 : ∀ L : EditLine, (L.handleAll gr E).1 = (L.handleAll gr es).1 := by
    intro L
    have hm : ∀ (bs : List Rect) (e : Ev), (bs.any fun b => pressIn b 1 e) = true → ∀ l : EditLine, (l.handle gr e).1 = l := by
      intro bs e he l
      obtain ⟨b, -, hb⟩ := List.any_eq_true.1 he
      exact handle_mouse gr l e (press_of hb).1.1
    rw [← hE]
    unfold Hud.Spec.without
    rw [handleAll_strike gr _ _ (fun e _ he => hm _ e he), handleAll_strike gr _ _ (fun e _ he => hm _ e he),
      handleAll_strike gr _ _ (fun e _ he l => handle_suspend gr hz l e he)]
  have hslotv : f.s.argi[Spec.slot cmd k]? = some k := (S.var k hk).2 hv
  -- the line that is edited
  generalize hl0 : Spec.begun cmd f.s (rowOf hud) ts k (Hud.Spec.odd (Spec.place (rowOf hud) ts k) es) = l0 at hl
  have key : Edits gr world f k (Spec.slot cmd k) E v3 l0 r := by
    rcases hch with ⟨a1, a2⟩ | ⟨a1, a2, a3⟩
    · rw [a1] at hl0
      simp only [a1, if_true, hslotv, a2, if_false, ne_eq, not_false_eq_true, and_self] at w1
      exact edits_of (j' := Spec.slot cmd (k + 1)) { f.s with edid := k + 1 }
        { state := .ready, box := Spec.place (rowOf hud) ts k, buf := f.s.val[Spec.slot cmd k]?.getD [], cur := 0, view := 0 }
        rfl (by rw [← hl0]; rfl) w1
    · rw [a1] at hl0
      simp only [a1, Bool.false_eq_true, if_false, a2, hslotv, and_self, if_true, false_and] at w1
      rw [show f.s = { f.s with edid := k + 1 } by rw [← a2]] at w1
      exact edits_of (j' := Spec.slot cmd (k + 1)) { f.s with edid := k + 1 } { f.s.ed with box := Spec.place (rowOf hud) ts k }
        rfl (by rw [← hl0]; rfl) w1
  obtain ⟨fr, u1, u2, u3, u4, u5⟩ := key
  have hr0 : l0.state = .ready := by
    rw [← hl0]
    rcases hch with ⟨a1, a2⟩ | ⟨a1, a2, a3⟩
    · rw [a1]; rfl
    · rw [a1]; exact a3
  have hfr : fr.out = v3 ∧ fr.user = {} := by
    unfold EditLine.update at u1
    rw [if_neg (by simp [hr0])] at u1
    replace u1 : (if (l0.handleAll gr E).1.state ≠ .ready then _ else _) = Except.ok fr := u1
    rw [hE2, ← hl, if_pos hr] at u1
    injection u1 with u1
    rw [← u1]
    exact ⟨rfl, rfl⟩
  obtain ⟨t1, t2, t3, t4⟩ := update_line hr0 u1
  rw [hE2, ← hl] at t1 t2 t3
  have hleft : ∀ e ∈ r.2.2.es, ¬ Spec.press e := by
    rw [u2]
    intro e he
    show ¬ Spec.press e
    have he : e ∈ (l0.handleAll gr E).2 := by rw [← t4]; exact he
    rcases handleAll_left gr E l0 e he with h | h
    · exact hE1 e h
    · exact none_not_press h
  have hInv : ∀ (n : Nat) (e : EditLine) (vs : List Bytes), vs.length = f.s.val.length →
      Inv cmd { f.s with edid := n, ed := e, val := vs } := fun n e vs hvs =>
    ⟨S.inv.words, S.inv.argi, S.inv.arg, by rw [← S.inv.val]; exact hvs, S.inv.runs⟩
  have hst : f.s.argi = r.1.s.argi ∧ r.1.s.edid = 0 ∧ (∀ j, Spec.slot cmd (k + 1) ≤ j → r.1.s.val[j]? = f.s.val[j]?) := by
    have hs1 : Spec.slot cmd (k + 1) = Spec.slot cmd k + 1 := by
      rw [← S.next k hk, if_pos hslotv]
    rw [← t1] at hr
    cases hs : fr.line.state with
    | ready => exact absurd hs hr
    | canceled =>
      obtain ⟨c1, c2, c3, c4⟩ := exit_kept (u5 hs) (hInv _ _ _ rfl) hc
      exact ⟨by rw [S.inv.argi, c1.argi], c4, fun j _ => by rw [c3]⟩
    | done =>
      obtain ⟨c1, c2, c3, c4⟩ := exit_kept (u4 hs) (hInv _ _ _ (by split <;> simp)) hc
      refine ⟨by rw [S.inv.argi, c1.argi], c4, fun j hj => ?_⟩
      rw [c3]
      simp only
      split
      · rw [List.getElem?_set_ne (by omega)]
      · rfl
  have hall : Spec.line 0 ts = Spec.line 0 (ts.take (k + 1)) ++ Spec.line (k + 1) (ts.drop (k + 1)) := by
    conv => lhs; rw [← List.take_append_drop (k + 1) ts, line_append]
    rw [List.length_take, Nat.zero_add, Nat.min_eq_left (by omega)]
  have hlen := congrArg List.length hall
  rw [List.length_append] at hlen
  have hsplit : Spec.line 0 (ts.take (k + 1)) = Spec.line 0 (ts.take k) ++ Spec.cells k ts[k] := line_succ ts k hk
  have hsl := congrArg List.length hsplit
  rw [List.length_append] at hsl
  have hfits := S.fits
  have hlk : ∀ a b, a < w → b < h → v3.sc.look w a b =
        if b = rowOf hud ∧ a < (Spec.line 0 (ts.take (k + 1))).length then (Spec.line 0 (ts.take (k + 1)))[a]? else some {} := by
    intro a b ha hb
    have hlk : (⟨sc.to ⟨1, if hud then 2 else 1⟩, v.buf.reset⟩ : VScreen).sc.look w a b = some {} := by
      rw [← LC a b ha hb]; rfl
    rw [I3.look a b ha hb, L1 a b ha hb, hlk]
    by_cases h1 : b = rowOf hud ∧ a < (Spec.line 0 (ts.take (k + 1))).length
    · rw [if_pos h1]
      by_cases h2 : (Spec.line 0 (ts.take k)).length ≤ a
      · rw [if_pos (by omega), hsplit, List.getElem?_append_right h2]
      · rw [if_neg (by omega), if_pos (by simp [Spec.line]; omega), hsplit, List.getElem?_append_left (by omega)]
    · rw [if_neg h1, if_neg (by omega), if_neg (by simp [Spec.line]; omega)]
  have hr2 : r.2.2 = ⟨r.2.2.es, v3, {}⟩ := by
    rw [u2, hfr.1, hfr.2]
  obtain ⟨v5, e5, ⟨x5, R5, -⟩, B5, L5⟩ := words_onward hsp heq world r.1 S hst.1.symm (ts.length - (k + 1)) (k + 1) _ ⟨r.2.2.es, v3, {}⟩ hst.2.2
    (by omega) I3.ready ⟨I3.attr, I3.known⟩ (by omega) hleft (fun m _ h => by
      rw [hst.2.1] at h
      omega)
  rw [hnext, hr2, e5] at w2
  injection w2 with w2
  have hq : q.2 = ⟨r.2.2.es, v5, {}⟩ := by rw [← w2]
  rw [hq] at u4' u6
  rw [← u5'] at u4'
  obtain ⟨v6, e6, W6, -, B6, L6⟩ := overlay_drawn hud v5 o.f.out R5.whole hh A
  have hv6 : v1 = v6 := by
    have := u4'.symm.trans e6
    injection this
  rw [u6, hv6]
  refine ⟨rfl, W6, by show v6.buf.buf = _; rw [B6]; exact B5 (by omega) (by omega), fun a b ha hb => ?_⟩
  show v6.sc.look w a b = _
  rw [L6 a b ha hb, L5 a b ha hb]
  show (if _ then _ else if _ then _ else v3.sc.look w a b) = _
  rw [hlk a b ha hb]
  by_cases g1 : rowOf hud < b ∧ b + 1 < h
  · rw [if_pos g1, if_neg (by omega), if_pos g1]
  · rw [if_neg g1, if_neg g1]
    by_cases g2 : b = rowOf hud ∧ (Spec.line 0 (ts.take (k + 1))).length ≤ a ∧ a < (Spec.line 0 ts).length
    · rw [if_pos (by omega), if_pos ⟨g2.1, g2.2.2⟩, hall, List.getElem?_append_right g2.2.1, hsl]
    · rw [if_neg (by omega)]
      by_cases g3 : b = rowOf hud ∧ a < (Spec.line 0 (ts.take (k + 1))).length
      · rw [if_pos g3, if_pos (by omega), hall, List.getElem?_append_left g3.2]
      · rw [if_neg g3, if_neg (by omega)]

end Itr

open Vt Geom Render

namespace Direct
open Anansi.Spec

variable {gr : Nat → Bool} {cmd : List Bytes} {ts : List Itr.Spec.Item}

/-- **C149**, where it fails: the frame in which Enter gives a new value to a variable before the last word, the last word not being a
variable, is shown, and its output area is that of the new values, but the value in the row of words is the old one; there it is
seen with the next frame. -/
theorem aside_ends_stale {ε : Type} (hsp : Printable gr 0x20) (heq : Printable gr 0x3D) (hz : gr 0x1A = false)
    {d : Differ} {t t1 : Term} {old : Option Screen} {a : Pt}
    (Y : Synced d t old a) (redraw : Bool) (cell : Nat → Nat → Glyph) (x y : Nat) (pend : Bool) (ht1 : t1 = { t with cell, x, y, pend })
    (hrd : redraw = false → t1 = t) (world : List (List Bytes) → Itr.Outcome) (sus : Option ε) (f : Itr.Full) (n : Nat × Nat)
    (Fi : Itr.Fits cmd f n) (hC : Itr.Cur cmd f.s) (S : Itr.Setup gr cmd f.s ts t1.w)
    (hpl : ∀ t ∈ ts, (∀ r ∈ t.text, Printable gr r) ∧ ∀ r ∈ t.val, Printable gr r)
    (es : Evq.Events) (hh : 2 ≤ t1.h)
    (k : Nat) (hk : k < ts.length) (hmore : k + 1 < ts.length) (hv : ts[k].var = true) (hplain : Itr.Spec.styled ts = false)
    (hkeys : ∀ e ∈ es, Evq.isRune [0x03] e = false)
    (hp : ∀ e ∈ es, Itr.Spec.press e → Geom.Mem e.pt (Itr.Spec.place 0 ts k)) (hed : ∀ m < k, f.s.edid ≠ m + 1)
    (hch : Hud.Spec.odd (Itr.Spec.place 0 ts k) es = true ∧ f.s.edid ≠ k + 1 ∨
      Hud.Spec.odd (Itr.Spec.place 0 ts k) es = false ∧ f.s.edid = k + 1 ∧ f.s.ed.state = .ready)
    (l : Edl.EditLine)
    (hl : l = ((Itr.Spec.begun cmd f.s 0 ts k (Hud.Spec.odd (Itr.Spec.place 0 ts k) es)).handleAll gr es).1)
    (hr : l.state = .done) (o : Itr.Out ε) (d1 : Differ)
    (ho : itrFrame gr world sus f es d none (if redraw then some (t1.w, t1.h) else none) = .ok (o, d1))
    (area : Nat → Nat → Glyph) (F : Filled gr o.f.out t1.w (t1.h - 2) area) :
    o.f.s.edid = 0 ∧ o.f.s.val = Itr.Spec.accepted cmd f.s.val k l.buf ∧
      o.f.s.shown = Itr.Spec.display cmd o.f.s.val ((t1.w : Int), ((t1.h : Nat) : Int) - 2) ∧
      (Smooth t1.w (if redraw then zp else a) (Spec.cells t1.w t1.h (if redraw then none else old) d1.v.sc) →
        ((if redraw then none else old) = none → t1.bce = true → t1.style.bg = none) →
        ∃ d' ops, d1.writeTo gr .ok = .ok (d', text ops, none) ∧ (t1.run ops).w = t1.w ∧ (t1.run ops).h = t1.h ∧
          Spec.Interact ts area (t1.run ops) ∧ (t1.run ops).vis = false ∧
          Synced d' (t1.run ops) (some d1.v.sc)
            (Spec.stop (if redraw then zp else a) (Spec.cells t1.w t1.h (if redraw then none else old) d1.v.sc))) := by
  obtain ⟨d2, b1, W, Y2⟩ := begun Y redraw cell x y pend ht1 hrd
  have hc : cmd ≠ [] := by
    intro h0
    have := S.len
    rw [h0] at this
    simp at this
    rw [this] at hk
    simp at hk
  unfold itrFrame at ho
  rw [b1] at ho
  have h' : (f.update gr world sus false es d2.v).map (fun o => (o, ({ d2 with v := o.c.v, user := o.c.user } : Differ))) = .ok (o, d1) := ho
  obtain ⟨o', hu, h'⟩ := Itr.map_ok h'
  obtain ⟨rfl, rfl⟩ := Prod.mk.inj h'
  obtain ⟨-, -, e3, -, e5⟩ := Itr.edit_frame_partial (printed hsp) (printed heq) hz world sus false f S hC es d2.v W (by show 0 < t1.h; omega) k hk hv
    hkeys hp hed hch o' hu l hl
  obtain ⟨e3, e4⟩ := e3 hr
  refine ⟨e3, e4, by rw [e5]; rfl, fun hs hbg => ?_⟩
  rcases Itr.frame_safe (ε := ε) gr world sus false hc Fi es d2.v W hh with ⟨o2, g1, -, A, -⟩ | g1
  swap
  · rw [hu] at g1; cases g1
  rw [hu] at g1
  injection g1 with g1
  subst g1
  obtain ⟨o3, o4, o6, o5⟩ := Itr.edit_ends_aside (printed hsp) (printed heq) hz world sus false f S es d2.v W hh k hk hmore hv hkeys hp hed hch o' hu l
    hl (by rw [hr]; decide) A
  rw [hplain] at o6
  have hline := same_line hsp heq ts 0 hpl
  have hll := hline.length_eq
  let g : Nat → Nat → Glyph := fun x y =>
    if y = 0 then (Spec.words 0 ts).getD x blank else if y + 1 < t1.h ∧ x < t1.w then area x (y - 1) else blank
  have key : ∀ x y, Printable gr (g x y).rune ∧ (x < t1.w → y < t1.h → ∃ c, o'.c.v.sc.look t1.w x y = some c ∧ Inked (ink c) (g x y)) := by
    intro x y
    have hblank : Inked (ink ({} : Cell)) blank := ⟨rfl, rfl, show (0 : Attr) = Sgr.Style.build {} by decide⟩
    have hrow : Itr.rowOf false = 0 := rfl
    rw [hrow] at o5
    show Printable gr (if y = 0 then _ else _ : Glyph).rune ∧ (_ → _ → ∃ c, _ ∧ Inked (ink c) (if y = 0 then _ else _))
    by_cases h0 : y = 0
    · rw [if_pos h0]
      have G := same_get hsp hline x
      refine ⟨G.2, fun hx hy => ⟨(Itr.Spec.line 0 ts).getD x {}, ?_, G.1⟩⟩
      rw [o5 x y hx hy]
      by_cases hx1 : x < (Itr.Spec.line 0 ts).length
      · rw [if_pos ⟨h0, hx1⟩, List.getD_eq_getElem _ _ hx1, List.getElem?_eq_getElem hx1]
      · rw [if_neg (fun h => hx1 h.2), if_neg (by omega), List.getD_eq_default _ _ (by omega)]
    · rw [if_neg h0]
      by_cases h1 : y + 1 < t1.h ∧ x < t1.w
      · rw [if_pos h1]
        obtain ⟨c, c1, c2, c3⟩ := F x (y - 1) h1.2 (by omega)
        refine ⟨c3, fun hx hy => ⟨c, ?_, c2⟩⟩
        rw [o5 x y hx hy, if_neg (fun h => h0 h.1), if_pos (by omega)]
        exact c1
      · rw [if_neg h1]
        refine ⟨hsp, fun hx hy => ⟨{}, ?_, hblank⟩⟩
        rw [o5 x y hx hy, if_neg (fun h => h0 h.1), if_neg (by omega)]
  let pic : Term := { clearTerm t1.w t1.h with cell := g }
  have P : Shows pic o'.c.v.sc t1.w t1.h := ⟨rfl, rfl, fun x y hx hy => (key x y).2 hx hy⟩
  obtain ⟨d', ops, h1, h2, h3, h4, h5, -, h7⟩ := flushed gr hsp Y2 o'.c.v o4 o6 pic P (fun x y => (key x y).1) o'.c.user
    (by rw [o3]; intro h; simp [Spec.seen] at h) ⟨by rw [o3]; simpa [Spec.seen] using hs, hbg⟩
  rw [o3] at h5 h7
  refine ⟨d', ops, h1, h2, h3, fun x y hx hy => ?_, h5, h7⟩
  rw [h2] at hx
  rw [h3] at hy ⊢
  rw [h4 x y hx hy]
  show (if y = 0 then _ else if y + 1 < t1.h ∧ x < t1.w then _ else _ : Glyph) = _
  by_cases h0 : y = 0
  · rw [if_pos h0, if_pos h0]
  · rw [if_neg h0, if_neg h0]
    by_cases h1 : y + 1 < t1.h
    · rw [if_pos h1, if_pos ⟨h1, hx⟩]
    · rw [if_neg h1, if_neg (fun h => h1 h.1)]

/-- **C149**, where it fails: if the last word is another variable, the frame in which Enter or Escape ends the edit writes the end of a style
and nothing else. -/
theorem aside_ends_unseen {ε : Type} (hsp : Printable gr 0x20) (heq : Printable gr 0x3D) (hz : gr 0x1A = false)
    (d : Differ) (t : Term) (W : d.v.sc.Whole t.w t.h) (redraw : Bool) (world : List (List Bytes) → Itr.Outcome)
    (sus : Option ε) (f : Itr.Full) (n : Nat × Nat) (Fi : Itr.Fits cmd f n) (S : Itr.Setup gr cmd f.s ts t.w)
    (es : Evq.Events) (hh : 2 ≤ t.h)
    (k : Nat) (hk : k < ts.length) (hmore : k + 1 < ts.length) (hv : ts[k].var = true) (hstyled : Itr.Spec.styled ts = true)
    (hkeys : ∀ e ∈ es, Evq.isRune [0x03] e = false)
    (hp : ∀ e ∈ es, Itr.Spec.press e → Geom.Mem e.pt (Itr.Spec.place 0 ts k)) (hed : ∀ m < k, f.s.edid ≠ m + 1)
    (hch : Hud.Spec.odd (Itr.Spec.place 0 ts k) es = true ∧ f.s.edid ≠ k + 1 ∨
      Hud.Spec.odd (Itr.Spec.place 0 ts k) es = false ∧ f.s.edid = k + 1 ∧ f.s.ed.state = .ready)
    (hr : ((Itr.Spec.begun cmd f.s 0 ts k (Hud.Spec.odd (Itr.Spec.place 0 ts k) es)).handleAll gr es).1.state ≠ .ready)
    (o : Itr.Out ε) (d1 : Differ) (ho : itrFrame gr world sus f es d none (if redraw then some (t.w, t.h) else none) = .ok (o, d1)) :
    ∃ d', d1.writeTo gr .ok = .ok (d', text [.sgr [0]], none) ∧ (t.run [.sgr [0]]).cell = t.cell ∧ (t.run [.sgr [0]]).vis = t.vis ∧
      (t.run [.sgr [0]]).x = t.x ∧ (t.run [.sgr [0]]).y = t.y := by
  obtain ⟨d2, b1, W2⟩ := begun_whole d W redraw
  have hc : cmd ≠ [] := by
    intro h0
    have := S.len
    rw [h0] at this
    simp at this
    rw [this] at hk
    simp at hk
  unfold itrFrame at ho
  rw [b1] at ho
  have h' : (f.update gr world sus false es d2.v).map (fun o => (o, ({ d2 with v := o.c.v, user := o.c.user } : Differ))) = .ok (o, d1) := ho
  obtain ⟨o', hu, h'⟩ := Itr.map_ok h'
  obtain ⟨rfl, rfl⟩ := Prod.mk.inj h'
  rcases Itr.frame_safe (ε := ε) gr world sus false hc Fi es d2.v W2 hh with ⟨o2, g1, -, A, -⟩ | g1
  swap
  · rw [hu] at g1; cases g1
  rw [hu] at g1
  injection g1 with g1
  subst g1
  obtain ⟨-, o4, o6, -⟩ := Itr.edit_ends_aside (printed hsp) (printed heq) hz world sus false f S es d2.v W2 hh k hk hmore hv hkeys hp hed hch o' hu _
    rfl hr A
  rw [hstyled] at o6
  obtain ⟨d', m1, -⟩ := leftover_written gr { d2 with v := o'.c.v, user := o'.c.user } o4 (by
    show o'.c.v.buf.buf ≠ []
    rw [o6]; decide)
  refine ⟨d', ?_, rfl, rfl, rfl, rfl⟩
  rw [m1]
  show Except.ok (d', o'.c.v.buf.buf, none) = _
  rw [o6]
  have : text [.sgr [0]] = Itr.ends := by decide +kernel
  rw [this]
  rfl

/-! ### Examples -/

/-- A press on `$xy`, "a" typed, and Enter. -/
def keysB : Evq.Events := keysE ++ [Itr.Spec.typed 0x0D]

/-- The hypotheses of `aside_ends_stale` about the command and the keys hold, beside those of `interact_aside_shown`. -/
example : (lineA keysB).state = .done ∧ (lineA keysB).buf = [0x61] ∧ Hud.Spec.odd (Itr.Spec.place 0 tsA 1) keysB = true ∧ fA.s.edid = 0 ∧
    (∀ e ∈ keysB, Evq.isRune [0x03] e = false) ∧ Itr.Cur cmdA fA.s :=
  ⟨by decide +kernel, by decide +kernel, by decide +kernel, by decide +kernel, by decide, by unfold Itr.Cur; decide +kernel⟩

/-- What the frames of `interact rm '$xy' z` write: the words and the prompt; a press, and the cursor is shown at the name; "a", and `z` moves;
Enter, and the words are as before though the command runs; and only a later frame shows the value. -/
example : framesE startA (sizeTo {} (14, 5)) [[], [Itr.clickX 5 1], [Itr.Spec.typed 0x61], [Itr.Spec.typed 0x0D], []] =
    some [ascii "\x1b[?25l\x1b[2J\x1b[1;1H\x1b[0;32mrm\x1b[0m \x1b[36m$xy\x1b[0m z\r\nDefine variabl\r\nes to run", ascii "\x1b[1;4H\x1b[?25h",
      ascii "\x1b[?25la  z \x1b[4D\x1b[?25h", ascii "\x1b[?25l\x1b[D\x1b[36m$xy\x1b[0m z\r\nstatus: ok    \r\nrmaz \x1b[C   ",
      ascii "\x1b[1;7H=\x1b[94ma\x1b[C\x1b[0mz"] := by decide +kernel

end Direct
end Anansi
