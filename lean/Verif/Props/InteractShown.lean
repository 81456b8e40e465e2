import Mathlib.Data.List.GetD
import Verif.Props.LolShown
import Verif.Props.InteractSafe
import Verif.Props.OverlayShown
/-
C146: what is on the terminal while the interact command runs, with the overlay hidden.
-/
set_option autoImplicit false

namespace Anansi
open Vt Geom Render

namespace Direct
open Anansi.Spec

/-- A frame of interact (`platform.go:253-281`, `cmd/interact/main.go:132-255`) with the overlay hidden, up to the flush. -/
def itrFrame {ε : Type} (gr : Nat → Bool) (world : List (List Bytes) → Itr.Outcome) (sus : Option ε) (f : Itr.Full) (es : Evq.Events)
    (d : Differ) (winch redraw : Option (Nat × Nat)) : Except Fault (Itr.Out ε × Differ) :=
  (begin d winch redraw).bind fun d =>
  (f.update gr world sus false es d.v).map fun o => (o, { d with v := o.c.v, user := o.c.user })

namespace Spec

/-- Text in one of the 256 colours. -/
def coloured (n : UInt8) (rs : List Nat) : List Glyph := rs.map (⟨·, { fg := some (.indexed n) }⟩)

/-- Text in no style. -/
def uncoloured (rs : List Nat) : List Glyph := rs.map (⟨·, {}⟩)

/-- Word `i` as the terminal shows it: a blank before all but the first; variables cyan, the command green, other words plain; and
after a variable that has a value an equal sign and the value in bright blue. -/
def word (i : Nat) (t : Itr.Spec.Item) : List Glyph :=
  (if i = 0 then [] else [blank]) ++ (if t.var then coloured 6 t.text else if i = 0 then coloured 2 t.text else uncoloured t.text) ++
    if t.var ∧ t.val ≠ [] then uncoloured [0x3D] ++ coloured 12 t.val else []

/-- The words from the `i`-th on. -/
def words : Nat → List Itr.Spec.Item → List Glyph
  | _, [] => []
  | i, t :: ts => word i t ++ words (i + 1) ts

/-- The rows of an outcome: the status, an error in red, and the output. -/
def outcome (sr : List Nat) (er : Option (List Nat)) (out : List Nat) : List (List Glyph) :=
  [uncoloured ("status: ".toList.map Char.toNat ++ sr)] ++
    (match er with | none => [] | some e => [coloured 1 ("error: ".toList.map Char.toNat ++ e)]) ++ [uncoloured out]

/-- The terminal shows the words in its first row, below them what the area has, except in the last row, and nothing else. -/
def Interact (ts : List Itr.Spec.Item) (area : Nat → Nat → Glyph) (t : Term) : Prop :=
  ∀ x y, x < t.w → y < t.h → t.cell x y =
    if y = 0 then (words 0 ts).getD x blank else if y + 1 < t.h then area x (y - 1) else blank

end Spec

/-! ### Cells and glyphs -/

/-- These cells are shown by these glyphs. -/
def Same (gr : Nat → Bool) (cs : List Cell) (gs : List Glyph) : Prop :=
  List.Forall₂ (fun c g => Inked (ink c) g ∧ Printable gr g.rune) cs gs

theorem same_text {gr : Nat → Bool} (s : Sgr.Style) (hs : s.clear = false) (a : Attr) (ha : a = s.build) (rs : List Nat)
    (hp : ∀ r ∈ rs, Printable gr r) : Same gr (rs.map (⟨·, a⟩)) (rs.map (⟨·, s⟩)) := by
  unfold Same
  rw [List.forall₂_map_left_iff, List.forall₂_map_right_iff]
  rw [List.forall₂_same]
  intro r hr
  have h := hp r hr
  have hne : r ≠ 0 := by have := h.c0; omega
  exact ⟨⟨by simp [ink, hne], hs, ha⟩, h⟩

theorem same_word {gr : Nat → Bool} (hsp : Printable gr 0x20) (heq : Printable gr 0x3D) (i : Nat) (t : Itr.Spec.Item)
    (hp : (∀ r ∈ t.text, Printable gr r) ∧ ∀ r ∈ t.val, Printable gr r) : Same gr (Itr.Spec.cells i t) (Spec.word i t) := by
  unfold Itr.Spec.cells Spec.word
  have k0 : (0 : Attr) = Sgr.Style.build {} := by decide
  have k2 : Itr.greenFG = Sgr.Style.build { fg := some (.indexed 2) } := by decide
  have k6 : Itr.cyanFG = Sgr.Style.build { fg := some (.indexed 6) } := by decide
  have kb : Itr.blueFG = Sgr.Style.build { fg := some (.indexed 12) } := by decide
  refine List.rel_append (List.rel_append ?_ ?_) ?_
  · unfold Itr.Spec.gap
    by_cases h : i = 0
    · rw [if_pos h, if_pos h]; exact .nil
    · rw [if_neg h, if_neg h]
      exact same_text {} rfl 0 k0 [0x20] (by simpa using hsp)
  · unfold Itr.Spec.style Spec.coloured Spec.uncoloured
    by_cases hv : t.var = true
    · simp only [hv, if_true]
      exact same_text _ rfl _ k6 t.text hp.1
    · simp only [hv, Bool.false_eq_true, if_false]
      by_cases h : i = 0
      · simp only [h, if_true]
        exact same_text _ rfl _ k2 t.text hp.1
      · simp only [h, if_false]
        exact same_text _ rfl _ k0 t.text hp.1
  · by_cases h : t.var = true ∧ t.val ≠ []
    · rw [if_pos h, if_pos h]
      exact List.rel_append (same_text {} rfl 0 k0 [0x3D] (by simpa using heq)) (same_text _ rfl _ kb t.val hp.2)
    · rw [if_neg h, if_neg h]; exact .nil

theorem same_line {gr : Nat → Bool} (hsp : Printable gr 0x20) (heq : Printable gr 0x3D) : ∀ (ts : List Itr.Spec.Item) (i : Nat),
    (∀ t ∈ ts, (∀ r ∈ t.text, Printable gr r) ∧ ∀ r ∈ t.val, Printable gr r) → Same gr (Itr.Spec.line i ts) (Spec.words i ts)
  | [], _, _ => .nil
  | t :: ts, i, h => List.rel_append (same_word hsp heq i t (h t (by simp))) (same_line hsp heq ts (i + 1) fun t ht => h t (by simp [ht]))

theorem same_get {gr : Nat → Bool} (hsp : Printable gr 0x20) {cs : List Cell} {gs : List Glyph} (h : Same gr cs gs) (i : Nat) :
    Inked (ink (cs.getD i {})) (gs.getD i blank) ∧ Printable gr (gs.getD i blank).rune := by
  have hl := h.length_eq
  by_cases hi : i < cs.length
  · rw [List.getD_eq_getElem _ _ hi, List.getD_eq_getElem _ _ (by omega)]
    exact h.get hi (by omega)
  · rw [List.getD_eq_default _ _ (by omega), List.getD_eq_default _ _ (by omega)]
    exact ⟨⟨rfl, rfl, show (0 : Attr) = Sgr.Style.build {} by decide⟩, hsp⟩

/-- The output area is shown by these glyphs. -/
def Filled (gr : Nat → Bool) (o : VScreen) (w n : Nat) (area : Nat → Nat → Glyph) : Prop :=
  ∀ a b, a < w → b < n → ∃ c, o.sc.look w a b = some c ∧ Inked (ink c) (area a b) ∧ Printable gr (area a b).rune

theorem same_outcome {gr : Nat → Bool} (sr : List Nat) (er : Option (List Nat)) (out : List Nat)
    (hs : ∀ r ∈ "status: ".toList.map Char.toNat ++ sr, Printable gr r)
    (he : ∀ e, er = some e → ∀ r ∈ "error: ".toList.map Char.toNat ++ e, Printable gr r) (ho : ∀ r ∈ out, Printable gr r) :
    List.Forall₂ (Same gr) (Itr.Spec.outcome sr er out) (Spec.outcome sr er out) := by
  have k0 : (0 : Attr) = Sgr.Style.build {} := by decide
  have k1 : Itr.redFG = Sgr.Style.build { fg := some (.indexed 1) } := by decide
  unfold Itr.Spec.outcome Spec.outcome
  refine List.rel_append (List.rel_append (.cons (same_text {} rfl 0 k0 _ hs) .nil) ?_) (.cons (same_text {} rfl 0 k0 _ ho) .nil)
  cases er with
  | none => exact .nil
  | some e => exact .cons (same_text _ rfl _ k1 _ (he e rfl)) .nil

/-- **C146**, the output area after a run: the status, the error in red and the output. -/
theorem outcome_filled {gr : Nat → Bool} (hsp : Printable gr 0x20) (v v' : VScreen) {w n : Nat} (W : v.sc.Whole w n) (sr out : List Nat)
    (er : Option (List Nat)) (args : List Bytes)
    (hs : ∀ r ∈ "status: ".toList.map Char.toNat ++ sr, Printable gr r)
    (he : ∀ e, er = some e → ∀ r ∈ "error: ".toList.map Char.toNat ++ e, Printable gr r) (ho : ∀ r ∈ out, Printable gr r)
    (hw : ∀ l ∈ Spec.outcome sr er out, l.length < w) (hn : (Spec.outcome sr er out).length ≤ n)
    (h : Itr.print gr { status := encodeRunes sr, err := er.map encodeRunes, out := encodeRunes out } (.ran args) v = .ok v') :
    Itr.Area v' w n ∧ Filled gr v' w n fun a b => ((Spec.outcome sr er out).getD b []).getD a blank := by
  have S := same_outcome (gr := gr) sr er out hs he ho
  have hlen := S.length_eq
  obtain ⟨v1, e1, W1, L1⟩ := Itr.outcome_shown_partial gr v W sr out er args (fun r hr => printed (hs r hr))
    (fun e h1 r hr => printed (he e h1 r hr)) (fun r hr => printed (ho r hr)) (by
      intro l hl
      obtain ⟨i, hi, rfl⟩ := List.getElem_of_mem hl
      have := (S.get hi (by omega)).length_eq
      have h2 := hw _ (List.getElem_mem (show i < (Spec.outcome sr er out).length by omega))
      simp only [List.get_eq_getElem] at this
      omega) (by omega)
  rw [e1] at h
  injection h with h
  subst h
  refine ⟨⟨W1.rect, W1.stride, W1.cap⟩, fun a b ha hb => ⟨_, L1 a b ha hb, ?_⟩⟩
  refine same_get hsp ?_ a
  by_cases hi : b < (Itr.Spec.outcome sr er out).length
  · rw [List.getD_eq_getElem _ _ hi, List.getD_eq_getElem _ _ (by omega)]
    exact S.get hi (by omega)
  · rw [List.getD_eq_default _ _ (by omega), List.getD_eq_default _ _ (by omega)]
    exact .nil

/-! ### A frame -/

/-- The beginning of a frame, perhaps with a redraw, whatever is on the terminal then. -/
theorem begun {d : Differ} {t t1 : Term} {old : Option Screen} {a : Pt} (Y : Synced d t old a) (redraw : Bool) (cell : Nat → Nat → Glyph)
    (x y : Nat) (pend : Bool) (ht1 : t1 = { t with cell, x, y, pend }) (hr : redraw = false → t1 = t) :
    ∃ d2, begin d none (if redraw then some (t1.w, t1.h) else none) = .ok d2 ∧ d2.v.sc.Whole t1.w t1.h ∧
      Synced d2 t1 (if redraw then none else old) (if redraw then zp else a) := by
  obtain ⟨v0, e1, W0, -, -, -⟩ := reset_blank Y
  have Y0 : Synced { d with v := v0, user := {} } t old a := ⟨W0, Y.agree, Y.known, Y.rest, Y.pen⟩
  have key : ∃ d2, begin d none (if redraw then some (t1.w, t1.h) else none) = .ok d2 ∧
      Synced d2 t1 (if redraw then none else old) (if redraw then zp else a) := by
    unfold begin
    simp only [e1]
    cases redraw with
    | false => rw [hr rfl]; exact ⟨_, rfl, Y0⟩
    | true =>
      have Y1 := redraw_synced Y0 cell x y pend
      rw [← ht1] at Y1
      exact ⟨_, rfl, sizeTo_synced Y1 t1.w t1.h Y1.whole.hw Y1.whole.hh t1.cell t1.x t1.y t1.pend⟩
  obtain ⟨d2, b1, Y2⟩ := key
  exact ⟨d2, b1, Y2.whole, Y2⟩

variable {gr : Nat → Bool} {cmd : List Bytes} {ts : List Itr.Spec.Item}

/-- **C146**: a frame in which no word is pressed or edited, of a command whose last word has no style: the terminal shows the words
and the output area, with the cursor hidden.  Nothing is run. -/
theorem interact_shown {ε : Type} (hsp : Printable gr 0x20) (heq : Printable gr 0x3D)
    {d : Differ} {t t1 : Term} {old : Option Screen} {a : Pt}
    (Y : Synced d t old a) (redraw : Bool) (cell : Nat → Nat → Glyph) (x y : Nat) (pend : Bool) (ht1 : t1 = { t with cell, x, y, pend })
    (hr : redraw = false → t1 = t) (world : List (List Bytes) → Itr.Outcome) (sus : Option ε) (f : Itr.Full)
    (S : Itr.Setup gr cmd f.s ts t1.w) (hpl : ∀ t ∈ ts, (∀ r ∈ t.text, Printable gr r) ∧ ∀ r ∈ t.val, Printable gr r)
    (es : Evq.Events) (hh : 2 ≤ t1.h) (he : f.s.edid = 0) (hkeys : ∀ e ∈ es, Evq.isRune [0x03] e = false)
    (hp : ∀ i < ts.length, Hud.Spec.odd (Itr.Spec.place 0 ts i) es = false)
    (hsz : f.s.size = ((t1.w : Int), ((t1.h - 2 : Nat) : Int))) (A : Itr.Area f.out t1.w (t1.h - 2))
    (area : Nat → Nat → Glyph) (F : Filled gr f.out t1.w (t1.h - 2) area) (hlast : Itr.Spec.styled ts = false) :
    ∃ o d1, itrFrame gr world sus f es d none (if redraw then some (t1.w, t1.h) else none) = .ok (o, d1) ∧ o.f = f ∧
      (Smooth t1.w (if redraw then zp else a) (Spec.cells t1.w t1.h (if redraw then none else old) d1.v.sc) →
        ((if redraw then none else old) = none → t1.bce = true → t1.style.bg = none) →
        ∃ d' ops, d1.writeTo gr .ok = .ok (d', text ops, none) ∧ (t1.run ops).w = t1.w ∧ (t1.run ops).h = t1.h ∧
          Spec.Interact ts area (t1.run ops) ∧ (t1.run ops).vis = false ∧
          Synced d' (t1.run ops) (some d1.v.sc)
            (Spec.stop (if redraw then zp else a) (Spec.cells t1.w t1.h (if redraw then none else old) d1.v.sc))) := by
  obtain ⟨d2, b1, W, Y2⟩ := begun Y redraw cell x y pend ht1 hr
  obtain ⟨o, o1, o2, o3, o4, o5⟩ := Itr.idle_shown (printed hsp) (printed heq) world sus false f S es d2.v W hh he hkeys hp hsz A
  have o6 := Itr.idle_left (printed hsp) (printed heq) world sus false f S es d2.v W hh he hkeys hp o o1
  rw [hlast] at o6
  refine ⟨o, { d2 with v := o.c.v, user := o.c.user }, ?_, o2, fun hs hbg => ?_⟩
  · unfold itrFrame
    rw [b1]
    show (f.update gr world sus false es d2.v).map _ = _
    rw [o1]
    rfl
  have hline := same_line hsp heq ts 0 hpl
  have hll := hline.length_eq
  let g : Nat → Nat → Glyph := fun x y =>
    if y = 0 then (Spec.words 0 ts).getD x blank else if y + 1 < t1.h ∧ x < t1.w then area x (y - 1) else blank
  have key : ∀ x y, Printable gr (g x y).rune ∧ (x < t1.w → y < t1.h → ∃ c, o.c.v.sc.look t1.w x y = some c ∧ Inked (ink c) (g x y)) := by
    intro x y
    have hblank : Inked (ink ({} : Cell)) blank := ⟨rfl, rfl, show (0 : Attr) = Sgr.Style.build {} by decide⟩
    have hrow : Itr.rowOf false = 0 := rfl
    rw [hrow] at o5
    show Printable gr (if y = 0 then _ else _ : Glyph).rune ∧ (_ → _ → ∃ c, _ ∧ Inked (ink c) (if y = 0 then _ else _))
    by_cases h0 : y = 0
    · rw [if_pos h0]
      have G := same_get hsp hline x
      refine ⟨G.2, fun hx hy => ⟨(Itr.Spec.line 0 ts).getD x {}, ?_, G.1⟩⟩
      rw [o5 x y hx hy]
      by_cases hx1 : x < (Itr.Spec.line 0 ts).length
      · rw [if_pos ⟨h0, hx1⟩, List.getD_eq_getElem _ _ hx1, List.getElem?_eq_getElem hx1]
      · rw [if_neg (fun h => hx1 h.2), if_neg (by omega), List.getD_eq_default _ _ (by omega)]
    · rw [if_neg h0]
      by_cases h1 : y + 1 < t1.h ∧ x < t1.w
      · rw [if_pos h1]
        obtain ⟨c, c1, c2, c3⟩ := F x (y - 1) h1.2 (by omega)
        refine ⟨c3, fun hx hy => ⟨c, ?_, c2⟩⟩
        rw [o5 x y hx hy, if_neg (fun h => h0 h.1), if_pos (by omega)]
        exact c1
      · rw [if_neg h1]
        refine ⟨hsp, fun hx hy => ⟨{}, ?_, hblank⟩⟩
        rw [o5 x y hx hy, if_neg (fun h => h0 h.1), if_neg (by omega)]
  let pic : Term := { clearTerm t1.w t1.h with cell := g }
  have P : Shows pic o.c.v.sc t1.w t1.h := ⟨rfl, rfl, fun x y hx hy => (key x y).2 hx hy⟩
  obtain ⟨d', ops, h1, h2, h3, h4, h5, -, h7⟩ := flushed gr hsp Y2 o.c.v o4 o6 pic P (fun x y => (key x y).1) o.c.user
    (by rw [o3]; intro h; simp [Spec.seen] at h) ⟨by rw [o3]; simpa [Spec.seen] using hs, hbg⟩
  rw [o3] at h5 h7
  refine ⟨d', ops, h1, h2, h3, fun x y hx hy => ?_, h5, h7⟩
  rw [h2] at hx
  rw [h3] at hy ⊢
  rw [h4 x y hx hy]
  show (if y = 0 then _ else if y + 1 < t1.h ∧ x < t1.w then _ else _ : Glyph) = _
  by_cases h0 : y = 0
  · rw [if_pos h0, if_pos h0]
  · rw [if_neg h0, if_neg h0]
    by_cases h1 : y + 1 < t1.h
    · rw [if_pos h1, if_pos ⟨h1, hx⟩]
    · rw [if_neg h1, if_neg (fun h => h1 h.1)]

/-! ### When the last word has a style -/

/-- A frame in which no word is pressed or edited keeps the values. -/
theorem idle_keeps {ε : Type} (hsp : Printable gr 0x20) (heq : Printable gr 0x3D) (world : List (List Bytes) → Itr.Outcome)
    (sus : Option ε) (f : Itr.Full) {w h : Nat} (S : Itr.Setup gr cmd f.s ts w) (es : Evq.Events) (v : VScreen) (W : v.sc.Whole w h) (hh : 2 ≤ h)
    (he : f.s.edid = 0) (hkeys : ∀ e ∈ es, Evq.isRune [0x03] e = false)
    (hp : ∀ i < ts.length, Hud.Spec.odd (Itr.Spec.place 0 ts i) es = false) (o : Itr.Out ε)
    (ho : f.update gr world sus false es v = .ok o) : o.f.s.val = f.s.val ∧ o.f.s.edid = 0 := by
  obtain ⟨sc, q, f1, v1, u1, u2, u3, -, u5, -⟩ := Itr.update_parts ho
  obtain ⟨k1, k2⟩ := Itr.keys_left es hkeys
  obtain ⟨sc1, e1, W1, c1, -⟩ := Itr.cleared_blank W
  rw [e1] at u1
  injection u1 with u1
  subst u1
  obtain ⟨R, B, -⟩ := Itr.begun_ready W1 v.buf c1 false (by show 0 < h; omega)
  obtain ⟨v2, e2, -⟩ := Itr.words_idle_upto (y := 0) (printed hsp) (printed heq) world f S ts.length (Nat.le_refl _) ts.length 0
    ⟨Evq.strikeIf (Evq.isRune [0x1A]) es, ⟨sc1.to ⟨1, 1⟩, v.buf.reset⟩, {}⟩ (by omega) R B
    (fun m _ _ => by rw [he]; omega) (fun m _ hm => by
      show Hud.Spec.odd _ (Evq.strikeIf _ es) = false
      rw [Itr.odd_suspend]; exact hp m hm) (fun m l h1 h2 p => Itr.places_apart ts _ m l h1 h2 p)
  rw [List.drop_zero, ← S.cmd_eq, List.drop_length, show Itr.Spec.slot cmd 0 = 0 by simp [Itr.Spec.slot]] at e2
  simp only [List.map_nil, Itr.drawWords] at e2
  simp only [k1, k2, Bool.false_eq_true, if_false] at u2
  rw [e2] at u2
  injection u2 with u2
  rw [u5]
  rw [← u2] at u3
  unfold Itr.Full.fit at u3
  simp only [Bool.false_eq_true, if_false] at u3
  split at u3
  · injection u3 with u3
    rw [← u3]; exact ⟨rfl, he⟩
  · split at u3
    · cases u3
    · have h1 := Itr.run_ok u3
      unfold Itr.St.runCmd at h1
      simp only at h1
      split at h1
      · injection h1 with h1
        rw [← h1]; exact ⟨rfl, he⟩
      · split at h1
        · injection h1 with h1
          rw [← h1]; exact ⟨rfl, he⟩
        · split at h1
          · cases h1
          · cases h1
          · injection h1 with h1
            rw [← h1]; exact ⟨rfl, he⟩

/-- Flushing what is left in the buffer writes that and nothing else. -/
theorem leftover_written (gr : Nat → Bool) (d : Differ) {w h : Nat} (W : d.v.sc.Whole w h) (hb : d.v.buf.buf ≠ []) :
    ∃ d', d.writeTo gr .ok = .ok (d', d.v.buf.buf, none) ∧ d'.v.sc = d.v.sc := by
  refine ⟨{ d with v := { d.v with buf := d.v.buf.writeTo d.v.buf.buf.length } }, ?_, rfl⟩
  have hl : d.v.buf.buf.length > 0 := List.length_pos_iff.2 hb
  unfold Differ.writeTo Differ.finish
  rw [Differ.whole_not_sub W]
  simp only [Bool.false_eq_true, if_false]
  rw [if_pos hl, if_neg hb]

/-- The beginning of a frame, whatever is known of the terminal. -/
theorem begun_whole (d : Differ) {w h : Nat} (W : d.v.sc.Whole w h) (redraw : Bool) :
    ∃ d2, begin d none (if redraw then some (w, h) else none) = .ok d2 ∧ d2.v.sc.Whole w h := by
  obtain ⟨d1, g1, -, -, -, g5, -⟩ := Sess.cleared d w h W
  unfold begin
  simp only [g1]
  cases redraw with
  | false => exact ⟨_, rfl, g5⟩
  | true =>
    refine ⟨_, rfl, ?_⟩
    show (sizeTo d1.invalidate (w, h)).v.sc.Whole w h
    have W1 : d1.invalidate.v.sc.Whole w h := g5
    rw [sizeTo_same W1]
    exact g5

/-- Frames, each with a redraw or not and with its events: whatever is drawn, each flush writes a sequence that sets no style, and what
is on the terminal stays as it was. -/
def Unseen {ε : Type} (gr : Nat → Bool) (world : List (List Bytes) → Itr.Outcome) (sus : Option ε) :
    Itr.Full → Differ → Term → List (Bool × Evq.Events) → Prop
  | _, _, _, [] => True
  | f, d, t, (redraw, es) :: l =>
    ∀ o d1, itrFrame gr world sus f es d none (if redraw then some (t.w, t.h) else none) = .ok (o, d1) →
      ∃ d', d1.writeTo gr .ok = .ok (d', text [.sgr [0]], none) ∧ (t.run [.sgr [0]]).cell = t.cell ∧
        Unseen gr world sus o.f d' (t.run [.sgr [0]]) l

theorem unseen_from {ε : Type} (hsp : Printable gr 0x20) (heq : Printable gr 0x3D) (hc : cmd ≠ []) (world : List (List Bytes) → Itr.Outcome)
    (sus : Option ε) (hlast : Itr.Spec.styled ts = true) :
    ∀ (l : List (Bool × Evq.Events)) (f : Itr.Full) (d : Differ) (t : Term) (n : Nat × Nat), d.v.sc.Whole t.w t.h → 2 ≤ t.h →
      Itr.Setup gr cmd f.s ts t.w → Itr.Fits cmd f n → f.s.edid = 0 →
      (∀ p ∈ l, (∀ e ∈ p.2, Evq.isRune [0x03] e = false) ∧ ∀ i < ts.length, Hud.Spec.odd (Itr.Spec.place 0 ts i) p.2 = false) →
      Unseen gr world sus f d t l
  | [], _, _, _, _, _, _, _, _, _, _ => trivial
  | (redraw, es) :: l, f, d, t, n, W, hh, S, F, he, hi => by
    intro o d1 h
    obtain ⟨hk, hp⟩ := hi _ (List.mem_cons_self ..)
    obtain ⟨d2, b1, W2⟩ := begun_whole d W redraw
    unfold itrFrame at h
    rw [b1] at h
    have h' : (f.update gr world sus false es d2.v).map (fun o => (o, ({ d2 with v := o.c.v, user := o.c.user } : Differ))) = .ok (o, d1) := h
    cases hu : f.update gr world sus false es d2.v with
    | error e => rw [hu] at h'; cases h'
    | ok o' =>
      rw [hu] at h'
      injection h' with h'
      obtain ⟨rfl, rfl⟩ := Prod.mk.inj h'
      have k := Itr.idle_left (printed hsp) (printed heq) world sus false f S es d2.v W2 hh he hk hp o' hu
      obtain ⟨k1, k2⟩ := idle_keeps hsp heq world sus f S es d2.v W2 hh he hk hp o' hu
      rw [hlast, if_pos rfl] at k
      rcases Itr.frame_safe (ε := ε) gr world sus false hc F es d2.v W2 hh with ⟨o2, e2, F', -, W'⟩ | e2
      · rw [hu] at e2
        injection e2 with e2
        subst e2
        obtain ⟨d', m1, m2⟩ := leftover_written gr { d2 with v := o'.c.v, user := o'.c.user } W' (by
          show o'.c.v.buf.buf ≠ []
          rw [k]; decide)
        refine ⟨d', ?_, rfl, ?_⟩
        · rw [m1]
          show Except.ok (d', o'.c.v.buf.buf, none) = _
          rw [k]
          have : text [.sgr [0]] = Itr.ends := by decide +kernel
          rw [this]
        · refine unseen_from hsp heq hc world sus hlast l o'.f d' _ _ ?_ hh ?_ F' k2 fun p hp => hi p (List.mem_cons_of_mem _ hp)
          · rw [m2]; exact W'
          · exact ⟨F'.inv, by rw [k1]; exact S.shows, S.plain, S.fits⟩
      · rw [hu] at e2; cases e2

/-- **C146**, negation of the rest: `interact` with a command of one word, or whose last word is a variable, never shows anything
while the overlay is hidden, from its start on, as long as no word is pressed: the sequence that ends the style of the last word
is left in the buffer, and `WriteTo` takes it for the rest of an earlier flush (`screen.go:113-116`).  Redraws do not help. -/
theorem interact_unseen {ε : Type} (hsp : Printable gr 0x20) (heq : Printable gr 0x3D) (hc : cmd ≠ [])
    (world : List (List Bytes) → Itr.Outcome) (sus : Option ε) (hlast : Itr.Spec.styled ts = true) (t : Term) (hw : 1 ≤ t.w) (hh : 2 ≤ t.h)
    (s : Itr.St) (hs : ({} : Itr.St).setCmd cmd = some s) (Sh : Itr.Spec.Shows cmd s.val ts) (hpl : ∀ t ∈ ts, t.Plain gr)
    (hf : (Itr.Spec.line 0 ts).length < t.w) (l : List (Bool × Evq.Events))
    (hi : ∀ p ∈ l, (∀ e ∈ p.2, Evq.isRune [0x03] e = false) ∧ ∀ i < ts.length, Hud.Spec.odd (Itr.Spec.place 0 ts i) p.2 = false) :
    Unseen gr world sus ⟨s, {}⟩ (sizeTo {} (t.w, t.h)) t l := by
  obtain ⟨s', h1, I, -, hsz, h5⟩ := Itr.setCmd_start cmd
  rw [hs] at h1
  injection h1 with h1
  subst h1
  have F : Itr.Fits cmd ⟨s, {}⟩ (0, 0) := ⟨I, ⟨rfl, rfl, rfl, Or.inr rfl, by simp⟩, hsz, fun _ => rfl⟩
  have e : ({} : Differ).invalidate = {} := by decide +kernel
  have Y := new_synced t hw (by omega)
  rw [← e] at Y
  exact unseen_from hsp heq hc world sus hlast l _ _ t _ Y.whole hh ⟨I, Sh, hpl, hf⟩ F h5.1 hi

/-! ### The hypotheses hold -/

/-- `interact rm $x y` on a terminal of 12 columns and 5 rows, after its first frame: the last word has no style. -/
example : Itr.Setup Itr.grX Itr.cmdX Itr.fX.s Itr.tsX 12 ∧ Itr.Spec.styled Itr.tsX = false ∧ Itr.fX.s.edid = 0 ∧
    Itr.fX.s.size = (12, 3) ∧ Itr.Area Itr.fX.out 12 3 ∧
    (∀ t ∈ Itr.tsX, (∀ r ∈ t.text, Printable Itr.grX r) ∧ ∀ r ∈ t.val, Printable Itr.grX r) := by
  refine ⟨Itr.setupX, by decide, by decide +kernel, by decide +kernel, ⟨by decide +kernel, by decide +kernel, by decide +kernel⟩, ?_⟩
  have hg : ∀ r, 0x20 ≤ r ∧ r < 0x7F → Printable Itr.grX r := by
    intro r h
    refine ⟨h.1, .inl h.2, .inl (by omega), ?_, by simp [Itr.grX, h]⟩
    unfold isEscape; simp; omega
  have hd : ∀ t ∈ Itr.tsX, (∀ r ∈ t.text, 0x20 ≤ r ∧ r < 0x7F) ∧ ∀ r ∈ t.val, 0x20 ≤ r ∧ r < 0x7F := by decide
  exact fun t ht => ⟨fun r hr => hg r ((hd t ht).1 r hr), fun r hr => hg r ((hd t ht).2 r hr)⟩

/-- What the first frame and the second one of a command write, from the start on a terminal of 12 columns and 5 rows. -/
def flushedX (cmd : List Bytes) (es : Evq.Events) : Option (Bytes × Bytes) := do
  let s ← ({} : Itr.St).setCmd cmd
  let r ← (itrFrame (ε := Unit) Itr.grX Itr.worldX none ⟨s, {}⟩ [] (sizeTo {} (12, 5)) none none).toOption
  let q ← (r.2.writeTo Itr.grX .ok).toOption
  let r2 ← (itrFrame (ε := Unit) Itr.grX Itr.worldX none r.1.f es q.1 none none).toOption
  let q2 ← (r2.2.writeTo Itr.grX .ok).toOption
  pure (q.2.1, q2.2.1)

/-- `interact ls` writes nothing but the end of a style. -/
example : flushedX [ascii "ls"] [] = some (text [.sgr [0]], text [.sgr [0]]) := by decide +kernel

/-- `interact ls a` writes its words and the outcome, and then nothing as nothing changes. -/
example : flushedX [ascii "ls", ascii "a"] [] =
    some (text [.hide, .eraseAll, .cup 1 1, .sgr [0, 32]] ++ ascii "ls" ++ Itr.ends ++ ascii " a\r\nstatus: ok\r\nlsa", []) := by decide +kernel

/-- The hypotheses of `interact_unseen` hold for `interact ls`. -/
example : [ascii "ls"] ≠ [] ∧ Itr.Spec.styled [⟨false, [0x6C, 0x73], []⟩] = true ∧
    ∃ s, ({} : Itr.St).setCmd [ascii "ls"] = some s ∧ Itr.Spec.Shows [ascii "ls"] s.val [⟨false, [0x6C, 0x73], []⟩] ∧
      (Itr.Spec.line 0 [⟨false, [0x6C, 0x73], []⟩]).length < 12 := by
  refine ⟨by decide, by decide, _, rfl, ⟨by decide +kernel, by decide +kernel, ?_⟩, by decide⟩
  intro i h hv
  simp only [List.length_singleton, Nat.lt_one_iff] at h
  subst h
  cases hv

/-- An outcome. -/
example : ∃ v', Itr.print Itr.grX { status := encodeRunes [0x6F, 0x6B], err := (some [0x65]).map encodeRunes, out := encodeRunes [0x61] } (.ran []) Itr.vX =
      .ok v' ∧ Spec.outcome [0x6F, 0x6B] (some [0x65]) [0x61] =
        [Spec.uncoloured [0x73, 0x74, 0x61, 0x74, 0x75, 0x73, 0x3A, 0x20, 0x6F, 0x6B],
          Spec.coloured 1 [0x65, 0x72, 0x72, 0x6F, 0x72, 0x3A, 0x20, 0x65], Spec.uncoloured [0x61]] := by
  refine ⟨_, rfl, by decide⟩

end Direct
end Anansi
