import Verif.Props.Pictures
import Verif.Props.Lolwut
/-
C145: what is on the terminal while lolwut runs with -i.
-/
set_option autoImplicit false

namespace Anansi
open Vt Geom Render

namespace Direct
open Anansi.Spec

/-- A frame of lolwut (`platform.go:253-281`, `cmd/lolwut/interact.go:26-86`), up to the flush.  `Clear` leaves nothing in
the buffer and no user cursor (`screen.go:35-43`). -/
def lolFrame {ε : Type} (g : Lol.Demo) (art : Int → Int → Int → Nat → Nat → Lol.Turn) (sus : Option ε) (es : Evq.Events) (d : Differ)
    (winch redraw : Option (Nat × Nat)) : Except Fault (Lol.Out ε × Differ) :=
  (begin d winch redraw).bind fun d =>
  match g.update art sus es d.v.sc with
  | some o => .ok (o, { d with v := ⟨o.sc, d.v.buf.reset⟩, user := {} })
  | none => .error .panic

namespace Spec

/-- The dots of the terminal's cells, two by four of them in a cell, that are lit are those of the sides of the squares, `side`
dots wide, `cols` of them beside each other and `rows` below each other; in the columns and rows of cells up to `cw` and `ch`.  The
other cells are blank. -/
def Squares (L : Pt → Pt → List Pt) (turn : Nat → Nat → Lol.Turn) (side padding : Int) (cols rows cw ch : Nat) (t : Term) : Prop :=
  ∀ x y : Nat, x < t.w → y < t.h →
    if x < cw ∧ y < ch then
      0x2800 ≤ (t.cell x y).rune ∧ (t.cell x y).rune < 0x2900 ∧ (t.cell x y).style = {} ∧
        ∀ i j : Nat, i < 2 → j < 4 →
          (Bitmap.dotOn (t.cell x y).rune i j = true ↔ Lol.Spec.onPicture L turn side padding cols rows ⟨2 * x + i, 4 * y + j⟩)
    else t.cell x y = blank

end Spec

theorem clear_blank {sc : Screen} {w h : Nat} (W : sc.Whole w h) :
    ∃ sc1, sc.clear = .ok sc1 ∧ sc1.Whole w h ∧ ∀ x y, x < w → y < h → sc1.look w x y = some {} := by
  have hsub := Differ.whole_not_sub W
  refine ⟨{ cur := {}, grid := { sc.grid with cells := List.replicate sc.grid.len {} ++ sc.grid.cells.drop sc.grid.len } }, ?_,
    ⟨W.hw, W.hh, W.rect, W.stride, W.len, ?_⟩, fun x y hx hy => ?_⟩
  · unfold Screen.clear Grid.clear
    rw [hsub]
    simp
  · have h1 := W.cap
    have h2 := W.len
    simp; omega
  · show (List.replicate sc.grid.len ({} : Cell) ++ sc.grid.cells.drop sc.grid.len)[y * w + x]? = _
    have hlt : y * w + x < sc.grid.len := by rw [W.len]; exact Screen.idx_lt hx hy
    simp [List.getElem?_append, hlt]

/-- What `show` draws: the canvas has the squares, and the screen the canvas. -/
theorem show_canvas {L : Pt → Pt → List Pt} (hL : ∀ fr dst, Lol.Draws (fun b => Lol.line b fr dst) (fun q => q ∈ L fr dst))
    (g : Lol.Demo) (hd : 0 ≤ g.side) {cw ch : Nat} (C : Lol.Canvas g.canvas cw ch) (art : Nat → Nat → Lol.Turn) {w h : Nat}
    (sc : Screen) (W : sc.Whole w h) :
    ∃ b sc', g.show art sc = some ({ g with canvas := b }, sc') ∧ Lol.Canvas b cw ch ∧ sc'.Whole w h ∧
      (∀ x y, x < w → y < h → sc'.look w x y = some (if within b x y then ⟨runeOf b x y, 0⟩ else {})) ∧
      ∀ q, b.bitIn q = true ↔ Lol.Spec.onPicture L art g.side g.padding g.perRow.toNat g.perCol.toNat q ∧ Mem q b.rect := by
  have mw : g.wipe.canvas.Made := C.made.write _ (by simp)
  obtain ⟨bits, h1, h2, h3⟩ := Lol.draw_picture hL g.wipe hd art mw
  have hoff : ∀ q, g.wipe.canvas.bitIn q = false := fun q => Lol.wipe_off g.canvas q
  obtain ⟨sc1, c1, W1, c2⟩ := clear_blank W
  have mb : Bitmap.Made { g.wipe.canvas with bit := bits } := mw.write bits h2
  have hbr : ({ g.wipe.canvas with bit := bits } : Bitmap).rect = ⟨⟨0, 0⟩, ⟨2 * cw, 4 * ch⟩⟩ := C.rect
  obtain ⟨cells, g1, g2, g3⟩ := draw_on W1 c2 mb (by unfold Grid.WF; rw [hbr]; simp)
  refine ⟨_, _, ?_, ⟨mb, hbr⟩, g2, g3, fun q => ?_⟩
  · unfold Lol.Demo.show
    rw [h1, Option.bind_some, c1]
    simp only [Option.bind_some]
    rw [g1]
    rfl
  · rw [h3, hoff]
    simp only [Bool.false_eq_true, false_or]
    exact Iff.rfl

/-- An update of lolwut on a whole screen. -/
theorem lol_update {ε : Type} (g : Lol.Demo) (hs : 1 ≤ g.side) {cw ch : Nat} (C : Lol.Canvas g.canvas cw ch)
    (art : Int → Int → Int → Nat → Nat → Lol.Turn) (sus : Option ε) (es : Evq.Events) {w h : Nat} (sc : Screen) (W : sc.Whole w h) :
    ∃ L o, ∃ a b : Nat, (∀ fr dst, Anansi.Spec.IsLine fr dst (L fr dst)) ∧ g.update art sus es sc = some o ∧
      o.demo.side = max 1 (g.side + Lol.Spec.turns sc.grid.rect es) ∧ Lol.Canvas o.demo.canvas a b ∧
      (w = cw ∧ Lol.Spec.turns sc.grid.rect es = 0 → a = cw ∧ b = ch) ∧
      (w ≠ cw ∨ Lol.Spec.turns sc.grid.rect es ≠ 0 → a = w ∧ b = h) ∧
      ((∀ e ∈ es, Dem.Spec.key 0x03 e = false ∧ Dem.Spec.key 0x1A e = false) → o.res = .ok) ∧ o.sc.Whole w h ∧
      (∀ x y, x < w → y < h → o.sc.look w x y = some (if within o.demo.canvas x y then ⟨runeOf o.demo.canvas x y, 0⟩ else {})) ∧
      ∀ q, o.demo.canvas.bitIn q = true ↔
        Lol.Spec.onPicture L (art o.demo.side o.demo.perRow o.demo.perCol) o.demo.side o.demo.padding o.demo.perRow.toNat
          o.demo.perCol.toNat q ∧ Mem q o.demo.canvas.rect := by
  obtain ⟨L, l1, l2⟩ := Lol.lines
  have ht := Lol.turns_read sc.grid.rect es
  generalize hT : Lol.Spec.turns sc.grid.rect es = T at *
  have hzs : (g.zoom T).side = max 1 (g.side + T) := by
    unfold Lol.Demo.zoom
    split
    · simp only
      split <;> omega
    · omega
  have hzc : (g.zoom T).canvas = g.canvas := by
    unfold Lol.Demo.zoom
    split <;> rfl
  have hdims : Dem.dims sc.grid.rect = (w, h) := by
    unfold Dem.dims
    rw [W.rect]
    simp [Geom.size]
  obtain ⟨d1, f1, f2, f3, f4⟩ := Lol.fit_ok (g.zoom T) (by omega) (hzc ▸ C) (decide (T ≠ 0)) w h
  obtain ⟨a, b, c1, c2, c3⟩ : ∃ a b, Lol.Canvas d1.canvas a b ∧ (w = cw ∧ T = 0 → a = cw ∧ b = ch) ∧ (w ≠ cw ∨ T ≠ 0 → a = w ∧ b = h) := by
    by_cases hc : w ≠ cw ∨ T ≠ 0
    · exact ⟨w, h, (f4 (by simpa using hc)).1, fun hn => by
        rcases hc with hc | hc
        · exact absurd hn.1 hc
        · exact absurd hn.2 hc, fun _ => ⟨rfl, rfl⟩⟩
    · have hn : w = cw ∧ T = 0 := by
        constructor
        · by_contra h1; exact hc (Or.inl h1)
        · by_contra h1; exact hc (Or.inr h1)
      refine ⟨cw, ch, ?_, fun _ => ⟨rfl, rfl⟩, fun h1 => absurd h1 hc⟩
      rw [f3 ⟨hn.1, by simp [hn.2]⟩, hzc]
      exact C
  obtain ⟨bm, sc', g1, g2, g3, g4, g5⟩ := show_canvas l2 d1 (by omega) c1 (art d1.side d1.perRow d1.perCol) sc W
  refine ⟨L, {
    demo := { d1 with canvas := bm }, sc := sc',
    es := (Evq.totalScrollIn sc.grid.rect 0 (Evq.countRune [0x1A] 0 (Evq.hasTerminal 0x03 es).1).1).1,
    res := if (Evq.hasTerminal 0x03 es).2 then .interrupt
      else if (Evq.countRune [0x1A] 0 (Evq.hasTerminal 0x03 es).1).2 > 0 ∧ (Evq.hasTerminal 0x03 es).2 = false then
        (match sus with | some e => .failed e | none => .ok) else .ok,
    suspended := decide ((Evq.countRune [0x1A] 0 (Evq.hasTerminal 0x03 es).1).2 > 0 ∧ (Evq.hasTerminal 0x03 es).2 = false) },
    a, b, l1, ?_, by simp only; omega, g2, c2, c3, fun hk => ?_, g3, g4, g5⟩
  · unfold Lol.Demo.update
    simp only [ht, hdims, f1, Option.bind_some, g1]
    rfl
  · obtain ⟨k1, k2, -⟩ := Lol.keys_read es
    have n1 : (Evq.hasTerminal 0x03 es).2 = false := by
      cases h1 : (Evq.hasTerminal 0x03 es).2
      · rfl
      · obtain ⟨e, he, h2⟩ := k1.1 h1
        rw [(hk e he).1] at h2; cases h2
    have n2 : ¬ ((Evq.countRune [0x1A] 0 (Evq.hasTerminal 0x03 es).1).2 > 0 ∧ (Evq.hasTerminal 0x03 es).2 = false) := by
      intro h1
      obtain ⟨⟨e, he, h2⟩, -⟩ := k2.1 h1
      rw [(hk e he).2] at h2; cases h2
    simp only
    rw [n1] at n2 ⊢
    rw [if_neg Bool.false_ne_true, if_neg n2]

/-- What a frame of lolwut leaves, and shows when it is flushed. -/
theorem lol_frame {ε : Type} (gr : Nat → Bool) (hsp : Printable gr 0x20) (hbr : ∀ r, 0x2800 ≤ r → r < 0x2900 → Printable gr r)
    {d : Differ} {t t1 : Term} {old : Option Screen} {a : Pt}
    (Y : Synced d t old a) (redraw : Bool) (cell : Nat → Nat → Glyph) (x y : Nat) (pend : Bool) (ht1 : t1 = { t with cell, x, y, pend })
    (hr : redraw = false → t1 = t) (g : Lol.Demo) (hs : 1 ≤ g.side) {cw ch : Nat} (C : Lol.Canvas g.canvas cw ch)
    (art : Int → Int → Int → Nat → Nat → Lol.Turn) (sus : Option ε) (es : Evq.Events) :
    ∃ L o d1, ∃ p q : Nat, (∀ fr dst, Anansi.Spec.IsLine fr dst (L fr dst)) ∧
      lolFrame g art sus es d none (if redraw then some (t1.w, t1.h) else none) = .ok (o, d1) ∧
      o.demo.side = max 1 (g.side + Lol.Spec.turns ⟨⟨1, 1⟩, ⟨t1.w + 1, t1.h + 1⟩⟩ es) ∧ Lol.Canvas o.demo.canvas p q ∧
      (t1.w = cw ∧ Lol.Spec.turns ⟨⟨1, 1⟩, ⟨t1.w + 1, t1.h + 1⟩⟩ es = 0 → p = cw ∧ q = ch) ∧
      (t1.w ≠ cw ∨ Lol.Spec.turns ⟨⟨1, 1⟩, ⟨t1.w + 1, t1.h + 1⟩⟩ es ≠ 0 → p = t1.w ∧ q = t1.h) ∧
      ((∀ e ∈ es, Dem.Spec.key 0x03 e = false ∧ Dem.Spec.key 0x1A e = false) → o.res = .ok) ∧
      Smooth t1.w zp (Spec.cells t1.w t1.h none d1.v.sc) ∧
      (Smooth t1.w (if redraw then zp else a) (Spec.cells t1.w t1.h (if redraw then none else old) d1.v.sc) →
        ((if redraw then none else old) = none → t1.bce = true → t1.style.bg = none) →
        ∃ d' ops, d1.writeTo gr .ok = .ok (d', text ops, none) ∧ (t1.run ops).w = t1.w ∧ (t1.run ops).h = t1.h ∧
          Spec.Squares L (art o.demo.side o.demo.perRow o.demo.perCol) o.demo.side o.demo.padding o.demo.perRow.toNat
            o.demo.perCol.toNat p q (t1.run ops) ∧ (t1.run ops).vis = false ∧
          Synced d' (t1.run ops) (some d1.v.sc)
            (Spec.stop (if redraw then zp else a) (Spec.cells t1.w t1.h (if redraw then none else old) d1.v.sc))) := by
  have hw1 : t1.w = t.w := by rw [ht1]
  have hh1 : t1.h = t.h := by rw [ht1]
  obtain ⟨v0, e1, W0, hbuf, -, -⟩ := reset_blank Y
  have Y0 : Synced { d with v := v0, user := {} } t old a := ⟨W0, Y.agree, Y.known, Y.rest, Y.pen⟩
  have hbegin : ∃ d2, begin d none (if redraw then some (t1.w, t1.h) else none) = .ok d2 ∧ d2.v = v0 ∧
      Synced d2 t1 (if redraw then none else old) (if redraw then zp else a) := by
    unfold begin
    simp only [e1]
    cases redraw with
    | false => rw [hr rfl]; exact ⟨_, rfl, rfl, Y0⟩
    | true =>
      have Y1 := redraw_synced Y0 cell x y pend
      rw [← ht1] at Y1
      refine ⟨_, rfl, ?_, ?_⟩
      · show (sizeTo (Differ.invalidate { d with v := v0, user := {} }) (t1.w, t1.h)).v = v0
        rw [sizeTo_same Y1.whole]
        rfl
      · exact sizeTo_synced Y1 t1.w t1.h Y1.whole.hw Y1.whole.hh t1.cell t1.x t1.y t1.pend
  obtain ⟨d2, b1, b2, Y2⟩ := hbegin
  rw [← hw1, ← hh1] at W0
  obtain ⟨L, o, p, q, u1, u2, u3, u4, u5, u6, ur, u7, u8, u9⟩ := lol_update g hs C art sus es v0.sc W0
  rw [W0.rect] at u3 u5 u6
  have hrange := runeOf_range o.demo.canvas
  refine ⟨L, o, { d2 with v := ⟨o.sc, d2.v.buf.reset⟩, user := {} }, p, q, u1, ?_, u3, u4, u5, u6, ur, picture_smooth W0.hw o.demo.canvas u8,
    fun hs hbg => ?_⟩
  · unfold lolFrame
    rw [b1]
    show (match g.update art sus es d2.v.sc with | some _ => _ | none => _) = _
    rw [b2, u2]
  let pic : Term := { clearTerm t1.w t1.h with cell := picGlyph o.demo.canvas }
  have hpic : Shows pic o.sc t1.w t1.h := by
    refine ⟨rfl, rfl, fun x y hx hy => ⟨_, u8 x y hx hy, ?_⟩⟩
    show Inked _ (picGlyph o.demo.canvas x y)
    unfold picGlyph
    cases hwi : within o.demo.canvas x y
    · exact ⟨rfl, rfl, show (0 : Attr) = Sgr.Style.build {} by decide⟩
    · have hne : runeOf o.demo.canvas x y ≠ 0 := by have := (hrange x y).1; omega
      refine ⟨?_, rfl, show (0 : Attr) = Sgr.Style.build {} by decide⟩
      simp [ink, hne]
  have hprint : ∀ x y, Printable gr (pic.cell x y).rune := by
    intro x y
    show Printable gr (picGlyph o.demo.canvas x y).rune
    unfold picGlyph
    cases within o.demo.canvas x y
    · exact hsp
    · exact hbr _ (hrange x y).1 (hrange x y).2
  obtain ⟨d', ops, h1, h2, h3, h4, h5, h6, h7⟩ :=
    flushed gr hsp Y2 ⟨o.sc, d2.v.buf.reset⟩ u7 rfl pic hpic hprint {}
      (fun h => by simp [Spec.seen] at h) ⟨by simpa [Spec.seen] using hs, hbg⟩
  refine ⟨d', ops, h1, h2, h3, fun x y hx hy => ?_, h5, h7⟩
  have G := glyph_pictured o.demo.canvas x y (h4 x y (by omega) (by omega))
  have hdx : ((2 * x : Int) < dx o.demo.canvas.rect ∧ (4 * y : Int) < Geom.dy o.demo.canvas.rect) ↔ x < p ∧ y < q := by
    rw [u4.rect]
    simp only [dx, Geom.dy]
    omega
  by_cases hin : x < p ∧ y < q
  · rw [if_pos hin]
    rw [if_pos (hdx.2 hin)] at G
    refine ⟨G.1, G.2.1, G.2.2.1, fun i j hi hj => ?_⟩
    rw [G.2.2.2 i j hi hj, u9, u4.rect]
    simp only [Int.zero_add]
    refine ⟨fun h => h.1, fun h => ⟨h, ?_⟩⟩
    simp only [Mem]; omega
  · rw [if_neg hin]
    rw [if_neg (fun h => hin (hdx.1 h))] at G
    exact G

/-! ### Sessions -/

/-- A frame: what happened before, whether there is a redraw, the events, and what is computed in floating point. -/
structure LolTurn where
  before : Before
  redraw : Bool
  es : Evq.Events
  art : Int → Int → Int → Nat → Nat → Lol.Turn

/-- Every frame without Ctrl-C and Ctrl-Z is drawn without a fault; the wheel changes the size of the squares, down to one
dot; the picture is as large as the terminal, unless only the height has changed since it was; and the terminal shows the squares
after the flush, dot for dot, with the cursor hidden.  If only what differs is written, and this takes awkward jumps, nothing is
said.  The picture was `cw` by `ch` cells before. -/
def LolShown {ε : Type} (gr : Nat → Bool) (sus : Option ε) : Lol.Demo → Nat → Nat → Differ → Term → Option Screen → Pt → List LolTurn → Prop
  | _, _, _, _, _, _, _, [] => True
  | g, cw, ch, d, t, old, a, f :: l =>
    let t1 := f.before.term t
    let old1 := if f.before.forgets f.redraw then none else old
    let a1 := if f.before.forgets f.redraw then zp else a
    let box : Rect := ⟨⟨1, 1⟩, ⟨t1.w + 1, t1.h + 1⟩⟩
    f.before.Ok → (∀ e ∈ f.es, Dem.Spec.key 0x03 e = false ∧ Dem.Spec.key 0x1A e = false) →
      ∃ L o d1, ∃ p q : Nat, (∀ fr dst, Anansi.Spec.IsLine fr dst (L fr dst)) ∧
        lolFrame g f.art sus f.es d f.before.winch (if f.before.redraws f.redraw then some (t1.w, t1.h) else none) = .ok (o, d1) ∧
        o.res = .ok ∧ o.demo.side = max 1 (g.side + Lol.Spec.turns box f.es) ∧
        (t1.w = cw ∧ Lol.Spec.turns box f.es = 0 → p = cw ∧ q = ch) ∧
        (t1.w ≠ cw ∨ Lol.Spec.turns box f.es ≠ 0 → p = t1.w ∧ q = t1.h) ∧
        ((old1 ≠ none → Smooth t1.w a1 (Spec.cells t1.w t1.h old1 d1.v.sc)) → (old1 = none → t1.bce = true → t1.style.bg = none) →
          ∃ d' ops, d1.writeTo gr .ok = .ok (d', text ops, none) ∧ (t1.run ops).w = t1.w ∧ (t1.run ops).h = t1.h ∧
            Spec.Squares L (f.art o.demo.side o.demo.perRow o.demo.perCol) o.demo.side o.demo.padding o.demo.perRow.toNat
              o.demo.perCol.toNat p q (t1.run ops) ∧ (t1.run ops).vis = false ∧
            LolShown gr sus o.demo p q d' (t1.run ops) (some d1.v.sc) (Spec.stop a1 (Spec.cells t1.w t1.h old1 d1.v.sc)) l)

theorem lol_from {ε : Type} (gr : Nat → Bool) (hsp : Printable gr 0x20) (hbr : ∀ r, 0x2800 ≤ r → r < 0x2900 → Printable gr r)
    (sus : Option ε) : ∀ (l : List LolTurn) (g : Lol.Demo) (cw ch : Nat) (d : Differ) (t : Term) (old : Option Screen) (a : Pt),
      1 ≤ g.side → Lol.Canvas g.canvas cw ch → Synced d t old a → (old = none → a = zp) → LolShown gr sus g cw ch d t old a l
  | [], _, _, _, _, _, _, _, _, _, _, _ => trivial
  | ⟨b, redraw, es, art⟩ :: l, g, cw, ch, d, t, old, a, hs, C, Y, ho => by
    intro hb hk
    cases b with
    | same =>
      obtain ⟨L, o, d1, p, q, k1, k2, k3, k4, k5, k6, kr, k7, k8⟩ :=
        lol_frame gr hsp hbr (t1 := t) Y redraw t.cell t.x t.y t.pend rfl (fun _ => rfl) g hs C art sus es
      refine ⟨L, o, d1, p, q, k1, k2, kr hk, k3, k5, k6, fun hs hbg => ?_⟩
      have S := cells_smooth (fun _ => k7) (fun h => by
        cases redraw with
        | true => rfl
        | false => exact ho h) hs
      obtain ⟨d', ops, m1, m2, m3, m4, m5, m6⟩ := k8 S hbg
      exact ⟨d', ops, m1, m2, m3, m4, m5, lol_from gr hsp hbr sus l _ _ _ _ _ _ _ (by omega) k4 m6 (fun h => by cases h)⟩
    | sized w h cell x y pend =>
      have Y1 := sizeTo_synced Y w h hb.1 hb.2 cell x y pend
      obtain ⟨L, o, d1, p, q, k1, k2, k3, k4, k5, k6, kr, k7, k8⟩ :=
        lol_frame gr hsp hbr (t1 := { t with w, h, cell, x, y, pend }) Y1 redraw cell x y pend rfl (fun _ => rfl) g hs C art sus es
      rw [show (if redraw then (none : Option Screen) else none) = none by cases redraw <;> rfl,
        show (if redraw then zp else zp) = zp by cases redraw <;> rfl] at k8
      refine ⟨L, o, d1, p, q, k1, k2, kr hk, k3, k5, k6, fun hs hbg => ?_⟩
      have S := cells_smooth (fun _ => k7) (fun _ => rfl) hs
      obtain ⟨d', ops, m1, m2, m3, m4, m5, m6⟩ := k8 S hbg
      exact ⟨d', ops, m1, m2, m3, m4, m5, lol_from gr hsp hbr sus l _ _ _ _ _ _ _ (by omega) k4 m6 (fun h => by cases h)⟩
    | garbled cell x y pend =>
      obtain ⟨L, o, d1, p, q, k1, k2, k3, k4, k5, k6, kr, k7, k8⟩ :=
        lol_frame gr hsp hbr (t1 := { t with cell, x, y, pend }) Y true cell x y pend rfl (fun h => (by cases h)) g hs C art sus es
      refine ⟨L, o, d1, p, q, k1, k2, kr hk, k3, k5, k6, fun hs hbg => ?_⟩
      have S := cells_smooth (fun _ => k7) (fun _ => rfl) hs
      obtain ⟨d', ops, m1, m2, m3, m4, m5, m6⟩ := k8 S hbg
      exact ⟨d', ops, m1, m2, m3, m4, m5, lol_from gr hsp hbr sus l _ _ _ _ _ _ _ (by omega) k4 m6 (fun h => by cases h)⟩

/-- **C145**: lolwut with -i, from entering the terminal on, whatever is on it then, with squares of any size (20 dots at first,
`interact.go:20`) and a canvas of any size.  Partial: frames that are not drawn anew and take awkward jumps (`animation_wrong`), and the
rows that a higher terminal gains stay blank (`Lol.taller_blank`). -/
theorem lolwut_shown_partial {ε : Type} (gr : Nat → Bool) (hsp : Printable gr 0x20) (hbr : ∀ r, 0x2800 ≤ r → r < 0x2900 → Printable gr r)
    (sus : Option ε) (t : Term) (hw : 1 ≤ t.w) (hh : 1 ≤ t.h) (g : Lol.Demo) (hs : 1 ≤ g.side) (cw ch : Nat)
    (C : Lol.Canvas g.canvas cw ch) (l : List LolTurn) : LolShown gr sus g cw ch (sizeTo {} (t.w, t.h)) t none zp l := by
  have e : ({} : Differ).invalidate = {} := by decide +kernel
  have Y := new_synced t hw hh
  rw [← e] at Y
  exact lol_from gr hsp hbr sus l _ _ _ _ _ _ _ hs C Y fun _ => rfl

/-- The hypotheses hold: the first picture, of 40 columns and 30 rows of cells; and on a terminal of one cell with squares of one dot
without turns, what is written. -/
example : 1 ≤ (20 : Int) ∧ Lol.Canvas (Bitmap.resize (40 * 2) (30 * 4)) 40 30 := ⟨by decide, Lol.canvas_resize 40 30⟩

example : (match lolFrame (ε := Unit) { side := 3, canvas := Bitmap.resize 0 0 }
      (fun _ _ _ _ _ => ⟨⟨0, 0⟩, fun i => [⟨-1, -1⟩, ⟨0, -1⟩, ⟨0, 0⟩, ⟨-1, 0⟩, ⟨-1, -1⟩].getD i ⟨0, 0⟩⟩) none [] (sizeTo {} (1, 1)) none none with
    | .ok (o, d1) => (match d1.writeTo graph .ok with | .ok (_, p, _) => some (o.demo.perRow, o.demo.perCol, p) | .error _ => none)
    | .error _ => none) = some (1, 2, text [.hide, .eraseAll, .cup 1 1, .sgr [0], .put 0x28DB]) := by decide +kernel

end Direct
end Anansi
