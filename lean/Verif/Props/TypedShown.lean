import Verif.Props.PlatShown
import Verif.Props.Typing
import Verif.Props.Session
/-
C133: what is typed into an edit line shows on the terminal.
-/
set_option autoImplicit false

namespace Anansi
open Vt Geom Render

namespace Direct
open Anansi.Spec Typ Evq
open Typ.Spec (Stroke Sent edited)

/-! ### Specification -/

namespace Spec

/-- Where a line is edited: its box is `bw` columns from column `bx` of row `by_`, counted from zero. -/
structure Place where
  bx : Nat
  by_ : Nat
  bw : Nat

/-- The box is on the terminal, with two columns to spare at its right, and not too narrow. -/
def Place.Fits (p : Place) (w h : Nat) : Prop := 2 ≤ p.bw ∧ p.bx + p.bw + 1 < w ∧ p.by_ < h

/-- What is seen of a text of which the characters from `lo` to `hi` are shown: these, from the
left of the box on, and nothing else. -/
def Place.glyph (p : Place) (text : List Nat) (lo hi a b : Nat) : Glyph :=
  if b = p.by_ ∧ p.bx ≤ a ∧ a < p.bx + (hi - lo) then ⟨text.getD (lo + (a - p.bx)) 0, {}⟩ else blank

/-- A terminal shows a line being edited: a part of the text around the cursor, all of it if it fits,
and nothing else; and its cursor, which is to be seen, at its place in the text. -/
def Place.Shows (p : Place) (t : Term) (s : Anansi.Spec.Line) : Prop :=
  ∃ lo hi, lo ≤ s.cur ∧ s.cur ≤ hi ∧ hi ≤ s.text.length ∧ hi - lo ≤ p.bw ∧ (s.text.length ≤ p.bw → lo = 0 ∧ hi = s.text.length) ∧
    (s.text ≠ [] → lo < hi) ∧
    (∀ a b, a < t.w → b < t.h → t.cell a b = p.glyph s.text lo hi a b) ∧
    t.vis = true ∧ t.x = p.bx + (s.cur - lo) ∧ t.y = p.by_ ∧ t.pend = false

end Spec

open Direct.Spec (Place)

/-! ### Drawing -/

theorem printed {gr : Nat → Bool} {r : Nat} (h : Printable gr r) : Screen.Printable gr r := by
  obtain ⟨h1, h2, h3, h4, h5⟩ := h
  refine ⟨⟨?_, ?_⟩, h5, h4, by omega, by omega⟩
  · unfold validRune; simp; omega
  · unfold startsEscape; simp; omega

/-- The line is set up to be edited at its place. -/
structure Edit (p : Place) (l : Edl.EditLine) (s : Anansi.Spec.Line) : Prop where
  min : l.box.min = ⟨p.bx + 1, p.by_ + 1⟩
  dx : Geom.dx l.box = p.bw
  view : 0 ≤ l.view
  ready : l.state = .ready
  holds : Edl.Holds l s

/-- A screen with a line on it. -/
def Lined (p : Place) (text : List Nat) (lo hi w h : Nat) (sc : Screen) : Prop :=
  ∀ a b, a < w → b < h → ∃ c, sc.look w a b = some c ∧
    (if b = p.by_ ∧ p.bx ≤ a ∧ a < p.bx + (hi - lo) then c = ⟨text.getD (lo + (a - p.bx)) 0, 0⟩
    else c = {} ∨ (c = ⟨0x20, 0⟩ ∧ b = p.by_ ∧ p.bx ≤ a ∧ a ≤ p.bx + p.bw))

/-- A line with nothing in it is drawn. -/
theorem empty_drawn (gr : Nat → Bool) (hsp : Printable gr 0x20) (p : Place) {w h : Nat} (hf : p.Fits w h) (l : Edl.EditLine)
    (s : Anansi.Spec.Line) (E : Edit p l s) (hs : s.text = []) (es : Events) (v : VScreen) (W : v.sc.Whole w h) (hb : v.buf = .empty)
    (hc : ∀ a b, a < w → b < h → v.sc.look w a b = some {}) (ha : v.sc.cur.attr = 0)
    (hp : v.sc.cur.pt = zp ∨ v.sc.cur.pt.y = p.by_ + 1) :
    ∃ f, l.draw gr es v {} = .ok f ∧ f.user = { visible := true, pt := ⟨p.bx + 1, p.by_ + 1⟩ } ∧
      f.line = { l with view := 0 } ∧ f.out.sc.Whole w h ∧ f.out.buf = .empty ∧ Lined p s.text 0 0 w h f.out.sc := by
  obtain ⟨f1, f2, f3⟩ := hf
  obtain ⟨lo, hi, w1, w2, w3, w4, w5, w6, w7, w8, -⟩ := Edl.window_ok l s p.bw E.holds (by omega) E.dx E.view
  have hshown := Edl.shown_text l s E.holds lo hi _ _ w1 w2 w3 w4
  obtain ⟨rfl, rfl⟩ : lo = 0 ∧ hi = 0 := by
    have := w8 (by rw [hs]; simp)
    rw [hs] at this
    exact this
  have hcur : s.cur = 0 := by
    have : s.cur ≤ s.text.length := E.holds.ok
    rw [hs] at this
    simpa using this
  have hbytes : l.shown l.window.1 l.window.2 = [] := by rw [hshown, hs]; rfl
  have hmark : ({ l with view := 0 } : Edl.EditLine).mark {} = { visible := true, pt := ⟨p.bx + 1, p.by_ + 1⟩ } := by
    unfold Edl.EditLine.mark
    simp only [E.min, E.holds.cur, hcur]
    simp
  have hdraw : l.draw gr es v {} = (Edl.blank gr { visible := true, pt := ⟨p.bx + 1, p.by_ + 1⟩ } v).map
      fun v => ⟨{ l with view := 0 }, es, v, { visible := true, pt := ⟨p.bx + 1, p.by_ + 1⟩ }⟩ := by
    unfold Edl.EditLine.draw
    simp only [hbytes]
    rw [w1]
    simp only [Nat.cast_zero, hmark]
    rfl
  rw [hdraw]
  unfold Edl.blank
  by_cases hx : v.sc.cur.pt.x = p.bx + 1
  · rw [if_pos hx]
    have hsp' : ∀ r ∈ [0x20], Screen.Printable gr r := by
      intro r hr
      rw [List.mem_singleton] at hr
      rw [hr]; exact printed hsp
    have hat : v.sc.CurAt p.bx p.by_ := by
      rcases hp with hp | hp
      · rw [hp] at hx; simp [zp] at hx; omega
      · show v.sc.cur.pt = _
        rw [show v.sc.cur.pt = ⟨v.sc.cur.pt.x, v.sc.cur.pt.y⟩ from rfl, hx, hp]
    obtain ⟨sc1, e1, W1, -, -, L1⟩ := Screen.print_text gr [0x20] hsp' v.sc p.bx p.by_ W f3 hat (by simp; omega)
    have hwt := VScreen.write_text gr v [0x20] (fun r hr => (hsp' r hr).plain) hb (by simp)
    rw [e1] at hwt
    rw [show encodeRune 0x20 = encodeRunes [0x20] by simp [encodeRunes], hwt]
    refine ⟨_, rfl, rfl, rfl, W1, rfl, fun a b ha' hb' => ?_⟩
    show ∃ c, sc1.look w a b = some c ∧ _
    have hno : ¬(b = p.by_ ∧ p.bx ≤ a ∧ a < p.bx + (0 - 0)) := by omega
    simp only [if_neg hno]
    rw [L1 a b ha' hb']
    by_cases hab : b = p.by_ ∧ p.bx ≤ a ∧ a < p.bx + [0x20].length
    · rw [if_pos hab]
      have : a - p.bx = 0 := by have := hab.2.2; simp at this; omega
      refine ⟨_, rfl, Or.inr ⟨by rw [this, ha]; rfl, hab.1, hab.2.1, ?_⟩⟩
      omega
    · rw [if_neg hab]
      exact ⟨_, hc a b ha' hb', Or.inl rfl⟩
  · rw [if_neg hx]
    refine ⟨_, rfl, rfl, rfl, W, hb, fun a b ha' hb' => ?_⟩
    have hno : ¬(b = p.by_ ∧ p.bx ≤ a ∧ a < p.bx + (0 - 0)) := by omega
    simp only [if_neg hno]
    exact ⟨_, hc a b ha' hb', Or.inl rfl⟩

/-- The keys of a frame are handled and the line is drawn on a blank screen. -/
theorem update_drawn (gr : Nat → Bool) (hgr : ∀ r, gr r = true → validRune r = true) (hct : Ctl gr) (hsp : Printable gr 0x20)
    (p : Place) {w h : Nat} (hf : p.Fits w h) (l : Edl.EditLine)
    (s : Anansi.Spec.Line) (E : Edit p l s) (ks : List Stroke) (hk : ∀ k ∈ ks, k.Ok gr) (es : Events)
    (he : Frm.Spec.live es = (ks.map ev).filter fun e => !Frm.Spec.ownKey e) (hsim : s.SimpleAll (ks.map Stroke.key))
    (hpr : ∀ r ∈ (edited s ks).text, Printable gr r) (v : VScreen) (W : v.sc.Whole w h) (hb : v.buf = .empty)
    (hc : ∀ a b, a < w → b < h → v.sc.look w a b = some {}) (ha : v.sc.cur.attr = 0)
    (hp : v.sc.cur.pt = zp ∨ v.sc.cur.pt.y = p.by_ + 1) :
    ∃ (f : Edl.Frame) (lo hi : Nat), l.update gr es v {} = .ok f ∧ lo ≤ (edited s ks).cur ∧ (edited s ks).cur ≤ hi ∧
      hi ≤ (edited s ks).text.length ∧ hi - lo ≤ p.bw ∧
      ((edited s ks).text.length ≤ p.bw → lo = 0 ∧ hi = (edited s ks).text.length) ∧ ((edited s ks).text ≠ [] → lo < hi) ∧
      f.user = { visible := true, pt := ⟨p.bx + 1 + ((edited s ks).cur - lo : Nat), p.by_ + 1⟩ } ∧
      Edit p f.line (edited s ks) ∧ f.out.sc.Whole w h ∧ f.out.buf = .empty ∧ Lined p (edited s ks).text lo hi w h f.out.sc := by
  obtain ⟨a1, -⟩ := frame_edits gr hgr hct l s ks hk es he E.holds hsim
  have keep := handleAll_keep gr es l
  have stays := handleAll_stays gr l ks hk es he E.ready
  have E1 : Edit p (l.handleAll gr es).1 (edited s ks) :=
    ⟨by rw [keep.1]; exact E.min, by rw [keep.1]; exact E.dx, by rw [keep.2]; exact E.view, stays, a1⟩
  have hup : l.update gr es v {} = (l.handleAll gr es).1.draw gr (l.handleAll gr es).2 v {} := by
    unfold Edl.EditLine.update
    rw [if_neg (by simp [E.ready])]
    simp only
    rw [if_neg (by simp [stays])]
  rw [hup]
  by_cases hne : (edited s ks).text = []
  · obtain ⟨f, g1, g2, g3, g4, g5, g6⟩ := empty_drawn gr hsp p hf _ _ E1 hne (l.handleAll gr es).2 v W hb hc ha hp
    have hcur : (edited s ks).cur = 0 := by
      have : (edited s ks).cur ≤ (edited s ks).text.length := a1.ok
      rw [hne] at this
      simpa using this
    refine ⟨f, 0, 0, g1, Nat.zero_le _, by omega, Nat.zero_le _, by omega, fun _ => ⟨rfl, by rw [hne]; rfl⟩, fun h => absurd hne h,
      by rw [g2, hcur]; simp, ?_, g4, g5, g6⟩
    rw [g3]
    exact ⟨E1.min, E1.dx, Int.le_refl 0, E1.ready, a1.view 0⟩
  · obtain ⟨f1, f2, f3⟩ := hf
    obtain ⟨f, lo, hi, d1, d2, d3, d4, d5, d6, d7, d8, d9, d10, d11, d12, d13⟩ :=
      Edl.draw_shows_full gr hsp.graphic _ _ (l.handleAll gr es).2 v {} a1 (fun r hr => printed (hpr r hr)) W hb E1.min E1.dx (by omega) f3 E1.view hne (by omega) (by omega)
    refine ⟨f, lo, hi, d1, d5, d6, d7, d4, d8, fun _ => by omega, d9, ?_, d11, d12, fun a b ha' hb' => ?_⟩
    · rw [d10]
      exact ⟨E1.min, E1.dx, Int.natCast_nonneg lo, E1.ready, a1.view _⟩
    · rw [d13 a b ha' hb', ha]
      by_cases h1 : b = p.by_ ∧ p.bx ≤ a ∧ a < p.bx + (hi - lo)
      · simp only [if_pos h1]; exact ⟨_, rfl, rfl⟩
      · simp only [if_neg h1]
        by_cases h2 : b = p.by_ ∧ a = p.bx + (hi - lo) ∧ (edited s ks).cur = hi
        · rw [if_pos h2]; exact ⟨_, rfl, Or.inr ⟨rfl, h2.1, by omega, by omega⟩⟩
        · rw [if_neg h2]; exact ⟨_, hc a b ha' hb', Or.inl rfl⟩

/-! ### Frames -/

/-- Outside the box there is nothing. -/
def Bare (p : Place) (w h : Nat) (sc : Screen) : Prop :=
  ∀ a b, a < w → b < h → ¬(b = p.by_ ∧ p.bx ≤ a ∧ a ≤ p.bx + p.bw) → sc.look w a b = some {}

theorem Lined.bare {p : Place} {text : List Nat} {lo hi w h : Nat} {sc : Screen} (L : Lined p text lo hi w h sc) (hl : hi - lo ≤ p.bw) :
    Bare p w h sc := by
  intro a b ha hb hn
  obtain ⟨c, h1, h2⟩ := L a b ha hb
  rw [if_neg (by omega)] at h2
  rcases h2 with rfl | h2
  · exact h1
  · exact absurd h2.2 hn

/-- Writing in one row, not in its last column, takes no awkward jump. -/
theorem row_smooth {w : Nat} {r : Int} : ∀ (l : List Pt) (a : Pt), (valid a = true → a.y = r ∧ a.x ≤ w) →
    (∀ q ∈ l, q.y = r ∧ q.x < w) → Smooth w a l
  | [], _, _, _ => trivial
  | q :: l, a, ha, hl => by
    obtain ⟨h1, h2⟩ := hl q (by simp)
    refine ⟨fun hv hA => ?_, row_smooth l _ (fun _ => ⟨h1, by simp only; omega⟩) fun q' hq => hl q' (by simp [hq])⟩
    obtain ⟨h3, h4⟩ := ha hv
    rcases hA with ⟨-, h5, -⟩ | ⟨h5, -⟩ <;> omega

/-- Only cells of the box are written. -/
theorem cells_boxed {p : Place} {w h : Nat} (hf : p.Fits w h) {old : Option Screen} {sc : Screen} (ho : ∀ o, old = some o → Bare p w h o)
    (hs : Bare p w h sc) : ∀ q ∈ Direct.Spec.cells w h old sc, q.y = p.by_ + 1 ∧ q.x < w := by
  obtain ⟨f1, f2, f3⟩ := hf
  intro q hq
  unfold Direct.Spec.cells points at hq
  simp only [List.mem_map, List.mem_filter, List.mem_range] at hq
  obtain ⟨i, ⟨hi, hd⟩, rfl⟩ := hq
  have hx : i % w < w := Nat.mod_lt _ (by omega)
  have hy : i / w < h := by rw [Nat.div_lt_iff_lt_mul (by omega)]; rw [Nat.mul_comm]; exact hi
  have hidx : i / w * w + i % w = i := Nat.div_add_mod' i w
  have look : ∀ sc : Screen, sc.look w (i % w) (i / w) = sc.grid.cells[i]? := by
    intro sc; unfold Screen.look; rw [hidx]
  by_cases hin : i / w = p.by_ ∧ p.bx ≤ i % w ∧ i % w ≤ p.bx + p.bw
  · unfold ptOf
    simp only
    omega
  · have h1 := hs _ _ hx hy hin
    rw [look] at h1
    cases old with
    | none => simp [drawn, h1] at hd
    | some o =>
      have h2 := ho o rfl _ _ hx hy hin
      rw [look] at h2
      simp [altered, h1, h2] at hd

/-- Between frames of a program that draws nothing but a line. -/
structure Going (p : Place) (d : Differ) (t : Term) (old : Option Screen) (a : Pt) : Prop where
  synced : Synced d t old a
  attr : d.real.cur.attr = 0
  pt : d.real.cur.pt = zp ∨ d.real.cur.pt.y = p.by_ + 1
  rest : valid a = true → a.y = p.by_ + 1 ∧ a.x ≤ t.w
  bare : ∀ o, old = some o → Bare p t.w t.h o
  bg : t.bce = true → t.style.bg = none

/-- The screen at the beginning of a frame. -/
theorem reset_blank {d : Differ} {t : Term} {old : Option Screen} {a : Pt} (Y : Synced d t old a) :
    ∃ v : VScreen, d.reset = .ok { d with v, user := {} } ∧ v.sc.Whole t.w t.h ∧ v.buf = .empty ∧ v.sc.cur = d.real.cur ∧
      ∀ a b, a < t.w → b < t.h → v.sc.look t.w a b = some {} := by
  obtain ⟨sc, e1, W, -⟩ := reset_page Y
  obtain ⟨d1, g1, g2, g3, g4, g5, g6⟩ := Sess.cleared d t.w t.h Y.whole
  rw [e1] at g1
  cases g1
  refine ⟨_, e1, g5, g4, rfl, fun a b ha hb => ?_⟩
  have hi := Screen.idx_lt ha hb
  have hlen : b * t.w + a < sc.grid.cells.length := Nat.lt_of_lt_of_le hi W.cap
  have hm : sc.grid.cells[b * t.w + a] ∈ sc.grid.data := by
    unfold Grid.data
    rw [List.mem_iff_getElem]
    refine ⟨b * t.w + a, ?_, ?_⟩
    · rw [List.length_take, W.len]; omega
    · rw [List.getElem_take]
  unfold Screen.look
  rw [List.getElem?_eq_getElem hlen]
  exact congrArg some (g6 _ hm)

/-- A frame of a program with a line: the platform resets the screen, the line handles the keys and is drawn. -/
def lineFrame (gr : Nat → Bool) (d : Differ) (winch redraw : Option (Nat × Nat)) (l : Edl.EditLine) (es : Events) :
    Except Fault (Differ × Edl.EditLine) :=
  (begin d winch redraw).bind fun d => (l.update gr es d.v d.user).map fun f => ({ d with v := f.out, user := f.user }, f.line)

/-- A frame of a program that edits a line: what is flushed shows the line. -/
theorem line_frame (gr : Nat → Bool) (hgr : ∀ r, gr r = true → validRune r = true) (hct : Ctl gr) (hsp : Printable gr 0x20) (p : Place)
    {d : Differ} {t t1 : Term} {old : Option Screen} {a : Pt} (G : Going p d t old a) (redraw : Bool)
    (cell : Nat → Nat → Glyph) (x y : Nat) (pend : Bool) (ht1 : t1 = { t with cell, x, y, pend })
    (hr : redraw = false → t1 = t) (hf : p.Fits t1.w t1.h) (l : Edl.EditLine)
    (s : Anansi.Spec.Line) (E : Edit p l s) (ks : List Stroke) (hk : ∀ k ∈ ks, k.Ok gr) (es : Events)
    (he : Frm.Spec.live es = (ks.map ev).filter fun e => !Frm.Spec.ownKey e) (hsim : s.SimpleAll (ks.map Stroke.key))
    (hpr : ∀ r ∈ (edited s ks).text, Printable gr r) :
    ∃ d1 l', lineFrame gr d none (if redraw then some (t1.w, t1.h) else none) l es = .ok (d1, l') ∧ Edit p l' (edited s ks) ∧
      d1.v.sc.Whole t1.w t1.h ∧ ∃ d' ops a', d1.writeTo gr .ok = .ok (d', text ops, none) ∧ p.Shows (t1.run ops) (edited s ks) ∧
        (t1.run ops).w = t1.w ∧ (t1.run ops).h = t1.h ∧ Going p d' (t1.run ops) (some d1.v.sc) a' := by
  have Y := G.synced
  have hw1 : t1.w = t.w := by rw [ht1]
  have hh1 : t1.h = t.h := by rw [ht1]
  obtain ⟨v0, e1, W0, B0, C0, L0⟩ := reset_blank Y
  have Y0 : Synced { d with v := v0, user := {} } t old a := ⟨W0, Y.agree, Y.known, Y.rest, Y.pen⟩
  have hbegin : ∃ d2, begin d none (if redraw then some (t1.w, t1.h) else none) = .ok d2 ∧ d2.v = v0 ∧ d2.user = {} ∧
      Synced d2 t1 (if redraw then none else old) (if redraw then zp else a) := by
    unfold begin
    simp only [e1]
    cases redraw with
    | false => rw [hr rfl]; exact ⟨_, rfl, rfl, rfl, Y0⟩
    | true =>
      have Y1 := redraw_synced Y0 cell x y pend
      rw [← ht1] at Y1
      have hsz := sizeTo_same Y1.whole
      refine ⟨_, rfl, ?_, ?_, ?_⟩
      · show (sizeTo (Differ.invalidate { d with v := v0, user := {} }) (t1.w, t1.h)).v = v0
        rw [hsz]
        rfl
      · show (sizeTo (Differ.invalidate { d with v := v0, user := {} }) (t1.w, t1.h)).user = {}
        rw [hsz]
        rfl
      · exact sizeTo_synced Y1 t1.w t1.h Y1.whole.hw Y1.whole.hh t1.cell t1.x t1.y t1.pend
  obtain ⟨d2, b1, b2, b3, Y2⟩ := hbegin
  rw [← hw1, ← hh1] at W0 L0
  obtain ⟨f, lo, hi, u1, u2, u3, u4, u5, u6, u7, u8, u9, u10, u11, u12⟩ := update_drawn gr hgr hct hsp p hf l s E ks hk es he hsim hpr v0 W0 B0
    L0 (by rw [C0]; exact G.attr) (by rw [C0]; exact G.pt)
  refine ⟨{ d2 with v := f.out, user := f.user }, f.line, ?_, u9, u10, ?_⟩
  · unfold lineFrame
    rw [b1]
    show (l.update gr es d2.v d2.user).map _ = _
    rw [b2, b3, u1]
    rfl
  -- the picture
  let pic : Term := { t1 with cell := fun a b => p.glyph (edited s ks).text lo hi a b }
  have hz : (0 : Attr) = Sgr.Style.build {} := by decide
  have hmem : ∀ k, lo + k < hi → Printable gr ((edited s ks).text.getD (lo + k) 0) := by
    intro k hk
    have : lo + k < (edited s ks).text.length := by omega
    rw [List.getD_eq_getElem?_getD, List.getElem?_eq_getElem this]
    exact hpr _ (List.getElem_mem this)
  have S : Shows pic f.out.sc t1.w t1.h := by
    refine ⟨rfl, rfl, fun a b ha hb => ?_⟩
    obtain ⟨c, c1, c2⟩ := u12 a b ha hb
    refine ⟨c, c1, ?_⟩
    show Inked (ink c) (p.glyph _ lo hi a b)
    unfold Direct.Spec.Place.glyph
    split at c2
    · rename_i hin
      rw [if_pos hin, c2]
      have := (hmem (a - p.bx) (by omega)).c0
      refine ⟨?_, rfl, hz⟩
      simp only [ink]
      rw [if_neg (by omega)]
    · rename_i hin
      rw [if_neg hin]
      rcases c2 with rfl | ⟨rfl, -⟩
      · exact ⟨rfl, rfl, hz⟩
      · exact ⟨rfl, rfl, hz⟩
  have hp : ∀ x y, Printable gr (pic.cell x y).rune := by
    intro x y
    show Printable gr (p.glyph _ lo hi x y).rune
    unfold Direct.Spec.Place.glyph
    split
    · rename_i hin
      exact hmem _ (by omega)
    · exact hsp
  obtain ⟨f1, f2, f3⟩ := id hf
  have hpt : f.user.pt = ⟨((p.bx + ((edited s ks).cur - lo) : Nat) : Int) + 1, (p.by_ : Int) + 1⟩ := by
    rw [u8]
    simp only [Pt.mk.injEq, and_true]
    push_cast
    omega
  have hseen : Direct.Spec.seen f.user = true := by
    rw [Direct.Spec.seen, hpt, u8]
    simp [valid]
    omega
  have hattr : f.user.attr = 0 := by rw [u8]
  have hpl : Direct.Spec.Placed t1.w t1.h f.user := by
    intro _
    exact ⟨⟨_, _, by omega, f3, hpt⟩, {}, rfl, by rw [hattr]; exact hz⟩
  have hbare := u12.bare u5
  have hold : ∀ o, (if redraw then none else old) = some o → Bare p t1.w t1.h o := by
    intro o ho
    cases redraw with
    | true => cases ho
    | false => rw [hw1, hh1]; exact G.bare o ho
  have Z : Direct.Spec.Easy t1 (if redraw then none else old) (if redraw then zp else a) f.out.sc f.user := by
    refine ⟨row_smooth (r := p.by_ + 1) _ _ ?_ ?_, fun _ hbce => ?_⟩
    · intro hv
      cases redraw with
      | true => simp [valid, zp] at hv
      | false => rw [hw1]; exact G.rest hv
    · intro q hq
      rw [if_pos hseen, List.mem_append, List.mem_singleton] at hq
      rcases hq with hq | rfl
      · exact cells_boxed hf hold hbare q hq
      · rw [hpt]
        refine ⟨rfl, ?_⟩
        show ((p.bx + ((edited s ks).cur - lo) : Nat) : Int) + 1 < t1.w
        omega
    · rw [ht1] at hbce ⊢
      exact G.bg hbce
  obtain ⟨d', ops, h1, h2, h3, h4, h5, h6, h7⟩ := flushed gr hsp Y2 f.out u10 (by rw [u11]; rfl) pic S hp f.user hpl Z
  obtain ⟨k1, k2, k3⟩ := h6 hseen
  refine ⟨d', ops, _, h1, ?_, h2, h3, h7, ?_, ?_, ?_, ?_, ?_⟩
  · rw [hpt] at k1
    obtain ⟨k4, k5, k6⟩ := k1
    refine ⟨lo, hi, u2, u3, u4, u5, u6, u7, fun a b ha hb => ?_, by rw [h5, hseen], ?_, ?_, ?_⟩
    · rw [h4 a b (by omega) (by omega)]
    · have := congrArg Pt.x k6
      simp only at this
      omega
    · have := congrArg Pt.y k6
      simp only at this
      omega
    · exact k5
  · rcases h7.pen with hk | hk
    · rw [(h7.agree.attr hk).2, ← k2, hattr]
    · exact hk
  · rw [k3, hpt]; exact Or.inr rfl
  · intro _
    unfold Direct.Spec.rest
    rw [if_pos hseen, hpt, h2]
    refine ⟨rfl, ?_⟩
    show ((p.bx + ((edited s ks).cur - lo) : Nat) : Int) + 1 ≤ t1.w
    omega
  · intro o ho
    cases ho
    rw [h2, h3]
    exact hbare
  · intro _
    have := Sgr.build_bg (t1.run ops).style
    rw [← k2, hattr] at this
    have h0 : Sgr.bg (0 : Attr) = none := by decide
    rw [h0] at this
    cases hb : (t1.run ops).style.bg with
    | none => rfl
    | some c => rw [hb] at this; simp at this

/-! ### Sessions -/

theorem resize_cur (sc : Screen) (n : Nat × Nat) : (sc.resize n).1.cur.attr = sc.cur.attr ∧
    ((sc.resize n).1.cur.pt = sc.cur.pt ∨ (sc.resize n).1.cur.pt = zp) := by
  unfold Screen.resize
  split
  · simp only
    split
    · exact ⟨rfl, Or.inl rfl⟩
    · exact ⟨rfl, Or.inr rfl⟩
  · exact ⟨rfl, Or.inl rfl⟩

theorem sizeTo_cur (d : Differ) (n : Nat × Nat) : (sizeTo d n).real.cur.attr = d.real.cur.attr ∧
    ((sizeTo d n).real.cur.pt = d.real.cur.pt ∨ (sizeTo d n).real.cur.pt = zp) := by
  obtain ⟨h1, h2⟩ := resize_cur d.real (0, 0)
  obtain ⟨h3, h4⟩ := resize_cur (d.real.resize (0, 0)).1 (0, 0)
  unfold sizeTo Differ.resize
  simp only
  split
  · show ((d.real.resize (0, 0)).1.resize (0, 0)).1.cur.attr = _ ∧ (((d.real.resize (0, 0)).1.resize (0, 0)).1.cur.pt = _ ∨
      ((d.real.resize (0, 0)).1.resize (0, 0)).1.cur.pt = zp)
    refine ⟨h3.trans h1, ?_⟩
    rcases h4 with h4 | h4
    · rw [h4]; exact h2
    · exact Or.inr h4
  · exact ⟨h1, h2⟩

/-- The terminal says its size, while a line is edited. -/
theorem sizeTo_going {p : Place} {d : Differ} {t : Term} {old : Option Screen} {a : Pt} (G : Going p d t old a) (w h : Nat) (hw : 1 ≤ w) (hh : 1 ≤ h)
    (cell : Nat → Nat → Glyph) (x y : Nat) (pend : Bool) : Going p (sizeTo d (w, h)) { t with w, h, cell, x, y, pend } none zp := by
  obtain ⟨h1, h2⟩ := sizeTo_cur d (w, h)
  refine ⟨sizeTo_synced G.synced w h hw hh cell x y pend, by rw [h1]; exact G.attr, ?_, ?_, fun o ho => (by cases ho), G.bg⟩
  · rcases h2 with h2 | h2
    · rw [h2]; exact G.pt
    · exact Or.inl h2
  · intro hv
    simp [valid, zp] at hv

/-- A frame: what happened before to the terminal, whether there is a redraw, which keys were typed,
and what events the client is given. -/
structure Typed where
  before : Before
  redraw : Bool
  keys : List Stroke
  events : Events

/-- The keys of a frame edit a line at a place, and what they leave can be shown: see `typing_edits_partial` for how
they become the events of the frame, and why backspaces in the middle of a text are not among them. -/
structure Typed.Ok (gr : Nat → Bool) (p : Place) (t : Term) (s : Anansi.Spec.Line) (f : Typed) : Prop where
  before : f.before.Ok
  fits : p.Fits (f.before.term t).w (f.before.term t).h
  keys : ∀ k ∈ f.keys, k.Ok gr ∧ k ≠ .hud
  events : Frm.Spec.live f.events = (f.keys.map ev).filter fun e => !Frm.Spec.ownKey e
  simple : s.SimpleAll (f.keys.map Stroke.key)
  text : ∀ r ∈ (edited s f.keys).text, Printable gr r

/-- In every frame the line is drawn without a fault, all is written to the terminal, and the terminal then
shows the text that the keys typed until then give, and the cursor in it. -/
def TShown (gr : Nat → Bool) (p : Place) : Differ → Term → Edl.EditLine → Anansi.Spec.Line → List Typed → Prop
  | _, _, _, _, [] => True
  | d, t, l, s, f :: fs =>
    let t1 := f.before.term t
    f.Ok gr p t s → ∃ d1 l' d' ops,
      lineFrame gr d f.before.winch (if f.before.redraws f.redraw then some (t1.w, t1.h) else none) l f.events = .ok (d1, l') ∧
      d1.writeTo gr .ok = .ok (d', text ops, none) ∧ p.Shows (t1.run ops) (edited s f.keys) ∧
      TShown gr p d' (t1.run ops) l' (edited s f.keys) fs

theorem going_shown (gr : Nat → Bool) (hgr : ∀ r, gr r = true → validRune r = true) (hct : Ctl gr) (hsp : Printable gr 0x20) (p : Place) :
    ∀ (fs : List Typed) (d : Differ) (t : Term) (old : Option Screen) (a : Pt) (l : Edl.EditLine) (s : Anansi.Spec.Line),
      Going p d t old a → Edit p l s → TShown gr p d t l s fs
  | [], _, _, _, _, _, _, _, _ => trivial
  | ⟨b, redraw, ks, es⟩ :: fs, d, t, old, a, l, s, G, E => by
    rintro ⟨hb, hf, hk, he, hsim, hpr⟩
    have hk := fun k hk' => (hk k hk').1
    cases b with
    | same =>
      obtain ⟨d1, l', k1, k2, -, d', ops, a', k3, k4, -, -, k5⟩ :=
        line_frame gr hgr hct hsp p (t1 := t) G redraw t.cell t.x t.y t.pend rfl (fun _ => rfl) hf l s E ks hk es he hsim hpr
      exact ⟨d1, l', d', ops, k1, k3, k4, going_shown gr hgr hct hsp p fs _ _ _ _ _ _ k5 k2⟩
    | sized w h cell x y pend =>
      have G1 := sizeTo_going G w h hb.1 hb.2 cell x y pend
      obtain ⟨d1, l', k1, k2, -, d', ops, a', k3, k4, -, -, k5⟩ :=
        line_frame gr hgr hct hsp p (t1 := { t with w, h, cell, x, y, pend }) G1 redraw cell x y pend rfl (fun _ => rfl) hf l s E ks hk es he hsim hpr
      exact ⟨d1, l', d', ops, k1, k3, k4, going_shown gr hgr hct hsp p fs _ _ _ _ _ _ k5 k2⟩
    | garbled cell x y pend =>
      obtain ⟨d1, l', k1, k2, -, d', ops, a', k3, k4, -, -, k5⟩ :=
        line_frame gr hgr hct hsp p (t1 := { t with cell, x, y, pend }) G true cell x y pend rfl (fun h => (by cases h)) hf l s E ks hk es he hsim hpr
      exact ⟨d1, l', d', ops, k1, k3, k4, going_shown gr hgr hct hsp p fs _ _ _ _ _ _ k5 k2⟩

/-- **C133**: a program that edits a line in a box, on a terminal that shows anything when it is entered.  After
each frame, any number of keys having been typed before it, any characters being shown and the terminal having
been given other sizes, or having been written on by others and a redraw asked for, it shows exactly the text
that the keys give, or the part around the cursor, and the cursor where it is in the text.  Partial: boxes which
reach the last two columns (`typed_last_column`), what typing does not do (C129), and the head-up display. -/
theorem typed_shown_partial (gr : Nat → Bool) (hgr : ∀ r, gr r = true → validRune r = true) (hct : Ctl gr) (hsp : Printable gr 0x20)
    (p : Place) (t : Term) (hw : 1 ≤ t.w) (hh : 1 ≤ t.h) (hbg : t.bce = true → t.style.bg = none) (l : Edl.EditLine) (s : Anansi.Spec.Line)
    (E : Edit p l s) (fs : List Typed) : TShown gr p (sizeTo {} (t.w, t.h)) t l s fs := by
  have e : ({} : Differ).invalidate = {} := by decide +kernel
  have Y := new_synced t hw hh
  rw [← e] at Y
  obtain ⟨h1, h2⟩ := sizeTo_cur {} (t.w, t.h)
  refine going_shown gr hgr hct hsp p fs _ _ _ _ l s ⟨Y, h1, ?_, ?_, fun o ho => (by cases ho), hbg⟩ E
  · rcases h2 with h2 | h2
    · exact Or.inl h2
    · exact Or.inl h2
  · intro hv
    simp [valid, zp] at hv

/-! ### Examples, and a box that comes out wrong -/

/-- A line to edit in `bw` columns from the left of the first row. -/
def box (bw : Nat) : Edl.EditLine := { state := .ready, box := ⟨⟨1, 1⟩, ⟨bw + 1, 2⟩⟩ }

/-- The characters `a`, `b` and `c`. -/
def abc : List Stroke := [.char 0x61, .char 0x62, .char 0x63]

example : Edit ⟨0, 0, 3⟩ (box 3) ⟨[], 0⟩ := ⟨rfl, rfl, by decide, rfl, ⟨rfl, by simp, rfl, Nat.le_refl 0⟩⟩

/-- The hypotheses of frames hold: `abc` is typed, and then the terminal is made larger, and a redraw is asked for
by typing Control-L. -/
example (t : Term) (hw : t.w = 5) (hh : t.h = 1) :
    (⟨.same, false, abc, abc.map ev⟩ : Typed).Ok Screen.ascii ⟨0, 0, 3⟩ t ⟨[], 0⟩ ∧
    (⟨.sized 9 2 t.cell 0 0 false, true, [.redraw], []⟩ : Typed).Ok Screen.ascii ⟨0, 0, 3⟩ t ⟨[0x61, 0x62, 0x63], 3⟩ := by
  have h : ∀ r ∈ [0x61, 0x62, 0x63], Printable Screen.ascii r := by
    intro r hr
    simp only [List.mem_cons, List.not_mem_nil, or_false] at hr
    rcases hr with rfl | rfl | rfl <;> exact ⟨by decide, by decide, by decide, by decide, by decide⟩
  refine ⟨⟨trivial, ?_, ?_, by decide +kernel, ⟨trivial, trivial, trivial, trivial⟩, h⟩,
    ⟨⟨by decide, by decide⟩, ⟨show 2 ≤ 3 by decide, show 0 + 3 + 1 < 9 by decide, show 0 < 2 by decide⟩, ?_, rfl, ⟨trivial, trivial⟩, h⟩⟩
  · show 2 ≤ 3 ∧ 0 + 3 + 1 < t.w ∧ 0 < t.h
    omega
  · intro k hk
    simp only [abc, List.mem_cons, List.not_mem_nil, or_false] at hk
    rcases hk with rfl | rfl | rfl <;> exact ⟨⟨by decide, by decide, by decide⟩, by decide⟩
  · intro k hk
    rw [List.mem_singleton] at hk
    subst hk
    exact ⟨trivial, by decide⟩

/-- A terminal of `w` columns and one row. -/
def row (w : Nat) : Term := clearTerm w 1

/-- What is written to it in the first frame. -/
def wrote (w bw : Nat) (ks : List Stroke) : Option Bytes :=
  ((lineFrame Screen.ascii (sizeTo {} (w, 1)) none none (box bw) (ks.map ev)).toOption.bind fun d =>
    (d.1.writeTo Screen.ascii .ok).toOption).map fun r => r.2.1

/-- With a column to spare the terminal's cursor is after the text. -/
example : wrote 5 3 abc = some (text [.hide, .eraseAll, .cup 1 1, .sgr [0], .put 0x61, .put 0x62, .put 0x63, .put 0x20, .back none, .show_]) ∧
    ((row 5).run [.hide, .eraseAll, .cup 1 1, .sgr [0], .put 0x61, .put 0x62, .put 0x63, .put 0x20, .back none, .show_]).x = 3 := by
  decide +kernel

/-- Negation: a box that ends before the last column of the terminal.  When the text fills it, the blank after the
text is written in the last column, from which going back one column leads into the text: the cursor is shown on
the last character of the text instead of after it. -/
theorem typed_last_column :
    wrote 4 3 abc = some (text [.hide, .eraseAll, .cup 1 1, .sgr [0], .put 0x61, .put 0x62, .put 0x63, .put 0x20, .back none, .show_]) ∧
    (edited ⟨[], 0⟩ abc).cur = 3 ∧
    ((row 4).run [.hide, .eraseAll, .cup 1 1, .sgr [0], .put 0x61, .put 0x62, .put 0x63, .put 0x20, .back none, .show_]).x = 2 := by
  decide +kernel

end Direct
end Anansi
