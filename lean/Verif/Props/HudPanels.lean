import Verif.Model.HudPanels
import Verif.Props.HudStats
import Verif.Props.HudPick
import Verif.Props.HudUpdate
/-
C123 The telemetry and profiling panels show and switch what they name; C124 the panels stand one
below the other.
-/
set_option autoImplicit false

namespace Anansi.Hud
open Geom Evq Screen

variable {α : Type}

namespace Spec

/-- The style of a text: the current one, that of a button, or plain. -/
inductive Look
  | cur | btn | plain
deriving DecidableEq

/-- A text, the column it begins at and its style. -/
structure Piece where
  text : List Nat
  x : Nat
  look : Look := .cur

/-- The plain style. -/
def plain : Cursor := { attr := 0, attrKnown := true }

/-- The style of a piece in row `y`, if the current style is that of `c`. -/
def Piece.attr (t : Theme) (w dw y : Nat) (c : Cursor) (p : Piece) : Attr :=
  match p.look with
  | .cur => c.attr
  | .btn => (buttonCur t (box (w - dw) y dw) c).attr
  | .plain => 0

/-- The pieces of a line, each over those before. -/
def line (t : Theme) (w dw y : Nat) (c : Cursor) (l : List Piece) (f : Nat → Nat → Option Cell) : Nat → Nat → Option Cell :=
  l.foldl (fun f p => lay p.text p.x y (p.attr t w dw y c) f) f

/-- A button leaves the plain style. -/
def leaves (l : List Piece) (c : Cursor) : Cursor := if l.any (·.look == .btn) then plain else c

/-- Lines, one below the other. -/
def stack (t : Theme) (w dw : Nat) : Nat → Cursor → List (List Piece) → (Nat → Nat → Option Cell) → Nat → Nat → Option Cell
  | _, _, [], f => f
  | y, c, l :: ls, f => stack t w dw (y + 1) (leaves l c) ls (line t w dw y c l f)

/-- The style after lines. -/
def leave (ls : List (List Piece)) (c : Cursor) : Cursor := ls.foldl (fun c l => leaves l c) c

/-- A heading. -/
def headLine (w : Nat) (sep title : List Nat) : List Piece := [⟨title ++ [0x20] ++ sep, w - (title.length + 1 + sep.length), .cur⟩]

/-- A key and a value. -/
def rowLine (w dw : Nat) (key val : List Nat) : List Piece := [⟨pair dw key val, w - dw - 2 - key.length, .cur⟩]

/-- A key and a button. -/
def buttonLine (w dw : Nat) (key label : List Nat) : List Piece :=
  [⟨key, w - dw - 1 - key.length, .cur⟩, ⟨button dw label, w - dw, .btn⟩]

/-- A key, a sign and a button. -/
def signLine (w dw : Nat) (key : List Nat) (sign : Nat) (label : List Nat) : List Piece :=
  buttonLine w dw key label ++ [⟨[sign], w - dw - 1, .plain⟩]

/-- The place of the button of row `y`, and that of the sign. -/
def place (w dw y : Nat) : Rect := box (w - dw) y dw
def spot (w dw y : Nat) : Rect := box (w - dw - 1) y 1

end Spec

theorem line_congr {f g : Nat → Nat → Option Cell} {w h : Nat} (t : Theme) (dw y : Nat) (c : Cursor) : ∀ (l : List Spec.Piece)
    (f g : Nat → Nat → Option Cell) (_ : ∀ a b, a < w → b < h → f a b = g a b),
    ∀ a b, a < w → b < h → Spec.line t w dw y c l f a b = Spec.line t w dw y c l g a b
  | [], _, _, hfg => hfg
  | _ :: l, _, _, hfg => line_congr (f := f) (g := g) t dw y c l _ _ (lay_congr hfg _ _ _ _)

theorem line_outside (t : Theme) (w dw y : Nat) (c : Cursor) : ∀ (l : List Spec.Piece) (f : Nat → Nat → Option Cell) (a b : Nat),
    b ≠ y → Spec.line t w dw y c l f a b = f a b
  | [], _, _, _, _ => rfl
  | p :: l, f, a, b, h => by
    show Spec.line t w dw y c l _ a b = _
    rw [line_outside t w dw y c l _ a b h]
    unfold Spec.lay
    dsimp only
    rw [if_neg (by omega)]

theorem line_same (t : Theme) (w dw y : Nat) {c d : Cursor} (h1 : c.attr = d.attr) (h2 : c.attrKnown = d.attrKnown)
    (l : List Spec.Piece) (f : Nat → Nat → Option Cell) : Spec.line t w dw y c l f = Spec.line t w dw y d l f := by
  unfold Spec.line
  congr 1
  funext f p
  congr 1
  unfold Spec.Piece.attr
  split
  · exact h1
  · exact buttonCur_same t _ h1 h2
  · rfl

theorem leaves_same {c d : Cursor} (h1 : c.attr = d.attr) (h2 : c.attrKnown = d.attrKnown) (l : List Spec.Piece) :
    (Spec.leaves l c).attr = (Spec.leaves l d).attr ∧ (Spec.leaves l c).attrKnown = (Spec.leaves l d).attrKnown := by
  unfold Spec.leaves
  split
  · exact ⟨rfl, rfl⟩
  · exact ⟨h1, h2⟩

theorem stack_same (t : Theme) (w dw : Nat) : ∀ (ls : List (List Spec.Piece)) (y : Nat) (c d : Cursor) (_ : c.attr = d.attr)
    (_ : c.attrKnown = d.attrKnown) (f : Nat → Nat → Option Cell), Spec.stack t w dw y c ls f = Spec.stack t w dw y d ls f
  | [], _, _, _, _, _, _ => rfl
  | l :: ls, y, c, d, h1, h2, f => by
    simp only [Spec.stack]
    rw [line_same t w dw y h1 h2, stack_same t w dw ls (y + 1) _ _ (leaves_same h1 h2 l).1 (leaves_same h1 h2 l).2]

theorem stack_congr {w h : Nat} (t : Theme) (dw : Nat) : ∀ (ls : List (List Spec.Piece)) (y : Nat) (c : Cursor)
    (f g : Nat → Nat → Option Cell) (_ : ∀ a b, a < w → b < h → f a b = g a b),
    ∀ a b, a < w → b < h → Spec.stack t w dw y c ls f a b = Spec.stack t w dw y c ls g a b
  | [], _, _, _, _, hfg => hfg
  | l :: ls, y, c, f, g, hfg => stack_congr t dw ls (y + 1) _ _ _ (line_congr (f := f) (g := g) t dw y c l _ _ hfg)

/-- **C124**: lines above and lines below are drawn as one stack. -/
theorem stack_append (t : Theme) (w dw : Nat) : ∀ (ls ms : List (List Spec.Piece)) (y : Nat) (c : Cursor) (f : Nat → Nat → Option Cell),
    Spec.stack t w dw y c (ls ++ ms) f = Spec.stack t w dw (y + ls.length) (Spec.leave ls c) ms (Spec.stack t w dw y c ls f)
  | [], _, _, _, _ => rfl
  | l :: ls, ms, y, c, f => by
    show Spec.stack t w dw (y + 1) (Spec.leaves l c) (ls ++ ms) _ = _
    rw [stack_append t w dw ls ms (y + 1)]
    simp only [List.length_cons, Spec.stack]
    rw [show y + 1 + ls.length = y + (ls.length + 1) by omega]
    rfl

/-- Rows above or below are not touched. -/
theorem stack_outside (t : Theme) (w dw : Nat) : ∀ (ls : List (List Spec.Piece)) (y : Nat) (c : Cursor) (f : Nat → Nat → Option Cell)
    (a b : Nat), b < y ∨ y + ls.length ≤ b → Spec.stack t w dw y c ls f a b = f a b
  | [], _, _, _, _, _, _ => rfl
  | l :: ls, y, c, f, a, b, h => by
    simp only [List.length_cons] at h
    rw [Spec.stack, stack_outside t w dw ls (y + 1) _ _ a b (by omega), line_outside t w dw y c l f a b (by omega)]

/-- Every row shows its line. -/
theorem stack_row (t : Theme) (w dw : Nat) : ∀ (ls : List (List Spec.Piece)) (y : Nat) (c : Cursor) (f : Nat → Nat → Option Cell) (i : Nat)
    (l : List Spec.Piece) (_ : ls[i]? = some l) (a : Nat),
    Spec.stack t w dw y c ls f a (y + i) = Spec.line t w dw (y + i) (Spec.leave (ls.take i) c) l f a (y + i)
  | [], _, _, _, _, _, h, _ => by simp at h
  | m :: ls, y, c, f, 0, l, h, a => by
    simp only [List.getElem?_cons_zero, Option.some.injEq] at h
    subst h
    rw [Spec.stack, stack_outside t w dw ls (y + 1) _ _ a (y + 0) (by omega)]
    rfl
  | m :: ls, y, c, f, i + 1, l, h, a => by
    rw [Spec.stack, show y + (i + 1) = y + 1 + i by omega, stack_row t w dw ls (y + 1) _ _ i l (by simpa using h) a]
    have : ∀ (l : List Spec.Piece) (c : Cursor) (f g : Nat → Nat → Option Cell) (b : Nat), f a b = g a b →
        Spec.line t w dw b c l f a b = Spec.line t w dw b c l g a b := by
      intro l c
      induction l with
      | nil => exact fun f g b h => h
      | cons p l ih =>
        intro f g b h
        apply ih
        unfold Spec.lay
        dsimp only
        rw [h]
    rw [List.take_succ_cons]
    exact this l _ _ _ _ (line_outside t w dw y c m f a (y + 1 + i) (by omega))

/-! ### Drawing lines -/

/-- From row `y` on, the lines were drawn, and the cursor is below them (or in the last row), in the
last column. -/
structure After (t : Theme) (w h dw y : Nat) (ls : List (List Spec.Piece)) (v v' : VScreen) : Prop where
  ready : Ready v' w h (w - 1) (min (h - 1) (y + ls.length))
  attr : v'.sc.cur.attr = (Spec.leave ls v.sc.cur).attr
  known : v'.sc.cur.attrKnown = (Spec.leave ls v.sc.cur).attrKnown
  look : y + ls.length ≤ h → ∀ a b, a < w → b < h → v'.sc.look w a b = Spec.stack t w dw y v.sc.cur ls (v.sc.look w) a b

theorem After.nil (t : Theme) {w h dw y : Nat} {v : VScreen} (R : Ready v w h (w - 1) y) : After t w h dw y [] v v := by
  refine ⟨?_, rfl, rfl, fun _ _ _ _ _ => rfl⟩
  have := R.hy
  rw [show min (h - 1) (y + ([] : List (List Spec.Piece)).length) = y by simp; omega]
  exact R

theorem leave_same : ∀ (ls : List (List Spec.Piece)) {c d : Cursor} (_ : c.attr = d.attr) (_ : c.attrKnown = d.attrKnown),
    (Spec.leave ls c).attr = (Spec.leave ls d).attr ∧ (Spec.leave ls c).attrKnown = (Spec.leave ls d).attrKnown
  | [], _, _, h1, h2 => ⟨h1, h2⟩
  | l :: ls, _, _, h1, h2 => leave_same ls (leaves_same h1 h2 l).1 (leaves_same h1 h2 l).2

theorem After.append {t : Theme} {w h dw y : Nat} {ls ms : List (List Spec.Piece)} {v v1 v2 : VScreen} (A : After t w h dw y ls v v1)
    (hy : y < h) (B : After t w h dw (min (h - 1) (y + ls.length)) ms v1 v2) : After t w h dw y (ls ++ ms) v v2 := by
  have hl : Spec.leave (ls ++ ms) v.sc.cur = Spec.leave ms (Spec.leave ls v.sc.cur) := by
    unfold Spec.leave
    rw [List.foldl_append]
  have hs := leave_same ms A.attr A.known
  refine ⟨?_, by rw [hl, B.attr, hs.1], by rw [hl, B.known, hs.2], ?_⟩
  · have := B.ready
    rw [show min (h - 1) (min (h - 1) (y + ls.length) + ms.length) = min (h - 1) (y + (ls ++ ms).length) by
      simp only [List.length_append]; omega] at this
    exact this
  · intro hh a b ha hb
    rw [List.length_append] at hh
    rw [stack_append]
    have hA := A.look (by omega)
    cases ms with
    | nil =>
      rw [B.look (by simp) a b ha hb]
      exact hA a b ha hb
    | cons m ms =>
      simp only [List.length_cons] at hh
      have e : min (h - 1) (y + ls.length) = y + ls.length := by omega
      rw [e] at B
      rw [B.look (by simp only [List.length_cons]; omega) a b ha hb, stack_same t w dw _ _ _ _ A.attr A.known]
      exact stack_congr t dw _ _ _ _ _ hA a b ha hb

/-- A line drawn in row `y`. -/
theorem After.one {t : Theme} {w h dw y : Nat} {l : List Spec.Piece} {v v' : VScreen}
    (R : Ready v' w h (w - 1) (min (h - 1) (y + 1))) (A : v'.sc.cur.attr = (Spec.leaves l v.sc.cur).attr)
    (K : v'.sc.cur.attrKnown = (Spec.leaves l v.sc.cur).attrKnown)
    (L : ∀ a b, a < w → b < h → v'.sc.look w a b = Spec.line t w dw y v.sc.cur l (v.sc.look w) a b) : After t w h dw y [l] v v' :=
  ⟨R, A, K, fun _ => L⟩

/-- A text at some place of a row, and then a button at the end. -/
theorem key_then_button (gr : Nat → Bool) (hgr : ∀ r, 0x20 ≤ r → r < 0x7F → Screen.Printable gr r) (hel : Screen.Printable gr 0x2026)
    {w h c y : Nat} (v : VScreen) (R : Ready v w h c y) (dw : Nat) (hdw : 5 ≤ dw) (t : Theme) (x : Nat) (key label : List Nat)
    (hk : ∀ r ∈ key, Screen.Printable gr r) (hl : ∀ r ∈ label, Screen.Printable gr r) (hx : x + key.length + dw ≤ w) :
    ∃ v1 v2, (goto v ⟨(x : Int) + 1, (y : Int) + 1⟩).write gr (encodeRunes key) = .ok v1 ∧
      drawButton gr t (Spec.place w dw y) (encodeRunes label) (goto v1 (Spec.place w dw y).min) = .ok v2 ∧
      After t w h dw y [[⟨key, x, .cur⟩, ⟨Spec.button dw label, w - dw, .btn⟩]] v v2 := by
  have hyh := R.hy
  have R1 := goto_at R.whole R.settled (x := x) (y := y) (by omega) hyh
  obtain ⟨v1, e1, D1⟩ := drew_run gr key hk _ R1 (by omega)
  have R2 := goto_ready D1.whole D1.settled (Spec.place w dw y).min
  obtain ⟨v2, e2, R3, A, K, L2⟩ := button_drawn gr (hgr _ (by omega) (by omega)) (hgr _ (by omega) (by omega))
    (hgr _ (by omega) (by omega)) hel (goto v1 (Spec.place w dw y).min) R2.whole R2.settled t
    (w - dw) y dw hdw (by omega) hyh label hl
  refine ⟨v1, v2, e1, e2, After.one ?_ A K ?_⟩
  · rw [show w - dw + dw - 1 = w - 1 from by omega] at R3
    exact R3
  · intro a b ha hb
    have hattr : (buttonCur t (Spec.box (w - dw) y dw) (goto v1 (Spec.place w dw y).min).sc.cur).attr =
        (buttonCur t (Spec.box (w - dw) y dw) v.sc.cur).attr := by
      apply buttonCur_same
      · show v1.sc.cur.attr = _
        rw [D1.cur]; rfl
      · show v1.sc.cur.attrKnown = _
        rw [D1.cur]; rfl
    rw [L2 a b ha hb, hattr, goto_look, D1.look a b ha hb]
    simp only [Spec.line, List.foldl_cons, List.foldl_nil, Spec.Piece.attr, Spec.lay]
    rw [button_length dw hdw]
    rfl

/-- Moving to where the cursor is anyway. -/
theorem After.below {t : Theme} {w h dw y : Nat} {l : List Spec.Piece} {v v' : VScreen} (hdw : dw ≤ w) (A : After t w h dw y [l] v v') :
    After t w h dw y [l] v (goto v' (Spec.place w dw y).max) := by
  have e : (Spec.place w dw y).max = ⟨(w : Int) + 1, (y : Int) + 1 + 1⟩ := by
    show (⟨((w - dw : Nat) : Int) + dw + 1, (y : Int) + 1 + 1⟩ : Pt) = _
    rw [show ((w - dw : Nat) : Int) + dw + 1 = (w : Int) + 1 by omega]
  rw [e]
  exact ⟨goto_below A.ready.whole A.ready.settled, A.attr, A.known, A.look⟩

/-- What the button of a row to choose a file says. -/
def Spec.fileLabel (file : Option (List Nat)) (label : List Nat) : List Nat :=
  file.getD (if label = [] then Spec.runes "Choose File" else label)

theorem encode_nil (l : List Nat) : encodeRunes l = [] ↔ l = [] := by
  constructor
  · intro h
    cases l with
    | nil => rfl
    | cons r l =>
      have : (encodeRune r).length = 0 := by
        have := congrArg List.length h
        simp only [encodeRunes, List.flatMap_cons, List.length_append, List.length_nil] at this
        omega
      have h1 := encodeRune_length_pos r
      omega
  · rintro rfl
    rfl

/-- **C123**, a row to choose a file, not active and not pressed (or an even number of times): the
name and a button with the name of the file or what to do are shown, and nothing else happens. -/
theorem file_row (gr : Nat → Bool) (hgr : ∀ r, 0x20 ≤ r → r < 0x7F → Screen.Printable gr r) (hel : Screen.Printable gr 0x2026)
    {w h c y : Nat} (s : St) (R : Ready s.v w h c y) (dw : Nat) (hdw : 5 ≤ dw) (gray : Attr) (t : Theme) (fil : Fil)
    (name : List Nat) (hn : fil.name = encodeRunes name) (hp : ∀ r ∈ name, Screen.Printable gr r) (hw : name.length + 1 + dw ≤ w)
    (file : Option (List Nat)) (label : List Nat) (hf : ∀ l ∈ file, ∀ r ∈ l, Screen.Printable gr r) (hl : ∀ r ∈ label, Screen.Printable gr r)
    (hq : s.ui.active ≠ s.uicur + 1) (ho : Spec.odd (Spec.place w dw y) s.es = false) :
    ∃ v', fileRow gr dw gray t fil (file.map encodeRunes) (encodeRunes label) s =
        .ok ((Spec.box (w - dw - 1 - name.length) y name.length, Spec.place w dw y),
          { s with uicur := s.uicur + 1, es := Spec.without [Spec.place w dw y] s.es, v := v' }) ∧
      After t w h dw y [Spec.buttonLine w dw name (Spec.fileLabel file label)] s.v v' := by
  have hlab : ∀ r ∈ Spec.fileLabel file label, Screen.Printable gr r := by
    unfold Spec.fileLabel
    cases file with
    | some l => exact hf l rfl
    | none =>
      simp only [Option.getD_none]
      split
      · intro r hr
        have h : ∀ r ∈ Spec.runes "Choose File", 0x20 ≤ r ∧ r < 0x7F := by decide
        exact hgr r (h r hr).1 (h r hr).2
      · exact hl
  have hbytes : fileLabel (file.map encodeRunes) (encodeRunes label) = encodeRunes (Spec.fileLabel file label) := by
    unfold Spec.fileLabel fileLabel
    cases file with
    | some l => rfl
    | none =>
      simp only [Option.map_none, Option.getD_none, encode_nil]
      split
      · decide +kernel
      · rfl
  obtain ⟨v1, v2, e1, e2, A⟩ := key_then_button gr hgr hel s.v R dw hdw t (w - dw - 1 - name.length) name _ hp hlab (by omega)
  refine ⟨_, ?_, After.below (by omega) A⟩
  have hz : ¬ (s.es.countP (pressIn (Spec.place w dw y) 1) % 2 = 1) := by
    unfold Spec.odd at ho
    simpa using ho
  unfold fileRow
  rw [hn, kv_ok gr s.v R dw name hp hw]
  simp only [Except.bind]
  have e1' : (goto s.v (Spec.box (w - dw - 1 - name.length) y name.length).min).write gr (encodeRunes name) = .ok v1 := e1
  rw [e1']
  simp only [underActivation]
  have hb : Spec.box (w - dw) y dw = Spec.place w dw y := rfl
  rw [if_pos hq, hb]
  simp only [countPressesIn_exact, Nat.zero_add]
  rw [if_neg hz]
  simp only [hq, false_and, if_false]
  rw [hbytes, e2, without_one]

theorem inert_activation (gr : Nat → Bool) (gray : Attr) (fil : Fil) (hc : fil.create = false) (s s' : St) (box : Rect)
    (h : underActivation gr gray fil s box = .ok s') :
    s'.ui.active ≠ s.uicur + 1 ∧ s'.uicur = s.uicur + 1 ∧ s'.made = s.made := by
  unfold underActivation underFileEdit at h
  simp only [hc, Bool.not_false, if_true] at h
  generalize hs1 : (if s.ui.active ≠ s.uicur + 1 then _ else _ : St) = s1 at h
  have h1 : s1.uicur = s.uicur + 1 ∧ s1.made = s.made := by
    rw [← hs1]
    split_ifs <;> exact ⟨rfl, rfl⟩
  generalize hs2 : (if s1.ui.active = s.uicur + 1 ∧ anyPressesOutside box s1.es = true then _ else s1 : St) = s2 at h
  have h2 : s2.uicur = s1.uicur ∧ s2.made = s1.made := by
    rw [← hs2]
    split <;> exact ⟨rfl, rfl⟩
  split at h
  · cases h
    exact ⟨by simp [St.exit], h2.1.trans h1.1, h2.2.trans h1.2⟩
  · next hn =>
    cases h
    exact ⟨hn, h2.1.trans h1.1, h2.2.trans h1.2⟩

/-- **C123**: what cannot be given a file, as all profilers together, never stays active and is
never given one. -/
theorem no_create_inert (gr : Nat → Bool) (dw : Int) (gray : Attr) (t : Theme) (fil : Fil) (hc : fil.create = false)
    (after : Option Bytes) (label : Bytes) (s s' : St) (b : Rect × Rect) (h : fileRow gr dw gray t fil after label s = .ok (b, s')) :
    s'.ui.active ≠ s'.uicur ∧ s'.made = s.made := by
  unfold fileRow at h
  cases h1 : calcKVBox dw s.v fil.name with
  | error e => rw [h1] at h; cases h
  | ok k =>
    rw [h1] at h
    simp only [Except.bind] at h
    cases h2 : (goto s.v k.1.min).write gr fil.name with
    | error e => rw [h2] at h; cases h
    | ok v =>
      rw [h2] at h
      simp only at h
      cases h3 : underActivation gr gray fil { s with v := goto v k.2.min } k.2 with
      | error e => rw [h3] at h; cases h
      | ok s1 =>
        rw [h3] at h
        obtain ⟨g1, g2, g3⟩ := inert_activation gr gray fil hc _ s1 k.2 h3
        simp only [if_neg g1] at h
        cases h4 : drawButton gr t k.2 (fileLabel after label) s1.v with
        | error e => rw [h4] at h; cases h
        | ok v2 =>
          rw [h4] at h
          cases h
          exact ⟨by rw [g2]; exact g1, g3⟩

/-! ### The telemetry panel -/

theorem head_after (gr : Nat → Bool) (hsp : Screen.Printable gr 0x20) {w h c y : Nat} (v : VScreen) (R : Ready v w h c y) (dw : Nat)
    (hdw : 1 ≤ dw) (t : Theme) (sep title : List Nat) (hs : ∀ r ∈ sep, Screen.Printable gr r) (hl : sep.length = dw)
    (ht : ∀ r ∈ title, Screen.Printable gr r) (hw : title.length + 1 + dw ≤ w) :
    ∃ v', detailHeader gr dw (encodeRunes sep) v (encodeRunes title) = .ok (Spec.bar w dw title.length y, v') ∧
      After t w h dw y [Spec.headLine w sep title] v v' := by
  obtain ⟨v', e, R', A, L⟩ := head_line gr hsp v R dw hdw sep title hs hl ht hw
  have K : v'.sc.cur.attrKnown = v.sc.cur.attrKnown := by
    obtain ⟨v2, e2, -, -, K, -⟩ := heading_drawn gr hsp v R dw hdw sep title hs hl ht hw
    have := e.symm.trans e2
    simp only [Except.ok.injEq, Prod.mk.injEq] at this
    rw [this.2]
    exact K
  refine ⟨v', e, After.one R' A K fun a b ha hb => ?_⟩
  rw [L a b ha hb]
  have hlen : (title ++ [0x20] ++ sep).length = title.length + 1 + sep.length := by simp; omega
  simp only [Spec.headLine, Spec.head, Spec.line, List.foldl_cons, List.foldl_nil, Spec.Piece.attr, hlen, Nat.sub_zero]

theorem row_after (gr : Nat → Bool) (hsp : Screen.Printable gr 0x20) {w h y : Nat} (v : VScreen) (R : Ready v w h (w - 1) y) (dw : Nat)
    (t : Theme) (r : List Nat × List Nat) (F : Fits gr w dw r) :
    ∃ b v', detailRow gr dw v (encodeRunes r.1) (encodeRunes r.2) = .ok (b, v') ∧
      After t w h dw y [Spec.rowLine w dw r.1 r.2] v v' := by
  obtain ⟨b, v', e, R', A, K, L⟩ := row_line gr hsp v R dw r F
  refine ⟨b, v', e, After.one R' A K fun a b ha hb => ?_⟩
  rw [L a b ha hb]
  have := F.room
  simp only [Spec.rowLine, Spec.entry, Spec.line, List.foldl_cons, List.foldl_nil, Spec.Piece.attr, pair_length F.len]
  rw [show w - 1 - (r.1.length + 1 + dw) = w - dw - 2 - r.1.length by omega]

/-- A switch. -/
theorem toggle_after (gr : Nat → Bool) (hgr : ∀ r, 0x20 ≤ r → r < 0x7F → Screen.Printable gr r) (hel : Screen.Printable gr 0x2026)
    {w h c y : Nat} (v : VScreen) (R : Ready v w h c y) (dw : Nat) (hdw : 5 ≤ dw) (t : Theme) (es : Events) (name : List Nat)
    (hp : ∀ r ∈ name, Screen.Printable gr r) (hw : name.length + 1 + dw ≤ w) (flag : Bool) :
    ∃ bs v', drawToggleRow gr dw t es v (encodeRunes name) flag =
        .ok (xor flag (Spec.odd (Spec.place w dw y) es), Spec.without [Spec.place w dw y] es, bs, v') ∧
      After t w h dw y [Spec.buttonLine w dw name (Spec.runes (if xor flag (Spec.odd (Spec.place w dw y) es) then "true" else "false"))] v v' := by
  have hlab : ∀ f : Bool, (∀ r ∈ Spec.runes (if f then "true" else "false"), Screen.Printable gr r) := by
    intro f r hr
    have h : ∀ f : Bool, ∀ r ∈ Spec.runes (if f then "true" else "false"), 0x20 ≤ r ∧ r < 0x7F := by decide
    exact hgr r (h f r hr).1 (h f r hr).2
  have hbytes : ∀ f : Bool, (if f then [0x74, 0x72, 0x75, 0x65] else [0x66, 0x61, 0x6C, 0x73, 0x65] : Bytes) =
      encodeRunes (Spec.runes (if f then "true" else "false")) := by decide +kernel
  obtain ⟨v1, v2, e1, e2, A⟩ := key_then_button gr hgr hel v R dw hdw t (w - dw - 1 - name.length) name
    (Spec.runes (if xor flag (Spec.odd (Spec.place w dw y) es) then "true" else "false")) hp (hlab _) (by omega)
  refine ⟨(Spec.box (w - dw - 1 - name.length) y name.length, Spec.place w dw y), v2, ?_, A⟩
  unfold drawToggleRow
  rw [kv_ok gr v R dw name hp hw]
  have hb : Spec.box (w - dw) y dw = Spec.place w dw y := rfl
  simp only [Except.bind, countPressesIn_exact, Nat.zero_add, hb, flip_odd, without_one]
  have e1' : (goto v (Spec.box (w - dw - 1 - name.length) y name.length).min).write gr (encodeRunes name) = .ok v1 := e1
  rw [e1']
  simp only
  rw [hbytes, e2]

theorem Ready.at {v : VScreen} {w h c y z : Nat} (R : Ready v w h c y) (e : y = z) : Ready v w h c z := e ▸ R

theorem After.at {t : Theme} {w h dw y z : Nat} {ls : List (List Spec.Piece)} {v v' : VScreen} (A : After t w h dw y ls v v') (e : y = z) :
    After t w h dw z ls v v' := e ▸ A

/-- The panel for telemetry. -/
def Spec.teleLines (w dw : Nat) (sep : List Nat) (file : Option (List Nat)) (logTiming logStalls : Bool) : List (List Spec.Piece) :=
  [headLine w sep (runes "# Telemetry:"), buttonLine w dw (runes "Telemetry Log") (fileLabel file (runes "Go Log")),
   buttonLine w dw (runes "Log Timing") (runes (if logTiming then "true" else "false")),
   buttonLine w dw (runes "Log Stalls") (runes (if logStalls then "true" else "false"))]

theorem tele_texts : ascii "# Telemetry:" = encodeRunes (Spec.runes "# Telemetry:") ∧
    ascii "Telemetry Log" = encodeRunes (Spec.runes "Telemetry Log") ∧ ascii "Go Log" = encodeRunes (Spec.runes "Go Log") ∧
    ascii "Log Timing" = encodeRunes (Spec.runes "Log Timing") ∧ ascii "Log Stalls" = encodeRunes (Spec.runes "Log Stalls") := by
  decide +kernel

theorem ascii_printable {gr : Nat → Bool} (hgr : ∀ r, 0x20 ≤ r → r < 0x7F → Screen.Printable gr r) (s : String)
    (h : ∀ r ∈ Spec.runes s, 0x20 ≤ r ∧ r < 0x7F) : ∀ r ∈ Spec.runes s, Screen.Printable gr r :=
  fun r hr => hgr r (h r hr).1 (h r hr).2

theorem place_apart (w dw : Nat) {y z : Nat} (h : y ≠ z) : ∀ p, ¬ (Geom.Mem p (Spec.place w dw y) ∧ Geom.Mem p (Spec.place w dw z)) := by
  rintro p ⟨h1, h2⟩
  unfold Geom.Mem Spec.place Spec.box at h1 h2
  simp only at h1 h2
  omega

/-- **C123**, telemetry: on a screen with room, the row for the file neither active nor pressed,
the panel shows the name of the log's file and whether timing and stalls are logged; each of the
two is switched by an odd number of left presses on its button, these presses are taken, and
nothing else happens. -/
theorem telemetry_drawn_partial (gr : Nat → Bool) (hgr : ∀ r, 0x20 ≤ r → r < 0x7F → Screen.Printable gr r) (hel : Screen.Printable gr 0x2026)
    {w h c y : Nat} (s : St) (R : Ready s.v w h c y) (dw : Nat) (hdw : 5 ≤ dw) (hw : 14 + dw ≤ w) (hh : y + 4 ≤ h) (gray : Attr) (t : Theme)
    (sep : List Nat) (hs : ∀ r ∈ sep, Screen.Printable gr r) (hl : sep.length = dw) (before : Option Bytes) (file : Option (List Nat))
    (hf : ∀ l ∈ file, ∀ r ∈ l, Screen.Printable gr r) (p : Tel.Tele α)
    (hq : s.ui.active ≠ s.uicur + 1) (ho : Spec.odd (Spec.place w dw (y + 1)) s.es = false) :
    ∃ v', telemetryPanel gr dw (encodeRunes sep) gray t before (file.map encodeRunes) p s =
        .ok ({ p with cfgLog := xor p.cfgLog (Spec.odd (Spec.place w dw (y + 2)) s.es),
                      sw := { p.sw with logStalls := xor p.sw.logStalls (Spec.odd (Spec.place w dw (y + 3)) s.es) } },
          { s with uicur := s.uicur + 1, v := v',
                   es := Spec.without [Spec.place w dw (y + 1), Spec.place w dw (y + 2), Spec.place w dw (y + 3)] s.es }) ∧
      After t w h dw y (Spec.teleLines w dw sep file (xor p.cfgLog (Spec.odd (Spec.place w dw (y + 2)) s.es))
        (xor p.sw.logStalls (Spec.odd (Spec.place w dw (y + 3)) s.es))) s.v v' := by
  have hsp : Screen.Printable gr 0x20 := hgr _ (by omega) (by omega)
  obtain ⟨t1, t2, t3, t4, t5⟩ := tele_texts
  have p1 := ascii_printable hgr "# Telemetry:" (by decide)
  have p2 := ascii_printable hgr "Telemetry Log" (by decide)
  have p3 := ascii_printable hgr "Go Log" (by decide)
  have p4 := ascii_printable hgr "Log Timing" (by decide)
  have p5 := ascii_printable hgr "Log Stalls" (by decide)
  have l1 : (Spec.runes "# Telemetry:").length = 12 := by decide
  have l2 : (Spec.runes "Telemetry Log").length = 13 := by decide
  have l4 : (Spec.runes "Log Timing").length = 10 := by decide
  have l5 : (Spec.runes "Log Stalls").length = 10 := by decide
  obtain ⟨v1, e1, A1⟩ := head_after gr hsp s.v R dw (by omega) t sep (Spec.runes "# Telemetry:") hs hl p1 (by omega)
  have R1 : Ready v1 w h (w - 1) (y + 1) := A1.ready.at (by simp; omega)
  obtain ⟨v2, e2, A2⟩ := file_row gr hgr hel { s with v := v1 } R1 dw hdw gray t
    { name := ascii "Telemetry Log", file := before, dflt := some (ascii "telemetry.log") } (Spec.runes "Telemetry Log") t2 p2 (by omega)
    file (Spec.runes "Go Log") hf p3 hq ho
  have R2 : Ready v2 w h (w - 1) (y + 2) := A2.ready.at (by simp; omega)
  obtain ⟨b3, v3, e3, A3⟩ := toggle_after gr hgr hel v2 R2 dw hdw t (Spec.without [Spec.place w dw (y + 1)] s.es)
    (Spec.runes "Log Timing") p4 (by omega) p.cfgLog
  have R3 : Ready v3 w h (w - 1) (y + 3) := A3.ready.at (by simp; omega)
  have o2 : Spec.odd (Spec.place w dw (y + 2)) (Spec.without [Spec.place w dw (y + 1)] s.es) = Spec.odd (Spec.place w dw (y + 2)) s.es := by
    apply odd_without
    intro c hc
    rw [List.mem_singleton.1 hc]
    exact place_apart w dw (by omega)
  rw [without_without, o2] at e3
  rw [o2] at A3
  obtain ⟨b4, v4, e4, A4⟩ := toggle_after gr hgr hel v3 R3 dw hdw t
    (Spec.without ([Spec.place w dw (y + 1)] ++ [Spec.place w dw (y + 2)]) s.es) (Spec.runes "Log Stalls") p5 (by omega) p.sw.logStalls
  have o3 : Spec.odd (Spec.place w dw (y + 3)) (Spec.without ([Spec.place w dw (y + 1)] ++ [Spec.place w dw (y + 2)]) s.es) =
      Spec.odd (Spec.place w dw (y + 3)) s.es := by
    apply odd_without
    intro c hc
    simp only [List.cons_append, List.nil_append, List.mem_cons, List.not_mem_nil, or_false] at hc
    rcases hc with rfl | rfl <;> exact place_apart w dw (by omega)
  rw [without_without, o3] at e4
  rw [o3] at A4
  refine ⟨v4, ?_, ?_⟩
  · unfold telemetryPanel
    rw [t1, e1]
    simp only [Except.bind]
    rw [t3, e2]
    simp only
    rw [t4, e3]
    simp only
    rw [t5, e4]
    rfl
  · have hy := R.hy
    have B2 := A1.append hy (A2.at (by simp; omega))
    have B3 := B2.append hy (A3.at (by simp; omega))
    exact B3.append hy (A4.at (by simp; omega))

/-! ### The profiling panel -/

/-- The sign of a profiler: still, or a quarter of a circle for each quarter of a second. -/
def Spec.sign (active : Bool) (ns : Nat) : Nat := if active then (Spec.runes "◴◷◶◵").getD (ns / 250000000) 0 else 0x2299

/-- **C123**: within a second there always is a sign. -/
theorem sign_some (active : Bool) (ns : Nat) (h : ns < 1000000000) : sign active ns = some (Spec.sign active ns) := by
  unfold sign Spec.sign
  cases active
  · rfl
  · have e : Spec.runes "◴◷◶◵" = [0x25F4, 0x25F7, 0x25F6, 0x25F5] := by decide
    simp only [if_true, e, Nat.div_div_eq_div_mul]
    have : ns / 250000000 < 4 := by omega
    generalize ns / 250000000 = q at this ⊢
    match q, this with
    | 0, _ => rfl
    | 1, _ => rfl
    | 2, _ => rfl
    | 3, _ => rfl

theorem spot_apart {w dw : Nat} (hw : dw < w) (y z : Nat) : ∀ p, ¬ (Geom.Mem p (Spec.place w dw y) ∧ Geom.Mem p (Spec.spot w dw z)) := by
  rintro p ⟨h1, h2⟩
  unfold Geom.Mem at h1 h2
  unfold Spec.place Spec.box at h1
  unfold Spec.spot Spec.box at h2
  simp only at h1 h2
  omega

theorem spot_other (w dw : Nat) {y z : Nat} (h : y ≠ z) : ∀ p, ¬ (Geom.Mem p (Spec.spot w dw y) ∧ Geom.Mem p (Spec.spot w dw z)) := by
  rintro p ⟨h1, h2⟩
  unfold Geom.Mem Spec.spot Spec.box at h1 h2
  simp only at h1 h2
  omega

/-- A profiler with what its row shows. -/
structure Spec.ProfRow where
  p : Prof
  name : List Nat
  file : Option (List Nat)

/-- Its texts fit. -/
structure Spec.ProfRow.Fits (gr : Nat → Bool) (w dw : Nat) (x : Spec.ProfRow) : Prop where
  name : x.p.fil.name = encodeRunes x.name
  file : x.p.after = x.file.map encodeRunes
  okName : ∀ r ∈ x.name, Screen.Printable gr r
  okFile : ∀ l ∈ x.file, ∀ r ∈ l, Screen.Printable gr r
  room : x.name.length + 1 + dw ≤ w

/-- Its line. -/
def Spec.profLine (w dw ns : Nat) (x : Spec.ProfRow) : List Spec.Piece :=
  signLine w dw x.name (sign x.p.active ns) (fileLabel x.file [])

/-- Whether it is started or stopped by the presses on its sign in row `y`. -/
def Spec.profCall (w dw y : Nat) (es : Events) (x : Spec.ProfRow) : Option Bool :=
  if odd (spot w dw y) es then some (!x.p.active) else none

/-- The places of `n` rows from `y` on. -/
def Spec.rowBoxes (w dw : Nat) : Nat → Nat → List Rect
  | _, 0 => []
  | y, n + 1 => place w dw y :: spot w dw y :: rowBoxes w dw (y + 1) n

theorem prof_row (gr : Nat → Bool) (hgr : ∀ r, 0x20 ≤ r → r < 0x7F → Screen.Printable gr r) (hel : Screen.Printable gr 0x2026)
    (hsign : ∀ r ∈ Spec.runes "⊙◴◷◶◵", Screen.Printable gr r) {w h c y : Nat} (s : St) (R : Ready s.v w h c y) (dw : Nat) (hdw : 5 ≤ dw)
    (gray : Attr) (t : Theme) (ns : Nat) (hns : ns < 1000000000) (x : Spec.ProfRow) (F : x.Fits gr w dw)
    (hq : s.ui.active ≠ s.uicur + 1) (ho : Spec.odd (Spec.place w dw y) s.es = false) :
    ∃ v', profControl gr dw gray t ns x.p s =
        .ok (Spec.profCall w dw y s.es x,
          { s with uicur := s.uicur + 1, v := v', es := Spec.without [Spec.place w dw y, Spec.spot w dw y] s.es }) ∧
      After t w h dw y [Spec.profLine w dw ns x] s.v v' := by
  have hyh := R.hy
  have hroom := F.room
  obtain ⟨v1, e1, A1⟩ := file_row gr hgr hel s R dw hdw gray t x.p.fil x.name F.name F.okName F.room x.file [] F.okFile
    (by simp) hq ho
  have hg : Screen.Printable gr (Spec.sign x.p.active ns) := by
    apply hsign
    unfold Spec.sign
    have e : Spec.runes "⊙◴◷◶◵" = [0x2299, 0x25F4, 0x25F7, 0x25F6, 0x25F5] := by decide
    have e' : Spec.runes "◴◷◶◵" = [0x25F4, 0x25F7, 0x25F6, 0x25F5] := by decide
    rw [e, e']
    cases x.p.active
    · simp
    · have : ns / 250000000 < 4 := by omega
      generalize ns / 250000000 = q at this ⊢
      match q, this with
      | 0, _ => simp
      | 1, _ => simp
      | 2, _ => simp
      | 3, _ => simp
  have R1 := A1.ready
  have R2 := goto_at R1.whole R1.settled (x := w - dw - 1) (y := y) (by omega) hyh
  obtain ⟨v2, e2, D2⟩ := drew_run gr [Spec.sign x.p.active ns] (by simpa using hg) _ R2 (by simp; omega)
  have R3 := goto_below (w := w) (h := h) (y := y) D2.whole D2.settled
  have hmax : (Spec.place w dw y).max = ⟨(w : Int) + 1, (y : Int) + 1 + 1⟩ := by
    show (⟨((w - dw : Nat) : Int) + dw + 1, (y : Int) + 1 + 1⟩ : Pt) = _
    rw [show ((w - dw : Nat) : Int) + dw + 1 = (w : Int) + 1 by omega]
  have hplain : Spec.leave [Spec.buttonLine w dw x.name (Spec.fileLabel x.file [])] s.v.sc.cur = Spec.plain := rfl
  have hplain' : Spec.leaves (Spec.profLine w dw ns x) s.v.sc.cur = Spec.plain := rfl
  refine ⟨goto v2 (Spec.place w dw y).max, ?_, After.one (hmax ▸ R3) ?_ ?_ ?_⟩
  · unfold profControl
    have en : encodeRunes ([] : List Nat) = [] := rfl
    rw [F.file]
    rw [en] at e1
    rw [e1]
    simp only [Except.bind]
    have er : mkRect (Spec.box (w - dw - 1 - x.name.length) y x.name.length).max.x
        (Spec.box (w - dw - 1 - x.name.length) y x.name.length).min.y (Spec.place w dw y).min.x
        (Spec.box (w - dw - 1 - x.name.length) y x.name.length).max.y = .ok (Spec.spot w dw y) := by
      have := mkRect_ok (x0 := (w - dw - 1 : Nat) + 1) (y0 := (y : Int) + 1) (x1 := ((w - dw : Nat) : Int) + 1) (y1 := (y : Int) + 1 + 1)
        (by omega) (by omega) (by omega) (by omega)
      have a1 : (Spec.box (w - dw - 1 - x.name.length) y x.name.length).max.x = ((w - dw - 1 : Nat) : Int) + 1 := by
        unfold Spec.box; simp only; omega
      rw [a1]
      refine this.trans ?_
      unfold Spec.spot Spec.box
      rw [show ((w - dw : Nat) : Int) = ((w - dw - 1 : Nat) : Int) + ((1 : Nat) : Int) by omega]
    rw [er]
    simp only [drawSpinner, sign_some _ _ hns]
    have e2' : (goto v1 (Spec.spot w dw y).min).write gr (encodeRune (Spec.sign x.p.active ns)) = .ok v2 := by
      rw [← e2]
      simp only [encodeRunes, List.flatMap_cons, List.flatMap_nil, List.append_nil]
      rfl
    rw [e2']
    simp only [Except.bind, countPressesIn_exact, Nat.zero_add, without_one, without_without, List.cons_append, List.nil_append]
    have o : Spec.odd (Spec.spot w dw y) (Spec.without [Spec.place w dw y] s.es) = Spec.odd (Spec.spot w dw y) s.es :=
      odd_without (by
        intro c hc
        rw [List.mem_singleton.1 hc]
        exact spot_apart (by omega) y y) s.es
    have o' : (if (Spec.without [Spec.place w dw y] s.es).countP (pressIn (Spec.spot w dw y) 1) % 2 = 1 then some (!x.p.active) else none) =
        Spec.profCall w dw y s.es x := by
      unfold Spec.profCall
      rw [← o]
      simp [Spec.odd]
    rw [o']
  · show v2.sc.cur.attr = _
    rw [D2.cur, hplain']
    exact A1.attr
  · show v2.sc.cur.attrKnown = _
    rw [D2.cur, hplain']
    exact A1.known
  · intro a b ha hb
    have hattr : v1.sc.cur.attr = 0 := A1.attr
    rw [goto_look, D2.look a b ha hb]
    have hL := A1.look (by simp; omega) a b ha hb
    rw [goto_look, hL]
    have e : Spec.line t w dw y s.v.sc.cur (Spec.profLine w dw ns x) (s.v.sc.look w) =
        Spec.lay [Spec.sign x.p.active ns] (w - dw - 1) y 0
          (Spec.line t w dw y s.v.sc.cur (Spec.buttonLine w dw x.name (Spec.fileLabel x.file [])) (s.v.sc.look w)) := by
      unfold Spec.profLine Spec.signLine Spec.line
      rw [List.foldl_append]
      rfl
    rw [e]
    unfold Spec.lay
    rw [show (goto v1 ⟨((w - dw - 1 : Nat) : Int) + 1, (y : Int) + 1⟩).sc.cur.attr = 0 from hattr]
    rfl

theorem rowBoxes_mem (w dw : Nat) : ∀ (n y : Nat) (c : Rect), c ∈ Spec.rowBoxes w dw y n →
    ∃ i, i < n ∧ (c = Spec.place w dw (y + i) ∨ c = Spec.spot w dw (y + i))
  | 0, _, _, h => by simp [Spec.rowBoxes] at h
  | n + 1, y, c, h => by
    simp only [Spec.rowBoxes, List.mem_cons] at h
    rcases h with h | h | h
    · exact ⟨0, by omega, Or.inl h⟩
    · exact ⟨0, by omega, Or.inr h⟩
    · obtain ⟨i, hi, h⟩ := rowBoxes_mem w dw n (y + 1) c h
      refine ⟨i + 1, by omega, ?_⟩
      rw [show y + (i + 1) = y + 1 + i by omega]
      exact h

/-- The rows of profilers. -/
theorem prof_rows (gr : Nat → Bool) (hgr : ∀ r, 0x20 ≤ r → r < 0x7F → Screen.Printable gr r) (hel : Screen.Printable gr 0x2026)
    (hsign : ∀ r ∈ Spec.runes "⊙◴◷◶◵", Screen.Printable gr r) {w h : Nat} (dw : Nat) (hdw : 5 ≤ dw) (hw : dw < w)
    (gray : Attr) (t : Theme) (ns : Nat) (hns : ns < 1000000000) : ∀ (xs : List Spec.ProfRow) (_ : ∀ x ∈ xs, x.Fits gr w dw) (y : Nat) (s : St)
    (_ : Ready s.v w h (w - 1) y) (_ : y + xs.length < h) (_ : ∀ i, i < xs.length → s.ui.active ≠ s.uicur + 1 + i)
    (_ : ∀ i, i < xs.length → Spec.odd (Spec.place w dw (y + i)) s.es = false),
    ∃ v', profControls gr dw gray t ns (xs.map (·.p)) s =
        .ok (xs.mapIdx (fun i x => Spec.profCall w dw (y + i) s.es x),
          { s with uicur := s.uicur + xs.length, v := v', es := Spec.without (Spec.rowBoxes w dw y xs.length) s.es }) ∧
      After t w h dw y (xs.map (Spec.profLine w dw ns)) s.v v'
  | [], _, y, s, R, _, _, _ => by
    refine ⟨s.v, ?_, After.nil t R⟩
    have : Spec.without (Spec.rowBoxes w dw y 0) s.es = s.es := by
      simp [Spec.rowBoxes, Spec.without, strike_none]
    simp only [List.map_nil, profControls, List.mapIdx_nil, List.length_nil, Nat.add_zero, this]
  | x :: xs, F, y, s, R, hh, hq, ho => by
    simp only [List.length_cons] at hh hq ho
    obtain ⟨v1, e1, A1⟩ := prof_row gr hgr hel hsign s R dw hdw gray t ns hns x (F x (by simp)) (hq 0 (by omega)) (ho 0 (by omega))
    have R1 : Ready v1 w h (w - 1) (y + 1) := A1.ready.at (by simp; omega)
    have hout : ∀ i b, (b = Spec.place w dw (y + 1 + i) ∨ b = Spec.spot w dw (y + 1 + i)) →
        Spec.odd b (Spec.without [Spec.place w dw y, Spec.spot w dw y] s.es) = Spec.odd b s.es := by
      intro i b hb
      apply odd_without
      intro c hc
      simp only [List.mem_cons, List.not_mem_nil, or_false] at hc
      rcases hc with rfl | rfl <;> rcases hb with rfl | rfl
      · exact place_apart w dw (by omega)
      · exact spot_apart hw _ _
      · exact fun p hp => spot_apart hw _ _ p hp.symm
      · exact spot_other w dw (by omega)
    obtain ⟨v2, e2, A2⟩ := prof_rows gr hgr hel hsign dw hdw hw gray t ns hns xs (fun z hz => F z (by simp [hz])) (y + 1)
      { s with uicur := s.uicur + 1, v := v1, es := Spec.without [Spec.place w dw y, Spec.spot w dw y] s.es } R1 (by omega)
      (fun i hi => by
        have := hq (i + 1) (by omega)
        show s.ui.active ≠ s.uicur + 1 + 1 + i
        omega)
      (fun i hi => by
        rw [hout i _ (Or.inl rfl), show y + 1 + i = y + (i + 1) by omega]
        exact ho (i + 1) (by omega))
    refine ⟨v2, ?_, A1.append R.hy (A2.at (by simp; omega))⟩
    simp only [List.map_cons, profControls]
    rw [e1]
    simp only [Except.bind]
    rw [e2]
    simp only [List.mapIdx_cons, Nat.add_zero, List.length_cons, without_without, Spec.rowBoxes, List.cons_append, List.nil_append]
    have hc : (fun i x => Spec.profCall w dw (y + 1 + i) (Spec.without [Spec.place w dw y, Spec.spot w dw y] s.es) x) =
        fun i x => Spec.profCall w dw (y + (i + 1)) s.es x := by
      funext i x
      unfold Spec.profCall
      rw [hout i _ (Or.inr rfl), show y + 1 + i = y + (i + 1) by omega]
    rw [hc, show s.uicur + 1 + xs.length = s.uicur + (xs.length + 1) by omega]

/-- The control to add a profile, not pressed. -/
theorem selector_after (gr : Nat → Bool) (hgr : ∀ r, 0x20 ≤ r → r < 0x7F → Screen.Printable gr r) (hel : Screen.Printable gr 0x2026)
    {w h c y : Nat} (dw : Nat) (hdw : 5 ≤ dw) (hw : 6 + dw ≤ w) (t : Theme) (id : Nat) (all : List Bytes) (s : Pick)
    (R : Ready s.v w h c y) (ha : s.active ≠ id) (ho : Spec.odd (Spec.place w dw y) s.es = false) :
    ∃ v', drawSelector gr dw t id all s = .ok { s with es := Spec.without [Spec.place w dw y] s.es, v := v' } ∧
      After t w h dw y [[⟨Spec.runes "PProf ", w - dw - 6, .cur⟩, ⟨Spec.button dw (Spec.runes "Add"), w - dw, .btn⟩]] s.v v' := by
  have hk := ascii_printable hgr "PProf " (by decide)
  have hk' := ascii_printable hgr "PProf" (by decide)
  have hl := ascii_printable hgr "Add" (by decide)
  have l6 : (Spec.runes "PProf ").length = 6 := by decide
  have l5 : (Spec.runes "PProf").length = 5 := by decide
  have b1 : pprofKey = encodeRunes (Spec.runes "PProf") := by decide +kernel
  have b2 : pprofKey ++ [0x20] = encodeRunes (Spec.runes "PProf ") := by decide +kernel
  have b3 : addLabel = encodeRunes (Spec.runes "Add") := by decide +kernel
  obtain ⟨v1, v2, e1, e2, A⟩ := key_then_button gr hgr hel s.v R dw hdw t (w - dw - 6) (Spec.runes "PProf ") (Spec.runes "Add")
    hk hl (by omega)
  refine ⟨goto v2 (Spec.place w dw y).max, ?_, After.below (by omega) A⟩
  have hz : ¬ (s.es.countP (pressIn (Spec.place w dw y) 1) % 2 = 1) := by
    unfold Spec.odd at ho
    simpa using ho
  have hb : Spec.box (w - dw) y dw = Spec.place w dw y := rfl
  have e1' : (goto s.v (Spec.box (w - dw - 1 - 5) y 5).min).write gr (encodeRunes (Spec.runes "PProf ")) = .ok v1 := e1
  unfold drawSelector
  rw [b2, b1, kv_ok gr s.v R dw _ hk' (by omega), l5]
  simp only [Except.bind]
  rw [e1', if_pos ha]
  simp only [countPressesIn_exact, Nat.zero_add, hb, if_neg hz, if_neg ha, without_one]
  rw [b3, e2]

/-- The panel for profiling. -/
def Spec.profLines (w dw ns : Nat) (sep : List Nat) (xs : List Spec.ProfRow) : List (List Spec.Piece) :=
  headLine w sep (runes "# Profiling Control:") :: xs.map (profLine w dw ns) ++
    [[⟨runes "PProf ", w - dw - 6, .cur⟩, ⟨button dw (runes "Add"), w - dw, .btn⟩]]

/-- The places of the panel. -/
def Spec.profBoxes (w dw y n : Nat) : List Rect := bar w dw 20 y :: rowBoxes w dw (y + 1) n ++ [place w dw (y + 1 + n)]

theorem bar_apart (w dw k : Nat) {y z : Nat} (h : y ≠ z) (x n : Nat) : ∀ p, ¬ (Geom.Mem p (Spec.bar w dw k y) ∧ Geom.Mem p (Spec.box x z n)) := by
  rintro p ⟨h1, h2⟩
  unfold Geom.Mem at h1 h2
  unfold Spec.bar Spec.box at h1
  unfold Spec.box at h2
  simp only at h1 h2
  omega

/-- **C123**, profiling: on a screen with room, no file being chosen and no press on the buttons:
the panel shows for each profiler its name, its sign and its file; a profiler is started or
stopped exactly by an odd number of left presses on its sign; these presses are taken, and nothing
else happens.  An odd number of left presses on the heading closes the panel: then only the
heading is shown, and no other press is taken. -/
theorem profiling_drawn_partial (gr : Nat → Bool) (hgr : ∀ r, 0x20 ≤ r → r < 0x7F → Screen.Printable gr r) (hel : Screen.Printable gr 0x2026)
    (hsign : ∀ r ∈ Spec.runes "⊙◴◷◶◵", Screen.Printable gr r) {w h c y : Nat} (s : St) (R : Ready s.v w h c y) (dw : Nat) (hdw : 5 ≤ dw)
    (hw : 21 + dw ≤ w) (gray : Attr) (t : Theme) (sep : List Nat) (hs : ∀ r ∈ sep, Screen.Printable gr r) (hl : sep.length = dw)
    (ns : Nat) (hns : ns < 1000000000) (xs : List Spec.ProfRow) (F : ∀ x ∈ xs, x.Fits gr w dw) (all have_ : List Bytes)
    (hh : y + (xs.length + 2) ≤ h) (hq : ∀ i, i ≤ xs.length → s.ui.active ≠ s.uicur + 1 + i)
    (ho : ∀ i, i ≤ xs.length → Spec.odd (Spec.place w dw (y + 1 + i)) s.es = false) :
    ∃ v', profDetail gr dw (encodeRunes sep) gray t ns (xs.map (·.p)) all have_ s =
        .ok (if Spec.odd (Spec.bar w dw 20 y) s.es then
            { detail := false, calls := [], have_, s := { s with v := v', es := Spec.without [Spec.bar w dw 20 y] s.es } }
          else
            { detail := true, calls := xs.mapIdx (fun i x => Spec.profCall w dw (y + 1 + i) s.es x), have_
              s := { s with uicur := s.uicur + xs.length + 1, v := v', es := Spec.without (Spec.profBoxes w dw y xs.length) s.es } }) ∧
      After t w h dw y
        (if Spec.odd (Spec.bar w dw 20 y) s.es then [Spec.headLine w sep (Spec.runes "# Profiling Control:")]
          else Spec.profLines w dw ns sep xs) s.v v' := by
  have hsp : Screen.Printable gr 0x20 := hgr _ (by omega) (by omega)
  have t1 : ascii "# Profiling Control:" = encodeRunes (Spec.runes "# Profiling Control:") := by decide +kernel
  have p1 := ascii_printable hgr "# Profiling Control:" (by decide)
  have l1 : (Spec.runes "# Profiling Control:").length = 20 := by decide
  obtain ⟨v1, e1, A1⟩ := head_after gr hsp s.v R dw (by omega) t sep (Spec.runes "# Profiling Control:") hs hl p1 (by omega)
  rw [l1] at e1
  unfold profDetail
  rw [t1, e1]
  simp only [Except.bind, countPressesIn_exact, Nat.zero_add, without_one]
  cases hc : Spec.odd (Spec.bar w dw 20 y) s.es with
  | true =>
    have hc' : s.es.countP (pressIn (Spec.bar w dw 20 y) 1) % 2 = 1 := by
      unfold Spec.odd at hc
      simpa using hc
    refine ⟨v1, ?_, ?_⟩
    · rw [if_pos hc', if_pos rfl]
    · rw [if_pos rfl]
      exact A1
  | false =>
    have hc' : ¬ (s.es.countP (pressIn (Spec.bar w dw 20 y) 1) % 2 = 1) := by
      unfold Spec.odd at hc
      simpa using hc
    rw [if_neg hc']
    have hf : ¬ (false = true) := by simp
    have R1 : Ready v1 w h (w - 1) (y + 1) := A1.ready.at (by simp; omega)
    have hout : ∀ z x n, y ≠ z → Spec.odd (Spec.box x z n) (Spec.without [Spec.bar w dw 20 y] s.es) = Spec.odd (Spec.box x z n) s.es := by
      intro z x n hz
      apply odd_without
      intro c hc
      rw [List.mem_singleton.1 hc]
      exact bar_apart w dw 20 hz x n
    obtain ⟨v2, e2, A2⟩ := prof_rows gr hgr hel hsign dw hdw (by omega) gray t ns hns xs F (y + 1)
      { s with v := v1, es := Spec.without [Spec.bar w dw 20 y] s.es } R1 (by omega) (fun i hi => hq i (by omega))
      (fun i hi => (hout _ _ _ (by omega)).trans (ho i (by omega)))
    have R2 : Ready v2 w h (w - 1) (y + 1 + xs.length) := A2.ready.at (by simp; omega)
    have o2 : Spec.odd (Spec.place w dw (y + 1 + xs.length))
        (Spec.without (Spec.rowBoxes w dw (y + 1) xs.length) (Spec.without [Spec.bar w dw 20 y] s.es)) = false := by
      rw [odd_without, show Spec.odd (Spec.place w dw (y + 1 + xs.length)) (Spec.without [Spec.bar w dw 20 y] s.es) = _ from
        hout _ _ _ (by omega)]
      · exact ho _ (by omega)
      · intro c hc
        obtain ⟨i, hi, rfl | rfl⟩ := rowBoxes_mem w dw _ _ c hc
        · exact place_apart w dw (by omega)
        · exact fun p hp => spot_apart (by omega) _ _ p hp.symm
    obtain ⟨v3, e3, A3⟩ := selector_after gr hgr hel dw hdw (by omega) t (s.uicur + xs.length + 1) all
      ⟨s.ui.active, have_, Spec.without (Spec.rowBoxes w dw (y + 1) xs.length) (Spec.without [Spec.bar w dw 20 y] s.es), v2⟩ R2
      (by
        have := hq xs.length (by omega)
        show s.ui.active ≠ _
        omega) o2
    refine ⟨v3, ?_, ?_⟩
    · rw [e2]
      simp only
      rw [e3, if_neg hf]
      simp only [without_without]
      have hcalls : (fun i x => Spec.profCall w dw (y + 1 + i) (Spec.without [Spec.bar w dw 20 y] s.es) x) =
          fun i x => Spec.profCall w dw (y + 1 + i) s.es x := by
        funext i x
        unfold Spec.profCall
        rw [show Spec.odd (Spec.spot w dw (y + 1 + i)) (Spec.without [Spec.bar w dw 20 y] s.es) = _ from hout _ _ _ (by omega)]
        rfl
      rw [hcalls]
      rfl
    · rw [if_neg hf]
      have hy := R.hy
      have B2 := A1.append hy (A2.at (by simp; omega))
      have B3 := B2.append hy (A3.at (by simp; omega))
      exact B3

/-! ### The timing panel -/

/-- A key, set against the button, and a button. -/
def Spec.keyLine (w dw : Nat) (key label : List Nat) : List Spec.Piece :=
  [⟨key, w - dw - key.length, .cur⟩, ⟨button dw label, w - dw, .btn⟩]

/-- The last line of the panel for timing. -/
def Spec.recordLine (w dw : Nat) (recording : Option (List Nat)) : Option (List Nat) → List Spec.Piece
  | some s => [⟨runes "replaying ", w - dw - 10, .cur⟩, ⟨s, w - dw, .cur⟩]
  | none => keyLine w dw (runes "recording ") (recording.getD (runes "Start"))

/-- The panel for timing. -/
def Spec.timeLines (w dw : Nat) (last dt : List Nat) (paused : Bool) (replay recording : Option (List Nat)) : List (List Spec.Piece) :=
  [rowLine w dw (runes "last") last, rowLine w dw (runes "∂t") dt,
   keyLine w dw (runes "paused ") (runes (if paused then "Resume" else "Pause")),
   recordLine w dw recording replay]

/-- Its places. -/
def Spec.timeBoxes (w dw y : Nat) (replay : Bool) : List Rect :=
  place w dw (y + 2) :: if replay then [] else [place w dw (y + 3)]

theorem record_after (gr : Nat → Bool) (hgr : ∀ r, 0x20 ≤ r → r < 0x7F → Screen.Printable gr r) (hel : Screen.Printable gr 0x2026)
    {w h c y : Nat} (v : VScreen) (R : Ready v w h c y) (dw : Nat) (hdw : 5 ≤ dw) (t : Theme) (es : Events) (p : Timing)
    (replay recording : Option (List Nat)) (hrep : p.replay = replay.map encodeRunes) (hrec : p.recording = recording.map encodeRunes)
    (hp1 : ∀ s ∈ replay, s.length ≤ dw ∧ ∀ r ∈ s, Screen.Printable gr r) (hp2 : ∀ s ∈ recording, ∀ r ∈ s, Screen.Printable gr r)
    (hw : 10 + dw ≤ w) :
    ∃ v', drawRecord gr dw t p es v =
        .ok (!replay.isSome && Spec.odd (Spec.place w dw y) es,
          Spec.without (if replay.isSome then [] else [Spec.place w dw y]) es, v') ∧
      After t w h dw y [Spec.recordLine w dw recording replay] v v' := by
  have hyh := R.hy
  have hk := ascii_printable hgr "replaying" (by decide)
  have hk1 := ascii_printable hgr "replaying " (by decide)
  have hk2 := ascii_printable hgr "recording " (by decide)
  have hk3 := ascii_printable hgr "Start" (by decide)
  have t0 : ascii "replaying" = encodeRunes (Spec.runes "replaying") := by decide +kernel
  have t1 : ascii "replaying " = encodeRunes (Spec.runes "replaying ") := by decide +kernel
  have t2 : ascii "recording " = encodeRunes (Spec.runes "recording ") := by decide +kernel
  have t3 : ascii "Start" = encodeRunes (Spec.runes "Start") := by decide +kernel
  have l0 : (Spec.runes "replaying").length = 9 := by decide
  have l1 : (Spec.runes "replaying ").length = 10 := by decide
  have l2 : (Spec.runes "recording ").length = 10 := by decide
  have hmax : (Spec.place w dw y).max = ⟨(w : Int) + 1, (y : Int) + 1 + 1⟩ := by
    show (⟨((w - dw : Nat) : Int) + dw + 1, (y : Int) + 1 + 1⟩ : Pt) = _
    rw [show ((w - dw : Nat) : Int) + dw + 1 = (w : Int) + 1 by omega]
  have hb : Spec.box (w - dw) y dw = Spec.place w dw y := rfl
  unfold drawRecord
  rw [t0, kv_ok gr v R dw _ hk (by omega), l0]
  simp only [Except.bind, countPressesIn_exact, Nat.zero_add, hb, without_one]
  rw [hrep, hrec]
  cases replay with
  | some s =>
    obtain ⟨hs1, hs2⟩ := hp1 s rfl
    simp only [Option.map_some]
    have R1 := goto_at R.whole R.settled (x := w - dw - 10) (y := y) (by omega) hyh
    obtain ⟨v1, e1, D1⟩ := drew_run gr (Spec.runes "replaying ") hk1 _ R1 (by omega)
    have e1' : (goto v (Spec.box (w - dw - 1 - 9) y 9).min).write gr (encodeRunes (Spec.runes "replaying ")) = .ok v1 := e1
    rw [t1, e1']
    simp only
    have R2 := goto_at D1.whole D1.settled (x := w - dw) (y := y) (by omega) hyh
    obtain ⟨v2, e2, D2⟩ := drew_run gr s hs2 _ R2 (by omega)
    have e2' : (goto v1 (Spec.place w dw y).min).write gr (encodeRunes s) = .ok v2 := e2
    rw [e2']
    have hattr : (goto v1 ⟨((w - dw : Nat) : Int) + 1, (y : Int) + 1⟩).sc.cur.attr = v.sc.cur.attr := by
      show v1.sc.cur.attr = _
      rw [D1.cur]; rfl
    have hw0 : Spec.without [] es = es := by simp [Spec.without, strike_none]
    refine ⟨goto v2 (Spec.place w dw y).max, by simp [hw0], After.one ?_ ?_ ?_ ?_⟩
    · rw [hmax]
      exact goto_below D2.whole D2.settled
    · show v2.sc.cur.attr = v.sc.cur.attr
      rw [D2.cur]
      exact hattr
    · show v2.sc.cur.attrKnown = v.sc.cur.attrKnown
      rw [D2.cur]
      show v1.sc.cur.attrKnown = _
      rw [D1.cur]
      rfl
    · intro a b ha hb
      rw [goto_look, D2.look a b ha hb, goto_look, D1.look a b ha hb, goto_look, hattr]
      rfl
  | none =>
    have hlab : ∀ r ∈ recording.getD (Spec.runes "Start"), Screen.Printable gr r := by
      cases recording with
      | none => exact hk3
      | some s => exact hp2 s rfl
    have hlt : (recording.map encodeRunes).getD (ascii "Start") = encodeRunes (recording.getD (Spec.runes "Start")) := by
      cases recording with
      | none => exact t3
      | some s => rfl
    obtain ⟨v1, v2, e1, e2, A⟩ := key_then_button gr hgr hel v R dw hdw t (w - dw - 10) (Spec.runes "recording ")
      (recording.getD (Spec.runes "Start")) hk2 hlab (by omega)
    have e1' : (goto v (Spec.box (w - dw - 1 - 9) y 9).min).write gr (encodeRunes (Spec.runes "recording ")) = .ok v1 := e1
    simp only [Option.map_none]
    rw [t2, e1']
    simp only
    rw [hlt, e2]
    refine ⟨goto v2 (Spec.place w dw y).max, ?_, After.below (by omega) A⟩
    simp [Spec.odd]

theorem timing_after (gr : Nat → Bool) (hgr : ∀ r, 0x20 ≤ r → r < 0x7F → Screen.Printable gr r) (hel : Screen.Printable gr 0x2026)
    (hdt : Screen.Printable gr 0x2202)
    {w h y : Nat} (v : VScreen) (R : Ready v w h (w - 1) y) (dw : Nat) (hdw : 5 ≤ dw) (t : Theme) (es : Events)
    (p : Timing) (last dt : List Nat) (replay recording : Option (List Nat))
    (hlast : p.last = encodeRunes last) (hdt' : p.dt = encodeRunes dt)
    (hrep : p.replay = replay.map encodeRunes) (hrec : p.recording = recording.map encodeRunes)
    (hp1 : ∀ s ∈ [last, dt] ++ replay.toList, s.length ≤ dw ∧ ∀ r ∈ s, Screen.Printable gr r)
    (hp2 : ∀ s ∈ recording, ∀ r ∈ s, Screen.Printable gr r) (hw : 10 + dw ≤ w) (hh : y + 4 ≤ h) :
    ∃ v', timingDetail gr dw t p es v =
        .ok (xor p.paused (Spec.odd (Spec.place w dw (y + 2)) es), !replay.isSome && Spec.odd (Spec.place w dw (y + 3)) es,
          Spec.without (Spec.timeBoxes w dw y replay.isSome) es, v') ∧
      After t w h dw y (Spec.timeLines w dw last dt (xor p.paused (Spec.odd (Spec.place w dw (y + 2)) es)) replay recording) v v' := by
  have hsp : Screen.Printable gr 0x20 := hgr _ (by omega) (by omega)
  have l1 : (Spec.runes "last").length = 4 := by decide
  have l2 : (Spec.runes "∂t").length = 2 := by decide
  have t1 : ascii "last" = encodeRunes (Spec.runes "last") := by decide +kernel
  have t2 : ([0xE2, 0x88, 0x82] ++ ascii "t" : Bytes) = encodeRunes (Spec.runes "∂t") := by decide +kernel
  have hk2 : ∀ r ∈ Spec.runes "∂t", Screen.Printable gr r := by
    intro r hr
    have : Spec.runes "∂t" = [0x2202, 0x74] := by decide
    rw [this] at hr
    rcases List.mem_cons.1 hr with rfl | hr
    · exact hdt
    · rcases List.mem_singleton.1 hr with rfl
      exact hgr _ (by omega) (by omega)
  obtain ⟨b1, v1, e1, A1⟩ := row_after gr hsp v R dw t (Spec.runes "last", last)
    ⟨ascii_printable hgr "last" (by decide), (hp1 last (by simp)).2, (hp1 last (by simp)).1, by simp only [l1]; omega⟩
  have R1 : Ready v1 w h (w - 1) (y + 1) := A1.ready.at (by simp; omega)
  obtain ⟨b2, v2, e2, A2⟩ := row_after gr hsp v1 R1 dw t (Spec.runes "∂t", dt)
    ⟨hk2, (hp1 dt (by simp)).2, (hp1 dt (by simp)).1, by simp only [l2]; omega⟩
  have R2 : Ready v2 w h (w - 1) (y + 2) := A2.ready.at (by simp; omega)
  obtain ⟨v3, e3, R3, A, K, L⟩ := pause_drawn gr hgr hel v2 R2 dw hdw t es p.paused (by omega)
  have A3 : After t w h dw (y + 2) [Spec.keyLine w dw (Spec.runes "paused ")
      (Spec.runes (if xor p.paused (Spec.odd (Spec.place w dw (y + 2)) es) then "Resume" else "Pause"))] v2 v3 := by
    refine After.one R3 A K fun a b ha hb => ?_
    rw [L a b ha hb]
    have l7 : (Spec.runes "paused ").length = 7 := by decide
    simp only [Spec.keyLine, Spec.line, List.foldl_cons, List.foldl_nil, Spec.Piece.attr, l7, apply_ite Spec.runes]
    rfl
  have R3' : Ready v3 w h (w - 1) (y + 3) := R3.at (by omega)
  obtain ⟨v4, e4, A4⟩ := record_after gr hgr hel v3 R3' dw hdw t (Spec.without [Spec.place w dw (y + 2)] es) p replay recording hrep hrec
    (fun s hs => hp1 s (by
      rw [List.mem_append]
      exact Or.inr (Option.mem_toList.2 hs))) hp2 hw
  have o : Spec.odd (Spec.place w dw (y + 3)) (Spec.without [Spec.place w dw (y + 2)] es) = Spec.odd (Spec.place w dw (y + 3)) es := by
    apply odd_without
    intro c hc
    rw [List.mem_singleton.1 hc]
    exact place_apart w dw (by omega)
  rw [o, without_without] at e4
  refine ⟨v4, ?_, ?_⟩
  · unfold timingDetail
    rw [t1, hlast, e1]
    simp only [Except.bind]
    rw [t2, hdt', e2]
    simp only
    rw [e3]
    simp only [without_one]
    have hb : Spec.box (w - dw) (y + 2) dw = Spec.place w dw (y + 2) := rfl
    rw [hb, e4]
    rfl
  · have hy := R.hy
    have B2 := A1.append hy (A2.at (by simp; omega))
    have B3 := B2.append hy (A3.at (by simp; omega))
    exact B3.append hy (A4.at (by simp; omega))

/-! ### All panels -/

/-- The boxes are above row `z`. -/
def Above (z : Nat) (bs : List Rect) : Prop := ∀ c ∈ bs, c.max.y ≤ (z : Int) + 1

theorem Above.append {z : Nat} {bs cs : List Rect} (h1 : Above z bs) (h2 : Above z cs) : Above z (bs ++ cs) := fun c hc => by
  rcases List.mem_append.1 hc with h | h
  · exact h1 c h
  · exact h2 c h

theorem Above.mono {z z' : Nat} {bs : List Rect} (h : Above z bs) (hz : z ≤ z') : Above z' bs := fun c hc => by
  have := h c hc
  omega

/-- Presses above do not count. -/
theorem odd_above {z : Nat} {bs : List Rect} (h : Above z bs) {r : Nat} (hr : z ≤ r) (x k : Nat) (es : Events) :
    Spec.odd (Spec.box x r k) (Spec.without bs es) = Spec.odd (Spec.box x r k) es := by
  apply odd_without
  rintro c hc p ⟨h1, h2⟩
  have h3 := h c hc
  unfold Geom.Mem at h1 h2
  unfold Spec.box at h2
  simp only at h2
  omega

theorem above_time (w dw y : Nat) (r : Bool) : Above (y + 4) (Spec.timeBoxes w dw y r) := by
  intro c hc
  unfold Spec.timeBoxes at hc
  cases r <;> simp only [if_true, List.mem_cons, List.not_mem_nil, or_false, Bool.false_eq_true, if_false] at hc
  · rcases hc with rfl | rfl <;> (unfold Spec.place Spec.box; simp only; omega)
  · rcases hc with rfl
    unfold Spec.place Spec.box; simp only; omega

theorem above_prof (w dw y n : Nat) : Above (y + (n + 2)) (Spec.profBoxes w dw y n) := by
  intro c hc
  unfold Spec.profBoxes at hc
  simp only [List.cons_append, List.mem_cons, List.mem_append, List.not_mem_nil, or_false] at hc
  rcases hc with rfl | hc | rfl
  · unfold Spec.bar Spec.box; simp only; omega
  · obtain ⟨i, hi, rfl | rfl⟩ := rowBoxes_mem w dw _ _ c hc
    · unfold Spec.place Spec.box; simp only; omega
    · unfold Spec.spot Spec.box; simp only; omega
  · unfold Spec.place Spec.box; simp only; omega

/-- The places of the panel for telemetry. -/
def Spec.teleBoxes (w dw y : Nat) : List Rect := [place w dw (y + 1), place w dw (y + 2), place w dw (y + 3)]

theorem above_tele (w dw y : Nat) : Above (y + 4) (Spec.teleBoxes w dw y) := by
  intro c hc
  unfold Spec.teleBoxes at hc
  simp only [List.mem_cons, List.not_mem_nil, or_false] at hc
  rcases hc with rfl | rfl | rfl <;> (unfold Spec.place Spec.box; simp only; omega)

/-- What the panels show. -/
structure Spec.Texts where
  dw : Nat
  sep : List Nat
  last : List Nat
  dt : List Nat
  replay : Option (List Nat)
  recording : Option (List Nat)
  log : Option (List Nat)
  profs : List Spec.ProfRow

/-- The panels are drawn with these texts, and they fit. -/
structure Spec.Texts.Fits (x : Spec.Texts) (e : Panels) (w : Nat) : Prop where
  ascii : ∀ r, 0x20 ≤ r → r < 0x7F → Screen.Printable e.gr r
  marks : ∀ r ∈ Spec.runes "…∂∑⊙◴◷◶◵", Screen.Printable e.gr r
  min : 5 ≤ x.dw
  room : 21 + x.dw ≤ w
  dw : e.dw = x.dw
  sep : e.sep = encodeRunes x.sep
  sepOk : x.sep.length = x.dw ∧ ∀ r ∈ x.sep, Screen.Printable e.gr r
  last : e.timing.last = encodeRunes x.last
  dt : e.timing.dt = encodeRunes x.dt
  replay : e.timing.replay = x.replay.map encodeRunes
  recording : e.timing.recording = x.recording.map encodeRunes
  timeOk : ∀ s ∈ [x.last, x.dt] ++ x.replay.toList, s.length ≤ x.dw ∧ ∀ r ∈ s, Screen.Printable e.gr r
  recOk : ∀ s ∈ x.recording, ∀ r ∈ s, Screen.Printable e.gr r
  log : e.logAfter = x.log.map encodeRunes
  logOk : ∀ s ∈ x.log, ∀ r ∈ s, Screen.Printable e.gr r
  profs : e.profs = x.profs.map (·.p)
  profsOk : ∀ z ∈ x.profs, z.Fits e.gr w x.dw
  ns : e.ns < 1000000000

theorem marks_eq : Spec.runes "…∂∑⊙◴◷◶◵" = [0x2026, 0x2202, 0x2211] ++ Spec.runes "⊙◴◷◶◵" := by decide

theorem Spec.Texts.Fits.ell {x : Spec.Texts} {e : Panels} {w : Nat} (F : x.Fits e w) : Screen.Printable e.gr 0x2026 :=
  F.marks _ (by rw [marks_eq]; simp)

theorem Spec.Texts.Fits.signs {x : Spec.Texts} {e : Panels} {w : Nat} (F : x.Fits e w) : ∀ r ∈ Spec.runes "⊙◴◷◶◵", Screen.Printable e.gr r :=
  fun r hr => F.marks _ (by rw [marks_eq]; exact List.mem_append_right _ hr)

theorem without_nil (es : Events) : Spec.without [] es = es := by simp [Spec.without, strike_none]

/-- Nothing is drawn. -/
theorem After.none (t : Theme) {w h dw z : Nat} {v : VScreen} (R : Ready v w h (w - 1) (min (h - 1) z)) :
    After t w h dw (min (h - 1) z) [] v v := After.nil t R

theorem time_step (e : Panels) {w h z : Nat} (x : Spec.Texts) (F : x.Fits e w) (p : Panel α) (R : Ready p.s.v w h (w - 1) (min (h - 1) z))
    (hz : p.time = true → z + 4 ≤ h) (hr : p.record = false) :
    ∃ v', timePanel e p = .ok
        { p with paused := xor p.paused (p.time && Spec.odd (Spec.place w x.dw (z + 2)) p.s.es)
                 record := p.time && !x.replay.isSome && Spec.odd (Spec.place w x.dw (z + 3)) p.s.es
                 s := { p.s with v := v', es := Spec.without (if p.time then Spec.timeBoxes w x.dw z x.replay.isSome else []) p.s.es } } ∧
      After e.theme w h x.dw (min (h - 1) z) (if p.time then Spec.timeLines w x.dw x.last x.dt
        (xor p.paused (Spec.odd (Spec.place w x.dw (z + 2)) p.s.es)) x.replay x.recording else []) p.s.v v' := by
  unfold timePanel
  cases ht : p.time with
  | false =>
    refine ⟨p.s.v, ?_, After.none _ R⟩
    simp only [Bool.false_eq_true, if_false, Bool.false_and, Bool.xor_false, without_nil]
    obtain ⟨time, prof, fps, ctl, paused, record, tele, calls, have_, s⟩ := p
    simp only at hr ht
    subst hr ht
    rfl
  | true =>
    have hz' := hz ht
    have e1 : min (h - 1) z = z := by omega
    rw [e1] at R ⊢
    have hroom := F.room
    obtain ⟨v', e', A⟩ := timing_after e.gr F.ascii F.ell (F.marks _ (by rw [marks_eq]; simp)) p.s.v R x.dw F.min e.theme p.s.es
      { e.timing with paused := p.paused } x.last x.dt x.replay x.recording F.last F.dt F.replay F.recording F.timeOk F.recOk (by omega) hz'
    refine ⟨v', ?_, A⟩
    simp only [if_true, F.dw]
    rw [e']
    simp only [Except.bind, Bool.true_and]

theorem tele_step (e : Panels) {w h z : Nat} (x : Spec.Texts) (F : x.Fits e w) (p : Panel α) (R : Ready p.s.v w h (w - 1) (min (h - 1) z))
    (hz : (p.time || p.fps) = true → z + 4 ≤ h) (hq : p.s.ui.active = 0)
    (ho : (p.time || p.fps) = true → Spec.odd (Spec.place w x.dw (z + 1)) p.s.es = false) :
    ∃ v', telePanel e p = .ok
        { p with tele := { p.tele with
                   cfgLog := xor p.tele.cfgLog ((p.time || p.fps) && Spec.odd (Spec.place w x.dw (z + 2)) p.s.es)
                   sw := { p.tele.sw with
                     logStalls := xor p.tele.sw.logStalls ((p.time || p.fps) && Spec.odd (Spec.place w x.dw (z + 3)) p.s.es) } }
                 s := { p.s with uicur := p.s.uicur + if p.time || p.fps then 1 else 0
                                 v := v', es := Spec.without (if p.time || p.fps then Spec.teleBoxes w x.dw z else []) p.s.es } } ∧
      After e.theme w h x.dw (min (h - 1) z) (if p.time || p.fps then Spec.teleLines w x.dw x.sep x.log
        (xor p.tele.cfgLog (Spec.odd (Spec.place w x.dw (z + 2)) p.s.es))
        (xor p.tele.sw.logStalls (Spec.odd (Spec.place w x.dw (z + 3)) p.s.es)) else []) p.s.v v' := by
  unfold telePanel
  cases ht : (p.time || p.fps) with
  | false =>
    refine ⟨p.s.v, ?_, After.none _ R⟩
    simp only [Bool.false_eq_true, if_false, Bool.false_and, Bool.xor_false, without_nil, Nat.add_zero]
  | true =>
    have hz' := hz ht
    have e1 : min (h - 1) z = z := by omega
    rw [e1] at R ⊢
    have hroom := F.room
    obtain ⟨v', e', A⟩ := telemetry_drawn_partial e.gr F.ascii F.ell p.s R x.dw F.min (by omega) hz' e.gray e.theme x.sep F.sepOk.2 F.sepOk.1
      e.logFile x.log F.logOk p.tele (by omega) (ho ht)
    refine ⟨v', ?_, A⟩
    simp only [if_true, F.dw, F.sep, F.log]
    rw [e']
    simp only [Except.bind, Bool.true_and]
    rfl

theorem prof_step (e : Panels) {w h z : Nat} (x : Spec.Texts) (F : x.Fits e w) (p : Panel α) (R : Ready p.s.v w h (w - 1) (min (h - 1) z))
    (hz : p.prof = true → z + (x.profs.length + 2) ≤ h) (hq : p.s.ui.active = 0) (hc : p.calls = [])
    (ho : p.prof = true → ∀ i, i ≤ x.profs.length → Spec.odd (Spec.place w x.dw (z + 1 + i)) p.s.es = false)
    (closed : Bool) (hclosed : closed = Spec.odd (Spec.bar w x.dw 20 z) p.s.es) :
    ∃ v', profPanel e p = .ok
        { p with prof := p.prof && !closed
                 calls := if p.prof && !closed then x.profs.mapIdx (fun i r => Spec.profCall w x.dw (z + 1 + i) p.s.es r) else []
                 s := { p.s with uicur := p.s.uicur + if p.prof && !closed then x.profs.length + 1 else 0
                                 v := v'
                                 es := Spec.without (if p.prof then if closed then [Spec.bar w x.dw 20 z]
                                   else Spec.profBoxes w x.dw z x.profs.length else []) p.s.es } } ∧
      After e.theme w h x.dw (min (h - 1) z) (if p.prof then if closed then [Spec.headLine w x.sep (Spec.runes "# Profiling Control:")]
        else Spec.profLines w x.dw e.ns x.sep x.profs else []) p.s.v v' := by
  unfold profPanel
  cases ht : p.prof with
  | false =>
    refine ⟨p.s.v, ?_, After.none _ R⟩
    simp only [Bool.false_eq_true, if_false, Bool.false_and, without_nil, Nat.add_zero]
    rw [← hc, ← ht]
  | true =>
    have hz' := hz ht
    have e1 : min (h - 1) z = z := by omega
    rw [e1] at R ⊢
    obtain ⟨v', e', A⟩ := profiling_drawn_partial e.gr F.ascii F.ell F.signs p.s R x.dw F.min F.room e.gray e.theme x.sep F.sepOk.2 F.sepOk.1
      e.ns F.ns x.profs F.profsOk e.all p.have_ hz' (fun i _ => by omega) (ho ht)
    rw [← hclosed] at e' A
    refine ⟨v', ?_, by simpa using A⟩
    simp only [if_true, F.dw, F.sep, F.profs]
    rw [e']
    cases closed <;> simp [Except.bind, Nat.add_assoc]

/-- A column, as lines. -/
def Spec.colLine (w : Nat) (l : List Nat × Nat) : List Spec.Piece := [⟨l.1, w - l.2 - l.1.length, .cur⟩]

theorem column_stack (t : Theme) (w dw : Nat) : ∀ (l : List (List Nat × Nat)) (y : Nat) (c : Cursor) (f : Nat → Nat → Option Cell),
    Spec.column w c.attr y l f = Spec.stack t w dw y c (l.map (Spec.colLine w)) f
  | [], _, _, _ => rfl
  | x :: l, y, c, f => by
    rw [Spec.column, column_stack t w dw l (y + 1) c]
    rfl

theorem turn_same {b : Rect} {es es' : Events} (h : Spec.odd b es' = Spec.odd b es) (o : Tel.Op) (p : Tel.Tele α) :
    Spec.turn b es' o p = Spec.turn b es o p := by
  unfold Spec.turn
  rw [h]

theorem fps_step (e : Panels) {w h z : Nat} (x : Spec.Texts) (F : x.Fits e w) (p : Panel α) (R : Ready p.s.v w h (w - 1) (min (h - 1) z))
    (b1 b2 b3 : Rect) (p' : Tel.Tele α) (hb1 : b1 = Spec.bar w x.dw 16 z) (hb2 : b2 = Spec.bar w x.dw 15 (z + 1))
    (hb3 : b3 = Spec.bar w x.dw 16 (z + 2 + if xor p.tele.sw.timing (Spec.odd b2 p.s.es) then 7 else 0))
    (hp' : p' = Spec.turn b3 p.s.es .stalls (Spec.turn b2 p.s.es .timing p.tele))
    (hv : p.fps = true → ∀ r ∈ (if p'.sw.timing then Spec.timingTable e.texts p' else []) ++ (if p'.sw.stalls then Spec.stallTable e.texts p' else []),
      r.2.length ≤ x.dw ∧ ∀ c ∈ r.2, Screen.Printable e.gr c)
    (hz : p.fps = true → z + (Spec.statLines x.dw x.sep e.texts p').length ≤ h) :
    ∃ v', fpsPanel e p = .ok
        { p with ctl := xor p.ctl (p.fps && Spec.odd b1 p.s.es), tele := if p.fps then p' else p.tele
                 s := { p.s with v := v', es := Spec.without (if p.fps then [b1, b2, b3] else []) p.s.es } } ∧
      ∀ a b, a < w → b < h → v'.sc.look w a b = Spec.stack e.theme w x.dw z p.s.v.sc.cur
        (if p.fps then (Spec.statLines x.dw x.sep e.texts p').map (Spec.colLine w) else []) (p.s.v.sc.look w) a b := by
  unfold fpsPanel
  cases ht : p.fps with
  | false =>
    refine ⟨p.s.v, ?_, fun _ _ _ _ => rfl⟩
    simp only [Bool.false_eq_true, if_false, Bool.false_and, Bool.xor_false, without_nil]
    rw [← ht]
  | true =>
    have hz' := hz ht
    have hpos : 1 ≤ (Spec.statLines x.dw x.sep e.texts p').length := by
      unfold Spec.statLines
      simp only [List.cons_append, List.length_cons]
      omega
    have e1 : min (h - 1) z = z := by omega
    rw [e1] at R
    have hroom := F.room
    obtain ⟨v', e', -, -, L⟩ := fps_drawn_partial e.gr F.ascii (F.marks _ (by rw [marks_eq]; simp)) (F.marks _ (by rw [marks_eq]; simp)) p.s.v R x.dw
      (by have := F.min; omega) (by omega) x.sep F.sepOk.2 F.sepOk.1 e.texts p.ctl p.tele p.s.es b1 b2 b3 p' hb1 hb2 hb3 hp' (hv ht) hz'
    refine ⟨v', ?_, ?_⟩
    · simp only [if_true, F.dw, F.sep]
      rw [e']
      simp only [Except.bind, Bool.true_and]
    · intro a b ha hb
      rw [L a b ha hb, column_stack e.theme w x.dw]
      rfl

/-- **C124**: on a screen with room, nothing being chosen and no press on the buttons to choose
files or profiles: the panels that are open stand one below the other, in the order timing,
telemetry (with either of timing and frame rate), profiling, frame rate; each does what it does
alone, with the presses of the frame in its own places, and only these are taken. -/
theorem panels_stacked_partial (e : Panels) {w h y : Nat} (x : Spec.Texts) (F : x.Fits e w) (p : Panel α) (R : Ready p.s.v w h (w - 1) y)
    (hr : p.record = false) (hc : p.calls = []) (hq : p.s.ui.active = 0)
    (tel closed : Bool) (y1 y2 y3 : Nat) (b1 b2 b3 : Rect) (q p' : Tel.Tele α)
    (htel : tel = (p.time || p.fps)) (hy1 : y1 = y + if p.time then 4 else 0) (hy2 : y2 = y1 + if tel then 4 else 0)
    (hclosed : closed = Spec.odd (Spec.bar w x.dw 20 y2) p.s.es)
    (hy3 : y3 = y2 + if p.prof then if closed then 1 else x.profs.length + 2 else 0)
    (hb1 : b1 = Spec.bar w x.dw 16 y3) (hb2 : b2 = Spec.bar w x.dw 15 (y3 + 1))
    (hb3 : b3 = Spec.bar w x.dw 16 (y3 + 2 + if xor p.tele.sw.timing (Spec.odd b2 p.s.es) then 7 else 0))
    (hq' : q = { p.tele with cfgLog := xor p.tele.cfgLog (tel && Spec.odd (Spec.place w x.dw (y1 + 2)) p.s.es)
                             sw := { p.tele.sw with
                               logStalls := xor p.tele.sw.logStalls (tel && Spec.odd (Spec.place w x.dw (y1 + 3)) p.s.es) } })
    (hp' : p' = Spec.turn b3 p.s.es .stalls (Spec.turn b2 p.s.es .timing q))
    (hv : p.fps = true → ∀ r ∈ (if p'.sw.timing then Spec.timingTable e.texts p' else []) ++ (if p'.sw.stalls then Spec.stallTable e.texts p' else []),
      r.2.length ≤ x.dw ∧ ∀ c ∈ r.2, Screen.Printable e.gr c)
    (hh : y2 + (if p.prof then x.profs.length + 2 else 0) ≤ h)
    (hh' : y3 + (if p.fps then (Spec.statLines x.dw x.sep e.texts p').length else 0) ≤ h)
    (ho1 : tel = true → Spec.odd (Spec.place w x.dw (y1 + 1)) p.s.es = false)
    (ho2 : p.prof = true → ∀ i, i ≤ x.profs.length → Spec.odd (Spec.place w x.dw (y2 + 1 + i)) p.s.es = false) :
    ∃ v', panels e p = .ok
        { time := p.time, prof := p.prof && !closed, fps := p.fps
          ctl := xor p.ctl (p.fps && Spec.odd b1 p.s.es)
          paused := xor p.paused (p.time && Spec.odd (Spec.place w x.dw (y + 2)) p.s.es)
          record := p.time && !x.replay.isSome && Spec.odd (Spec.place w x.dw (y + 3)) p.s.es
          tele := if p.fps then p' else q
          calls := if p.prof && !closed then x.profs.mapIdx (fun i r => Spec.profCall w x.dw (y2 + 1 + i) p.s.es r) else []
          have_ := p.have_
          s := { p.s with
            uicur := p.s.uicur + (if tel then 1 else 0) + if p.prof && !closed then x.profs.length + 1 else 0
            v := v'
            es := Spec.without (
              (if p.time then Spec.timeBoxes w x.dw y x.replay.isSome else []) ++ (if tel then Spec.teleBoxes w x.dw y1 else []) ++
              (if p.prof then if closed then [Spec.bar w x.dw 20 y2] else Spec.profBoxes w x.dw y2 x.profs.length else []) ++
              (if p.fps then [b1, b2, b3] else [])) p.s.es } } ∧
      ∀ a b, a < w → b < h → v'.sc.look w a b = Spec.stack e.theme w x.dw y p.s.v.sc.cur (
        (if p.time then Spec.timeLines w x.dw x.last x.dt (xor p.paused (Spec.odd (Spec.place w x.dw (y + 2)) p.s.es)) x.replay x.recording else []) ++
        (if tel then Spec.teleLines w x.dw x.sep x.log q.cfgLog q.sw.logStalls else []) ++
        (if p.prof then if closed then [Spec.headLine w x.sep (Spec.runes "# Profiling Control:")]
          else Spec.profLines w x.dw e.ns x.sep x.profs else []) ++
        (if p.fps then (Spec.statLines x.dw x.sep e.texts p').map (Spec.colLine w) else [])) (p.s.v.sc.look w) a b := by
  have hyh := R.hy
  have e0 : min (h - 1) y = y := by omega
  -- the timing
  obtain ⟨v1, E1, A1⟩ := time_step e x F p (R.at e0.symm) (fun ht => by
    simp only [ht, if_true] at hy1
    omega) hr
  rw [e0] at A1
  generalize hL1 : (if p.time then Spec.timeLines w x.dw x.last x.dt
    (xor p.paused (Spec.odd (Spec.place w x.dw (y + 2)) p.s.es)) x.replay x.recording else []) = L1 at A1 ⊢
  generalize hB1 : (if p.time then Spec.timeBoxes w x.dw y x.replay.isSome else []) = B1 at E1 ⊢
  have len1 : y + L1.length = y1 := by
    rw [← hL1, hy1]
    cases p.time <;> rfl
  have ab1 : Above y1 B1 := by
    rw [← hB1, hy1]
    cases p.time
    · intro c hc
      simp at hc
    · exact above_time w x.dw y _
  have R1 := A1.ready
  rw [len1] at R1
  -- the telemetry
  have o1 : ∀ r xx k, y1 ≤ r → Spec.odd (Spec.box xx r k) (Spec.without B1 p.s.es) = Spec.odd (Spec.box xx r k) p.s.es :=
    fun r xx k hr => odd_above ab1 hr xx k p.s.es
  have o1p : ∀ r, y1 ≤ r → Spec.odd (Spec.place w x.dw r) (Spec.without B1 p.s.es) = Spec.odd (Spec.place w x.dw r) p.s.es :=
    fun r hr => o1 r _ _ hr
  obtain ⟨v2, E2, A2⟩ := tele_step e x F
    { p with paused := xor p.paused (p.time && Spec.odd (Spec.place w x.dw (y + 2)) p.s.es)
             record := p.time && !x.replay.isSome && Spec.odd (Spec.place w x.dw (y + 3)) p.s.es
             s := { p.s with v := v1, es := Spec.without B1 p.s.es } } (z := y1) R1
    (fun ht => by
      have : tel = true := htel.trans ht
      simp only [this, if_true] at hy2
      omega) hq (fun ht => (o1p _ (by omega)).trans (ho1 (htel.trans ht)))
  simp only [← htel] at E2 A2
  rw [o1p _ (by omega), o1p _ (by omega)] at E2 A2
  rw [without_without, ← hq'] at E2
  have hL2' : (if tel = true then Spec.teleLines w x.dw x.sep x.log
      (xor p.tele.cfgLog (Spec.odd (Spec.place w x.dw (y1 + 2)) p.s.es))
      (xor p.tele.sw.logStalls (Spec.odd (Spec.place w x.dw (y1 + 3)) p.s.es)) else []) =
      if tel = true then Spec.teleLines w x.dw x.sep x.log q.cfgLog q.sw.logStalls else [] := by
    rw [hq']
    cases tel <;> rfl
  rw [hL2'] at A2
  generalize hL2 : (if tel = true then Spec.teleLines w x.dw x.sep x.log q.cfgLog q.sw.logStalls else []) = L2 at A2 ⊢
  generalize hB2 : (if tel = true then Spec.teleBoxes w x.dw y1 else []) = B2 at E2 ⊢
  have len2 : y1 + L2.length = y2 := by
    rw [← hL2, hy2]
    cases tel <;> rfl
  have ab2 : Above y2 (B1 ++ B2) := by
    refine (ab1.mono (by omega)).append ?_
    rw [← hB2, hy2]
    cases tel
    · intro c hc
      simp at hc
    · exact above_tele w x.dw y1
  have A12 := A1.append hyh (A2.at (by rw [len1]))
  have R2 := A2.ready
  have r2 : min (h - 1) (min (h - 1) y1 + L2.length) = min (h - 1) y2 := by omega
  rw [r2] at R2
  -- profiling
  have o2 : ∀ r xx k, y2 ≤ r → Spec.odd (Spec.box xx r k) (Spec.without (B1 ++ B2) p.s.es) = Spec.odd (Spec.box xx r k) p.s.es :=
    fun r xx k hr => odd_above ab2 hr xx k p.s.es
  obtain ⟨v3, E3, A3⟩ := prof_step e x F
    { p with paused := xor p.paused (p.time && Spec.odd (Spec.place w x.dw (y + 2)) p.s.es)
             record := p.time && !x.replay.isSome && Spec.odd (Spec.place w x.dw (y + 3)) p.s.es
             tele := q
             s := { p.s with uicur := p.s.uicur + if tel = true then 1 else 0
                             v := v2, es := Spec.without (B1 ++ B2) p.s.es } } (z := y2) R2
    (fun ht => by
      have ht' : p.prof = true := ht
      simp only [ht', if_true] at hh
      omega) hq hc
    (fun ht i hi => (o2 _ _ _ (by omega)).trans (ho2 ht i hi)) closed (hclosed.trans (o2 _ _ _ (by omega)).symm)
  have hcalls : (fun i r => Spec.profCall w x.dw (y2 + 1 + i) (Spec.without (B1 ++ B2) p.s.es) r) =
      fun i r => Spec.profCall w x.dw (y2 + 1 + i) p.s.es r := by
    funext i r
    unfold Spec.profCall
    rw [show Spec.odd (Spec.spot w x.dw (y2 + 1 + i)) (Spec.without (B1 ++ B2) p.s.es) = _ from o2 _ _ _ (by omega)]
    rfl
  simp only [without_without] at E3 A3
  rw [hcalls] at E3
  generalize hL3 : (if p.prof = true then if closed = true then [Spec.headLine w x.sep (Spec.runes "# Profiling Control:")]
    else Spec.profLines w x.dw e.ns x.sep x.profs else []) = L3 at A3 ⊢
  generalize hB3 : (if p.prof = true then if closed = true then [Spec.bar w x.dw 20 y2]
    else Spec.profBoxes w x.dw y2 x.profs.length else []) = B3 at E3 ⊢
  have len3 : y2 + L3.length = y3 := by
    rw [← hL3, hy3]
    cases p.prof
    · rfl
    · cases closed
      · simp [Spec.profLines]
      · rfl
  have ab3 : Above y3 (B1 ++ B2 ++ B3) := by
    refine (ab2.mono (by omega)).append ?_
    rw [← hB3, hy3]
    cases p.prof
    · intro c hc
      simp at hc
    · cases closed
      · exact above_prof w x.dw y2 _
      · intro c hc
        rw [List.mem_singleton.1 hc]
        unfold Spec.bar Spec.box
        simp only [if_true]
        omega
  have A13 := A12.append hyh (A3.at (by rw [List.length_append]; omega))
  have R3 := A3.ready
  have r3 : min (h - 1) (min (h - 1) y2 + L3.length) = min (h - 1) y3 := by omega
  rw [r3] at R3
  -- the frame rate
  have o3 : ∀ r k, y3 ≤ r → Spec.odd (Spec.bar w x.dw k r) (Spec.without (B1 ++ B2 ++ B3) p.s.es) = Spec.odd (Spec.bar w x.dw k r) p.s.es :=
    fun r k hr => odd_above ab3 hr _ _ p.s.es
  have ob1 : Spec.odd b1 (Spec.without (B1 ++ B2 ++ B3) p.s.es) = Spec.odd b1 p.s.es := by rw [hb1]; exact o3 _ _ (by omega)
  have ob2 : Spec.odd b2 (Spec.without (B1 ++ B2 ++ B3) p.s.es) = Spec.odd b2 p.s.es := by rw [hb2]; exact o3 _ _ (by omega)
  have ob3 : Spec.odd b3 (Spec.without (B1 ++ B2 ++ B3) p.s.es) = Spec.odd b3 p.s.es := by rw [hb3]; exact o3 _ _ (by omega)
  have hqt : q.sw.timing = p.tele.sw.timing := by rw [hq']
  obtain ⟨v4, E4, L4⟩ := fps_step e x F
    { p with paused := xor p.paused (p.time && Spec.odd (Spec.place w x.dw (y + 2)) p.s.es)
             record := p.time && !x.replay.isSome && Spec.odd (Spec.place w x.dw (y + 3)) p.s.es
             tele := q
             prof := p.prof && !closed
             calls := if (p.prof && !closed) = true then x.profs.mapIdx (fun i r => Spec.profCall w x.dw (y2 + 1 + i) p.s.es r) else []
             s := { p.s with uicur := p.s.uicur + (if tel = true then 1 else 0) + if (p.prof && !closed) = true then x.profs.length + 1 else 0
                             v := v3, es := Spec.without (B1 ++ B2 ++ B3) p.s.es } } (z := y3) R3 b1 b2 b3 p' hb1 hb2
    (by
      show b3 = Spec.bar w x.dw 16 (y3 + 2 + if xor q.sw.timing (Spec.odd b2 (Spec.without (B1 ++ B2 ++ B3) p.s.es)) then 7 else 0)
      rw [ob2, hqt]
      exact hb3)
    (by
      show p' = Spec.turn b3 (Spec.without (B1 ++ B2 ++ B3) p.s.es) .stalls (Spec.turn b2 (Spec.without (B1 ++ B2 ++ B3) p.s.es) .timing q)
      rw [turn_same ob3, turn_same ob2]
      exact hp') hv
    (fun ht => by
      have ht' : p.fps = true := ht
      simp only [ht', if_true] at hh'
      exact hh')
  simp only [without_without] at E4
  rw [ob1] at E4
  refine ⟨v4, ?_, ?_⟩
  · unfold panels
    rw [E1]
    simp only [Except.bind]
    rw [E2]
    simp only
    rw [E3]
    simp only
    rw [E4]
  · intro a b ha hb
    rw [L4 a b ha hb, stack_append]
    have hlen : y + (L1 ++ L2 ++ L3).length = y3 := by
      simp only [List.length_append]
      omega
    rw [hlen, stack_same e.theme w x.dw _ _ _ _ A13.attr A13.known]
    exact stack_congr e.theme x.dw _ _ _ _ _ (A13.look (by omega)) a b ha hb

/-- **C124**: the panels within the overlay: below the header, which changes only the first row,
they begin in the second row with the cursor in the last column, with no presses left that the
header took; a press on the header decides which panels are open in this frame. -/
theorem overlay_panels {ε : Type} (E : Env ε) (e : Panels) (p : Panel α) (recErr : Option ε) (hE : E.details = detailsOf e p recErr)
    {w h : Nat} (hh : 2 ≤ h) (v : VScreen) (W : v.sc.Whole w h) (S : Emu.Settled v)
    (hud : Hud) (es : Events) (err : Option ε) (l : List (List Nat)) (hl : Spec.texts E hud.mouse = l.map encodeRunes)
    (hp : ∀ t ∈ l, t ≠ [] ∧ ∀ r ∈ t, Screen.Printable E.gr r) (hr : Spec.room l ≤ w)
    (hud1 : Hud) (hhud : hud1 = Spec.clicked (Spec.boxes (w - 1) l) es hud)
    (hopen : hud1.timeDetail ∨ hud1.profDetail ∨ hud1.fpsDetail) :
    ∃ v1, Ready v1 w h (w - 1) 1 ∧ v1.sc.cur.attr = v.sc.cur.attr ∧
      (∀ a b, a < w → b < h → v1.sc.look w a b =
        match (if b = 0 then Spec.at_ (w - 1) a l else none) with
        | some r => some ⟨r, v.sc.cur.attr⟩
        | none => v.sc.look w a b) ∧
      overlay E (w + 1) hud es v err =
        (panels { e with theme := { e.theme with mouse := hud1.mouse.2 } }
          { p with time := hud1.timeDetail, prof := hud1.profDetail, fps := hud1.fpsDetail
                   s := { p.s with ui := { p.s.ui with active := hud1.active }, uicur := 0
                                   es := Spec.without ((Spec.boxes (w - 1) l).take 3) es, v := v1 } }).bind fun q =>
        (logUpdate E.gr hud1.logs E.log q.s.es q.s.v).bind fun r =>
        (r.2.2.write E.gr [0x1B, 0x38]).bind fun v =>
        .ok ({ hud1 with profDetail := q.prof, active := q.s.ui.active, logs := r.1 }, r.2.1, v,
          errFirst err (if q.record then recErr else none)) := by
  obtain ⟨v', ⟨W1, S1, A1, L1⟩, e1⟩ := overlay_partial E v W S hud es err l hl hp hr
  have R := goto_below (y := 0) W1 S1
  have hm : min (h - 1) (0 + 1) = 1 := by omega
  rw [hm] at R
  refine ⟨goto v' ⟨w + 1, 2⟩, R, A1, fun a b ha hb => ?_, ?_⟩
  · rw [goto_look]
    exact L1 a b ha hb
  · rw [e1]
    simp only [← hhud]
    rw [if_pos hopen, hE]
    unfold detailsOf
    generalize panels _ _ = r
    cases r <;> rfl

/-! ### Where they fail -/

/-- Negation for **C123**: with fewer columns the panels panic. -/
theorem narrow_tele_panics (gr : Nat → Bool) (hgr : ∀ r, 0x20 ≤ r → r < 0x7F → Screen.Printable gr r)
    {w h c y : Nat} (s : St) (R : Ready s.v w h c y) (dw : Nat) (hw : w < 13 + dw) (sep : Bytes) (gray : Attr) (t : Theme)
    (file after : Option Bytes) (p : Tel.Tele α) : telemetryPanel gr dw sep gray t file after p s = .error .panic := by
  unfold telemetryPanel
  have l1 : (Spec.runes "# Telemetry:").length = 12 := by decide
  rw [tele_texts.1, heading_panics gr s.v R dw sep _ (ascii_printable hgr "# Telemetry:" (by decide)) (by omega)]
  rfl

/-- **C123**, negation: on a screen too narrow for its heading, the profiling panel panics. -/
theorem narrow_prof_panics (gr : Nat → Bool) (hgr : ∀ r, 0x20 ≤ r → r < 0x7F → Screen.Printable gr r)
    {w h c y : Nat} (s : St) (R : Ready s.v w h c y) (dw : Nat) (hw : w < 21 + dw) (sep : Bytes) (gray : Attr) (t : Theme) (ns : Nat)
    (l : List Prof) (all have_ : List Bytes) : profDetail gr dw sep gray t ns l all have_ s = .error .panic := by
  unfold profDetail
  have l1 : (Spec.runes "# Profiling Control:").length = 20 := by decide
  have t1 : ascii "# Profiling Control:" = encodeRunes (Spec.runes "# Profiling Control:") := by decide +kernel
  rw [t1, heading_panics gr s.v R dw sep _ (ascii_printable hgr "# Profiling Control:" (by decide)) (by omega)]
  rfl

/-- Negation for **C123**: when the panel begins in the last row of the screen, all its rows are
there, and whatever is pressed neither timing nor stalls are switched. -/
theorem short_tele_dead (gr : Nat → Bool) (hgr : ∀ r, 0x20 ≤ r → r < 0x7F → Screen.Printable gr r) (hel : Screen.Printable gr 0x2026)
    {w h c : Nat} (s : St) (R : Ready s.v w h c (h - 1)) (dw : Nat) (hdw : 5 ≤ dw) (hw : 14 + dw ≤ w) (gray : Attr) (t : Theme)
    (sep : List Nat) (hs : ∀ r ∈ sep, Screen.Printable gr r) (hl : sep.length = dw) (before : Option Bytes) (file : Option (List Nat))
    (hf : ∀ l ∈ file, ∀ r ∈ l, Screen.Printable gr r) (p : Tel.Tele α)
    (hq : s.ui.active ≠ s.uicur + 1) (ho : Spec.odd (Spec.place w dw (h - 1)) s.es = false) :
    ∃ v', telemetryPanel gr dw (encodeRunes sep) gray t before (file.map encodeRunes) p s =
        .ok (p, { s with uicur := s.uicur + 1, v := v', es := Spec.without [Spec.place w dw (h - 1)] s.es }) := by
  have hsp : Screen.Printable gr 0x20 := hgr _ (by omega) (by omega)
  obtain ⟨t1, t2, t3, t4, t5⟩ := tele_texts
  have l1 : (Spec.runes "# Telemetry:").length = 12 := by decide
  have l2 : (Spec.runes "Telemetry Log").length = 13 := by decide
  have l4 : (Spec.runes "Log Timing").length = 10 := by decide
  have l5 : (Spec.runes "Log Stalls").length = 10 := by decide
  obtain ⟨v1, e1, A1⟩ := head_after gr hsp s.v R dw (by omega) t sep (Spec.runes "# Telemetry:") hs hl
    (ascii_printable hgr "# Telemetry:" (by decide)) (by omega)
  have R1 : Ready v1 w h (w - 1) (h - 1) := A1.ready.at (by simp)
  obtain ⟨v2, e2, A2⟩ := file_row gr hgr hel { s with v := v1 } R1 dw hdw gray t
    { name := ascii "Telemetry Log", file := before, dflt := some (ascii "telemetry.log") } (Spec.runes "Telemetry Log") t2
    (ascii_printable hgr "Telemetry Log" (by decide)) (by omega)
    file (Spec.runes "Go Log") hf (ascii_printable hgr "Go Log" (by decide)) hq ho
  have R2 : Ready v2 w h (w - 1) (h - 1) := A2.ready.at (by simp)
  have oc : ∀ bs, Spec.place w dw (h - 1) ∈ bs → Spec.odd (Spec.place w dw (h - 1)) (Spec.without bs s.es) = false :=
    fun bs hb => odd_covered ⟨_, hb, fun _ h => h⟩ s.es
  obtain ⟨b3, v3, e3, A3⟩ := toggle_after gr hgr hel v2 R2 dw hdw t (Spec.without [Spec.place w dw (h - 1)] s.es)
    (Spec.runes "Log Timing") (ascii_printable hgr "Log Timing" (by decide)) (by omega) p.cfgLog
  have R3 : Ready v3 w h (w - 1) (h - 1) := A3.ready.at (by simp)
  rw [without_without, oc _ (by simp), Bool.xor_false] at e3
  obtain ⟨b4, v4, e4, A4⟩ := toggle_after gr hgr hel v3 R3 dw hdw t
    (Spec.without ([Spec.place w dw (h - 1)] ++ [Spec.place w dw (h - 1)]) s.es) (Spec.runes "Log Stalls")
    (ascii_printable hgr "Log Stalls" (by decide)) (by omega) p.sw.logStalls
  rw [without_without, oc _ (by simp), Bool.xor_false] at e4
  refine ⟨v4, ?_⟩
  unfold telemetryPanel
  rw [t1, e1]
  simp only [Except.bind]
  rw [t3, e2]
  simp only
  rw [t4, e3]
  simp only
  rw [t5, e4]
  have hd : Spec.without ([Spec.place w dw (h - 1)] ++ [Spec.place w dw (h - 1)] ++ [Spec.place w dw (h - 1)]) s.es =
      Spec.without [Spec.place w dw (h - 1)] s.es := by
    unfold Spec.without
    congr 1
    funext e
    simp
  rw [hd]

/-! ### Examples -/

theorem gr0_marks : ∀ r ∈ Spec.runes "…∂∑⊙◴◷◶◵", Screen.Printable gr0 r := fun r hr =>
  printable_gr0 ((by decide +kernel : ∀ r ∈ Spec.runes "…∂∑⊙◴◷◶◵", plainRune r ∧ gr0 r = true ∧ isEscape r = false ∧ r ≠ 0x0A ∧ r ≠ 0x0D) r hr)

/-- A screen of 37 columns and 16 rows, the cursor where the overlay puts it. -/
def tall : VScreen := goto (blank 37 16) ⟨38, 2⟩

theorem tall_ready : Ready tall 37 16 36 1 :=
  goto_ready (blank_whole 37 16 (by omega) (by omega)) (blank_settled 37 16) ⟨38, 2⟩

/-- Texts for the examples: a log, and profilers "All" and "CPU". -/
def tallTexts : Spec.Texts where
  dw := 16
  sep := List.replicate 16 0x2D
  last := Spec.runes "10:00:00"
  dt := Spec.runes "16.0ms"
  replay := none
  recording := none
  log := some (Spec.runes "a.log")
  profs := [⟨{ fil := { name := ascii "All", create := false }, after := some (ascii "/dev/null") }, Spec.runes "All", some (Spec.runes "/dev/null")⟩,
    ⟨{ fil := { name := ascii "CPU" }, active := true }, Spec.runes "CPU", none⟩]

def tallPanels : Panels where
  gr := gr0
  dw := 16
  sep := encodeRunes (List.replicate 16 0x2D)
  gray := 0
  theme := {}
  texts := digits
  timing := { last := ascii "10:00:00", dt := ascii "16.0ms" }
  ns := 600000000
  logFile := none
  logAfter := some (ascii "a.log")
  profs := tallTexts.profs.map (·.p)
  all := []

theorem tall_fits : tallTexts.Fits tallPanels 37 where
  ascii := fun r h1 h2 => gr0_printable r (Or.inl ⟨h1, h2⟩)
  marks := gr0_marks
  min := by decide
  room := by decide
  dw := rfl
  sep := rfl
  sepOk := ⟨by decide, fun r hr => gr0_printable r (by rw [List.eq_of_mem_replicate hr]; left; omega)⟩
  last := by decide +kernel
  dt := by decide +kernel
  replay := rfl
  recording := rfl
  timeOk := fun s hs => by
    have : ∀ s ∈ [tallTexts.last, tallTexts.dt] ++ tallTexts.replay.toList, s.length ≤ 16 ∧ ∀ c ∈ s, 0x20 ≤ c ∧ c < 0x7F := by decide
    exact ⟨(this s hs).1, fun c hc => gr0_printable c (Or.inl ((this s hs).2 c hc))⟩
  recOk := fun s hs => by cases hs
  log := by decide +kernel
  logOk := fun s hs => by
    have : ∀ s ∈ tallTexts.log, ∀ c ∈ s, 0x20 ≤ c ∧ c < 0x7F := by decide
    exact fun c hc => gr0_printable c (Or.inl (this s hs c hc))
  profs := rfl
  profsOk := fun z hz => by
    have h1 : ∀ z ∈ tallTexts.profs, z.p.fil.name = encodeRunes z.name ∧ z.p.after = z.file.map encodeRunes ∧
        (∀ c ∈ z.name, 0x20 ≤ c ∧ c < 0x7F) ∧ (∀ l ∈ z.file, ∀ c ∈ l, 0x20 ≤ c ∧ c < 0x7F) ∧ z.name.length + 1 + 16 ≤ 37 := by decide +kernel
    obtain ⟨a, b, c, d, f⟩ := h1 z hz
    exact ⟨a, b, fun r hr => gr0_printable r (Or.inl (c r hr)), fun l hl r hr => gr0_printable r (Or.inl (d l hl r hr)), f⟩
  ns := by decide

/-- Timing, telemetry and profiling open; presses on "Pause", "Log Stalls" and the sign of "CPU". -/
def tallStart : Panel Unit :=
  { time := true, prof := true, fps := false, tele
    s := { v := tall, es := [clickAt 25 4, clickAt 25 9, clickAt 21 12] } }

/-- The client is paused, stalls are logged, and "CPU", whose sign turns, is stopped. -/
example : ∃ v', panels tallPanels tallStart = .ok
      { tallStart with
        paused := true, tele := { tele with sw := { tele.sw with logStalls := true } }, calls := [none, some false]
        s := { tallStart.s with
          uicur := 4, v := v'
          es := Spec.without (Spec.timeBoxes 37 16 1 false ++ Spec.teleBoxes 37 16 5 ++ Spec.profBoxes 37 16 9 2) tallStart.s.es } } ∧
    (List.range 16).map (fun b => (List.range 37).map fun a => ((v'.sc.look 37 a b).map (·.rune)).getD 0) =
      [List.replicate 37 0,
       List.replicate 15 0 ++ Spec.runes "last         10:00:00" ++ [0],
       List.replicate 17 0 ++ Spec.runes "∂t           16.0ms" ++ [0],
       List.replicate 14 0 ++ Spec.runes "paused [    Resume    ]",
       List.replicate 11 0 ++ Spec.runes "recording [    Start     ]",
       List.replicate 8 0 ++ Spec.runes "# Telemetry: ----------------",
       List.replicate 7 0 ++ Spec.runes "Telemetry Log" ++ [0] ++ Spec.runes "[    a.log     ]",
       List.replicate 10 0 ++ Spec.runes "Log Timing" ++ [0] ++ Spec.runes "[    false     ]",
       List.replicate 10 0 ++ Spec.runes "Log Stalls" ++ [0] ++ Spec.runes "[     true     ]",
       Spec.runes "# Profiling Control: ----------------",
       List.replicate 17 0 ++ Spec.runes "All⊙[  /dev/null   ]",
       List.replicate 17 0 ++ Spec.runes "CPU◶[ Choose File  ]",
       List.replicate 15 0 ++ Spec.runes "PProf [     Add      ]",
       List.replicate 37 0, List.replicate 37 0, List.replicate 37 0] := by
  have o : ∀ y ∈ [3, 6, 10, 11, 12, 8, 7, 4], Spec.odd (Spec.place 37 16 y) tallStart.s.es = decide (y = 3 ∨ y = 8) := by decide +kernel
  have oc : Spec.odd (Spec.bar 37 16 20 9) tallStart.s.es = false := by decide +kernel
  have hq : ({ tele with sw := { tele.sw with logStalls := true } } : Tel.Tele Unit) =
      { tele with cfgLog := xor tele.cfgLog (true && Spec.odd (Spec.place 37 16 (5 + 2)) tallStart.s.es)
                  sw := { tele.sw with logStalls := xor tele.sw.logStalls (true && Spec.odd (Spec.place 37 16 (5 + 3)) tallStart.s.es) } } := by
    rw [o 7 (by simp), o 8 (by simp)]
    rfl
  obtain ⟨v', h1, h2⟩ := panels_stacked_partial tallPanels tallTexts tall_fits tallStart tall_ready rfl rfl rfl true false 5 9 13 _ _ _ _ _
    rfl rfl rfl oc.symm rfl rfl rfl rfl hq rfl (fun h => by cases h) (by decide) (by decide) (fun _ => o 6 (by simp))
    (fun _ i hi => by
      have hi' : i ≤ 2 := hi
      have := o (9 + 1 + i) (by simp; omega)
      rw [show Spec.odd (Spec.place 37 tallTexts.dw (9 + 1 + i)) tallStart.s.es = _ from this]
      simp
      omega)
  refine ⟨v', ?_, ?_⟩
  · rw [h1]
    have e3 : Spec.odd (Spec.place 37 tallTexts.dw (1 + 2)) tallStart.s.es = true := o 3 (by simp)
    have e4 : Spec.odd (Spec.place 37 tallTexts.dw (1 + 3)) tallStart.s.es = false := o 4 (by simp)
    have ec : tallTexts.profs.mapIdx (fun i r => Spec.profCall 37 tallTexts.dw (9 + 1 + i) tallStart.s.es r) = [none, some false] := by
      decide +kernel
    rw [e3, e4, ec]
    rfl
  · have : (List.range 16).map (fun b => (List.range 37).map fun a => ((v'.sc.look 37 a b).map (·.rune)).getD 0) =
        (List.range 16).map (fun b => (List.range 37).map fun a => ((Spec.stack {} 37 16 1 tall.sc.cur
          (Spec.timeLines 37 16 tallTexts.last tallTexts.dt true none none ++
            Spec.teleLines 37 16 tallTexts.sep tallTexts.log false true ++ Spec.profLines 37 16 600000000 tallTexts.sep tallTexts.profs ++ [])
          (tall.sc.look 37) a b).map (·.rune)).getD 0) := by
      apply List.map_congr_left
      intro b hb
      apply List.map_congr_left
      intro a ha
      rw [h2 a b (by simpa using ha) (by simpa using hb)]
      have e3 : Spec.odd (Spec.place 37 tallTexts.dw (1 + 2)) tallStart.s.es = true := o 3 (by simp)
      rw [e3]
      rfl
    rw [this]
    decide +kernel

/-- A press on the heading closes the panel. -/
example : ((profDetail gr0 16 (encodeRunes (List.replicate 16 0x2D)) 0 {} 0 [] [] [] { v := tall, es := [clickAt 5 2] }).toOption.map
    fun r => (r.detail, r.calls, r.s.es)) = some (false, [], Spec.without [Spec.bar 37 16 20 1] [clickAt 5 2]) := by
  decide +kernel

/-- A press on the button of all profilers together leaves nothing active. -/
example : ((fileRow gr0 16 0 {} { name := ascii "All", create := false } (some (ascii "/dev/null")) []
    { v := tall, es := [clickAt 25 2] }).toOption.map fun r => (r.2.ui.active, r.2.uicur, r.2.made)) = some (0, 1, []) := by
  decide +kernel

/-- In 30 columns the panel for profiling panics. -/
example : profDetail gr0 16 [] 0 {} 0 [] [] [] { v := thirty } = .error .panic :=
  narrow_prof_panics gr0 (fun r h1 h2 => gr0_printable r (Or.inl ⟨h1, h2⟩)) { v := thirty } thirty_ready 16 (by decide) [] 0 {} 0 [] [] []

/-- In 20 columns that for telemetry does. -/
example : telemetryPanel gr0 16 [] 0 {} none none tele { v := goto (blank 20 6) ⟨21, 2⟩ } = .error .panic :=
  narrow_tele_panics gr0 (fun r h1 h2 => gr0_printable r (Or.inl ⟨h1, h2⟩)) { v := goto (blank 20 6) ⟨21, 2⟩ }
    (goto_ready (blank_whole 20 6 (by omega) (by omega)) (blank_settled 20 6) ⟨21, 2⟩) 16 (by decide) [] 0 {} none none tele

/-- On a screen of two rows two presses switch nothing. -/
example : ∃ v', telemetryPanel gr0 16 (encodeRunes (List.replicate 16 0x2D)) 0 {} none none tele
      { v := goto (blank 36 2) ⟨37, 2⟩, es := [clickAt 25 2, clickAt 25 2] } =
    .ok (tele, { uicur := 1, v := v', es := Spec.without [Spec.place 36 16 1] [clickAt 25 2, clickAt 25 2] }) :=
  short_tele_dead gr0 (fun r h1 h2 => gr0_printable r (Or.inl ⟨h1, h2⟩)) (gr0_printable _ (by simp))
    { v := goto (blank 36 2) ⟨37, 2⟩, es := [clickAt 25 2, clickAt 25 2] }
    (goto_ready (blank_whole 36 2 (by omega) (by omega)) (blank_settled 36 2) ⟨37, 2⟩) 16 (by omega) (by omega) 0 {} (List.replicate 16 0x2D)
    (fun r hr => gr0_printable r (by rw [List.eq_of_mem_replicate hr]; left; omega)) (by simp) none none (by simp) tele (by decide)
    (by decide +kernel)

/-- The overlay of `env0`, with these panels. -/
def envTall : Env Unit := { env0 with details := detailsOf tallPanels tallStart none }

/-- With all details closed, a press on the time opens its panel in the same frame. -/
example : ((overlay envTall 38 { visible := true } [clickAt 36 1] (blank 37 16) none).toOption.map fun q =>
    (q.1.timeDetail, ((List.range 37).map fun a => ((q.2.2.1.sc.look 37 a 1).map (·.rune)).getD 0))) =
    some (true, List.replicate 15 0 ++ Spec.runes "last         10:00:00" ++ [0]) := by decide +kernel

example : ∃ v1, Ready v1 37 16 36 1 ∧ overlay envTall 38 { visible := true } [clickAt 36 1] (blank 37 16) none =
    (panels { tallPanels with theme := { tallPanels.theme with mouse := ⟨0, 0⟩ } }
      { tallStart with time := true, prof := false, fps := false
                       s := { tallStart.s with ui := { tallStart.s.ui with active := 0 }, uicur := 0
                                               es := Spec.without ((Spec.boxes 36 (["T", "F", "P", "S", "W", "M"].map Spec.runes)).take 3) [clickAt 36 1]
                                               v := v1 } }).bind fun q =>
    (logUpdate gr0 {} env0.log q.s.es q.s.v).bind fun r =>
    (r.2.2.write gr0 [0x1B, 0x38]).bind fun v =>
    .ok ({ visible := true, timeDetail := true, profDetail := q.prof, active := q.s.ui.active, logs := r.1 }, r.2.1, v,
      errFirst none (if q.record then none else none)) := by
  obtain ⟨v1, R, -, -, e⟩ := overlay_panels envTall tallPanels tallStart none rfl (w := 37) (h := 16) (by omega) (blank 37 16)
    (blank_whole 37 16 (by omega) (by omega)) (blank_settled 37 16) { visible := true } [clickAt 36 1] none
    (["T", "F", "P", "S", "W", "M"].map Spec.runes) (by decide +kernel)
    (fun t ht => by
      have : ∀ t ∈ ["T", "F", "P", "S", "W", "M"].map Spec.runes, t ≠ [] ∧ ∀ r ∈ t, 0x20 ≤ r ∧ r < 0x7F := by decide
      exact ⟨(this t ht).1, fun r hr => gr0_printable r (Or.inl ((this t ht).2 r hr))⟩)
    (by decide) { visible := true, timeDetail := true } (by decide +kernel) (Or.inl rfl)
  exact ⟨v1, R, e⟩

end Anansi.Hud
