import Verif.Model.InteractDraw
import Verif.Props.Interact
import Verif.Props.HudStats
import Verif.Props.Draw
import Verif.Props.Demo
import Verif.Props.Direct
/-
C130 The interact command shows its words, values and output in their places, and a word is
pressed where it stands.
-/
set_option autoImplicit false

namespace Anansi.Itr
open Geom Evq Edl Screen
open Hud (after Drew drew_run sgr_one merge_pt merge_known merge_clear sgr_ready)

/-! ### Vocabulary -/

namespace Spec

/-- A word on the screen: whether it is a variable, its characters, and those of its value. -/
structure Item where
  var : Bool
  text : List Nat
  val : List Nat
deriving DecidableEq, Repr

/-- The style of a word: variables are cyan, the command itself green. -/
def style (i : Nat) (var : Bool) : Attr := if var then cyanFG else if i = 0 then greenFG else 0

/-- The cells before word `i`: a blank between words. -/
def gap (i : Nat) : Nat := if i = 0 then 0 else 1

/-- The cells for word `i`: a blank before all but the first, the word, and for a variable with a value
an equal sign and the value in bright blue. -/
def cells (i : Nat) (t : Item) : List Cell :=
  List.replicate (gap i) ⟨0x20, 0⟩ ++ t.text.map (⟨·, style i t.var⟩) ++
    if t.var ∧ t.val ≠ [] then ⟨0x3D, 0⟩ :: t.val.map (⟨·, blueFG⟩) else []

/-- The line of the words from the `i`-th on. -/
def line : Nat → List Item → List Cell
  | _, [] => []
  | i, t :: ts => cells i t ++ line (i + 1) ts

/-- The column of word `i`. -/
def start (ts : List Item) (i : Nat) : Nat := (line 0 (ts.take i)).length + gap i

/-- Where word `i` stands, on row `y`. -/
def place (y : Nat) (ts : List Item) (i : Nat) : Rect :=
  Hud.Spec.box (start ts i) y ((ts[i]?.map (·.text.length)).getD 0)

/-- The characters of a word and of its value can be shown. -/
def Item.Plain (gr : Nat → Bool) (t : Item) : Prop :=
  (∀ r ∈ t.text, Screen.Printable gr r) ∧ ∀ r ∈ t.val, Screen.Printable gr r

/-- The items of a command line with these values. -/
structure Shows (cmd vals : List Bytes) (ts : List Item) : Prop where
  words : cmd.map literal = ts.map fun t => encodeRunes t.text
  vars : cmd.map isVar = ts.map (·.var)
  vals : ∀ i (h : i < ts.length), ts[i].var = true → value cmd vals i = encodeRunes ts[i].val

end Spec

/-! ### Drawing a word -/

/-- `v'` is `v` with these cells from column `x` of row `y` on, the cursor after them with no style. -/
structure Ink (v v' : VScreen) (w h x y : Nat) (cs : List Cell) : Prop where
  ready : Hud.Ready v' w h (x + cs.length) y
  attr : v'.sc.cur.attr = 0
  known : v'.sc.cur.attrKnown = true
  look : ∀ a b, a < w → b < h → v'.sc.look w a b =
    if b = y ∧ x ≤ a ∧ a < x + cs.length then cs[a - x]? else v.sc.look w a b

theorem colour_merge (c : Cursor) (a : Attr) (ha : a = cyanFG ∨ a = greenFG ∨ a = blueFG)
    (h : c.attrKnown = false ∨ c.attr = 0) : (c.mergeSGR a).1.attr = a := by
  unfold Cursor.mergeSGR
  cases hk : c.attrKnown with
  | false => rfl
  | true =>
    have h0 : c.attr = 0 := by simpa [hk] using h
    have e : ∀ a, a = cyanFG ∨ a = greenFG ∨ a = blueFG → Sgr.merge 0 (Sgr.diff 0 a) = a := by
      rintro a (rfl | rfl | rfl) <;> decide
    simp only [Bool.not_true, Bool.false_eq_true, if_false, h0]
    exact e a ha

/-- After the text of a style, the sequence that ends it stays in the buffer, skipped (`screen.go:183-185`). -/
def ends : Bytes := [0x1B, 0x5B, 0x30, 0x6D]

theorem clear_left (v : VScreen) (hb : v.buf.buf = []) (hk : v.sc.cur.attrKnown = true)
    (ha : v.sc.cur.attr = cyanFG ∨ v.sc.cur.attr = greenFG ∨ v.sc.cur.attr = blueFG) :
    (v.writeSGR [Sgr.clear]).buf.buf = ends := by
  have hd : Sgr.diff v.sc.cur.attr Sgr.clear = Sgr.clear := by
    rcases ha with h | h | h <;> rw [h] <;> decide
  have hm : (v.sc.cur.mergeSGR Sgr.clear).2 = Sgr.clear := by
    unfold Cursor.mergeSGR
    rw [hk]
    exact hd
  have ha : Sgr.append Sgr.clear = ends := by decide
  unfold VScreen.writeSGR VScreen.sgrLoop
  simp only [hm]
  rw [if_pos (show Sgr.clear ≠ 0 by decide), ha]
  have e : ∀ v : VScreen, v.sgrLoop [] = (v, 0) := fun _ => rfl
  simp only [e]
  split
  · show v.buf.buf ++ ends = ends
    rw [hb]; rfl
  · next h => exact absurd (show 0 < ends.length + 0 by decide) h

/-- A text in a style of its own, after which there is none. -/
theorem ink_styled (gr : Nat → Bool) {w h x y : Nat} (rs : List Nat) (hp : ∀ r ∈ rs, Screen.Printable gr r) (v : VScreen)
    (R : Hud.Ready v w h x y) (hn : x + rs.length < w) (a : Attr) (ha : a = cyanFG ∨ a = greenFG ∨ a = blueFG)
    (h0 : v.sc.cur.attrKnown = false ∨ v.sc.cur.attr = 0) :
    ∃ v', (v.writeSGR [a]).write gr (encodeRunes rs) = .ok v' ∧ Hud.Ready v' w h (x + rs.length) y ∧
      (v.writeSGR [a]).sc.cur.pt = v.sc.cur.pt ∧ Ink v (v'.writeSGR [Sgr.clear]) w h x y (rs.map (⟨·, a⟩)) ∧
      (v'.writeSGR [Sgr.clear]).buf.buf = ends := by
  obtain ⟨e1, S1⟩ := sgr_one v a R.settled
  have hattr : (v.writeSGR [a]).sc.cur.attr = a := by rw [e1]; exact colour_merge _ a ha h0
  have hknown : (v.writeSGR [a]).sc.cur.attrKnown = true := by rw [e1]; exact merge_known _ a
  have hpt : (v.writeSGR [a]).sc.cur.pt = v.sc.cur.pt := by rw [e1]; exact merge_pt _ a
  obtain ⟨v', e, D⟩ := drew_run gr rs hp (v.writeSGR [a]) (sgr_ready R a) (by omega)
  have R' := D.ready hn R.hy
  obtain ⟨e2, S2⟩ := sgr_one v' Sgr.clear R'.settled
  refine ⟨v', e, R', hpt, ⟨?_, ?_, ?_, ?_⟩, clear_left v' (Direct.write_empties gr e R'.settled) (by rw [D.cur]; exact hknown)
    (by rw [D.cur]; show (v.writeSGR [a]).sc.cur.attr = _ ∨ _; rw [hattr]; exact ha)⟩
  · rw [List.length_map]; exact sgr_ready R' _
  · rw [e2]
    apply merge_clear
    rw [D.cur]; exact hknown
  · rw [e2]; exact merge_known _ _
  · intro p q hp' hq
    have hl : (v'.writeSGR [Sgr.clear]).sc.look w p q = v'.sc.look w p q := by rw [e2]; rfl
    have hl1 : (v.writeSGR [a]).sc.look w p q = v.sc.look w p q := by rw [e1]; rfl
    rw [hl, D.look p q hp' hq, hattr, hl1, List.length_map]
    by_cases hc : q = y ∧ x ≤ p ∧ p < x + rs.length
    · rw [if_pos hc, if_pos hc, List.getElem?_map, List.getElem?_eq_getElem (by omega)]
      simp [List.getD_eq_getElem?_getD, List.getElem?_eq_getElem (show p - x < rs.length by omega)]
    · rw [if_neg hc, if_neg hc]

/-- A text in no style. -/
theorem ink_plain (gr : Nat → Bool) {w h x y : Nat} (rs : List Nat) (hp : ∀ r ∈ rs, Screen.Printable gr r) (v : VScreen)
    (R : Hud.Ready v w h x y) (hn : x + rs.length < w) (h0 : v.sc.cur.attr = 0) (hk : v.sc.cur.attrKnown = true) :
    ∃ v', v.write gr (encodeRunes rs) = .ok v' ∧ Ink v v' w h x y (rs.map (⟨·, 0⟩)) ∧ v'.buf.buf = [] := by
  obtain ⟨v', e, D⟩ := drew_run gr rs hp v R (by omega)
  have R' := D.ready hn R.hy
  refine ⟨v', e, ⟨?_, ?_, ?_, ?_⟩, Direct.write_empties gr e R'.settled⟩
  · rw [List.length_map]; exact R'
  · rw [D.cur]; exact h0
  · rw [D.cur]; exact hk
  · intro p q hp' hq
    rw [D.look p q hp' hq, h0, List.length_map]
    by_cases hc : q = y ∧ x ≤ p ∧ p < x + rs.length
    · rw [if_pos hc, if_pos hc, List.getElem?_map, List.getElem?_eq_getElem (by omega)]
      simp [List.getD_eq_getElem?_getD, List.getElem?_eq_getElem (show p - x < rs.length by omega)]
    · rw [if_neg hc, if_neg hc]

theorem Ink.append {v v1 v2 : VScreen} {w h x y : Nat} {s t : List Cell} (D : Ink v v1 w h x y s)
    (E : Ink v1 v2 w h (x + s.length) y t) : Ink v v2 w h x y (s ++ t) := by
  refine ⟨?_, E.attr, E.known, ?_⟩
  · have := E.ready
    rw [Nat.add_assoc, ← List.length_append] at this
    exact this
  · intro a b ha hb
    rw [E.look a b ha hb, D.look a b ha hb, List.length_append]
    by_cases h2 : b = y ∧ x + s.length ≤ a ∧ a < x + s.length + t.length
    · rw [if_pos h2, if_pos (by omega), List.getElem?_append_right (by omega)]
      congr 1; omega
    · rw [if_neg h2]
      by_cases h1 : b = y ∧ x ≤ a ∧ a < x + s.length
      · rw [if_pos h1, if_pos (by omega), List.getElem?_append_left (by omega)]
      · rw [if_neg h1, if_neg (by omega)]

theorem Ink.nil {v : VScreen} {w h x y : Nat} (R : Hud.Ready v w h x y) (h0 : v.sc.cur.attr = 0)
    (hk : v.sc.cur.attrKnown = true) : Ink v v w h x y [] :=
  ⟨R, h0, hk, fun a b _ _ => by rw [if_neg (by simp)]⟩

theorem one_rune (r : Nat) : encodeRune r = encodeRunes [r] := by simp [encodeRunes]

theorem encode_nil (rs : List Nat) (h : encodeRunes rs = []) : rs = [] := by
  cases rs with
  | nil => rfl
  | cons r t =>
    simp only [encodeRunes, List.flatMap_cons, List.append_eq_nil_iff] at h
    exact absurd h.1 (encodeRune_ne_nil r)

theorem style_colour {i : Nat} {var : Bool} (h : Spec.style i var ≠ 0) :
    Spec.style i var = cyanFG ∨ Spec.style i var = greenFG ∨ Spec.style i var = blueFG := by
  unfold Spec.style at h ⊢
  split
  · simp
  · split
    · simp
    · simp_all

/-- Drawing a word: its cells, and its box around the text. -/
theorem drawWord_ok (gr : Nat → Bool) (hsp : Screen.Printable gr 0x20) (heq : Screen.Printable gr 0x3D) {w h x y : Nat} (s : St) (i j : Nat)
    (t : Spec.Item) (hp : t.Plain gr) (hvar : (s.argi[j]? = some i) ↔ t.var = true)
    (hval : t.var = true → s.val[j]?.getD [] = encodeRunes t.val) (v : VScreen) (R : Hud.Ready v w h x y)
    (hn : x + (Spec.cells i t).length < w)
    (h0 : i = 0 ∧ v.sc.cur.attrKnown = false ∨ v.sc.cur.attr = 0 ∧ v.sc.cur.attrKnown = true) :
    ∃ v', s.drawWord gr i j (encodeRunes t.text) v = .ok (Hud.Spec.box (x + Spec.gap i) y t.text.length, v') ∧
      Ink v v' w h x y (Spec.cells i t) ∧ v'.buf.buf = (if Spec.style i t.var ≠ 0 then ends else []) := by
  have hs : (if s.argi[j]? = some i then cyanFG else if i = 0 then greenFG else 0 : Attr) = Spec.style i t.var := by
    unfold Spec.style
    by_cases hv : t.var = true
    · rw [if_pos (hvar.2 hv), if_pos hv]
    · rw [if_neg (fun h => hv (hvar.1 h)), if_neg hv]
  have hvl : (if s.argi[j]? = some i then s.val[j]?.getD [] else []) = if t.var then encodeRunes t.val else [] := by
    by_cases hv : t.var = true
    · rw [if_pos (hvar.2 hv), if_pos hv, hval hv]
    · rw [if_neg (fun h => hv (hvar.1 h)), if_neg hv]
  have hlen : (Spec.cells i t).length = Spec.gap i + t.text.length +
      (if t.var ∧ t.val ≠ [] then t.val.length + 1 else 0) := by
    unfold Spec.cells
    simp only [List.length_append, List.length_replicate, List.length_map]
    split <;> simp
  rw [hlen] at hn
  -- the blank
  obtain ⟨v1, e1, R1, A1, L1⟩ : ∃ v1, (if i > 0 then v.write gr (encodeRune 0x20) else .ok v) = .ok v1 ∧
      Hud.Ready v1 w h (x + Spec.gap i) y ∧
      (i = 0 ∧ v1.sc.cur.attrKnown = false ∨ v1.sc.cur.attr = 0 ∧ v1.sc.cur.attrKnown = true) ∧
      ∀ a b, a < w → b < h → v1.sc.look w a b =
        if b = y ∧ x ≤ a ∧ a < x + Spec.gap i then some ⟨0x20, 0⟩ else v.sc.look w a b := by
    by_cases hi : i = 0
    · refine ⟨v, by rw [if_neg (by omega)], by simpa [Spec.gap, hi] using R, h0, ?_⟩
      intro a b _ _
      rw [if_neg (by simp [Spec.gap, hi])]
    · have g : Spec.gap i = 1 := by simp [Spec.gap, hi]
      rw [g] at hn ⊢
      have h0 : v.sc.cur.attr = 0 ∧ v.sc.cur.attrKnown = true := by
        rcases h0 with h0 | h0
        · exact absurd h0.1 hi
        · exact h0
      obtain ⟨v1, e1, I1, -⟩ := ink_plain gr [0x20] (by simpa using hsp) v R (by simp; omega) h0.1 h0.2
      refine ⟨v1, by rw [if_pos (by omega), one_rune, e1], I1.ready, Or.inr ⟨I1.attr, I1.known⟩, ?_⟩
      intro a b ha hb
      rw [I1.look a b ha hb]
      by_cases hc : b = y ∧ x ≤ a ∧ a < x + 1
      · rw [if_pos hc, if_pos (by simpa using hc), show a - x = 0 by omega]
        rfl
      · rw [if_neg hc, if_neg (by simpa using hc)]
  have hcur1 : v1.sc.cur.pt = ⟨(x + Spec.gap i : Nat) + 1, y + 1⟩ := R1.cur
  -- the word
  obtain ⟨v2, v3, e2, R2, hpt, e3, I3, b3⟩ : ∃ v2 v3,
      (if Spec.style i t.var ≠ 0 then v1.writeSGR [Spec.style i t.var] else v1).write gr (encodeRunes t.text) = .ok v2 ∧
      Hud.Ready v2 w h (x + Spec.gap i + t.text.length) y ∧
      (if Spec.style i t.var ≠ 0 then v1.writeSGR [Spec.style i t.var] else v1).sc.cur.pt = v1.sc.cur.pt ∧
      (if Spec.style i t.var ≠ 0 then v2.writeSGR [Sgr.clear] else v2) = v3 ∧
      Ink v1 v3 w h (x + Spec.gap i) y (t.text.map (⟨·, Spec.style i t.var⟩)) ∧
      v3.buf.buf = (if Spec.style i t.var ≠ 0 then ends else []) := by
    by_cases hz : Spec.style i t.var = 0
    · have hi : i ≠ 0 := by
        intro hi
        unfold Spec.style at hz
        rw [if_pos hi] at hz
        have : ∀ b : Bool, (if b then cyanFG else greenFG) ≠ 0 := by decide
        exact this _ hz
      have A1 : v1.sc.cur.attr = 0 ∧ v1.sc.cur.attrKnown = true := by
        rcases A1 with h0 | h0
        · exact absurd h0.1 hi
        · exact h0
      obtain ⟨v2, e2, I2, b2⟩ := ink_plain gr t.text hp.1 v1 R1 (by omega) A1.1 A1.2
      refine ⟨v2, v2, by rw [if_neg (by simpa using hz), e2], by simpa using I2.ready, by rw [if_neg (by simpa using hz)],
        by rw [if_neg (by simpa using hz)], by rw [hz]; exact I2, by rw [if_neg (by simpa using hz), b2]⟩
    · obtain ⟨v2, e2, R2, hpt, I2, b2⟩ := ink_styled gr t.text hp.1 v1 R1 (by omega) (Spec.style i t.var) (style_colour hz)
        (by rcases A1 with h0 | h0 <;> simp [h0])
      exact ⟨v2, _, by rw [if_pos hz, e2], R2, by rw [if_pos hz, hpt], by rw [if_pos hz], I2, by rw [if_pos hz, b2]⟩
  have hcur2 : v2.sc.cur.pt = ⟨(x + Spec.gap i + t.text.length : Nat) + 1, y + 1⟩ := R2.cur
  -- the value
  obtain ⟨v4, e4, I4, b4⟩ : ∃ v4, (if (if t.var then encodeRunes t.val else []) ≠ [] then
        (v3.write gr (encodeRune 0x3D)).bind fun v =>
          ((v.writeSGR [blueFG]).write gr (if t.var then encodeRunes t.val else [])).map fun v =>
            (Hud.Spec.box (x + Spec.gap i) y t.text.length, v.writeSGR [Sgr.clear])
      else .ok (Hud.Spec.box (x + Spec.gap i) y t.text.length, v3)) =
        .ok (Hud.Spec.box (x + Spec.gap i) y t.text.length, v4) ∧
      Ink v3 v4 w h (x + Spec.gap i + t.text.length) y
        (if t.var ∧ t.val ≠ [] then ⟨0x3D, 0⟩ :: t.val.map (⟨·, blueFG⟩) else []) ∧
      v4.buf.buf = (if Spec.style i t.var ≠ 0 then ends else []) := by
    by_cases hc : t.var = true ∧ t.val ≠ []
    · rw [if_pos hc] at hn
      have hb : (if t.var then encodeRunes t.val else []) = encodeRunes t.val := if_pos hc.1
      have hR3 : Hud.Ready v3 w h (x + Spec.gap i + t.text.length) y := by simpa using I3.ready
      obtain ⟨v5, e5, I5, -⟩ := ink_plain gr [0x3D] (by simpa using heq) v3 hR3 (by simp; omega) I3.attr I3.known
      obtain ⟨v6, e6, R6, -, I6, b6⟩ := ink_styled gr t.val hp.2 v5 I5.ready (by simp; omega) blueFG (by simp) (Or.inr I5.attr)
      refine ⟨v6.writeSGR [Sgr.clear], ?_, ?_, ?_⟩
      · rw [hb, if_pos (fun h => hc.2 (encode_nil _ h)), one_rune, e5]
        simp only [Except.bind]
        rw [e6]
        rfl
      · rw [if_pos hc]
        exact I5.append I6
      · rw [b6, if_pos]
        unfold Spec.style
        rw [if_pos hc.1]
        decide
    · rw [if_neg hc]
      refine ⟨v3, ?_, Ink.nil (by simpa using I3.ready) I3.attr I3.known, b3⟩
      rw [if_neg]
      rw [not_not]
      by_cases hv : t.var = true
      · have : t.val = [] := by
          by_contra hne
          exact hc ⟨hv, hne⟩
        rw [this]; simp [encodeRunes]
      · rw [if_neg hv]
  refine ⟨v4, ?_, ?_, b4⟩
  · unfold St.drawWord
    rw [e1]
    simp only [Except.bind]
    rw [hs, hvl, e2]
    simp only [e3, hpt, hcur1, hcur2]
    have hbox : (⟨⟨(x + Spec.gap i : Nat) + 1, (y : Int) + 1⟩, ⟨(x + Spec.gap i + t.text.length : Nat) + 1, (y : Int) + 1 + 1⟩⟩ : Rect) =
        Hud.Spec.box (x + Spec.gap i) y t.text.length := by
      unfold Hud.Spec.box
      simp
    rw [hbox]
    exact e4
  · have I4' : Ink v3 v4 w h (x + Spec.gap i + (t.text.map (fun r : Nat => (⟨r, Spec.style i t.var⟩ : Cell))).length) y
        (if t.var ∧ t.val ≠ [] then ⟨0x3D, 0⟩ :: t.val.map (⟨·, blueFG⟩) else []) := by
      rw [List.length_map]; exact I4
    have I34 := I3.append I4'
    refine ⟨?_, I4.attr, I4.known, ?_⟩
    · rw [hlen]
      have := I34.ready
      simp only [List.length_append, List.length_map] at this
      convert this using 1
      split <;> simp <;> omega
    · intro a b ha hb
      rw [I34.look a b ha hb, L1 a b ha hb]
      have hl2 : (Spec.cells i t).length = Spec.gap i + (t.text.map (fun r : Nat => (⟨r, Spec.style i t.var⟩ : Cell)) ++
          if t.var ∧ t.val ≠ [] then (⟨0x3D, 0⟩ : Cell) :: t.val.map (fun r : Nat => (⟨r, blueFG⟩ : Cell)) else ([] : List Cell)).length := by
        unfold Spec.cells
        simp only [List.length_append, List.length_replicate]
        omega
      have hap : Spec.cells i t = List.replicate (Spec.gap i) ⟨0x20, 0⟩ ++ (t.text.map (fun r : Nat => (⟨r, Spec.style i t.var⟩ : Cell)) ++
          if t.var ∧ t.val ≠ [] then ⟨0x3D, 0⟩ :: t.val.map (⟨·, blueFG⟩) else []) := by
        unfold Spec.cells
        rw [List.append_assoc]
      rw [hl2, hap]
      generalize (t.text.map (fun r : Nat => (⟨r, Spec.style i t.var⟩ : Cell)) ++
          if t.var ∧ t.val ≠ [] then (⟨0x3D, 0⟩ : Cell) :: t.val.map (fun r : Nat => (⟨r, blueFG⟩ : Cell)) else ([] : List Cell)) = u
      by_cases h1 : b = y ∧ x + Spec.gap i ≤ a ∧ a < x + Spec.gap i + u.length
      · rw [if_pos h1, if_pos (by omega), List.getElem?_append_right (by simp; omega)]
        congr 1; simp; omega
      · rw [if_neg h1]
        by_cases h2 : b = y ∧ x ≤ a ∧ a < x + Spec.gap i
        · rw [if_pos h2, if_pos (by omega), List.getElem?_append_left (by simp; omega), List.getElem?_replicate, if_pos (by omega)]
        · rw [if_neg h2, if_neg (by omega)]

/-! ### Words that are not touched -/

/-- The style before word `i` is drawn: none, or before the first not known. -/
def Base (v : VScreen) (i : Nat) : Prop := i = 0 ∧ v.sc.cur.attrKnown = false ∨ v.sc.cur.attr = 0 ∧ v.sc.cur.attrKnown = true

/-- A command line whose words fit on a row of `w` columns. -/
structure Setup (gr : Nat → Bool) (cmd : List Bytes) (s : St) (ts : List Spec.Item) (w : Nat) : Prop where
  inv : Inv cmd s
  shows : Spec.Shows cmd s.val ts
  plain : ∀ t ∈ ts, t.Plain gr
  fits : (Spec.line 0 ts).length < w

theorem line_append (a b : List Spec.Item) : ∀ i, Spec.line i (a ++ b) = Spec.line i a ++ Spec.line (i + a.length) b := by
  induction a with
  | nil => intro i; simp [Spec.line]
  | cons t a ih =>
    intro i
    simp only [List.cons_append, Spec.line, ih, List.append_assoc, List.length_cons]
    rw [show i + 1 + a.length = i + (a.length + 1) by omega]

theorem line_succ (ts : List Spec.Item) (i : Nat) (hi : i < ts.length) :
    Spec.line 0 (ts.take (i + 1)) = Spec.line 0 (ts.take i) ++ Spec.cells i ts[i] := by
  rw [List.take_succ_eq_append_getElem hi, line_append, List.length_take, Nat.zero_add, Nat.min_eq_left (by omega)]
  simp [Spec.line]

theorem line_le (ts : List Spec.Item) (i : Nat) : (Spec.line 0 (ts.take i)).length ≤ (Spec.line 0 ts).length := by
  conv_rhs => rw [← List.take_append_drop i ts, line_append]
  simp

variable {gr : Nat → Bool} {cmd : List Bytes} {s : St} {ts : List Spec.Item} {w h y : Nat}

theorem Setup.len (S : Setup gr cmd s ts w) : ts.length = cmd.length := by
  have := congrArg List.length S.shows.words
  simpa using this.symm

theorem Setup.cmd_eq (S : Setup gr cmd s ts w) : s.cmd = ts.map fun t => encodeRunes t.text := by
  rw [S.inv.words, S.shows.words]

theorem Setup.var (S : Setup gr cmd s ts w) (i : Nat) (hi : i < ts.length) :
    s.argi[Spec.slot cmd i]? = some i ↔ ts[i].var = true := by
  have hc : i < cmd.length := by rw [← S.len]; exact hi
  have := places_slot 0 cmd i hc
  rw [Nat.zero_add, ← S.inv.argi] at this
  rw [this]
  have hv := S.shows.vars
  have : (cmd.map Spec.isVar)[i]? = (ts.map (·.var))[i]? := by rw [hv]
  simp only [List.getElem?_map, List.getElem?_eq_getElem hc, List.getElem?_eq_getElem hi, Option.map_some, Option.some.injEq] at this
  rw [this]

theorem Setup.isVar (S : Setup gr cmd s ts w) (i : Nat) (hi : i < ts.length) :
    Spec.isVar (cmd[i]'(by rw [← S.len]; exact hi)) = ts[i].var := by
  have hc : i < cmd.length := by rw [← S.len]; exact hi
  have : (cmd.map Spec.isVar)[i]? = (ts.map (·.var))[i]? := by rw [S.shows.vars]
  simpa only [List.getElem?_map, List.getElem?_eq_getElem hc, List.getElem?_eq_getElem hi, Option.map_some, Option.some.injEq] using this

theorem Setup.next (S : Setup gr cmd s ts w) (i : Nat) (hi : i < ts.length) :
    (if s.argi[Spec.slot cmd i]? = some i then Spec.slot cmd i + 1 else Spec.slot cmd i) = Spec.slot cmd (i + 1) := by
  have hc : i < cmd.length := by rw [← S.len]; exact hi
  rw [slot_next cmd i hc, S.isVar i hi]
  by_cases hv : ts[i].var = true
  · rw [if_pos ((S.var i hi).2 hv), if_pos hv]
  · rw [if_neg (fun h => hv ((S.var i hi).1 h)), if_neg hv]; simp

/-- Drawing word `i` in its turn. -/
theorem Setup.draw (S : Setup gr cmd s ts w) (hsp : Screen.Printable gr 0x20) (heq : Screen.Printable gr 0x3D) (i : Nat)
    (hi : i < ts.length) (v : VScreen) (R : Hud.Ready v w h (Spec.line 0 (ts.take i)).length y) (B : Base v i) :
    ∃ v', s.drawWord gr i (Spec.slot cmd i) (encodeRunes ts[i].text) v = .ok (Spec.place y ts i, v') ∧
      Ink v v' w h (Spec.line 0 (ts.take i)).length y (Spec.cells i ts[i]) ∧
      v'.buf.buf = (if Spec.style i ts[i].var ≠ 0 then ends else []) := by
  have hl := line_le ts (i + 1)
  rw [line_succ ts i hi, List.length_append] at hl
  have hf := S.fits
  obtain ⟨v', e, I, b⟩ := drawWord_ok gr hsp heq s i (Spec.slot cmd i) ts[i] (S.plain _ (List.getElem_mem hi)) (S.var i hi)
    (fun hv => S.shows.vals i hi hv) v R (by omega) B
  refine ⟨v', ?_, I, b⟩
  rw [e]
  unfold Spec.place Spec.start
  rw [List.getElem?_eq_getElem hi]
  rfl

/-- A word that is neither pressed nor being edited. -/
theorem word_idle (hsp : Screen.Printable gr 0x20) (heq : Screen.Printable gr 0x3D)
    (world : List (List Bytes) → Outcome) (f : Full) (S : Setup gr cmd f.s ts w) (i : Nat) (hi : i < ts.length) (c : Sh)
    (R : Hud.Ready c.v w h (Spec.line 0 (ts.take i)).length y) (B : Base c.v i)
    (hp : Hud.Spec.odd (Spec.place y ts i) c.es = false) (he : f.s.edid ≠ i + 1) :
    ∃ v', f.word gr world i (Spec.slot cmd i) (encodeRunes ts[i].text) c =
        .ok (f, Spec.slot cmd (i + 1), ⟨Hud.Spec.without [Spec.place y ts i] c.es, v', c.user⟩) ∧
      Ink c.v v' w h (Spec.line 0 (ts.take i)).length y (Spec.cells i ts[i]) ∧
      v'.buf.buf = (if Spec.style i ts[i].var ≠ 0 then ends else []) := by
  obtain ⟨v', e, I, b⟩ := S.draw hsp heq i hi c.v R B
  refine ⟨v', ?_, I, b⟩
  unfold Full.word
  rw [e]
  have hz : ¬ (c.es.countP (pressIn (Spec.place y ts i) 1) % 2 = 1) := by
    unfold Hud.Spec.odd at hp
    simpa using hp
  simp only [Except.bind, countPressesIn_exact, Nat.zero_add, if_neg hz, Hud.without_one, S.next i hi]
  rw [if_neg (fun h => he h.1)]

/-- The words from the `i`-th on are neither pressed nor being edited, up to the `k`-th. -/
theorem words_idle_upto (hsp : Screen.Printable gr 0x20) (heq : Screen.Printable gr 0x3D)
    (world : List (List Bytes) → Outcome) (f : Full) (S : Setup gr cmd f.s ts w) (k : Nat) (hk : k ≤ ts.length) :
    ∀ (n i : Nat) (c : Sh), i + n = k → Hud.Ready c.v w h (Spec.line 0 (ts.take i)).length y → Base c.v i →
    (∀ m, i ≤ m → m < k → f.s.edid ≠ m + 1) →
    (∀ m, i ≤ m → m < k → Hud.Spec.odd (Spec.place y ts m) c.es = false) →
    (∀ m l, m < l → l < ts.length → ∀ p, ¬ (Geom.Mem p (Spec.place y ts m) ∧ Geom.Mem p (Spec.place y ts l))) →
    ∃ v', drawWords gr world ((ts.drop i).map fun t => encodeRunes t.text) i (Spec.slot cmd i) f c =
        drawWords gr world ((ts.drop k).map fun t => encodeRunes t.text) k (Spec.slot cmd k) f
          ⟨Hud.Spec.without ((List.range' i n).map (Spec.place y ts)) c.es, v', c.user⟩ ∧
      Hud.Ready v' w h (Spec.line 0 (ts.take k)).length y ∧ Base v' k ∧
      ∀ a b, a < w → b < h → v'.sc.look w a b =
        if b = y ∧ (Spec.line 0 (ts.take i)).length ≤ a ∧ a < (Spec.line 0 (ts.take k)).length then (Spec.line 0 (ts.take k))[a]?
        else c.v.sc.look w a b
  | 0, i, c, hn, R, B, _, _, _ => by
    obtain rfl : i = k := by omega
    refine ⟨c.v, ?_, R, B, fun a b _ _ => by rw [if_neg (by omega)]⟩
    simp [Hud.Spec.without, strikeIf]
  | n + 1, i, c, hn, R, B, he, hp, hd => by
    have hi : i < ts.length := by omega
    obtain ⟨v1, e1, I1, -⟩ := word_idle hsp heq world f S i hi c R B (hp i (by omega) (by omega)) (he i (by omega) (by omega))
    have R1 : Hud.Ready v1 w h (Spec.line 0 (ts.take (i + 1))).length y := by
      rw [line_succ ts i hi, List.length_append]; exact I1.ready
    obtain ⟨v2, e2, R2, B2, L2⟩ := words_idle_upto hsp heq world f S k hk n (i + 1)
      ⟨Hud.Spec.without [Spec.place y ts i] c.es, v1, c.user⟩ (by omega) R1 (Or.inr ⟨I1.attr, I1.known⟩)
      (fun m h1 h2 => he m (by omega) h2)
      (fun m h1 h2 => by
        show Hud.Spec.odd _ (Hud.Spec.without [Spec.place y ts i] c.es) = false
        rw [Hud.odd_without, hp m (by omega) h2]
        intro r hr
        rw [List.mem_singleton.1 hr]
        exact hd i m (by omega) (by omega)) hd
    refine ⟨v2, ?_, R2, B2, ?_⟩
    · rw [List.drop_eq_getElem_cons hi, List.map_cons, drawWords, e1]
      simp only [Except.bind]
      rw [e2, Hud.without_without]
      rfl
    · intro a b ha hb
      rw [L2 a b ha hb, I1.look a b ha hb]
      have hmono : Spec.line 0 (ts.take k) = Spec.line 0 (ts.take (i + 1)) ++ Spec.line (i + 1) ((ts.take k).drop (i + 1)) := by
        conv_lhs => rw [← List.take_append_drop (i + 1) (ts.take k), line_append]
        rw [List.take_take, Nat.min_eq_left (by omega), List.length_take, Nat.zero_add, Nat.min_eq_left (by omega)]
      have hs := line_succ ts i hi
      have hlen : (Spec.line 0 (ts.take (i + 1))).length ≤ (Spec.line 0 (ts.take k)).length := by rw [hmono]; simp
      have hlen2 : (Spec.line 0 (ts.take (i + 1))).length = (Spec.line 0 (ts.take i)).length + (Spec.cells i ts[i]).length := by
        rw [hs, List.length_append]
      by_cases h1 : b = y ∧ (Spec.line 0 (ts.take (i + 1))).length ≤ a ∧ a < (Spec.line 0 (ts.take k)).length
      · rw [if_pos h1, if_pos (by omega)]
      · rw [if_neg h1]
        by_cases h2 : b = y ∧ (Spec.line 0 (ts.take i)).length ≤ a ∧ a < (Spec.line 0 (ts.take i)).length + (Spec.cells i ts[i]).length
        · rw [if_pos h2, if_pos (by omega), hmono, List.getElem?_append_left (by omega), hs, List.getElem?_append_right (by omega)]
        · rw [if_neg h2, if_neg (by omega)]

/-- No two words stand in the same place. -/
theorem places_apart (ts : List Spec.Item) (y m l : Nat) (h : m < l) (hl : l < ts.length) (p : Pt) :
    ¬ (Geom.Mem p (Spec.place y ts m) ∧ Geom.Mem p (Spec.place y ts l)) := by
  rintro ⟨h1, h2⟩
  have hm : m < ts.length := by omega
  have hl1 : (Spec.line 0 (ts.take (m + 1))).length ≤ (Spec.line 0 (ts.take l)).length := by
    have := line_le (ts.take l) (m + 1)
    rwa [List.take_take, Nat.min_eq_left (by omega)] at this
  rw [line_succ ts m hm, List.length_append] at hl1
  have hc : (Spec.cells m ts[m]).length ≥ Spec.gap m + ts[m].text.length := by
    unfold Spec.cells
    simp only [List.length_append, List.length_replicate, List.length_map]
    omega
  unfold Spec.place Spec.start Hud.Spec.box Geom.Mem at h1 h2
  rw [List.getElem?_eq_getElem hm] at h1
  simp only [Option.map_some, Option.getD_some] at h1
  simp only at h2
  omega

/-! ### The output area -/

/-- An output area of `n` rows, perhaps none. -/
structure Area (o : VScreen) (w n : Nat) : Prop where
  rect : o.sc.grid.rect = ⟨⟨1, 1⟩, ⟨w + 1, n + 1⟩⟩
  stride : o.sc.grid.stride = w
  cap : w * n ≤ o.sc.grid.cells.length

/-- The row of the words. -/
def rowOf (hud : Bool) : Nat := if hud then 1 else 0

/-- The output area is drawn from below the words on; the last row is left. -/
theorem overlay_drawn (hud : Bool) (v o : VScreen) {w h : Nat} (W : v.sc.Whole w h) (hh : rowOf hud + 2 ≤ h)
    (A : Area o w (h - (rowOf hud + 2))) :
    ∃ v', overlay hud v o = .ok v' ∧ v'.sc.Whole w h ∧ v'.sc.cur = v.sc.cur ∧ v'.buf = v.buf ∧
      ∀ a b, a < w → b < h → v'.sc.look w a b =
        if rowOf hud < b ∧ b + 1 < h then o.sc.look w a (b - (rowOf hud + 1)) else v.sc.look w a b := by
  have hp : (⟨1, if hud then 3 else 2⟩ : Pt) = ⟨1, (rowOf hud : Nat) + 2⟩ := by
    cases hud <;> simp [rowOf]
  generalize rowOf hud = y at hp hh A ⊢
  have hw := W.hw
  have hin : ptIn ⟨1, (y : Int) + 2⟩ v.sc.grid.rect = true := by
    rw [W.rect]; simp [ptIn]; omega
  have hsub : v.sc.grid.subAt ⟨1, (y : Int) + 2⟩ = { v.sc.grid with rect := ⟨⟨1, (y : Int) + 2⟩, ⟨w + 1, h + 1⟩⟩ } := by
    unfold Grid.subAt Grid.subRect
    rw [if_neg (by simpa using hin)]
    simp only [W.rect]
    rw [if_neg (by omega), if_neg (by omega)]
  have hoff : (v.sc.grid.subAt ⟨1, (y : Int) + 2⟩).offset0? ⟨1, (y : Int) + 2⟩ = some ((y + 1) * w) := by
    rw [hsub]
    unfold Grid.offset0? Grid.cellOffset?
    have h1 : ptIn ⟨1, (y : Int) + 2⟩ ⟨⟨1, (y : Int) + 2⟩, ⟨(w : Int) + 1, (h : Int) + 1⟩⟩ = true := by simp [ptIn]; omega
    simp only [h1, W.stride]
    rw [if_neg (by simp), if_neg (by omega)]
    simp only [Option.map_some, Option.getD_some, Option.some.injEq]
    rw [show ((y : Int) + 2 - 1).toNat = y + 1 by omega]
    simp
  have hoff2 : o.sc.grid.offset0? o.sc.grid.rect.min = some 0 := by
    unfold Grid.offset0? Grid.cellOffset?
    rw [A.rect, A.stride]
    by_cases hn : h - (y + 2) = 0
    · rw [if_pos (by simp [ptIn, hn])]; rfl
    · rw [if_neg (by simp [ptIn]; omega), if_neg (by simp only; omega)]
      simp
  have hcap := W.cap
  have hacap := A.cap
  obtain ⟨cs, e, hl, h1, h2⟩ := Grid.copyRows_spec o.sc.grid.cells w w w (Nat.le_refl _) (h - (y + 2)) ((y + 1) * w) 0 v.sc.grid.cells (by
    intro b hb
    have k1 : (y + 1) * w + b * w + w ≤ w * h := by
      have : (y + 1) * w + b * w + w = w * (y + 1 + b + 1) := by ring
      rw [this]
      exact Nat.mul_le_mul_left w (by omega)
    have k2 : 0 + b * w + w ≤ w * (h - (y + 2)) := by
      have : 0 + b * w + w = w * (b + 1) := by ring
      rw [this]
      exact Nat.mul_le_mul_left w (by omega)
    omega)
  refine ⟨{ v with sc := { v.sc with grid := { v.sc.grid with cells := cs } } }, ?_,
    ⟨W.hw, W.hh, W.rect, W.stride, W.len, by rw [hl]; exact W.cap⟩, rfl, rfl, ?_⟩
  · have hd : Grid.drawGrid (v.sc.grid.subAt ⟨1, (y : Int) + 2⟩) o.sc.grid [] = some cs := by
      unfold Grid.drawGrid
      have : StyleV.styles [] = .noop := StyleV.styles_all_noop [] (by simp)
      rw [this]
      simp only [Grid.copyGrid]
      have hr : (v.sc.grid.subAt ⟨1, (y : Int) + 2⟩).rect = ⟨⟨1, (y : Int) + 2⟩, ⟨w + 1, h + 1⟩⟩ := by rw [hsub]
      have hst : (v.sc.grid.subAt ⟨1, (y : Int) + 2⟩).stride = w := by rw [hsub]; exact W.stride
      have hcl : (v.sc.grid.subAt ⟨1, (y : Int) + 2⟩).cells = v.sc.grid.cells := by rw [hsub]
      rw [hr, hoff, hoff2, hst, A.stride, hcl, A.rect]
      simp only [Option.bind_some]
      have d1 : Geom.dx ⟨⟨1, (y : Int) + 2⟩, ⟨(w : Int) + 1, (h : Int) + 1⟩⟩ = w := by simp [Geom.dx]
      have d2 : Geom.dx ⟨⟨1, 1⟩, ⟨(w : Int) + 1, ((h - (y + 2) : Nat) : Int) + 1⟩⟩ = w := by simp [Geom.dx]
      have d3 : (min (Geom.dy ⟨⟨1, 1⟩, ⟨(w : Int) + 1, ((h - (y + 2) : Nat) : Int) + 1⟩⟩)
          (Geom.dy ⟨⟨1, (y : Int) + 2⟩, ⟨(w : Int) + 1, (h : Int) + 1⟩⟩)).toNat = h - (y + 2) := by
        simp only [Geom.dy]; omega
      rw [d1, d2, d3, if_neg (by omega)]
      exact e
    unfold overlay
    simp only [hp]
    rw [if_pos hin, hd]
  · intro a b ha hb
    show cs[b * w + a]? = _
    by_cases hc : y < b ∧ b + 1 < h
    · rw [if_pos hc]
      have := h1 (b - (y + 1)) a (by omega) ha
      have e3 : (y + 1) * w + (b - (y + 1)) * w + a = b * w + a := by
        rw [← Nat.add_mul, show y + 1 + (b - (y + 1)) = b by omega]
      rw [e3, Nat.zero_add] at this
      exact this
    · rw [if_neg hc]
      apply h2
      intro b' a' hb' ha' he
      have e3 : (y + 1) * w + b' * w + a' = (y + 1 + b') * w + a' := by rw [← Nat.add_mul]
      rw [e3] at he
      have : b = y + 1 + b' := by
        have k1 : (b * w + a) / w = ((y + 1 + b') * w + a') / w := by rw [he]
        rw [Nat.add_comm, Nat.add_mul_div_right _ _ (by omega), Nat.div_eq_of_lt ha, Nat.add_comm ((y + 1 + b') * w),
          Nat.add_mul_div_right _ _ (by omega), Nat.div_eq_of_lt ha'] at k1
        omega
      omega

/-! ### Frames -/

theorem cleared_blank {sc : Screen} {w h : Nat} (W : sc.Whole w h) :
    ∃ sc1, sc.clear = .ok sc1 ∧ sc1.Whole w h ∧ sc1.cur = {} ∧ ∀ a b, a < w → b < h → sc1.look w a b = some {} := by
  have hsub : sc.grid.isSub = false := Differ.whole_not_sub W
  have hcap := W.cap
  refine ⟨{ cur := {}, grid := { sc.grid with cells := List.replicate sc.grid.len ({} : Cell) ++ sc.grid.cells.drop sc.grid.len } },
    ?_, ⟨W.hw, W.hh, W.rect, W.stride, W.len, ?_⟩, rfl, ?_⟩
  · unfold Screen.clear Grid.clear
    rw [hsub]
    simp
  · simp [W.len]
  · intro a b ha hb
    show (List.replicate sc.grid.len ({} : Cell) ++ _)[b * w + a]? = _
    have := idx_lt ha hb
    rw [List.getElem?_append_left (by rw [List.length_replicate, W.len]; exact this), List.getElem?_replicate, if_pos (by rw [W.len]; exact this)]

/-- What is on the screen before the words are drawn. -/
theorem begun_ready {sc : Screen} {w h : Nat} (W : sc.Whole w h) (b : Buffer) (hc : sc.cur = {}) (hud : Bool) (hh : rowOf hud < h) :
    Hud.Ready (⟨sc.to ⟨1, if hud then 2 else 1⟩, b.reset⟩ : VScreen) w h 0 (rowOf hud) ∧
      Base ⟨sc.to ⟨1, if hud then 2 else 1⟩, b.reset⟩ 0 ∧
      (sc.to ⟨1, if hud then 2 else 1⟩).grid = sc.grid := by
  have hp : (⟨1, if hud then 2 else 1⟩ : Pt) = ⟨((0 : Nat) : Int) + 1, (rowOf hud : Nat) + 1⟩ := by
    cases hud <;> simp [rowOf]
  rw [hp]
  have S : Emu.Settled (⟨sc, b.reset⟩ : VScreen) := rfl
  have := Hud.goto_at (v := ⟨sc, b.reset⟩) (x := 0) (y := rowOf hud) W S W.hw hh
  refine ⟨this, Or.inl ⟨rfl, ?_⟩, rfl⟩
  show sc.cur.attrKnown = false
  rw [hc]

/-- The events after the interrupt and suspend keys have been looked for, when there is no interrupt. -/
theorem keys_left (es : Events) (h : ∀ e ∈ es, isRune [0x03] e = false) :
    hasTerminal 0x03 es = (es, false) ∧ (countRune [0x1A] 0 es).1 = strikeIf (isRune [0x1A]) es := by
  refine ⟨?_, (countRune_strikes [0x1A] es 0).1⟩
  rcases hasTerminal_spec 0x03 es with ⟨_, h2⟩ | ⟨a, e, b, he, _, h3, _⟩
  · exact h2
  · rw [h e (by rw [he]; simp)] at h3
    cases h3

theorem odd_suspend (b : Rect) (es : Events) : Hud.Spec.odd b (strikeIf (isRune [0x1A]) es) = Hud.Spec.odd b es := by
  unfold Hud.Spec.odd
  rw [Hud.count_strike _ _ _ ?_ (Hud.struck_not_in _ 1)]
  intro e he
  unfold isRune at he
  unfold pressIn
  simp only [Bool.and_eq_true, decide_eq_true_eq] at he
  simp [he.1]

theorem bind_ok {ε α β : Type} {x : Except ε α} {g : α → Except ε β} {b : β} (h : x.bind g = .ok b) : ∃ a, x = .ok a ∧ g a = .ok b := by
  cases x with
  | error e => cases h
  | ok a => exact ⟨a, rfl, h⟩

/-- The parts of a frame. -/
theorem update_parts {ε : Type} {gr : Nat → Bool} {world : List (List Bytes) → Outcome} {suspend : Option ε} {hud : Bool} {f : Full}
    {es : Events} {v : VScreen} {o : Out ε} (ho : f.update gr world suspend hud es v = .ok o) :
    ∃ sc q f1 v1, v.sc.clear = .ok sc ∧
      drawWords gr world f.s.cmd 0 0 f ⟨(countRune [0x1A] 0 (hasTerminal 0x03 es).1).1, ⟨sc.to ⟨1, if hud then 2 else 1⟩, v.buf.reset⟩, {}⟩ = .ok q ∧
      q.1.fit gr world hud (Geom.dx sc.grid.rect) (Geom.dy sc.grid.rect) = .ok f1 ∧ overlay hud q.2.v f1.out = .ok v1 ∧
      o.f = f1 ∧ o.c = { q.2 with v := v1 } ∧
      o.suspended = decide ((countRune [0x1A] 0 (hasTerminal 0x03 es).1).2 > 0 ∧ (hasTerminal 0x03 es).2 = false) ∧
      (o.res = .interrupt ↔ (hasTerminal 0x03 es).2 = true) ∧
      (∀ x, o.res = .failed x ↔ o.suspended = true ∧ suspend = some x) := by
  unfold Full.update at ho
  obtain ⟨sc, h1, ho⟩ := bind_ok ho
  obtain ⟨q, h2, ho⟩ := bind_ok ho
  obtain ⟨f1, h3, ho⟩ := bind_ok ho
  simp only at ho
  cases hv : overlay hud q.2.v f1.out with
  | error e => rw [hv] at ho; cases ho
  | ok v1 =>
    rw [hv] at ho
    injection ho with ho
    subst ho
    refine ⟨sc, q, f1, v1, h1, h2, h3, hv, rfl, rfl, rfl, ?_, ?_⟩
    · cases ht : (hasTerminal 0x03 es).2 <;> simp only
      · by_cases hz : (countRune [0x1A] 0 (hasTerminal 0x03 es).1).2 > 0 <;> cases suspend <;> simp [hz]
      · simp
    · intro x
      cases ht : (hasTerminal 0x03 es).2 <;> simp only
      · by_cases hz : (countRune [0x1A] 0 (hasTerminal 0x03 es).1).2 > 0 <;> cases suspend <;> simp [hz]
      · simp

/-- **C130**, what is returned: an interrupt exactly when Ctrl-C was typed, otherwise a suspend when
Ctrl-Z was. -/
theorem frame_keys {ε : Type} (gr : Nat → Bool) (world : List (List Bytes) → Outcome) (suspend : Option ε) (hud : Bool) (f : Full)
    (es : Events) (v : VScreen) (o : Out ε) (ho : f.update gr world suspend hud es v = .ok o) :
    (o.res = .interrupt ↔ ∃ e ∈ es, e.kind = .rune ∧ e.esc = 0x03) ∧
    ((∀ e ∈ es, ¬ (e.kind = .rune ∧ e.esc = 0x03)) →
      (o.suspended = true ↔ ∃ e ∈ es, e.kind = .rune ∧ e.esc = 0x1A) ∧
      (∀ x, o.res = .failed x ↔ o.suspended = true ∧ suspend = some x)) := by
  obtain ⟨-, -, -, -, -, -, -, -, -, -, h1, h2, h3⟩ := update_parts ho
  have hr : ∀ r (e : Ev), isRune [r] e = true ↔ e.kind = .rune ∧ e.esc = r := by
    intro r e; simp [isRune]
  have ht := (hasTerminal_strikes 0x03 es).1
  simp only [hr] at ht
  refine ⟨h2.trans ht, fun hn => ⟨?_, h3⟩⟩
  have hf : (hasTerminal 0x03 es).2 = false := by
    cases hx : (hasTerminal 0x03 es).2
    · rfl
    · obtain ⟨e, he, hk⟩ := ht.mp hx
      exact absurd hk (hn e he)
  rw [h1, hf, (hasTerminal_strikes 0x03 es).2.1 hf, countRune_exact_partial _ _ (by simp)]
  simp only [and_true, decide_eq_true_eq, gt_iff_lt, List.countP_pos_iff, hr]

/-- **C130**, a frame in which no word is pressed or edited: the words stand on one row in their styles,
each variable with its value; below stands the output area, except for the last row; everything else is
blank.  Nothing is run. -/
theorem idle_shown {ε : Type} (hsp : Screen.Printable gr 0x20) (heq : Screen.Printable gr 0x3D)
    (world : List (List Bytes) → Outcome) (suspend : Option ε) (hud : Bool) (f : Full) (S : Setup gr cmd f.s ts w)
    (es : Events) (v : VScreen) (W : v.sc.Whole w h) (hh : rowOf hud + 2 ≤ h) (he : f.s.edid = 0)
    (hkeys : ∀ e ∈ es, isRune [0x03] e = false)
    (hp : ∀ i < ts.length, Hud.Spec.odd (Spec.place (rowOf hud) ts i) es = false)
    (hsz : f.s.size = ((w : Int), ((h - (rowOf hud + 2) : Nat) : Int))) (A : Area f.out w (h - (rowOf hud + 2))) :
    ∃ o, f.update gr world suspend hud es v = .ok o ∧ o.f = f ∧ o.c.user = {} ∧ o.c.v.sc.Whole w h ∧
      ∀ a b, a < w → b < h → o.c.v.sc.look w a b =
        if b = rowOf hud ∧ a < (Spec.line 0 ts).length then (Spec.line 0 ts)[a]?
        else if rowOf hud < b ∧ b + 1 < h then f.out.sc.look w a (b - (rowOf hud + 1)) else some {} := by
  obtain ⟨k1, k2⟩ := keys_left es hkeys
  obtain ⟨sc1, e1, W1, c1, L1⟩ := cleared_blank W
  obtain ⟨R, B, hg⟩ := begun_ready W1 v.buf c1 hud (by omega)
  have W2 : (sc1.to ⟨1, if hud then 2 else 1⟩).Whole w h := R.whole
  obtain ⟨v1, e2, R1, B1, L2⟩ := words_idle_upto (y := rowOf hud) hsp heq world f S ts.length (Nat.le_refl _) ts.length 0
    ⟨strikeIf (isRune [0x1A]) es, ⟨sc1.to ⟨1, if hud then 2 else 1⟩, v.buf.reset⟩, {}⟩ (by omega) (by simpa [Spec.line] using R) B
    (fun m _ _ => by rw [he]; omega) (fun m _ hm => by
      show Hud.Spec.odd _ (strikeIf _ es) = false
      rw [odd_suspend]; exact hp m hm) (fun m l h1 h2 p => places_apart ts _ m l h1 h2 p)
  rw [List.drop_zero, ← S.cmd_eq, List.drop_length] at e2
  simp only [List.map_nil, drawWords] at e2
  rw [List.take_length] at L2
  obtain ⟨v2, e3, W3, -, -, L3⟩ := overlay_drawn hud v1 f.out R1.whole hh A
  have hslot : Spec.slot cmd 0 = 0 := by simp [Spec.slot]
  rw [hslot] at e2
  have hfit : f.fit gr world hud (Geom.dx (sc1.to ⟨1, if hud then 2 else 1⟩).grid.rect) (Geom.dy (sc1.to ⟨1, if hud then 2 else 1⟩).grid.rect) = .ok f := by
    have hx : Geom.dx (sc1.to ⟨1, if hud then 2 else 1⟩).grid.rect = w := by rw [W2.rect]; simp [Geom.dx]
    have hy : Geom.dy (sc1.to ⟨1, if hud then 2 else 1⟩).grid.rect = h := by rw [W2.rect]; simp [Geom.dy]
    unfold Full.fit
    rw [hx, hy]
    simp only
    rw [if_pos]
    rw [hsz]
    cases hud <;> simp [rowOf] at hh ⊢ <;> omega
  have hu : ∃ o, f.update gr world suspend hud es v = .ok o ∧ o.f = f ∧ o.c.v = v2 ∧ o.c.user = {} := by
    unfold Full.update
    simp only [k1, k2]
    rw [e1]
    simp only [Except.bind]
    rw [e2]
    simp only
    rw [hfit]
    simp only
    rw [e3]
    exact ⟨_, rfl, rfl, rfl, rfl⟩
  obtain ⟨o, o1, o2, o3, o4⟩ := hu
  refine ⟨o, o1, o2, o4, by rw [o3]; exact W3, ?_⟩
  · intro a b ha hb
    rw [o3]
    rw [L3 a b ha hb, L2 a b ha hb]
    have hlk : (⟨sc1.to ⟨1, if hud then 2 else 1⟩, v.buf.reset⟩ : VScreen).sc.look w a b = some {} := by
      rw [← L1 a b ha hb]; rfl
    rw [hlk]
    by_cases h1 : b = rowOf hud ∧ a < (Spec.line 0 ts).length
    · rw [if_pos h1, if_neg (by omega), if_pos (by simp [Spec.line, h1])]
    · rw [if_neg h1]
      by_cases h2 : rowOf hud < b ∧ b + 1 < h
      · rw [if_pos h2, if_pos h2]
      · rw [if_neg h2, if_neg h2, if_neg (by simp [Spec.line]; omega)]

namespace Spec

/-- Some word is the last one, and it has a style: it is a variable, or the only word. -/
def styled (ts : List Item) : Bool := match ts.getLast? with | none => false | some t => t.var || ts.length == 1

end Spec

/-- What a frame in which no word is pressed or edited leaves in the buffer: if the last word has a style, the sequence that
ends it. -/
theorem idle_left {ε : Type} (hsp : Screen.Printable gr 0x20) (heq : Screen.Printable gr 0x3D)
    (world : List (List Bytes) → Outcome) (suspend : Option ε) (hud : Bool) (f : Full) (S : Setup gr cmd f.s ts w)
    (es : Events) (v : VScreen) (W : v.sc.Whole w h) (hh : rowOf hud + 2 ≤ h) (he : f.s.edid = 0)
    (hkeys : ∀ e ∈ es, isRune [0x03] e = false)
    (hp : ∀ i < ts.length, Hud.Spec.odd (Spec.place (rowOf hud) ts i) es = false) (o : Out ε)
    (ho : f.update gr world suspend hud es v = .ok o) :
    o.c.v.buf.buf = if Spec.styled ts then ends else [] := by
  obtain ⟨sc, q, f1, v1, u1, u2, -, u4, -, u6, -⟩ := update_parts ho
  have hb : o.c.v.buf = q.2.v.buf := by
    rw [u6]
    show v1.buf = _
    unfold overlay at u4
    generalize (⟨1, if hud then 3 else 2⟩ : Pt) = p at u4
    simp only at u4
    split at u4
    · split at u4
      · cases u4
      · injection u4 with u4; rw [← u4]
    · injection u4 with u4; rw [← u4]
  rw [hb]
  obtain ⟨k1, k2⟩ := keys_left es hkeys
  obtain ⟨sc1, e1, W1, c1, L1⟩ := cleared_blank W
  rw [e1] at u1
  injection u1 with u1
  subst u1
  obtain ⟨R, B, hg⟩ := begun_ready W1 v.buf c1 hud (by omega)
  rw [k1] at u2
  cases hl : ts.length with
  | zero =>
    have hts : ts = [] := List.length_eq_zero_iff.1 hl
    rw [S.cmd_eq, hts] at u2
    simp only [List.map_nil, drawWords] at u2
    injection u2 with u2
    rw [← u2, hts]
    rfl
  | succ n =>
    obtain ⟨v2, e2, R2, B2, -⟩ := words_idle_upto (y := rowOf hud) hsp heq world f S n (by omega) n 0
      ⟨strikeIf (isRune [0x1A]) es, ⟨sc1.to ⟨1, if hud then 2 else 1⟩, v.buf.reset⟩, {}⟩ (by omega) (by simpa [Spec.line] using R) B
      (fun m _ _ => by rw [he]; omega) (fun m _ hm => by
        show Hud.Spec.odd _ (strikeIf _ es) = false
        rw [odd_suspend]; exact hp m (by omega)) (fun m l h1 h2 p => places_apart ts _ m l h1 h2 p)
    have hn : n < ts.length := by omega
    obtain ⟨v3, e3, -, b3⟩ := word_idle (y := rowOf hud) hsp heq world f S n hn
      ⟨Hud.Spec.without ((List.range' 0 n).map (Spec.place (rowOf hud) ts)) (strikeIf (isRune [0x1A]) es), v2, {}⟩ R2 B2
      (by
        show Hud.Spec.odd _ (Hud.Spec.without _ (strikeIf _ es)) = false
        rw [Hud.odd_without, odd_suspend]
        · exact hp n hn
        · intro r hr
          obtain ⟨m, hm, rfl⟩ := List.mem_map.1 hr
          rw [List.mem_range'_1] at hm
          exact places_apart ts _ m n (by omega) hn) (by rw [he]; omega)
    have hslot : Spec.slot cmd 0 = 0 := by simp [Spec.slot]
    rw [List.drop_zero, ← S.cmd_eq, hslot, List.drop_eq_getElem_cons hn, List.drop_of_length_le (by omega)] at e2
    simp only [List.map_cons, List.map_nil, drawWords] at e2
    rw [e3] at e2
    simp only [Except.bind] at e2
    simp only [k2] at u2
    rw [e2] at u2
    injection u2 with u2
    rw [← u2]
    show v3.buf.buf = _
    rw [b3]
    have hlast : ts.getLast? = some ts[n] := by
      rw [List.getLast?_eq_getElem?, hl, Nat.add_sub_cancel, List.getElem?_eq_getElem hn]
    have hst : Spec.styled ts = true ↔ Spec.style n ts[n].var ≠ 0 := by
      unfold Spec.styled
      rw [hlast, hl]
      have key : ∀ b : Bool, (b || n + 1 == 1) = true ↔ Spec.style n b ≠ 0 := by
        intro b
        cases b
        · by_cases h0 : n = 0
          · subst h0; decide
          · have : Spec.style n false = 0 := by
              unfold Spec.style
              rw [if_neg (by simp), if_neg h0]
            rw [this]
            simp [h0]
        · have : Spec.style n true = cyanFG := rfl
          rw [this]
          simp only [Bool.true_or, true_iff]
          decide
      exact key ts[n].var
    by_cases hz : Spec.style n ts[n].var ≠ 0
    · rw [if_pos hz, if_pos (hst.2 hz)]
    · rw [if_neg hz, if_neg (fun h => hz (hst.1 h))]

/-! ### The screen adds nothing: what happens is what Model/Interact tells -/

theorem run_ok {gr : Nat → Bool} {world : List (List Bytes) → Outcome} {f f' : Full} (h : Full.runCmd gr world f = .ok f') :
    f.s.runCmd = some f'.s := by
  unfold Full.runCmd at h
  cases hs : f.s.runCmd with
  | none => rw [hs] at h; cases h
  | some s =>
    rw [hs] at h
    simp only at h
    cases hp : print gr (world s.runs) s.shown f.out with
    | error e => rw [hp] at h; cases h
    | ok v => rw [hp] at h; injection h with h; rw [← h]

theorem map_ok {ε α β : Type} {x : Except ε α} {g : α → β} {b : β} (h : x.map g = .ok b) : ∃ a, x = .ok a ∧ g a = b := by
  cases x with
  | error e => cases h
  | ok a => exact ⟨a, rfl, by injection h⟩

/-- What a word is told, if its box is `d`. -/
def heard (gr : Nat → Bool) (d : Rect × VScreen) (c : Sh) : In where
  pressed := Hud.Spec.odd d.1 c.es
  upd := fun l => match ({ l with box := d.1 } : EditLine).update gr (Hud.Spec.without [d.1] c.es) d.2 c.user with
    | .ok fr => fr.line
    | .error _ => l

theorem word_told {gr : Nat → Bool} {world : List (List Bytes) → Outcome} {f : Full} {i j : Nat} {w : Bytes} {c : Sh}
    {r : Full × Nat × Sh} (h : f.word gr world i j w c = .ok r) :
    ∃ d, f.s.drawWord gr i j w c.v = .ok d ∧ f.s.word i j (heard gr d c) = some (r.1.s, r.2.1) := by
  unfold Full.word at h
  obtain ⟨d, hd, h⟩ := bind_ok h
  refine ⟨d, hd, ?_⟩
  simp only [countPressesIn_exact, Nat.zero_add, Hud.without_one] at h
  have hodd : (heard gr d c).pressed = decide (c.es.countP (pressIn d.1 1) % 2 = 1) := rfl
  unfold St.word
  simp only [hodd, decide_eq_true_eq]
  generalize hs : (if c.es.countP (pressIn d.1 1) % 2 = 1 then
    ({ f.s with edid := if f.s.edid = i + 1 then 0 else i + 1 } : St) else f.s) = s1 at h ⊢
  by_cases hc : s1.edid = i + 1 ∧ f.s.argi[j]? = some i
  · rw [if_pos hc] at h ⊢
    generalize hed : (if c.es.countP (pressIn d.1 1) % 2 = 1 ∧ f.s.edid ≠ i + 1 then
      ({ s1.ed.reset with buf := s1.val[j]?.getD [] } : EditLine) else s1.ed) = ed at h ⊢
    obtain ⟨fr, hfr, h⟩ := bind_ok h
    have hu : (heard gr d c).upd ed = fr.line := by
      unfold heard
      simp only [hfr]
    rw [hu]
    cases hst : fr.line.state with
    | ready => simp only [hst] at h ⊢; injection h with h; rw [← h]
    | done =>
      simp only [hst] at h ⊢
      obtain ⟨f2, h2, rfl⟩ := map_ok h
      have := run_ok h2
      unfold St.exit
      simp only at this
      rw [this]; rfl
    | canceled =>
      simp only [hst] at h ⊢
      obtain ⟨f2, h2, rfl⟩ := map_ok h
      have := run_ok h2
      unfold St.exit
      simp only at this
      rw [this]; rfl
  · rw [if_neg hc] at h ⊢
    injection h with h; rw [← h]

theorem words_same (x y : Nat → In) : ∀ (n i j : Nat) (s : St), (∀ m, i ≤ m → x m = y m) → words x n i j s = words y n i j s := by
  intro n
  induction n with
  | zero => intro i j s _; rfl
  | succ n ih =>
    intro i j s h
    rw [words, words, h i (Nat.le_refl _)]
    congr 1
    funext r
    exact ih _ _ _ fun m hm => h m (by omega)

theorem words_told {gr : Nat → Bool} {world : List (List Bytes) → Outcome} (ws : List Bytes) :
    ∀ {f : Full} {i j : Nat} {c : Sh} {q : Full × Sh}, drawWords gr world ws i j f c = .ok q →
      ∃ x : Nat → In, words x ws.length i j f.s = some q.1.s := by
  induction ws with
  | nil =>
    intro f i j c q h
    simp only [drawWords] at h
    injection h with h
    exact ⟨fun _ => {}, by rw [← h]; rfl⟩
  | cons w ws ih =>
    intro f i j c q h
    simp only [drawWords] at h
    obtain ⟨r, h1, h2⟩ := bind_ok h
    obtain ⟨d, -, e⟩ := word_told h1
    obtain ⟨x, hx⟩ := ih h2
    refine ⟨fun m => if m = i then heard gr d c else x m, ?_⟩
    rw [List.length_cons, words]
    simp only [if_true]
    rw [e]
    simp only [Option.bind]
    rw [← hx]
    exact words_same _ _ _ _ _ _ fun m hm => by rw [if_neg (by omega)]

theorem fit_told {gr : Nat → Bool} {world : List (List Bytes) → Outcome} {hud : Bool} {w h : Int} {f f' : Full}
    (hf : f.fit gr world hud w h = .ok f') :
    (if f.s.size = (w, h - if hud then 3 else 2) then some f.s
      else if w * (h - if hud then 3 else 2) < 0 then none
      else ({ f.s with size := (w, h - if hud then 3 else 2) } : St).runCmd) = some f'.s := by
  unfold Full.fit at hf
  simp only at hf
  by_cases h1 : f.s.size = (w, h - if hud then 3 else 2)
  · rw [if_pos h1] at hf ⊢
    injection hf with hf; rw [hf]
  · rw [if_neg h1] at hf ⊢
    by_cases h2 : w * (h - if hud then 3 else 2) < 0
    · rw [if_pos h2] at hf; cases hf
    · rw [if_neg h2] at hf ⊢
      exact run_ok hf

/-- **C130**, every frame with a screen is a frame as Model/Interact has it, for some presses and edits:
what C103 says about these holds with the screen. -/
theorem frame_told {ε : Type} (gr : Nat → Bool) (world : List (List Bytes) → Outcome) (suspend : Option ε) (hud : Bool) (f : Full)
    (es : Events) (v : VScreen) (W : v.sc.Whole w h) (o : Out ε) (ho : f.update gr world suspend hud es v = .ok o) :
    ∃ x : Nat → In, f.s.update hud w h x = some o.f.s := by
  obtain ⟨sc, q, f1, v1, h1, h2, h3, -, h5, -⟩ := update_parts ho
  obtain ⟨sc1, e1, W1, -, -⟩ := cleared_blank W
  rw [h1] at e1
  injection e1 with e1
  subst e1
  obtain ⟨x, hx⟩ := words_told _ h2
  refine ⟨x, ?_⟩
  have hx' : Geom.dx sc.grid.rect = w := by rw [W1.rect]; simp [Geom.dx]
  have hy' : Geom.dy sc.grid.rect = h := by rw [W1.rect]; simp [Geom.dy]
  rw [hx', hy'] at h3
  have := fit_told h3
  unfold St.update
  rw [hx]
  simp only [Option.bind]
  rw [h5]
  exact this

namespace Spec

/-- A left press. -/
def press (e : Ev) : Prop := e.kind = .mouse ∧ Mouse.isPress e.ms = some 1

end Spec

theorem no_press {d : Rect} {es : Events} (h : ∀ e ∈ es, ¬ Spec.press e) :
    es.countP (pressIn d 1) = 0 ∧ strikeIf (pressIn d 1) es = es := by
  have hp : ∀ e ∈ es, pressIn d 1 e = false := by
    intro e he
    have := h e he
    unfold Spec.press at this
    unfold pressIn
    by_contra hc
    simp only [Bool.not_eq_false, Bool.and_eq_true, decide_eq_true_eq] at hc
    exact this hc.1
  constructor
  · rw [List.countP_eq_zero]
    intro e he
    rw [hp e he]; simp
  · unfold strikeIf
    conv_rhs => rw [← List.map_id es]
    apply List.map_congr_left
    intro e he
    rw [hp e he]; simp

/-- Words that hear of no press and are not being edited do nothing. -/
theorem words_rest {gr : Nat → Bool} {world : List (List Bytes) → Outcome} (ws : List Bytes) :
    ∀ {f : Full} {i j : Nat} {c : Sh} {q : Full × Sh}, drawWords gr world ws i j f c = .ok q →
      (∀ e ∈ c.es, ¬ Spec.press e) → (∀ m, i ≤ m → f.s.edid ≠ m + 1) → q.1 = f ∧ q.2.es = c.es ∧ q.2.user = c.user := by
  induction ws with
  | nil =>
    intro f i j c q h _ _
    simp only [drawWords] at h
    injection h with h
    rw [← h]
    exact ⟨rfl, rfl, rfl⟩
  | cons w ws ih =>
    intro f i j c q h hp he
    simp only [drawWords] at h
    obtain ⟨r, h1, h2⟩ := bind_ok h
    unfold Full.word at h1
    obtain ⟨d, -, h1⟩ := bind_ok h1
    obtain ⟨n1, n2⟩ := no_press (d := d.1) hp
    simp only [countPressesIn_exact, n1, n2, Nat.zero_add, Nat.zero_mod, Nat.zero_ne_one, if_false, he i (Nat.le_refl _), false_and] at h1
    injection h1 with h1
    subst h1
    exact ih (f := f) (c := ⟨c.es, d.2, c.user⟩) h2 hp fun m hm => he m (by omega)

/-- What the edit line leaves of the events. -/
theorem handleAll_left (gr : Nat → Bool) (es : Events) : ∀ (l : EditLine), ∀ e ∈ (l.handleAll gr es).2, e ∈ es ∨ e.kind = .none := by
  have h1 : ∀ (l : EditLine) (e : Ev), (l.handle gr e).2 = e ∨ (l.handle gr e).2.kind = .none := by
    intro l e
    have a1 : ∀ (l : EditLine) (e : Ev), (l.handleGraphicRune gr e).2 = e ∨ (l.handleGraphicRune gr e).2.kind = .none := by
      intro l e
      unfold EditLine.handleGraphicRune
      by_cases h : e.kind ≠ .rune ∨ gr e.esc = false
      · rw [if_pos h]; exact Or.inl rfl
      · rw [if_neg h]; exact Or.inr rfl
    have a2 : ∀ (l : EditLine) (e : Ev), (l.handleControlRune e).2 = e ∨ (l.handleControlRune e).2.kind = .none := by
      intro l e
      unfold EditLine.handleControlRune
      repeat' split
      all_goals first | exact Or.inl rfl | exact Or.inr rfl
    have a3 : ∀ (l : EditLine) (e : Ev), (l.handleArrowKeys e).2 = e ∨ (l.handleArrowKeys e).2.kind = .none := by
      intro l e
      unfold EditLine.handleArrowKeys
      repeat' split
      all_goals first | exact Or.inl rfl | exact Or.inr rfl
    unfold EditLine.handle
    simp only
    by_cases h0 : e.kind = .none
    · rw [if_pos h0]; exact Or.inl rfl
    · rw [if_neg h0]
      by_cases h1 : (l.handleGraphicRune gr e).2.kind = .none
      · rw [if_pos h1]; exact Or.inr h1
      · rw [if_neg h1]
        have e1 := (a1 l e).resolve_right h1
        generalize l.handleGraphicRune gr e = g at e1
        obtain ⟨l1, e2⟩ := g
        simp only at e1 ⊢
        subst e1
        by_cases h2 : (l1.handleControlRune e2).2.kind = .none
        · rw [if_pos h2]; exact Or.inr h2
        · rw [if_neg h2]
          have e3 := (a2 l1 e2).resolve_right h2
          rw [e3]
          exact a3 _ _
  induction es with
  | nil => intro l e he; cases he
  | cons e0 es ih =>
    intro l e he
    rw [EditLine.handleAll] at he
    rcases List.mem_cons.1 he with rfl | he
    · rcases h1 l e0 with h | h
      · rw [h]; simp
      · exact Or.inr h
    · rcases ih _ e he with h | h
      · simp [h]
      · exact Or.inr h

/-- Struck events that mean nothing to the edit line do not change it. -/
theorem handleAll_strike (gr : Nat → Bool) (p : Ev → Bool) (es : Events)
    (h : ∀ e ∈ es, p e = true → ∀ l : EditLine, (l.handle gr e).1 = l) :
    ∀ l : EditLine, (l.handleAll gr (strikeIf p es)).1 = (l.handleAll gr es).1 := by
  induction es with
  | nil => intro l; rfl
  | cons e es ih =>
    intro l
    have hs : (l.handle gr (if p e then e.struck else e)).1 = (l.handle gr e).1 := by
      by_cases hp : p e = true
      · rw [if_pos hp, h e (by simp) hp l]
        unfold EditLine.handle
        rw [if_pos (show e.struck.kind = .none from rfl)]
      · rw [if_neg hp]
    show (((l.handle gr (if p e then e.struck else e)).1).handleAll gr (strikeIf p es)).1 = (((l.handle gr e).1).handleAll gr es).1
    rw [hs]
    exact ih (fun e he => h e (by simp [he])) _

theorem handle_mouse (gr : Nat → Bool) (l : EditLine) (e : Ev) (hk : e.kind = .mouse) : (l.handle gr e).1 = l := by
  unfold EditLine.handle EditLine.handleGraphicRune EditLine.handleControlRune EditLine.handleArrowKeys
  simp [hk]

theorem handle_suspend (gr : Nat → Bool) (hg : gr 0x1A = false) (l : EditLine) (e : Ev) (hk : isRune [0x1A] e = true) :
    (l.handle gr e).1 = l := by
  have h : e.kind = .rune ∧ e.esc = 0x1A := by simpa [isRune] using hk
  rw [handle_control gr l e h.1 (by rw [h.2]; exact hg)]
  unfold EditLine.handleControlRune
  simp [h.1, h.2]

namespace Spec

/-- The edit line of word `k` at the beginning of a frame: a press begins anew with the value so far. -/
def begun (cmd : List Bytes) (s : St) (y : Nat) (ts : List Item) (k : Nat) (pressed : Bool) : EditLine :=
  if pressed then { box := place y ts k, buf := value cmd s.val k } else { s.ed with box := place y ts k }

/-- The values after an edit of word `k` is accepted: an empty text is not taken. -/
def accepted (cmd vals : List Bytes) (k : Nat) (b : Bytes) : List Bytes := if b = [] then vals else vals.set (slot cmd k) b

end Spec

theorem strike_mem {p : Ev → Bool} {es : Events} {e : Ev} (h : e ∈ strikeIf p es) : e ∈ es ∧ p e = false ∨ e.kind = .none := by
  unfold strikeIf at h
  obtain ⟨e0, h0, rfl⟩ := List.mem_map.1 h
  by_cases hp : p e0 = true
  · rw [if_pos hp]; exact Or.inr rfl
  · rw [if_neg hp]; exact Or.inl ⟨h0, by simpa using hp⟩

theorem press_of {d : Rect} {e : Ev} (h : pressIn d 1 e = true) : Spec.press e ∧ Geom.Mem e.pt d := by
  refine ⟨?_, (Hud.pressIn_press h).2⟩
  unfold pressIn at h
  simp only [Bool.and_eq_true, decide_eq_true_eq] at h
  exact h.1

theorem in_press {d : Rect} {e : Ev} (h : Spec.press e) (hm : Geom.Mem e.pt d) : pressIn d 1 e = true := by
  unfold pressIn
  simp only [Bool.and_eq_true, decide_eq_true_eq]
  exact ⟨h, (Geom.ptIn_iff _ _).mpr hm⟩

theorem none_not_press {e : Ev} (h : e.kind = .none) : ¬ Spec.press e := by
  intro hp
  rw [hp.1] at h
  cases h

theorem fit_kept {gr : Nat → Bool} {world : List (List Bytes) → Outcome} {hud : Bool} {w h : Int} {f f' : Full}
    (hf : f.fit gr world hud w h = .ok f') (hI : Inv cmd f.s) (hC : Cur cmd f.s) (hc : cmd ≠ []) :
    Inv cmd f'.s ∧ Cur cmd f'.s ∧ f'.s.val = f.s.val ∧ f'.s.edid = f.s.edid ∧ f'.s.ed = f.s.ed ∧
      f'.s.size = (w, h - if hud then 3 else 2) := by
  have := fit_told hf
  by_cases h1 : f.s.size = (w, h - if hud then 3 else 2)
  · rw [if_pos h1] at this
    injection this with this
    rw [← this]
    exact ⟨hI, hC, rfl, rfl, rfl, h1⟩
  · rw [if_neg h1] at this
    by_cases h2 : w * (h - if hud then 3 else 2) < 0
    · rw [if_pos h2] at this; cases this
    · rw [if_neg h2] at this
      obtain ⟨t, e, i1, i2, i3, i4, i5, i6⟩ := runCmd_some cmd _
        (⟨hI.words, hI.argi, hI.arg, hI.val, hI.runs⟩ : Inv cmd { f.s with size := (w, h - if hud then 3 else 2) }) hc
      rw [this] at e
      injection e with e
      subst e
      exact ⟨i1, i2, i4, i5, i6, i3⟩

theorem exit_kept {gr : Nat → Bool} {world : List (List Bytes) → Outcome} {f f' : Full}
    (hf : f.exit gr world = .ok f') (hI : Inv cmd f.s) (hc : cmd ≠ []) :
    Inv cmd f'.s ∧ Cur cmd f'.s ∧ f'.s.val = f.s.val ∧ f'.s.edid = 0 := by
  have := run_ok hf
  obtain ⟨t, e, i1, i2, i3, i4, i5, i6⟩ := runCmd_some cmd _
    (⟨hI.words, hI.argi, hI.arg, hI.val, hI.runs⟩ : Inv cmd { f.s with ed := f.s.ed.reset, edid := 0 }) hc
  simp only at this
  rw [this] at e
  injection e with e
  subst e
  exact ⟨i1, i2, i4, i5⟩

theorem update_line {gr : Nat → Bool} {l : EditLine} {es : Events} {v : VScreen} {u : Cursor} {fr : Frame} (hr : l.state = .ready)
    (h : l.update gr es v u = .ok fr) :
    fr.line.state = (l.handleAll gr es).1.state ∧ fr.line.buf = (l.handleAll gr es).1.buf ∧
      fr.line.cur = (l.handleAll gr es).1.cur ∧ fr.input = (l.handleAll gr es).2 := by
  unfold EditLine.update at h
  rw [if_neg (by simp [hr])] at h
  simp only at h
  split at h
  · injection h with h
    rw [← h]
    exact ⟨rfl, rfl, rfl, rfl⟩
  · obtain ⟨h1, h2⟩ := draw_line gr _ _ _ _ _ h
    rw [h1, h2]
    exact ⟨rfl, rfl, rfl, rfl⟩

/-- What comes of a word whose edit line is `l0`. -/
def Edits (gr : Nat → Bool) (world : List (List Bytes) → Outcome) (f : Full) (k j : Nat) (E : Events) (v : VScreen) (l0 : EditLine)
    (r : Full × Nat × Sh) : Prop :=
  ∃ fr, l0.update gr E v {} = .ok fr ∧ r.2.2 = ⟨fr.input, fr.out, fr.user⟩ ∧
    (fr.line.state = .ready → r.1 = { f with s := { f.s with edid := k + 1, ed := fr.line } }) ∧
    (fr.line.state = .done → Full.exit gr world { f with s := { f.s with
      edid := k + 1, ed := fr.line, val := if fr.line.buf ≠ [] then f.s.val.set j fr.line.buf else f.s.val } } = .ok r.1) ∧
    (fr.line.state = .canceled → Full.exit gr world { f with s := { f.s with edid := k + 1, ed := fr.line } } = .ok r.1)

theorem edits_of {gr : Nat → Bool} {world : List (List Bytes) → Outcome} {f : Full} {k j j' : Nat} {E : Events} {v : VScreen}
    {l0 : EditLine} {r : Full × Nat × Sh} (s1 : St) (l1 : EditLine) (hs1 : s1 = { f.s with edid := k + 1 }) (hl1 : l1 = l0)
    (hw : (Except.bind (l1.update gr E v {}) fun fr =>
      match fr.line.state with
      | .ready => .ok (({ f with s := { s1 with ed := fr.line } } : Full), j', (⟨fr.input, fr.out, fr.user⟩ : Sh))
      | .done =>
        (Full.exit gr world { f with s := { s1 with ed := fr.line, val := if fr.line.buf ≠ [] then s1.val.set j fr.line.buf else s1.val } }).map
          fun f => (f, j', (⟨fr.input, fr.out, fr.user⟩ : Sh))
      | .canceled => (Full.exit gr world { f with s := { s1 with ed := fr.line } }).map
          fun f => (f, j', (⟨fr.input, fr.out, fr.user⟩ : Sh))) = .ok r) : Edits gr world f k j E v l0 r := by
  subst hs1 hl1
  obtain ⟨fr, hfr, hw⟩ := bind_ok hw
  refine ⟨fr, hfr, ?_⟩
  cases hst : fr.line.state with
  | ready =>
    simp only [hst] at hw
    injection hw with hw
    rw [← hw]
    exact ⟨rfl, fun _ => rfl, fun h => absurd h (by simp), fun h => absurd h (by simp)⟩
  | done =>
    simp only [hst] at hw
    obtain ⟨f2, h2, h3⟩ := map_ok hw
    rw [← h3]
    exact ⟨rfl, fun h => absurd h (by simp), fun _ => h2, fun h => absurd h (by simp)⟩
  | canceled =>
    simp only [hst] at hw
    obtain ⟨f2, h2, h3⟩ := map_ok hw
    rw [← h3]
    exact ⟨rfl, fun h => absurd h (by simp), fun h => absurd h (by simp), fun _ => h2⟩

/-- **C130**, a frame in which a variable is edited: an odd number of presses on its word begins the edit,
and the keys go to the edit line, which holds what it would hold by itself.  Enter takes the text for the
value, unless it is empty, and the output area shows what the new values call for; Escape leaves the
values.  Partial: the presses of the frame must all be on the word, and no word before it is being edited,
whose edit line would take the keys. -/
theorem edit_frame_partial {ε : Type} (hsp : Screen.Printable gr 0x20) (heq : Screen.Printable gr 0x3D) (hz : gr 0x1A = false)
    (world : List (List Bytes) → Outcome) (suspend : Option ε) (hud : Bool) (f : Full) (S : Setup gr cmd f.s ts w)
    (hC : Cur cmd f.s) (es : Events) (v : VScreen) (W : v.sc.Whole w h) (hh : rowOf hud < h)
    (k : Nat) (hk : k < ts.length) (hv : ts[k].var = true)
    (hkeys : ∀ e ∈ es, isRune [0x03] e = false)
    (hp : ∀ e ∈ es, Spec.press e → Geom.Mem e.pt (Spec.place (rowOf hud) ts k))
    (hed : ∀ m < k, f.s.edid ≠ m + 1)
    (hch : Hud.Spec.odd (Spec.place (rowOf hud) ts k) es = true ∧ f.s.edid ≠ k + 1 ∨
      Hud.Spec.odd (Spec.place (rowOf hud) ts k) es = false ∧ f.s.edid = k + 1 ∧ f.s.ed.state = .ready)
    (o : Out ε) (ho : f.update gr world suspend hud es v = .ok o) (l : EditLine)
    (hl : l = ((Spec.begun cmd f.s (rowOf hud) ts k (Hud.Spec.odd (Spec.place (rowOf hud) ts k) es)).handleAll gr es).1) :
    (l.state = .ready → o.f.s.edid = k + 1 ∧ o.f.s.ed.state = .ready ∧ o.f.s.ed.buf = l.buf ∧ o.f.s.ed.cur = l.cur ∧
      o.f.s.val = f.s.val) ∧
    (l.state = .canceled → o.f.s.edid = 0 ∧ o.f.s.val = f.s.val) ∧
    (l.state = .done → o.f.s.edid = 0 ∧ o.f.s.val = Spec.accepted cmd f.s.val k l.buf) ∧
    Inv cmd o.f.s ∧ o.f.s.shown = Spec.display cmd o.f.s.val ((w : Int), (h : Int) - ((rowOf hud : Nat) + 2)) := by
  have hc : cmd ≠ [] := by
    intro h0
    have := S.len
    rw [h0] at this
    simp at this
    rw [this] at hk
    simp at hk
  obtain ⟨k1, k2⟩ := keys_left es hkeys
  obtain ⟨sc, q, f1, v1, h1, h2, h3, -, h5, -⟩ := update_parts ho
  obtain ⟨sc1, e1, W1, c1, -⟩ := cleared_blank W
  rw [h1] at e1
  injection e1 with e1
  subst e1
  rw [k1] at h2
  simp only [k2] at h2
  obtain ⟨R, B, -⟩ := begun_ready W1 v.buf c1 hud hh
  -- the words before
  obtain ⟨v2, e2, R1, B1, -⟩ := words_idle_upto (y := rowOf hud) hsp heq world f S k (by omega) k 0
    ⟨strikeIf (isRune [0x1A]) es, ⟨sc.to ⟨1, if hud then 2 else 1⟩, v.buf.reset⟩, {}⟩ (by omega) (by simpa [Spec.line] using R) B
    (fun m _ hm => hed m hm) (fun m _ hm => by
      show Hud.Spec.odd _ (strikeIf _ es) = false
      rw [odd_suspend]
      have : es.countP (pressIn (Spec.place (rowOf hud) ts m) 1) = 0 := by
        rw [List.countP_eq_zero]
        intro e he hq
        obtain ⟨p1, p2⟩ := press_of hq
        exact places_apart ts _ m k hm hk e.pt ⟨p2, hp e he p1⟩
      unfold Hud.Spec.odd
      rw [this]; rfl) (fun m l h1 h2 p => places_apart ts _ m l h1 h2 p)
  have hslot : Spec.slot cmd 0 = 0 := by simp [Spec.slot]
  rw [hslot, List.drop_zero, ← S.cmd_eq] at e2
  rw [e2, List.drop_eq_getElem_cons hk, List.map_cons] at h2
  simp only [drawWords] at h2
  obtain ⟨r, w1, w2⟩ := bind_ok h2
  -- the word
  unfold Full.word at w1
  obtain ⟨v3, e3, -⟩ := S.draw hsp heq k hk v2 R1 B1
  obtain ⟨d, hd, w1⟩ := bind_ok w1
  rw [e3] at hd
  injection hd with hd
  subst hd
  simp only [countPressesIn_exact, Nat.zero_add, Hud.without_one, S.next k hk] at w1
  generalize hE : Hud.Spec.without [Spec.place (rowOf hud) ts k]
    (Hud.Spec.without ((List.range' 0 k).map (Spec.place (rowOf hud) ts)) (strikeIf (isRune [0x1A]) es)) = E at w1
  have hodd : Hud.Spec.odd (Spec.place (rowOf hud) ts k)
      (Hud.Spec.without ((List.range' 0 k).map (Spec.place (rowOf hud) ts)) (strikeIf (isRune [0x1A]) es)) =
      Hud.Spec.odd (Spec.place (rowOf hud) ts k) es := by
    rw [Hud.odd_without, odd_suspend]
    intro c hc p hm
    obtain ⟨m, hm', rfl⟩ := List.mem_map.1 hc
    have := List.mem_range'_1.1 hm'
    exact places_apart ts _ m k (by omega) hk p hm
  have hcount : (List.countP (pressIn (Spec.place (rowOf hud) ts k) 1)
      (Hud.Spec.without ((List.range' 0 k).map (Spec.place (rowOf hud) ts)) (strikeIf (isRune [0x1A]) es)) % 2 = 1) =
      (Hud.Spec.odd (Spec.place (rowOf hud) ts k) es = true) := by
    rw [← hodd]
    unfold Hud.Spec.odd
    simp
  simp only [hcount] at w1
  -- no presses are left
  have hE1 : ∀ e ∈ E, ¬ Spec.press e := by
    intro e he hpr
    rw [← hE] at he
    rcases strike_mem he with ⟨a1, a2⟩ | a
    · rcases strike_mem a1 with ⟨b1, -⟩ | b
      · rcases strike_mem b1 with ⟨c1, -⟩ | c
        · have := in_press hpr (hp e c1 hpr)
          simp only [List.any_cons, List.any_nil, Bool.or_false] at a2
          rw [this] at a2; cases a2
        · exact none_not_press c hpr
      · exact none_not_press b hpr
    · exact none_not_press a hpr
  have hE2 : ∀ L : EditLine, (L.handleAll gr E).1 = (L.handleAll gr es).1 := by
    intro L
    have hm : ∀ (bs : List Rect) (e : Ev), (bs.any fun b => pressIn b 1 e) = true → ∀ l : EditLine, (l.handle gr e).1 = l := by
      intro bs e he l
      obtain ⟨b, -, hb⟩ := List.any_eq_true.1 he
      exact handle_mouse gr l e (press_of hb).1.1
    rw [← hE]
    unfold Hud.Spec.without
    rw [handleAll_strike gr _ _ (fun e _ he => hm _ e he), handleAll_strike gr _ _ (fun e _ he => hm _ e he),
      handleAll_strike gr _ _ (fun e _ he l => handle_suspend gr hz l e he)]
  have hslotv : f.s.argi[Spec.slot cmd k]? = some k := (S.var k hk).2 hv
  -- the line that is edited
  generalize hl0 : Spec.begun cmd f.s (rowOf hud) ts k (Hud.Spec.odd (Spec.place (rowOf hud) ts k) es) = l0 at hl
  have key : Edits gr world f k (Spec.slot cmd k) E v3 l0 r := by
    rcases hch with ⟨a1, a2⟩ | ⟨a1, a2, a3⟩
    · rw [a1] at hl0
      simp only [a1, if_true, hslotv, a2, if_false, ne_eq, not_false_eq_true, and_self] at w1
      exact edits_of (j' := Spec.slot cmd (k + 1)) { f.s with edid := k + 1 }
        { state := .ready, box := Spec.place (rowOf hud) ts k, buf := f.s.val[Spec.slot cmd k]?.getD [], cur := 0, view := 0 }
        rfl (by rw [← hl0]; rfl) w1
    · rw [a1] at hl0
      simp only [a1, Bool.false_eq_true, if_false, a2, hslotv, and_self, if_true, false_and] at w1
      rw [show f.s = { f.s with edid := k + 1 } by rw [← a2]] at w1
      exact edits_of (j' := Spec.slot cmd (k + 1)) { f.s with edid := k + 1 } { f.s.ed with box := Spec.place (rowOf hud) ts k }
        rfl (by rw [← hl0]; rfl) w1
  obtain ⟨fr, u1, u2, u3, u4, u5⟩ := key
  have hr0 : l0.state = .ready := by
    rw [← hl0]
    rcases hch with ⟨a1, a2⟩ | ⟨a1, a2, a3⟩
    · rw [a1]; rfl
    · rw [a1]; exact a3
  obtain ⟨t1, t2, t3, t4⟩ := update_line hr0 u1
  rw [hE2, ← hl] at t1 t2 t3
  have hleft : ∀ e ∈ r.2.2.es, ¬ Spec.press e := by
    rw [u2]
    intro e he
    show ¬ Spec.press e
    have he : e ∈ (l0.handleAll gr E).2 := by rw [← t4]; exact he
    rcases handleAll_left gr E l0 e he with h | h
    · exact hE1 e h
    · exact none_not_press h
  have hInv : ∀ (n : Nat) (e : EditLine) (vs : List Bytes), vs.length = f.s.val.length →
      Inv cmd { f.s with edid := n, ed := e, val := vs } := fun n e vs hvs =>
    ⟨S.inv.words, S.inv.argi, S.inv.arg, by rw [← S.inv.val]; exact hvs, S.inv.runs⟩
  have hsz : ((w : Int), (h : Int) - if hud then (3 : Int) else 2) = ((w : Int), (h : Int) - ((rowOf hud : Nat) + 2)) := by
    cases hud <;> simp [rowOf]
  have hx' : Geom.dx sc.grid.rect = w := by rw [W1.rect]; simp [Geom.dx]
  have hy' : Geom.dy sc.grid.rect = h := by rw [W1.rect]; simp [Geom.dy]
  rw [hx', hy'] at h3
  have fin2 : ∀ f2 : Full, r.1 = f2 → Inv cmd f2.s → Cur cmd f2.s → (∀ m, k + 1 ≤ m → f2.s.edid ≠ m + 1) →
      Inv cmd o.f.s ∧ o.f.s.shown = Spec.display cmd o.f.s.val ((w : Int), (h : Int) - ((rowOf hud : Nat) + 2)) ∧
      o.f.s.val = f2.s.val ∧ o.f.s.edid = f2.s.edid ∧ o.f.s.ed = f2.s.ed := by
    intro f2 hf2 i1 i2 i3
    have hq := (words_rest _ w2 hleft (by rw [hf2]; exact i3)).1
    rw [hq, hf2] at h3
    obtain ⟨j1, j2, j3, j4, j5, j6⟩ := fit_kept h3 i1 i2 hc
    rw [h5]
    refine ⟨j1, ?_, j3, j4, j5⟩
    rw [← hsz, ← j6]
    exact j2
  cases hst : l.state with
  | ready =>
    rw [hst] at t1
    obtain ⟨b1, b2, b3, b4, b5⟩ := fin2 _ (u3 t1) (hInv _ _ _ rfl) hC (fun m hm => by show k + 1 ≠ m + 1; omega)
    refine ⟨fun _ => ⟨b4, by rw [b5]; exact t1, by rw [b5]; exact t2, by rw [b5]; exact t3, b3⟩, fun h => absurd h (by simp), fun h => absurd h (by simp), b1, b2⟩
  | canceled =>
    rw [hst] at t1
    obtain ⟨c1, c2, c3, c4⟩ := exit_kept (u5 t1) (hInv _ _ _ rfl) hc
    obtain ⟨b1, b2, b3, b4, b5⟩ := fin2 _ rfl c1 c2 (fun m hm => by rw [c4]; omega)
    refine ⟨fun h => absurd h (by simp), fun _ => ⟨by rw [b4, c4], by rw [b3, c3]⟩, fun h => absurd h (by simp), b1, b2⟩
  | done =>
    rw [hst] at t1
    obtain ⟨c1, c2, c3, c4⟩ := exit_kept (u4 t1) (hInv _ _ _ (by split <;> simp)) hc
    obtain ⟨b1, b2, b3, b4, b5⟩ := fin2 _ rfl c1 c2 (fun m hm => by rw [c4]; omega)
    refine ⟨fun h => absurd h (by simp), fun h => absurd h (by simp), fun _ => ⟨by rw [b4, c4], ?_⟩, b1, b2⟩
    rw [b3, c3, t2]
    unfold Spec.accepted
    by_cases hb : l.buf = []
    · simp [hb]
    · simp [hb]

/-! ### A value typed in -/

namespace Spec

/-- A character typed. -/
def typed (r : Nat) : Ev := ⟨.rune, r, [], 0, ⟨0, 0⟩⟩

end Spec

theorem handleAll_append (gr : Nat → Bool) (a b : Events) : ∀ l : EditLine,
    (l.handleAll gr (a ++ b)).1 = ((l.handleAll gr a).1.handleAll gr b).1 := by
  induction a with
  | nil => intro l; rfl
  | cons e a ih => intro l; exact ih _

theorem handleAll_mouse (gr : Nat → Bool) (a : Events) (h : ∀ e ∈ a, e.kind = .mouse) : ∀ l : EditLine, (l.handleAll gr a).1 = l := by
  induction a with
  | nil => intro l; rfl
  | cons e a ih =>
    intro l
    show ((l.handle gr e).1.handleAll gr a).1 = l
    rw [handle_mouse gr l e (h e (by simp))]
    exact ih (fun e he => h e (by simp [he])) l

theorem type_all (rs : List Nat) : ∀ t : List Nat,
    (rs.map Anansi.Spec.Key.type).foldl Anansi.Spec.Line.press ⟨t, t.length⟩ = ⟨t ++ rs, (t ++ rs).length⟩ := by
  induction rs with
  | nil => intro t; simp
  | cons r rs ih =>
    intro t
    have := ih (t ++ [r])
    simp only [List.append_assoc, List.singleton_append, List.length_append, List.length_singleton] at this
    simp only [List.map_cons, List.foldl_cons, Anansi.Spec.Line.press, List.take_length, List.drop_length]
    rw [this]
    simp

theorem type_simple (rs : List Nat) : ∀ s : Anansi.Spec.Line, s.SimpleAll (rs.map Anansi.Spec.Key.type) := by
  induction rs with
  | nil => intro s; trivial
  | cons r rs ih => intro s; exact ⟨trivial, ih _⟩

/-- A line that holds what has been typed into it. -/
theorem typed_line (gr : Nat → Bool) (hgr : ∀ r, gr r = true → validRune r = true) (hcr : gr 0x0D = false) (rs : List Nat)
    (hr : ∀ r ∈ rs, gr r = true) (ps : Events) (hps : ∀ e ∈ ps, e.kind = .mouse) (l : EditLine) (h0 : l.buf = []) (h1 : l.cur = 0) :
    (l.handleAll gr (ps ++ rs.map Spec.typed ++ [Spec.typed 0x0D])).1.state = .done ∧
      (l.handleAll gr (ps ++ rs.map Spec.typed ++ [Spec.typed 0x0D])).1.buf = encodeRunes rs := by
  rw [handleAll_append, handleAll_append, handleAll_mouse gr ps hps]
  have hk : (rs.map Spec.typed).map (keyOf gr) = rs.map Anansi.Spec.Key.type := by
    rw [List.map_map]
    apply List.map_congr_left
    intro r h
    simp [Spec.typed, keyOf, hr r h]
  have hh := session_holds_partial gr hgr (rs.map Spec.typed) l ⟨[], 0⟩ ⟨by rw [h0]; rfl, by simp, by rw [h1]; rfl, Nat.le_refl 0⟩
    (by rw [hk]; exact type_simple _ _)
  rw [hk] at hh
  have := type_all rs []
  simp only [List.length_nil, List.nil_append] at this
  rw [this] at hh
  generalize (l.handleAll gr (rs.map Spec.typed)).1 = l1 at hh
  have e : (l1.handleAll gr [Spec.typed 0x0D]).1 = { l1 with state := .done } := by
    show (l1.handle gr (Spec.typed 0x0D)).1 = _
    rw [handle_control gr l1 (Spec.typed 0x0D) rfl hcr]
    rfl
  rw [e]
  exact ⟨rfl, hh.buf⟩

/-- **C130**: press a variable that has no value, type its value and Enter, and the command has the value;
if it was the last one missing and there is room, what is shown is the outcome of the command with the
values in the places of the variables. -/
theorem typed_value_partial {ε : Type} (hsp : Screen.Printable gr 0x20) (heq : Screen.Printable gr 0x3D) (hz : gr 0x1A = false)
    (hgr : ∀ r, gr r = true → validRune r = true) (hcr : gr 0x0D = false) (hcc : gr 0x03 = false)
    (world : List (List Bytes) → Outcome) (suspend : Option ε) (hud : Bool) (f : Full) (S : Setup gr cmd f.s ts w)
    (hC : Cur cmd f.s) (v : VScreen) (W : v.sc.Whole w h) (hh : rowOf hud < h)
    (k : Nat) (hk : k < ts.length) (hv : ts[k].var = true) (hval : ts[k].val = []) (hed : f.s.edid = 0)
    (ps : Events) (hps : ∀ e ∈ ps, e.kind = .mouse)
    (hp : ∀ e ∈ ps, Spec.press e → Geom.Mem e.pt (Spec.place (rowOf hud) ts k))
    (hodd : Hud.Spec.odd (Spec.place (rowOf hud) ts k) ps = true)
    (rs : List Nat) (hne : rs ≠ []) (hr : ∀ r ∈ rs, gr r = true)
    (o : Out ε) (ho : f.update gr world suspend hud (ps ++ rs.map Spec.typed ++ [Spec.typed 0x0D]) v = .ok o) :
    o.f.s.edid = 0 ∧ o.f.s.val = f.s.val.set (Spec.slot cmd k) (encodeRunes rs) ∧
      Spec.value cmd o.f.s.val k = encodeRunes rs ∧
      (0 < w → rowOf hud + 2 < h → [] ∉ o.f.s.val → o.f.s.shown = .ran (Spec.expand cmd o.f.s.val)) := by
  have hkind : ∀ e ∈ rs.map Spec.typed ++ [Spec.typed 0x0D], e.kind = .rune := by
    intro e he
    rcases List.mem_append.1 he with he | he
    · obtain ⟨r, -, rfl⟩ := List.mem_map.1 he; rfl
    · simp only [List.mem_singleton] at he; rw [he]; rfl
  have hoddall : Hud.Spec.odd (Spec.place (rowOf hud) ts k) (ps ++ rs.map Spec.typed ++ [Spec.typed 0x0D]) = true := by
    unfold Hud.Spec.odd at hodd ⊢
    rw [List.append_assoc, List.countP_append]
    have : (rs.map Spec.typed ++ [Spec.typed 0x0D]).countP (pressIn (Spec.place (rowOf hud) ts k) 1) = 0 := by
      rw [List.countP_eq_zero]
      intro e he hq
      have := (press_of hq).1.1
      rw [hkind e he] at this
      cases this
    rw [this]
    exact hodd
  have key := edit_frame_partial hsp heq hz world suspend hud f S hC _ v W hh k hk hv (by
      intro e he
      rw [List.append_assoc] at he
      rcases List.mem_append.1 he with he | he
      · unfold isRune; simp [hps e he]
      · rcases List.mem_append.1 he with he | he
        · obtain ⟨r, hr', rfl⟩ := List.mem_map.1 he
          have : r ≠ 3 := by
            rintro rfl
            rw [hr _ hr'] at hcc; cases hcc
          simp [isRune, Spec.typed, this]
        · simp only [List.mem_singleton] at he; rw [he]; rfl) (by
      intro e he hpr
      rw [List.append_assoc] at he
      rcases List.mem_append.1 he with he | he
      · exact hp e he hpr
      · have := hpr.1
        rw [hkind e he] at this
        cases this) (by rw [hed]; omega) (Or.inl ⟨hoddall, by rw [hed]; omega⟩) o ho _ rfl
  rw [hoddall] at key
  have hv0 : Spec.value cmd f.s.val k = [] := by
    rw [S.shows.vals k hk hv, hval]; rfl
  obtain ⟨s1, s2⟩ := typed_line gr hgr hcr rs hr ps hps (Spec.begun cmd f.s (rowOf hud) ts k true) hv0 rfl
  obtain ⟨-, -, k3, -, k5⟩ := key
  obtain ⟨a1, a2⟩ := k3 s1
  have hb : encodeRunes rs ≠ [] := fun h => hne (encode_nil rs h)
  rw [s2] at a2
  unfold Spec.accepted at a2
  rw [if_neg hb] at a2
  have hlt : Spec.slot cmd k < f.s.val.length := by
    rw [S.inv.val, ← slot_all]
    have hkc : k < cmd.length := by rw [← S.len]; exact hk
    exact slot_lt cmd k cmd.length (Nat.le_refl _) hkc (by rw [S.isVar k hk]; exact hv)
  refine ⟨a1, a2, ?_, ?_⟩
  · unfold Spec.value
    rw [a2, List.getElem?_set_self hlt]
    rfl
  · intro hw hrow hall
    rw [k5]
    unfold Spec.display
    rw [if_neg (by omega), if_neg hall]

/-! ### The output area -/

namespace Spec

/-- What is written for an outcome: its status, an error in red, and the output. -/
def outcome (sr : List Nat) (er : Option (List Nat)) (out : List Nat) : List (List Cell) :=
  [(runesOf "status: " ++ sr).map (⟨·, 0⟩)] ++
    (match er with | none => [] | some e => [(runesOf "error: " ++ e).map (⟨·, redFG⟩)]) ++ [out.map (⟨·, 0⟩)]
where runesOf (s : String) : List Nat := s.toList.map Char.toNat

end Spec

/-- Writing a line and going to the next. -/
theorem write_line (gr : Nat → Bool) {w h y : Nat} (rs : List Nat) (hp : ∀ r ∈ rs, Screen.Printable gr r) (v : VScreen)
    (R : Hud.Ready v w h 0 y) (hn : rs.length < w) (hy : y + 1 < h) :
    ∃ v', v.write gr (encodeRunes rs ++ [0x0D, 0x0A]) = .ok v' ∧ Hud.Ready v' w h 0 (y + 1) ∧
      v'.sc.cur.attr = v.sc.cur.attr ∧ v'.sc.cur.attrKnown = v.sc.cur.attrKnown ∧
      ∀ a b, a < w → b < h → v'.sc.look w a b =
        if b = y ∧ a < rs.length then some ⟨rs.getD a 0, v.sc.cur.attr⟩ else v.sc.look w a b := by
  obtain ⟨sc1, e1, W1, C1, A1, L1⟩ := Screen.print_text gr rs hp v.sc 0 y R.whole R.hy R.cur (by omega)
  rw [Nat.zero_add] at C1
  have henc : encodeRunes rs ++ [0x0D, 0x0A] = encodeRunes (rs ++ [0x0D, 0x0A]) := by
    unfold encodeRunes
    rw [List.flatMap_append]
    rfl
  have hcr : sc1.processANSI gr (0x0D, []) = .ok { sc1 with cur := { sc1.cur with pt := ⟨1, sc1.cur.pt.y⟩ } } := by
    unfold Screen.processANSI
    simp only [home_at C1]
    rfl
  generalize hs2 : ({ sc1 with cur := { sc1.cur with pt := ⟨1, sc1.cur.pt.y⟩ } } : Screen) = sc2 at hcr
  have C2 : sc2.CurAt 0 y := by
    unfold CurAt at C1 ⊢
    rw [← hs2, C1]
    simp
  have W2 : sc2.Whole w h := by rw [← hs2]; exact W1.cur _
  have hlf : sc2.processANSI gr (0x0A, []) = .ok { sc2 with cur := { sc2.cur with pt := ⟨sc2.cur.pt.x, sc2.cur.pt.y + 1⟩ } } := by
    unfold Screen.processANSI
    simp only [home_at C2]
    rw [if_neg (by decide), if_pos trivial]
    unfold Screen.linefeed
    rw [if_pos]
    unfold CurAt at C2
    rw [W2.rect, C2]
    simp only
    omega
  have hall : v.sc.processAll gr ((rs ++ [0x0D, 0x0A]).map (·, [])) =
      .ok { sc2 with cur := { sc2.cur with pt := ⟨sc2.cur.pt.x, sc2.cur.pt.y + 1⟩ } } := by
    rw [List.map_append, Hud.processAll_append, e1]
    simp only [Except.bind, List.map_cons, List.map_nil, Screen.processAll, hcr, hlf]
  obtain ⟨v', f1, f2, f3⟩ := Emu.write_step gr R.settled (Hud.delivers_text (rs ++ [0x0D, 0x0A]) fun r hr => by
    rcases List.mem_append.1 hr with h | h
    · exact (hp r h).plain
    · simp only [List.mem_cons, List.not_mem_nil, or_false] at h
      rcases h with rfl | rfl <;> decide) hall
  refine ⟨v', by rw [henc]; exact f1, ⟨?_, f3, ?_, R.hx, hy⟩, ?_, ?_, ?_⟩
  · rw [f2]; exact W2.cur _
  · unfold CurAt at C2 ⊢
    rw [f2]
    simp only [C2]
    simp
  · rw [f2, ← hs2, A1]
  · rw [f2, ← hs2, A1]
  · intro a b ha hb
    have hl : v'.sc.look w a b = sc1.look w a b := by rw [f2, ← hs2]; rfl
    rw [hl, L1 a b ha hb]
    simp

theorem print_start (v : VScreen) {w n : Nat} (W : v.sc.Whole w n) :
    ∃ sc, v.sc.clear = .ok sc ∧ Hud.Ready (⟨sc.to ⟨1, 1⟩, v.buf.reset⟩ : VScreen) w n 0 0 ∧
      (sc.to ⟨1, 1⟩).cur.attr = 0 ∧ (sc.to ⟨1, 1⟩).cur.attrKnown = false ∧
      ∀ a b, a < w → b < n → (sc.to ⟨1, 1⟩).look w a b = some {} := by
  obtain ⟨sc, e, W1, c, L⟩ := cleared_blank W
  have hp : (⟨1, 1⟩ : Pt) = ⟨((0 : Nat) : Int) + 1, ((0 : Nat) : Int) + 1⟩ := by simp
  refine ⟨sc, e, ?_, ?_, ?_, L⟩
  · have S : Emu.Settled (⟨sc, v.buf.reset⟩ : VScreen) := rfl
    have := Hud.goto_at (v := ⟨sc, v.buf.reset⟩) (x := 0) (y := 0) W1 S W1.hw W1.hh
    rw [hp]
    exact this
  · show sc.cur.attr = 0
    rw [c]
  · show sc.cur.attrKnown = false
    rw [c]

theorem ascii_status : ascii "status: " = encodeRunes (Spec.outcome.runesOf "status: ") := by decide
theorem ascii_error : ascii "error: " = encodeRunes (Spec.outcome.runesOf "error: ") := by decide
theorem ascii_prompt : ascii "Define variables to run" = encodeRunes (Spec.outcome.runesOf "Define variables to run") := by decide

theorem cells_getD (rs : List Nat) (A : Attr) (a : Nat) :
    (rs.map (fun r => (⟨r, A⟩ : Cell))).getD a {} = if a < rs.length then ⟨rs.getD a 0, A⟩ else {} := by
  by_cases h : a < rs.length
  · rw [if_pos h]
    simp [List.getD_eq_getElem?_getD, List.getElem?_eq_getElem h]
  · rw [if_neg h]
    simp [List.getD_eq_getElem?_getD, List.getElem?_eq_none (show rs.length ≤ a by omega)]

/-- **C130**, the output area while a value is missing: the prompt, if it fits. -/
theorem prompt_shown (gr : Nat → Bool) (o : Outcome) (v : VScreen) {w n : Nat} (W : v.sc.Whole w n)
    (hs : ∀ r ∈ Spec.outcome.runesOf "Define variables to run", Screen.Printable gr r) (hw : 23 ≤ w) :
    ∃ v', print gr o .prompt v = .ok v' ∧ v'.sc.Whole w n ∧
      ∀ a b, a < w → b < n → v'.sc.look w a b =
        if b = 0 ∧ a < 23 then some ⟨(Spec.outcome.runesOf "Define variables to run").getD a 0, 0⟩ else some {} := by
  obtain ⟨sc, e0, R0, a0, k0, L0⟩ := print_start v W
  have hl : (Spec.outcome.runesOf "Define variables to run").length = 23 := by decide
  obtain ⟨v2, e2, D⟩ := drew_run gr _ hs _ R0 (by omega)
  refine ⟨v2, ?_, D.whole, ?_⟩
  · unfold print
    rw [e0]
    simp only [Except.bind]
    rw [ascii_prompt]
    exact e2
  · intro a b ha hb
    rw [D.look a b ha hb, L0 a b ha hb, a0, hl]
    simp

/-- **C130**, the output area after a run: the status, the error in red if there is one, and the output,
each on a row of its own, if these fit and the output is a single line. -/
theorem outcome_shown_partial (gr : Nat → Bool) (v : VScreen) {w n : Nat} (W : v.sc.Whole w n) (sr out : List Nat) (er : Option (List Nat))
    (args : List Bytes)
    (hs : ∀ r ∈ Spec.outcome.runesOf "status: " ++ sr, Screen.Printable gr r)
    (he : ∀ e, er = some e → ∀ r ∈ Spec.outcome.runesOf "error: " ++ e, Screen.Printable gr r)
    (ho : ∀ r ∈ out, Screen.Printable gr r)
    (hw : ∀ l ∈ Spec.outcome sr er out, l.length < w) (hn : (Spec.outcome sr er out).length ≤ n) :
    ∃ v', print gr { status := encodeRunes sr, err := er.map encodeRunes, out := encodeRunes out } (.ran args) v = .ok v' ∧
      v'.sc.Whole w n ∧
      ∀ a b, a < w → b < n → v'.sc.look w a b = some (((Spec.outcome sr er out).getD b []).getD a {}) := by
  obtain ⟨sc, e0, R0, a0, k0, L0⟩ := print_start v W
  have happ : ∀ a b : List Nat, encodeRunes (a ++ b) = encodeRunes a ++ encodeRunes b := by
    intro a b; unfold encodeRunes; rw [List.flatMap_append]
  have h2 : 2 ≤ n := by
    unfold Spec.outcome at hn
    simp at hn
    omega
  obtain ⟨v1, e1, R1, a1, k1, L1⟩ := write_line gr (Spec.outcome.runesOf "status: " ++ sr) hs _ R0
    (by have := hw _ (show ((Spec.outcome.runesOf "status: " ++ sr).map (⟨·, 0⟩)) ∈ _ by unfold Spec.outcome; simp)
        rw [List.length_map] at this; exact this) (by omega)
  rw [happ, ← ascii_status] at e1
  have hout := hw (out.map (⟨·, 0⟩)) (by unfold Spec.outcome; simp)
  rw [List.length_map] at hout
  cases er with
  | none =>
    obtain ⟨v2, e2, D⟩ := drew_run gr out ho v1 R1 (by omega)
    refine ⟨v2, ?_, D.whole, ?_⟩
    · unfold print report
      rw [e0]
      simp only [Except.bind, Option.map, complain]
      rw [e1]
      exact e2
    · intro a b ha hb
      rw [D.look a b ha hb, L1 a b ha hb, a1, a0, L0 a b ha hb]
      show _ = some (((([(Spec.outcome.runesOf "status: " ++ sr).map (⟨·, 0⟩), out.map (⟨·, 0⟩)] : List (List Cell))).getD b []).getD a {})
      rcases b with _ | _ | b
      · rw [List.getD_cons_zero, cells_getD, if_neg (by omega)]
        by_cases h : a < (Spec.outcome.runesOf "status: " ++ sr).length
        · rw [if_pos ⟨rfl, h⟩, if_pos h]
        · rw [if_neg (fun c => h c.2), if_neg h]
      · rw [List.getD_cons_succ, List.getD_cons_zero, cells_getD]
        by_cases h : a < out.length
        · rw [if_pos (by omega), if_pos h]; simp
        · rw [if_neg (by omega), if_neg h, if_neg (by omega)]
      · rw [if_neg (by omega), if_neg (by omega)]; simp
  | some e =>
    have h3 : 3 ≤ n := by
      unfold Spec.outcome at hn
      simpa using hn
    have her := hw ((Spec.outcome.runesOf "error: " ++ e).map (⟨·, redFG⟩)) (by unfold Spec.outcome; simp)
    rw [List.length_map] at her
    obtain ⟨s1, S1⟩ := sgr_one v1 redFG R1.settled
    have hattr : (v1.writeSGR [redFG]).sc.cur.attr = redFG := by
      rw [s1]
      show (v1.sc.cur.mergeSGR redFG).1.attr = redFG
      unfold Cursor.mergeSGR
      rw [k1, k0]
      rfl
    have hknown : (v1.writeSGR [redFG]).sc.cur.attrKnown = true := by rw [s1]; exact merge_known _ _
    obtain ⟨v2, e2, R2, a2, k2, L2⟩ := write_line gr (Spec.outcome.runesOf "error: " ++ e) (he e rfl) _ (sgr_ready R1 redFG) her (by omega)
    rw [happ, ← ascii_error] at e2
    obtain ⟨s3, S3⟩ := sgr_one v2 Sgr.clear R2.settled
    have hattr3 : (v2.writeSGR [Sgr.clear]).sc.cur.attr = 0 := by
      rw [s3]
      exact merge_clear (by rw [k2]; exact hknown)
    obtain ⟨v4, e4, D⟩ := drew_run gr out ho _ (sgr_ready R2 Sgr.clear) (by omega)
    refine ⟨v4, ?_, D.whole, ?_⟩
    · unfold print report
      rw [e0]
      simp only [Except.bind, Option.map, complain]
      rw [e1]
      simp only
      rw [e2]
      exact e4
    · intro a b ha hb
      have l3 : (v2.writeSGR [Sgr.clear]).sc.look w a b = v2.sc.look w a b := by rw [s3]; rfl
      have l1 : (v1.writeSGR [redFG]).sc.look w a b = v1.sc.look w a b := by rw [s1]; rfl
      rw [D.look a b ha hb, l3, L2 a b ha hb, l1, L1 a b ha hb, hattr3, hattr, a0, L0 a b ha hb]
      show _ = some (((([(Spec.outcome.runesOf "status: " ++ sr).map (⟨·, 0⟩), (Spec.outcome.runesOf "error: " ++ e).map (⟨·, redFG⟩),
        out.map (⟨·, 0⟩)] : List (List Cell))).getD b []).getD a {})
      rcases b with _ | _ | _ | b
      · rw [List.getD_cons_zero, cells_getD, if_neg (by omega), if_neg (by omega)]
        by_cases h : a < (Spec.outcome.runesOf "status: " ++ sr).length
        · rw [if_pos ⟨rfl, h⟩, if_pos h]
        · rw [if_neg (fun c => h c.2), if_neg h]
      · rw [List.getD_cons_succ, List.getD_cons_zero, cells_getD, if_neg (by omega)]
        by_cases h : a < (Spec.outcome.runesOf "error: " ++ e).length
        · rw [if_pos ⟨rfl, h⟩, if_pos h]
        · rw [if_neg (fun c => h c.2), if_neg h, if_neg (by omega)]
      · rw [List.getD_cons_succ, List.getD_cons_succ, List.getD_cons_zero, cells_getD]
        by_cases h : a < out.length
        · rw [if_pos (by omega), if_pos h]; simp
        · rw [if_neg (by omega), if_neg h, if_neg (by omega), if_neg (by omega)]
      · rw [if_neg (by omega), if_neg (by omega), if_neg (by omega)]; simp

/-! ### Examples -/

/-- `rm $x y` with a screen of twelve columns and five rows. -/
def cmdX : List Bytes := [ascii "rm", ascii "$x", ascii "y"]
def grX (r : Nat) : Bool := decide (0x20 ≤ r ∧ r < 0x7F)
def vX : VScreen := { sc := (({} : Screen).resize (12, 5)).1 }
def worldX : List (List Bytes) → Outcome := fun rs => { status := ascii "ok", out := (rs.headD []).flatten }
/-- A left press in column `x` of row `y`. -/
def clickX (x y : Int) : Ev := ⟨.mouse, 0, [], 0, ⟨x, y⟩⟩
def startX : Full := ⟨(({} : St).setCmd cmdX).getD {}, {}⟩
/-- The screen's rows as text. -/
def rowsX (v : VScreen) : List (List Nat) := (List.range 5).map fun b => (List.range 12).map fun a => ((v.sc.look 12 a b).getD {}).rune
def stepX (f : Except Fault Full) (es : Events) : Except Fault (Out Unit) := f.bind fun f => f.update grX worldX none false es vX

/-- After the first frame. -/
def fX : Full := match stepX (.ok startX) [] with | .ok o => o.f | .error _ => {}
def tsX : List Spec.Item := [⟨false, [0x72, 0x6D], []⟩, ⟨true, [0x24, 0x78], []⟩, ⟨false, [0x79], []⟩]

theorem printX (r : Nat) (h : 0x20 ≤ r ∧ r < 0x7F) : Screen.Printable grX r := by
  refine ⟨?_, by simp [grX, h], ?_, by omega, by omega⟩
  · unfold plainRune startsEscape validRune; simp; omega
  · simp [isEscape]; omega

theorem setupX : Setup grX cmdX fX.s tsX 12 := by
  refine ⟨⟨by decide +kernel, by decide +kernel, by decide +kernel, by decide +kernel, ?_⟩, ⟨by decide +kernel, by decide +kernel, ?_⟩, ?_,
    by decide +kernel⟩
  · rw [show fX.s.runs = [] by decide +kernel]
    simp
  · intro i h hv
    have : i = 0 ∨ i = 1 ∨ i = 2 := by simp [tsX] at h; omega
    rcases this with rfl | rfl | rfl
    · cases hv
    · rw [show tsX[1] = (⟨true, [0x24, 0x78], []⟩ : Spec.Item) from rfl]
      decide +kernel
    · cases hv
  · intro t ht
    simp only [tsX, List.mem_cons, List.not_mem_nil, or_false] at ht
    rcases ht with rfl | rfl | rfl <;> refine ⟨fun r hr => ?_, fun r hr => ?_⟩ <;>
      simp only [List.mem_cons, List.not_mem_nil, or_false] at hr
    all_goals
      apply printX
      omega

theorem curX : Cur cmdX fX.s := by
  unfold Cur
  decide +kernel

theorem wholeX : vX.sc.Whole 12 5 := (whole_of_resize 12 5 (by omega) (by omega)).1

/-- An idle frame: the words, and `v` of the prompt in the second row. -/
example : ∃ o : Out Unit, fX.update grX worldX none false [clickX 1 3, Spec.typed 0x61] vX = .ok o ∧ o.f = fX ∧
    o.c.v.sc.look 12 3 0 = some ⟨0x24, cyanFG⟩ ∧ o.c.v.sc.look 12 7 1 = some ⟨0x76, 0⟩ := by
  obtain ⟨o, h1, h2, -, -, h5⟩ := idle_shown (ε := Unit) (w := 12) (h := 5) (printX 0x20 (by omega)) (printX 0x3D (by omega)) worldX none false fX setupX
    [clickX 1 3, Spec.typed 0x61] vX wholeX (by decide) (by decide +kernel) (by decide) (by decide +kernel) (by decide +kernel)
    ⟨by decide +kernel, by decide +kernel, by decide +kernel⟩
  refine ⟨o, h1, h2, ?_, ?_⟩
  · rw [h5 3 0 (by omega) (by omega)]; decide +kernel
  · rw [h5 7 1 (by omega) (by omega)]; decide +kernel

/-- A press on `$x`, `ab` and Enter: `rm ab y` is run. -/
example : ∃ o : Out Unit, fX.update grX worldX none false ([clickX 4 1] ++ [0x61, 0x62].map Spec.typed ++ [Spec.typed 0x0D]) vX = .ok o ∧
    o.f.s.val = [ascii "ab"] ∧ o.f.s.shown = .ran [ascii "rm", ascii "ab", ascii "y"] := by
  cases ho : (fX.update grX worldX none false ([clickX 4 1] ++ [0x61, 0x62].map Spec.typed ++ [Spec.typed 0x0D]) vX : Except Fault (Out Unit)) with
  | error e =>
    have : (match (fX.update grX worldX none false ([clickX 4 1] ++ [0x61, 0x62].map Spec.typed ++ [Spec.typed 0x0D]) vX : Except Fault (Out Unit)) with
      | .ok _ => true | .error _ => false) = true := by decide +kernel
    rw [ho] at this
    cases this
  | ok o =>
    obtain ⟨-, h2, -, h4⟩ := typed_value_partial (w := 12) (h := 5) (printX 0x20 (by omega)) (printX 0x3D (by omega)) (by decide)
      (by intro r hr; simp [grX] at hr; simp [validRune]; omega) (by decide) (by decide) worldX none false fX setupX curX vX wholeX
      (by decide) 1 (by decide) rfl rfl (by decide +kernel) [clickX 4 1] (by simp [clickX]) (by
        intro e he _
        simp only [List.mem_singleton] at he
        subst he
        decide) (by decide +kernel) [0x61, 0x62] (by simp) (by decide) o ho
    have hv : o.f.s.val = [ascii "ab"] := by rw [h2]; decide +kernel
    refine ⟨o, rfl, hv, ?_⟩
    rw [h4 (by omega) (by decide) (by rw [hv]; decide), hv]
    decide +kernel

/-- A press on `$x` without more: the next frame goes on with the edit. -/
example : ∃ o : Out Unit, fX.update grX worldX none false [clickX 5 1, Spec.typed 0x61] vX = .ok o ∧
    o.f.s.edid = 2 ∧ o.f.s.ed.buf = ascii "a" ∧ o.f.s.val = [[]] := by
  cases ho : (fX.update grX worldX none false [clickX 5 1, Spec.typed 0x61] vX : Except Fault (Out Unit)) with
  | error e =>
    have : (match (fX.update grX worldX none false [clickX 5 1, Spec.typed 0x61] vX : Except Fault (Out Unit)) with
      | .ok _ => true | .error _ => false) = true := by decide +kernel
    rw [ho] at this
    cases this
  | ok o =>
    obtain ⟨h1, -⟩ := edit_frame_partial (w := 12) (h := 5) (printX 0x20 (by omega)) (printX 0x3D (by omega)) (by decide) worldX none false fX setupX
      curX [clickX 5 1, Spec.typed 0x61] vX wholeX (by decide) 1 (by decide) rfl (by decide) (by
        intro e he hp
        simp only [List.mem_cons, List.not_mem_nil, or_false] at he
        rcases he with rfl | rfl
        · decide
        · cases hp.1) (by intro m _ h; rw [show fX.s.edid = 0 by decide +kernel] at h; omega) (Or.inl ⟨by decide +kernel, by decide +kernel⟩) o ho _ rfl
    obtain ⟨a, -, b, -, c⟩ := h1 (by decide +kernel)
    refine ⟨o, rfl, a, ?_, ?_⟩
    · rw [b]; decide +kernel
    · rw [c]; decide +kernel

/-- Negation for **C130**: while a value is edited the words after it stand elsewhere, drawn over what
was there: `rm $x=a y` turns into `rm a ya`. -/
theorem editing_moves_words :
    (stepX ((stepX (.ok startX) [clickX 4 1, Spec.typed 0x61, Spec.typed 0x0D]).map (·.f)) []).map (fun o => (rowsX o.c.v).head?) =
      .ok (some [0x72, 0x6D, 0x20, 0x24, 0x78, 0x3D, 0x61, 0x20, 0x79, 0, 0, 0]) ∧
    (stepX ((stepX (.ok startX) [clickX 4 1, Spec.typed 0x61, Spec.typed 0x0D]).map (·.f)) [clickX 4 1]).map (fun o => (rowsX o.c.v).head?) =
      .ok (some [0x72, 0x6D, 0x20, 0x61, 0x20, 0x79, 0x61, 0, 0, 0, 0, 0]) := by
  decide +kernel

/-- Negation for **C130**: a value that is edited again is not replaced by what is typed; the edit begins
before it. -/
theorem typed_before_value :
    (stepX ((stepX (.ok startX) [clickX 4 1, Spec.typed 0x61, Spec.typed 0x0D]).map (·.f))
      [clickX 4 1, Spec.typed 0x62, Spec.typed 0x0D]).map (fun o => (o.f.s.val, o.f.s.runs)) =
      .ok ([ascii "ba"], [[ascii "rm", ascii "ba", ascii "y"], [ascii "rm", ascii "a", ascii "y"]]) := by
  decide +kernel

/-- Negation for **C130**: the lines of the output stand below each other's ends, as nothing returns the
cursor to the first column (`main.go:121`). -/
theorem output_lines_shift :
    (print grX { status := ascii "ok", out := ascii "a\nb\n" } (.ran []) vX).map (fun v => (rowsX v).map (·.take 3)) =
      .ok [[0x73, 0x74, 0x61], [0x61, 0, 0], [0, 0x62, 0], [0, 0, 0], [0, 0, 0]] := by
  decide +kernel

example : ∃ v', print grX { status := encodeRunes [0x6F, 0x6B], err := some (encodeRunes [0x65]), out := encodeRunes [0x61] } (.ran []) vX = .ok v' ∧
    v'.sc.look 12 8 0 = some ⟨0x6F, 0⟩ ∧ v'.sc.look 12 7 1 = some ⟨0x65, redFG⟩ ∧ v'.sc.look 12 0 2 = some ⟨0x61, 0⟩ := by
  have hp : ∀ rs : List Nat, (∀ r ∈ rs, 0x20 ≤ r ∧ r < 0x7F) → ∀ r ∈ rs, Screen.Printable grX r := fun rs h r hr => printX r (h r hr)
  obtain ⟨v', h1, -, h3⟩ := outcome_shown_partial grX vX wholeX [0x6F, 0x6B] [0x61] (some [0x65]) [] (hp _ (by decide))
    (by rintro e ⟨⟩; exact hp _ (by decide)) (hp _ (by decide)) (by decide +kernel) (by decide +kernel)
  refine ⟨v', h1, ?_, ?_, ?_⟩ <;> rw [h3 _ _ (by omega) (by omega)] <;> decide +kernel

example : ∃ v', print grX {} .prompt { sc := (({} : Screen).resize (24, 1)).1 } = .ok v' ∧ v'.sc.look 24 22 0 = some ⟨0x6E, 0⟩ := by
  obtain ⟨v', h1, -, h3⟩ := prompt_shown grX {} { sc := (({} : Screen).resize (24, 1)).1 } (w := 24) (n := 1)
    (whole_of_resize 24 1 (by omega) (by omega)).1 (fun r hr => printX r (by revert r; decide)) (by omega)
  exact ⟨v', h1, by rw [h3 _ _ (by omega) (by omega)]; decide +kernel⟩

end Anansi.Itr
