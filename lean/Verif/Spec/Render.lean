import Verif.Model.Render
import Verif.Spec.Terminal
import Verif.Spec.Screen
/-
Specification vocabulary for rendering: when a terminal shows a screen, when a
tracked cursor agrees with a terminal, and which jumps of the cursor the library
performs wrongly.
-/
set_option autoImplicit false

namespace Anansi
open Vt Geom

/-- A rune that terminals print: a Unicode scalar value that is no control and that
the library neither treats as an escape nor as non-graphic.  (All such runes are taken
to be one column wide.) -/
structure Printable (gr : Nat → Bool) (r : Nat) : Prop where
  c0 : 0x20 ≤ r
  del : r < 0x7F ∨ 0xA0 ≤ r
  scalar : r < 0xD800 ∨ (0xE000 ≤ r ∧ r ≤ 0x10FFFF)
  noEscape : isEscape r = false
  graphic : gr r = true

/-- What a reader sees of a cell: nothing drawn is a space. -/
def ink (c : Cell) : Nat × Attr := (if c.rune = 0 then 0x20 else c.rune, c.attr)

/-- A displayed glyph is rune `r` with attribute `a`. -/
def Inked (ra : Nat × Attr) (g : Glyph) : Prop :=
  g.rune = ra.1 ∧ g.style.clear = false ∧ ra.2 = g.style.build

/-- The cells of a screen can be displayed: printable runes (or nothing), and
attributes of some style, without the clear flag. -/
def Drawable (gr : Nat → Bool) (c : Cell) : Prop :=
  (c.rune = 0 ∨ Printable gr c.rune) ∧ ∃ s : Sgr.Style, s.clear = false ∧ c.attr = s.build

/-- A terminal of `w` by `h` cells shows the cells of a screen. -/
def Shows (t : Term) (sc : Screen) (w h : Nat) : Prop :=
  t.w = w ∧ t.h = h ∧ ∀ x y, x < w → y < h → ∃ c, sc.look w x y = some c ∧ Inked (ink c) (t.cell x y)

/-- A tracked cursor agrees with a terminal about everything it claims to know. -/
structure Agree (c : Cursor) (t : Term) : Prop where
  pos : valid c.pt = true → t.At c.pt ∨ t.Past c.pt
  attr : c.attrKnown = true → t.style.clear = false ∧ c.attr = t.style.build
  vis : c.visKnown = true → t.vis = c.visible

/-- The jumps from `a` to `p` the library gets wrong on a terminal of width `w` (see
`cursor_to_vertical_lost` and `cursor_to_past_margin_short`): straight up or down, and
within a row after its last column was written. -/
def Awkward (w : Nat) (a p : Pt) : Prop :=
  (p.x = a.x ∧ p.y ≠ a.y ∧ ¬(p.x = 1 ∧ p.y = a.y + 1)) ∨ (a.x = w + 1 ∧ p.y = a.y ∧ p.x ≠ 1)

instance (w : Nat) (a p : Pt) : Decidable (Awkward w a p) := by unfold Awkward; infer_instance

/-- Writing one rune at each of these points in turn, starting from a tracked position
`a`, takes no awkward jump.  A position that is not valid is unknown. -/
def Smooth (w : Nat) : Pt → List Pt → Prop
  | _, [] => True
  | a, p :: t => (valid a = true → ¬ Awkward w a p) ∧ Smooth w ⟨p.x + 1, p.y⟩ t

instance smoothDec (w : Nat) : ∀ (a : Pt) (l : List Pt), Decidable (Smooth w a l)
  | _, [] => isTrue trivial
  | a, p :: t => by unfold Smooth; have := smoothDec w ⟨p.x + 1, p.y⟩ t; infer_instance

/-- The point of the `i`th cell in reading order. -/
def ptOf (w i : Nat) : Pt := ⟨(i % w : Nat) + 1, (i / w : Nat) + 1⟩

/-- The points, in reading order, of the cells selected by `d`. -/
def points (w h : Nat) (d : Nat → Bool) : List Pt := ((List.range (w * h)).filter d).map (ptOf w)

/-- The cells a full redraw writes: those that hold anything. -/
def drawn (sc : Screen) (i : Nat) : Bool := sc.grid.cells[i]? != some {}

/-- The cells a differential update writes: those that look different. -/
def altered (old new : Screen) (i : Nat) : Bool :=
  (old.grid.cells[i]?).map ink != (new.grid.cells[i]?).map ink

end Anansi
