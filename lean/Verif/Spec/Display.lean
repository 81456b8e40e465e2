import Verif.Model.Basic
import Verif.Model.Utf8
/-
A terminal with two screens, saved cursor, modes and character sets: what the control
functions in terminfo entries do on it (ECMA-48, DEC private functions as in xterm), and their
byte text.  Nothing here refers to the library.

Columns and rows count from zero.  Scrolling, tabs and the wrapping of lines are not part of it.
-/
set_option autoImplicit false

namespace Anansi.Disp

/-- How characters are drawn: which of the renditions 1-9 are on (1 bold, 4 underlined, 5
blinking, 7 reversed and so on), the font (10: the primary one), and the colours, by the number
that selects them (39 and 49: the default ones). -/
structure Pen where
  on : Nat → Bool
  font : Nat
  fg : Nat
  bg : Nat

/-- The default. -/
def Pen.plain : Pen := ⟨fun _ => false, 10, 39, 49⟩

/-- A screen: the character in each cell and how it is drawn. -/
abbrev Cells := Nat → Nat → Nat × Pen

/-- Character sets: those called G0 and G1 (`B`: ASCII), and whether G1 is in use. -/
structure Sets where
  g0 : UInt8
  g1 : UInt8
  shifted : Bool
deriving DecidableEq, Repr

/-- The cursor, as it can be saved. -/
structure Cur where
  x : Nat
  y : Nat
  pen : Pen
  sets : Sets

/-- The terminal.  `alt`: the other screen is shown.  `priv` and `std`: the private and standard
modes that are set.  `bce`: erased cells have the background colour in force. -/
structure Tty where
  w : Nat
  h : Nat
  bce : Bool
  main : Cells
  other : Cells
  alt : Bool
  cur : Cur
  saved : Cur
  priv : Nat → Bool
  std : Nat → Bool
  keypad : Bool
  shape : Nat
  margins : Option (Nat × Nat)

/-- What it is told. -/
inductive Op
  | put (r : Nat)
  /-- to a row and column counted from one -/
  | move (row col : Nat)
  /-- to the first row and column -/
  | home
  /-- erase from the cursor on -/
  | below
  | all
  | sgr (ps : List Nat)
  | save
  | restore
  | set (p : Nat)
  | reset (p : Nat)
  | setStd (p : Nat)
  /-- use G0 -/
  | unshift
  | designate (c : UInt8)
  | keypad (on : Bool)
  | noMargins
  | shape (n : Nat)
deriving DecidableEq, Repr

/-- Decimal parameters separated by semicolons. -/
def params : List Nat → Bytes
  | [] => []
  | [n] => itoaNat n
  | n :: t => itoaNat n ++ 0x3B :: params t

/-- `ESC [`, parameter text, final byte. -/
def csi (text : Bytes) (final : UInt8) : Bytes := 0x1B :: 0x5B :: (text ++ [final])

/-- The byte text. -/
def Op.bytes : Op → Bytes
  | .put r => encodeRune r
  | .move row col => csi (params [row, col]) 0x48
  | .home => csi [] 0x48
  | .below => csi [] 0x4A
  | .all => csi (params [2]) 0x4A
  | .sgr ps => csi (params ps) 0x6D
  | .save => [0x1B, 0x37]
  | .restore => [0x1B, 0x38]
  | .set p => csi (0x3F :: params [p]) 0x68
  | .reset p => csi (0x3F :: params [p]) 0x6C
  | .setStd p => csi (params [p]) 0x68
  | .unshift => [0x0F]
  | .designate c => [0x1B, 0x28, c]
  | .keypad true => [0x1B, 0x3D]
  | .keypad false => [0x1B, 0x3E]
  | .noMargins => csi [] 0x72
  | .shape n => csi (0x3F :: params [n]) 0x63

def text (ops : List Op) : Bytes := ops.flatMap Op.bytes

/-- One parameter of a selection of renditions. -/
def Pen.select (s : Pen) (p : Nat) : Pen :=
  if p = 0 then .plain
  else if p ≤ 9 then { s with on := fun q => if q = p then true else s.on q }
  else if p ≤ 19 then { s with font := p }
  else if p = 22 then { s with on := fun q => if q = 1 ∨ q = 2 then false else s.on q }
  else if p ≤ 29 then { s with on := fun q => if q + 20 = p then false else s.on q }
  else if p ≤ 39 then { s with fg := p }
  else if p ≤ 49 then { s with bg := p }
  else s

/-- Select renditions; no parameter means 0. -/
def Pen.selects (s : Pen) (ps : List Nat) : Pen := if ps = [] then .plain else ps.foldl Pen.select s

/-- The screen shown. -/
def Tty.shown (t : Tty) : Cells := if t.alt then t.other else t.main

/-- Change the screen shown. -/
def Tty.draw (t : Tty) (f : Cells → Cells) : Tty := if t.alt then { t with other := f t.other } else { t with main := f t.main }

/-- An erased cell. -/
def Tty.blank (t : Tty) : Nat × Pen := (0x20, if t.bce then { Pen.plain with bg := t.cur.pen.bg } else .plain)

/-- One operation.  Mode 47 shows the other screen; mode 1049 saves the cursor before it shows it
erased, and brings the cursor back when it is reset. -/
def Tty.step (t : Tty) : Op → Tty
  | .put r =>
    let t := t.draw fun c => fun a b => if a = t.cur.x ∧ b = t.cur.y then (r, t.cur.pen) else c a b
    { t with cur := { t.cur with x := min (t.w - 1) (t.cur.x + 1) } }
  | .move row col => { t with cur := { t.cur with x := min (t.w - 1) (col - 1), y := min (t.h - 1) (row - 1) } }
  | .home => { t with cur := { t.cur with x := 0, y := 0 } }
  | .below => t.draw fun c => fun a b => if t.cur.y < b ∨ b = t.cur.y ∧ t.cur.x ≤ a then t.blank else c a b
  | .all => t.draw fun _ => fun _ _ => t.blank
  | .sgr ps => { t with cur := { t.cur with pen := t.cur.pen.selects ps } }
  | .save => { t with saved := t.cur }
  | .restore => { t with cur := t.saved }
  | .set p =>
    let t := { t with priv := fun q => if q = p then true else t.priv q }
    if p = 47 then { t with alt := true }
    else if p = 1049 then { t with saved := t.cur, alt := true, other := fun _ _ => t.blank }
    else t
  | .reset p =>
    let t := { t with priv := fun q => if q = p then false else t.priv q }
    if p = 47 then { t with alt := false }
    else if p = 1049 then { t with alt := false, cur := t.saved }
    else t
  | .setStd p => { t with std := fun q => if q = p then true else t.std q }
  | .unshift => { t with cur := { t.cur with sets := { t.cur.sets with shifted := false } } }
  | .designate c => { t with cur := { t.cur with sets := { t.cur.sets with g0 := c } } }
  | .keypad on => { t with keypad := on }
  | .noMargins => { t with margins := none, cur := { t.cur with x := 0, y := 0 } }
  | .shape n => { t with shape := n }

def Tty.run (t : Tty) (ops : List Op) : Tty := ops.foldl Tty.step t

/-- Operations that neither save nor restore the cursor nor change between the screens. -/
def Op.Draws : Op → Prop
  | .save | .restore => False
  | .set p | .reset p => p ≠ 47 ∧ p ≠ 1049
  | _ => True

end Anansi.Disp
