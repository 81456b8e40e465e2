import Verif.Spec.Terminal
/-
A terminal with a second screen, a saved cursor and private modes around the screen of
`Spec/Terminal.lean`, as xterm and its kin have them.  Nothing here refers to the library.
-/
set_option autoImplicit false

namespace Anansi.Vts
open Vt (Term Glyph)

/-- What saving the cursor saves. -/
structure Saved where
  x : Nat
  y : Nat
  pend : Bool
  style : Sgr.Style
deriving DecidableEq, Repr

/-- The terminal.  `t`: the screen shown, with the cursor.  `hidden`: the other screen.  `alt`: the alternate
screen is the one shown.  `mode`: which private modes are set, other than 25 (cursor shown) and 1049.  `homes`: a soft
reset takes the one saved cursor there is home, as the manual of the VT220 says; terminals that save a cursor for each
screen do so for that of the alternate screen only, which does not matter here. -/
structure Tty where
  t : Term
  hidden : Nat → Nat → Glyph
  alt : Bool
  saved : Saved
  mode : Nat → Bool
  homes : Bool

/-- What it is told: an operation on the screen shown, setting and resetting private modes, and a soft reset. -/
inductive Op
  | vt (o : Vt.Op)
  | set (p : Nat)
  | reset (p : Nat)
  | softReset
deriving DecidableEq, Repr

/-- The byte text. -/
def Op.bytes : Op → Bytes
  | .vt o => o.bytes
  | .set p => Vt.csi (0x3F :: Vt.params [p]) 0x68
  | .reset p => Vt.csi (0x3F :: Vt.params [p]) 0x6C
  | .softReset => Vt.csi [0x21] 0x70

def text (ops : List Op) : Bytes := ops.flatMap Op.bytes

/-- Bytes that tell a terminal these operations.  Terminals ignore NUL bytes wherever they are. -/
def Tells (b : Bytes) (ops : List Op) : Prop := b.filter (· ≠ 0) = text ops

instance (b : Bytes) (ops : List Op) : Decidable (Tells b ops) := inferInstanceAs (Decidable (_ = _))

/-- The cursor, to be saved. -/
def cursor (t : Term) : Saved := ⟨t.x, t.y, t.pend, t.style⟩

/-- The cursor as it was saved. -/
def recall (t : Term) (s : Saved) : Term := { t with x := s.x, y := s.y, pend := s.pend, style := s.style }

/-- Modes that a soft reset takes back: cursor keys, origin, national characters, keypad.  (Lines always wrap in this
specification, and characters are never inserted.) -/
def softModes : List Nat := [1, 6, 42, 66]

/-- Set or reset a mode. -/
def Tty.switch (s : Tty) (p : Nat) (on : Bool) : Tty := { s with mode := fun q => if q = p then on else s.mode q }

/-- One operation.  Setting mode 1049 saves the cursor and shows the alternate screen, erased; resetting it shows the
main screen and takes the cursor back to where it was saved. -/
def Tty.step (s : Tty) : Op → Tty
  | .vt o => { s with t := s.t.step o }
  | .set p =>
    if p = 25 then { s with t := { s.t with vis := true } }
    else if p = 1049 then { s with
      saved := cursor s.t
      hidden := if s.alt then s.hidden else s.t.cell
      alt := true
      t := { s.t with cell := fun _ _ => s.t.erased } }
    else s.switch p true
  | .reset p =>
    if p = 25 then { s with t := { s.t with vis := false } }
    else if p = 1049 then { s with
      hidden := if s.alt then s.t.cell else s.hidden
      alt := false
      t := recall { s.t with cell := if s.alt then s.hidden else s.t.cell } s.saved }
    else s.switch p false
  | .softReset => { s with
      t := { s.t with vis := true, style := {} }
      saved := if s.homes then ⟨0, 0, false, {}⟩ else s.saved
      mode := fun q => if q ∈ softModes then false else s.mode q }

def Tty.run (s : Tty) (ops : List Op) : Tty := ops.foldl Tty.step s

end Anansi.Vts
