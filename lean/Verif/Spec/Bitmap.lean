import Verif.Model.Bitmap
import Verif.Spec.Grid
/-
Specification of bitmaps.
-/
set_option autoImplicit false

namespace Anansi.Bitmap
open Geom

/-- The bitmaps obtainable from the API. -/
inductive Made : Bitmap → Prop
  | zero : Made {}
  | load {b : Bitmap} (stride : Nat) (data : List Bool) : load stride data = some b → Made b
  | resize (w h : Nat) : Made (resize w h)
  | sub {b : Bitmap} (r : Rect) : Made b → Made (b.subRect r)
  | write {b : Bitmap} (bits : List Bool) : Made b → bits.length = b.bit.length → Made { b with bit := bits }

/-- The value of the dot at column `a` (0 or 1) and row `b` (0 to 3) of a braille
rune, from the Unicode standard's numbering of the dots (1-2-3 down the left, 4-5-6
down the right, 7 and 8 below), dot `n` having value `2^(n-1)`. -/
def dotValue : Nat → Nat → Nat
  | 0, 0 => 1 | 0, 1 => 2 | 0, 2 => 4
  | 1, 0 => 8 | 1, 1 => 16 | 1, 2 => 32
  | 0, 3 => 64 | 1, 3 => 128
  | _, _ => 0

/-- The braille rune for a block of dots. -/
def braille (on : Nat → Nat → Bool) : Nat :=
  let d (a b : Nat) := if on a b then dotValue a b else 0
  0x2800 + (d 0 0 + d 0 1 + d 0 2 + d 0 3 + d 1 0 + d 1 1 + d 1 2 + d 1 3)

/-- The bit at a point, unset outside of the bounds. -/
def bitIn (b : Bitmap) (p : Pt) : Bool := b.get p == some true

/-- The cells of a line of runes read in groups of `pat.length`: set where the group
is the pattern. -/
def cellOf (pat line : List Nat) (x : Nat) : Bool :=
  (line.drop (x * pat.length)).take pat.length == pat

end Anansi.Bitmap
