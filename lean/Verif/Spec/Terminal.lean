import Verif.Model.Basic
import Verif.Model.Utf8
import Verif.Spec.Sgr
/-
An independent terminal: what a VT100-style terminal with deferred wrapping at the
right margin does for the operations the library emits, and the standard byte text
of those operations (ECMA-48).  Nothing here refers to the library's own decoder,
cursor tracker or screen emulator.

Columns and rows count from zero inside the terminal and from one in the text.
-/
set_option autoImplicit false

namespace Anansi.Vt

/-- A displayed cell: the character seen and its rendition. -/
structure Glyph where
  rune : Nat
  style : Sgr.Style
deriving DecidableEq, Repr

/-- An erased cell. -/
def blank : Glyph := ⟨0x20, {}⟩

/-- Terminal state.  `pend`: the last column was just written and the next printed
character wraps.  `bce`: erased cells take the current background colour, as on most
colour terminals. -/
structure Term where
  w : Nat
  h : Nat
  bce : Bool
  cell : Nat → Nat → Glyph
  x : Nat
  y : Nat
  pend : Bool
  style : Sgr.Style
  vis : Bool

/-- Terminal operations.  Parameters that may be left out are optional. -/
inductive Op
  | put (r : Nat)
  | cr
  | lf
  | up (n : Option Nat)
  | down (n : Option Nat)
  | forward (n : Option Nat)
  | back (n : Option Nat)
  | cup (row col : Nat)
  | eraseAll
  | sgr (ps : List Nat)
  | show_
  | hide
deriving DecidableEq, Repr

/-- Decimal parameters separated by semicolons. -/
def params : List Nat → Bytes
  | [] => []
  | [n] => itoaNat n
  | n :: t => itoaNat n ++ 0x3B :: params t

/-- `ESC [`, parameter text, final byte. -/
def csi (text : Bytes) (final : UInt8) : Bytes := 0x1B :: 0x5B :: (text ++ [final])

/-- The byte text of an operation. -/
def Op.bytes : Op → Bytes
  | .put r => encodeRune r
  | .cr => [0x0D]
  | .lf => [0x0A]
  | .up n => csi (params n.toList) 0x41
  | .down n => csi (params n.toList) 0x42
  | .forward n => csi (params n.toList) 0x43
  | .back n => csi (params n.toList) 0x44
  | .cup r c => csi (params [r, c]) 0x48
  | .eraseAll => csi (params [2]) 0x4A
  | .sgr ps => csi (params ps) 0x6D
  | .show_ => csi (0x3F :: params [25]) 0x68
  | .hide => csi (0x3F :: params [25]) 0x6C

/-- The bytes of a sequence of operations. -/
def text (ops : List Op) : Bytes := ops.flatMap Op.bytes

/-- Select graphic rendition, on the parameters left (ECMA-48 8.3.117, ISO 8613-6
colours, aixterm bright colours). -/
def rend : List Nat → Sgr.Style → Sgr.Style
  | [], s => s
  | 38 :: 5 :: i :: t, s => rend t { s with fg := some (.indexed (UInt8.ofNat i)) }
  | 38 :: 2 :: r :: g :: b :: t, s =>
    rend t { s with fg := some (.direct (UInt8.ofNat r) (UInt8.ofNat g) (UInt8.ofNat b)) }
  | 48 :: 5 :: i :: t, s => rend t { s with bg := some (.indexed (UInt8.ofNat i)) }
  | 48 :: 2 :: r :: g :: b :: t, s =>
    rend t { s with bg := some (.direct (UInt8.ofNat r) (UInt8.ofNat g) (UInt8.ofNat b)) }
  | p :: t, s => rend t (
    if p = 0 then {}
    else if p = 1 then { s with bold := true }
    else if p = 2 then { s with dim := true }
    else if p = 3 then { s with italic := true }
    else if p = 4 then { s with underscore := true }
    else if p = 7 then { s with negative := true }
    else if p = 8 then { s with conceal := true }
    else if p = 22 then { s with bold := false, dim := false }
    else if p = 23 then { s with italic := false }
    else if p = 24 then { s with underscore := false }
    else if p = 27 then { s with negative := false }
    else if p = 28 then { s with conceal := false }
    else if 30 ≤ p ∧ p ≤ 37 then { s with fg := some (.indexed (UInt8.ofNat (p - 30))) }
    else if p = 39 then { s with fg := none }
    else if 40 ≤ p ∧ p ≤ 47 then { s with bg := some (.indexed (UInt8.ofNat (p - 40))) }
    else if p = 49 then { s with bg := none }
    else if 90 ≤ p ∧ p ≤ 97 then { s with fg := some (.indexed (UInt8.ofNat (p - 90 + 8))) }
    else if 100 ≤ p ∧ p ≤ 107 then { s with bg := some (.indexed (UInt8.ofNat (p - 100 + 8))) }
    else s)

/-- A missing parameter list is a single zero. -/
def rendition (ps : List Nat) (s : Sgr.Style) : Sgr.Style := if ps = [] then {} else rend ps s

/-- A motion count: one if left out or zero. -/
def count (n : Option Nat) : Nat := max 1 (n.getD 1)

/-- What erasing leaves. -/
def Term.erased (t : Term) : Glyph := if t.bce then ⟨0x20, { bg := t.style.bg }⟩ else blank

/-- Line feed: down, or scroll on the last row. -/
def Term.lineFeed (t : Term) : Term :=
  if t.y + 1 < t.h then { t with y := t.y + 1, pend := false }
  else { t with
    cell := fun a b => if b + 1 < t.h then t.cell a (b + 1) else t.erased
    pend := false }

/-- One operation. -/
def Term.step (t : Term) : Op → Term
  | .put r =>
    let t := if t.pend then { t with x := 0 }.lineFeed else t
    { t with
      cell := fun a b => if a = t.x ∧ b = t.y then ⟨r, t.style⟩ else t.cell a b
      x := if t.x + 1 < t.w then t.x + 1 else t.x
      pend := !decide (t.x + 1 < t.w) }
  | .cr => { t with x := 0, pend := false }
  | .lf => t.lineFeed
  | .up n => { t with y := t.y - count n, pend := false }
  | .down n => { t with y := min (t.h - 1) (t.y + count n), pend := false }
  | .forward n => { t with x := min (t.w - 1) (t.x + count n), pend := false }
  | .back n => { t with x := t.x - count n, pend := false }
  | .cup r c => { t with
      x := min (t.w - 1) (c - 1), y := min (t.h - 1) (r - 1), pend := false }
  | .eraseAll => { t with cell := fun _ _ => t.erased }
  | .sgr ps => { t with style := rendition ps t.style }
  | .show_ => { t with vis := true }
  | .hide => { t with vis := false }

/-- A sequence of operations. -/
def Term.run (t : Term) (ops : List Op) : Term := ops.foldl Term.step t

/-- The cursor is on the terminal. -/
def Term.Ok (t : Term) : Prop := t.x < t.w ∧ t.y < t.h

/-- The terminal's cursor rests on point `p` (one-based). -/
def Term.At (t : Term) (p : Pt) : Prop := t.Ok ∧ t.pend = false ∧ p = ⟨t.x + 1, t.y + 1⟩

/-- The terminal just wrote its last column; `p` is the point one past the margin, as
a tracker that simply counts columns has it. -/
def Term.Past (t : Term) (p : Pt) : Prop :=
  t.Ok ∧ t.pend = true ∧ t.x + 1 = t.w ∧ p = ⟨t.w + 1, t.y + 1⟩

end Anansi.Vt

namespace Anansi.Sgr

/-- What sending style `s` to a terminal showing style `st` should give: `s` on top of
`st`, or on top of the default rendition if `s` says to clear first. -/
def Style.over (s st : Style) : Style :=
  let b : Style := if s.clear then {} else st
  { clear := b.clear, bold := b.bold || s.bold, dim := b.dim || s.dim,
    italic := b.italic || s.italic, underscore := b.underscore || s.underscore,
    negative := b.negative || s.negative, conceal := b.conceal || s.conceal,
    fg := s.fg.orElse fun _ => b.fg, bg := s.bg.orElse fun _ => b.bg }

end Anansi.Sgr
