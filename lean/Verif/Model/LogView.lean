import Verif.Model.Log
import Verif.Model.EditLine
/-
`x/platform/hud.go:583-702`, `799-812`: the log viewer, and truncated writing.

The mouse input is given by what `Update` asks of it: the number of presses on the header
and the total scrolling.  What is drawn is given by the slices of the log that are handed
to `writeTruncated`, top to bottom.
-/
set_option autoImplicit false

namespace Anansi
namespace Lgv

/-- `hud.go:593-597` `LogViewState`. -/
structure View where
  viewLines : Int := 0
  expanded : Bool := false
  line : Int := 0
deriving DecidableEq, Repr

/-- `hud.go:672-684` `scrollBy`. -/
def View.scrollBy (v : View) (lines delta : Int) : View :=
  let start := if v.line = 0 then lines else v.line
  let start := start + delta
  { v with line := if start ≥ lines then 0 else if start < 1 then 1 else start }

/-- The loop `hud.go:694-696`: the end moves down while there are lines, and room; one unit of
`fuel` per turn (`growEnd_loop` shows that it never runs out). -/
def growEnd (lines viewLines start : Int) : Nat → Int → Int
  | 0, e => e
  | f + 1, e => if e < lines ∧ e - start + 1 < viewLines then growEnd lines viewLines start f (e + 1) else e

/-- The loop `hud.go:697-699`: the start moves up while there are lines, and room. -/
def growStart (viewLines e : Int) : Nat → Int → Int
  | 0, s => s
  | f + 1, s => if s > 1 ∧ e - s + 1 < viewLines then growStart viewLines e f (s - 1) else s

/-- `hud.go:686-702` `viewWindow`: the view, the start and the end. -/
def View.window (v : View) (lines viewLines : Int) : View × Int × Int :=
  if v.line = 0 then
    if lines - viewLines + 1 > 0 then (v, lines - viewLines + 1, lines) else (v, 1, lines)
  else
    let e := growEnd lines viewLines v.line (lines - v.line).toNat v.line
    let s := growStart viewLines e (v.line - 1).toNat v.line
    ({ v with line := s }, s, e)

/-- `hud.go:661-668`: the loop over the line ends from offset `off` on; `none`: a slice out of
bounds. -/
def cut (c : Bytes) : Nat → List Nat → Option (List Bytes)
  | _, [] => some []
  | off, e :: es =>
    if off ≤ e ∧ e ≤ c.length then (cut c (e + 1) es).map fun l => (c.drop off).take (e - off) :: l else none

/-- `hud.go:657-668`: the slices shown for a window.  `none`: an index or a slice is outside
of the line index (for an index Go panics; for a slice it does beyond the capacity, and yields
stale entries before). -/
def shown (s : Logs.Sink) (start e : Int) : Option (List Bytes) :=
  if start < 1 ∨ start - 1 > e ∨ e > s.eols.length ∨ start - 2 ≥ s.eols.length then none
  else
    let off := if start > 1 then s.eols.getD (start - 2).toNat 0 + 1 else 0
    cut s.buf off ((s.eols.drop (start - 1).toNat).take (e - (start - 1)).toNat)

/-- `hud.go:608-635`: the default number of lines, and toggling by presses. -/
def View.begin (v : View) (presses : Nat) : View :=
  { v with viewLines := if v.viewLines = 0 then 10 else v.viewLines,
           expanded := if presses % 2 = 1 then !v.expanded else v.expanded }

/-- `hud.go:605-670` `Update`, given the number of presses on the header and the scrolling. -/
def View.update (v : View) (s : Logs.Sink) (presses : Nat) (delta : Int) : Option (View × List Bytes) :=
  let v := v.begin presses
  let viewLines := if v.expanded then v.viewLines else 1
  let lines : Int := s.eols.length
  if lines ≤ 0 then some (v, [])
  else
    let v := if delta ≠ 0 then v.scrollBy lines delta else v
    let r := v.window lines viewLines
    (shown s r.2.1 r.2.2).map fun l => (r.1, l)

/-- What happens to a viewer and its log: a frame, or a call of the sink. -/
inductive Act
  | frame (presses : Nat) (delta : Int)
  | call (c : Logs.Call)
deriving DecidableEq, Repr

/-- A history; the slices shown by each frame; `none` is a panic. -/
def run : View → Logs.Sink → List Act → Option (View × Logs.Sink × List (List Bytes))
  | v, s, [] => some (v, s, [])
  | v, s, .frame p d :: l =>
    (v.update s p d).bind fun r => (run r.1 s l).map fun q => (q.1, q.2.1, r.2 :: q.2.2)
  | v, s, .call c :: l => (s.call c).bind fun s => run v s l

/-- `hud.go:799-812` `writeTruncated`: the bytes written. -/
def truncated (w : Int) (b : Bytes) : Bytes :=
  if (runeCount b : Int) - w > 0 then
    Edl.dropLastRunes (runeCount b - w + 1).toNat b ++ encodeRune 0x2026
  else b

end Lgv
end Anansi
