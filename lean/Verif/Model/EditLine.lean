import Verif.Model.Events
import Verif.Model.VScreen
/-
`x/platform/editline.go`: the line editor.

`unicode.IsGraphic` is the parameter `gr`.  The text is a byte slice; the copies within it
are modelled by their results.  Other behaviours than the default one cannot be set from
outside the package, so `handleEvent` is always `defaultBehavior`.
-/
set_option autoImplicit false

namespace Anansi

/-- Go's `utf8.RuneCount`, whose loop advances by the width of each rune (1 for a bad
byte); `fuel` bounds the number of turns. -/
def runeCountAux : Nat → Bytes → Nat
  | 0, _ => 0
  | f + 1, b => if b = [] then 0 else runeCountAux f (b.drop (decodeRune b).2) + 1
def runeCount (b : Bytes) : Nat := runeCountAux b.length b

/-- Go's `utf8.RuneStart`. -/
def runeStart (b : UInt8) : Bool := !isCont b

/-- Whether a rune can start `d` bytes before the end. -/
def startsBack (p : Bytes) (d : Nat) : Bool :=
  decide (d ≤ p.length) && runeStart (p.getD (p.length - d) 0)

/-- The search of `utf8.DecodeLastRune` for the start of the last rune: at most four bytes
back, and one further (but not before the slice) if there is none. -/
def lastStart (p : Bytes) : Nat :=
  if startsBack p 2 then p.length - 2
  else if startsBack p 3 then p.length - 3
  else if startsBack p 4 then p.length - 4
  else p.length - 5

/-- Go's `utf8.DecodeLastRune`. -/
def decodeLastRune (p : Bytes) : Nat × Nat :=
  if p = [] then (runeError, 0)
  else if (p.getD (p.length - 1) 0).toNat < 0x80 then ((p.getD (p.length - 1) 0).toNat, 1)
  else
    let d := decodeRune (p.drop (lastStart p))
    if lastStart p + d.2 ≠ p.length then (runeError, 1) else d

namespace Edl
open Evq

/-- `editline.go:11-18` `EditLineState`. -/
inductive EState
  | ready | done | canceled
deriving DecidableEq, Repr

/-- `editline.go:21-29` `EditLine`. -/
structure EditLine where
  state : EState := .ready
  box : Rect := ⟨⟨0, 0⟩, ⟨0, 0⟩⟩
  buf : Bytes := []
  cur : Int := 0
  view : Int := 0
deriving DecidableEq, Repr

/-- `editline.go:32-39` `Reset`. -/
def EditLine.reset (_ : EditLine) : EditLine :=
  { state := .ready, box := ⟨⟨1, 1⟩, ⟨1, 1⟩⟩, buf := [], view := 0, cur := 0 }

/-- The loops that decode and drop runes from the front (`editline.go:100-103`, `155-159`,
`182-185`). -/
def skipRunes : Nat → Bytes → Bytes
  | 0, b => b
  | k + 1, b => skipRunes k (b.drop (decodeRune b).2)

/-- The loop that drops runes from the end (`editline.go:104-107`). -/
def dropLastRunes : Nat → Bytes → Bytes
  | 0, b => b
  | k + 1, b => dropLastRunes k (b.take (b.length - (decodeLastRune b).2))

/-- `editline.go:143-167` `handleGraphicRune`.  The text with the new bytes appended is
`all`, `rest` is its part from the cursor on, in which the bytes are moved up and the new
ones put first. -/
def EditLine.handleGraphicRune (gr : Nat → Bool) (l : EditLine) (e : Ev) : EditLine × Ev :=
  if e.kind ≠ .rune ∨ gr e.esc = false then (l, e)
  else
    let b := encodeRune e.esc
    let n := runeCount l.buf
    let all := l.buf ++ b
    let buf :=
      if l.cur < n then
        let rest := skipRunes l.cur.toNat all
        all.take (all.length - rest.length) ++ (b ++ rest.take (rest.length - b.length))
      else all
    ({ l with buf, cur := l.cur + 1 }, e.struck)

/-- `editline.go:178-194`: the delete key. -/
def EditLine.delete (l : EditLine) : EditLine :=
  if l.cur > 0 then
    let buf :=
      if l.cur < runeCount l.buf then
        let rest := skipRunes l.cur.toNat l.buf
        let n := (decodeRune rest).2
        (l.buf.take (l.buf.length - rest.length) ++ (rest.drop n ++ rest.drop (rest.length - n))).take
          (l.buf.length - n)
      else l.buf.take (l.buf.length - (decodeLastRune l.buf).2)
    { l with buf, cur := l.cur - 1 }
  else l

/-- `editline.go:169-200` `handleControlRune`. -/
def EditLine.handleControlRune (l : EditLine) (e : Ev) : EditLine × Ev :=
  if e.kind ≠ .rune then (l, e)
  else if e.esc = 0x0D then ({ l with state := .done }, e.struck)
  else if e.esc = 0x1B then ({ l with state := .canceled }, e.struck)
  else if e.esc = 0x7F then (l.delete, e.struck)
  else (l, e)

/-- `editline.go:202-217` `handleArrowKeys`. -/
def EditLine.handleArrowKeys (l : EditLine) (e : Ev) : EditLine × Ev :=
  if e.kind ≠ .escape then (l, e)
  else match decodeCursorCardinal e.esc e.arg with
    | some move =>
      let cur := l.cur + move.x
      let n : Int := runeCount l.buf
      ({ l with cur := if cur > n then n else if cur < 0 then 0 else cur }, e.struck)
    | none => (l, e)

/-- `editline.go:127-141` `defaultBehavior`: the handlers in order until one has handled
the event. -/
def EditLine.handle (gr : Nat → Bool) (l : EditLine) (e : Ev) : EditLine × Ev :=
  if e.kind = .none then (l, e)
  else
    let (l, e) := l.handleGraphicRune gr e
    if e.kind = .none then (l, e)
    else
      let (l, e) := l.handleControlRune e
      if e.kind = .none then (l, e)
      else l.handleArrowKeys e

/-- `editline.go:59-61`: all events. -/
def EditLine.handleAll (gr : Nat → Bool) (l : EditLine) : Events → EditLine × Events
  | [] => (l, [])
  | e :: es =>
    let (l, e) := l.handle gr e
    let (l, es) := l.handleAll gr es
    (l, e :: es)

/-- `editline.go:68-94`: the part of the text to show; the new left offset and the end of
the part. -/
def EditLine.window (l : EditLine) : Int × Int :=
  let n : Int := runeCount l.buf
  let view := if l.cur < l.view then (if l.cur > 0 then l.cur - 1 else 0) else l.view
  let w := Geom.dx l.box
  let hi := if n > w then view + w else view + n
  if l.cur ≥ hi then
    let d := l.cur - hi + (if hi < n then 1 else 0)
    (view + d, hi + d)
  else if hi - n > 0 then (view - (hi - n), hi - (hi - n))
  else (view, hi)

/-- `editline.go:99-107`: the bytes of runes `lo` to `hi` of the text. -/
def EditLine.shown (l : EditLine) (lo hi : Int) : Bytes :=
  dropLastRunes ((runeCount l.buf : Int) - hi).toNat (skipRunes lo.toNat l.buf)

/-- The result of an update: the line, the events, the screen and the user cursor. -/
structure Frame where
  line : EditLine
  input : Events
  out : VScreen
  user : Cursor

/-- `editline.go:108-111`: write the part of the text to show at the box. -/
def EditLine.put (gr : Nat → Bool) (l : EditLine) (b : Bytes) (v : VScreen) : Except Fault VScreen :=
  if b.length > 0 then ({ v with sc := v.sc.to l.box.min } : VScreen).write gr b else .ok v

/-- `editline.go:113-114`: the user cursor. -/
def EditLine.mark (l : EditLine) (u : Cursor) : Cursor :=
  { u with visible := true, pt := ⟨l.box.min.x + l.cur - l.view, l.box.min.y⟩ }

/-- `editline.go:115-117`: a blank at the user cursor. -/
def blank (gr : Nat → Bool) (u : Cursor) (v : VScreen) : Except Fault VScreen :=
  if v.sc.cur.pt.x = u.pt.x then v.write gr (encodeRune 0x20) else .ok v

/-- `editline.go:68-117`: draw the line. -/
def EditLine.draw (gr : Nat → Bool) (l : EditLine) (es : Events) (v : VScreen) (u : Cursor) :
    Except Fault Frame :=
  let b := l.shown l.window.1 l.window.2
  let l := { l with view := l.window.1 }
  ((l.put gr b v).bind (blank gr (l.mark u))).map fun v => ⟨l, es, v, l.mark u⟩

/-- `editline.go:51-120` `Update`. -/
def EditLine.update (gr : Nat → Bool) (l : EditLine) (es : Events) (v : VScreen) (u : Cursor) :
    Except Fault Frame :=
  if l.state ≠ .ready then .ok ⟨l, es, v, u⟩
  else
    let (l, es) := l.handleAll gr es
    if l.state ≠ .ready then .ok ⟨l, es, v, u⟩
    else l.draw gr es v u

end Edl
end Anansi
