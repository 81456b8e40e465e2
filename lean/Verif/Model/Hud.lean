import Verif.Model.EditLine
import Verif.Model.LogView
/-
`x/platform/hud.go`: the pieces the debug overlay is drawn with: the segments of its
header line, detail rows and buttons.
Simplified: a `*Context` is the virtual screen (`ctx.Output`) and the event queue
(`ctx.Input`); `ctx.Output.Bounds()` is the rectangle of its grid; the theme, the mouse and
the width of details are parameters.  Texts made by `fmt` are parameters.
-/
set_option autoImplicit false

namespace Anansi.Hud
open Geom Evq

/-- `ansi/geom.go:53-58` `Pt`, as an expression that panics. -/
def mkPt (x y : Int) : Except Fault Pt :=
  match Geom.pt x y with
  | some p => .ok p
  | none => .error .panic

/-- `ansi/geom.go:26-40` `Rect`, as an expression that panics. -/
def mkRect (x0 y0 x1 y1 : Int) : Except Fault Rect :=
  match Geom.rect x0 y0 x1 y1 with
  | some r => .ok r
  | none => .error .panic

/-- `ctx.Output.To`. -/
def goto (v : VScreen) (p : Pt) : VScreen := { v with sc := v.sc.to p }

/-- `hud.go:218-230` `rightSegment`: the box returned and the screen. -/
def rightSegment (gr : Nat → Bool) (v : VScreen) (s : Bytes) : Except Fault (Rect × VScreen) :=
  let c := v.sc.cur.pt
  let x := if c.x + 1 < v.sc.grid.rect.max.x then c.x - 1 else c.x
  (mkPt x (c.y + 1)).bind fun mx =>
    let mn : Pt := ⟨x - runeCount s, c.y⟩
    ((goto v mn).write gr s).bind fun v => .ok (⟨mn, mx⟩, goto v mn)

/-- Several segments, one after the other. -/
def segments (gr : Nat → Bool) : VScreen → List Bytes → Except Fault (List Rect × VScreen)
  | v, [] => .ok ([], v)
  | v, s :: l => (rightSegment gr v s).bind fun r =>
    (segments gr r.2 l).bind fun q => .ok (r.1 :: q.1, q.2)

/-- `hud.go:96-124`: the header line: the cursor is put at the right edge of the first row
and the segments are drawn (time, frame rate, profiling, size, bytes written, mouse). -/
def header (gr : Nat → Bool) (v : VScreen) (l : List Bytes) : Except Fault (List Rect × VScreen) :=
  (mkPt v.sc.grid.rect.max.x 1).bind fun p => segments gr (goto v p) l

/-- `hud.go:179-187` `calcKVBox`, for `hud.detailWidth = dw`. -/
def calcKVBox (dw : Int) (v : VScreen) (key : Bytes) : Except Fault (Rect × Rect) :=
  let mx := v.sc.grid.rect.max.x
  let y := v.sc.cur.pt.y
  let n : Int := runeCount key
  (mkPt (mx - dw - n - 1) y).bind fun k0 =>
  (mkPt (mx - dw) y).bind fun v0 =>
  (mkPt (k0.x + n) (y + 1)).bind fun k1 =>
  (mkPt (v0.x + dw) (y + 1)).bind fun v1 => .ok (⟨k0, k1⟩, ⟨v0, v1⟩)

/-- `hud.go:189-200` `detailHeader`; `sep` is `hud.sep`. -/
def detailHeader (gr : Nat → Bool) (dw : Int) (sep : Bytes) (v : VScreen) (title : Bytes) :
    Except Fault (Rect × VScreen) :=
  (calcKVBox dw v title).bind fun b =>
  ((goto v b.1.min).write gr title).bind fun v =>
  (v.write gr [0x20]).bind fun v =>
  ((goto v b.2.min).write gr sep).bind fun v =>
  .ok (⟨b.1.min, b.2.max⟩, goto v b.2.max)

/-- `for …; i < k; … { ctx.Output.WriteRune(' ') }`. -/
def spaces (gr : Nat → Bool) : Nat → VScreen → Except Fault VScreen
  | 0, v => .ok v
  | n + 1, v => (v.write gr [0x20]).bind fun v => spaces gr n v

/-- `hud.go:202-216` `detailRow`. -/
def detailRow (gr : Nat → Bool) (dw : Int) (v : VScreen) (key val : Bytes) : Except Fault (Rect × VScreen) :=
  (calcKVBox dw v key).bind fun b =>
  let n : Int := runeCount key + 2 + dw
  (mkPt (v.sc.cur.pt.x - n + 1) v.sc.cur.pt.y).bind fun p =>
  ((goto v p).write gr key).bind fun v =>
  (v.write gr [0x20]).bind fun v =>
  (spaces gr (dw - runeCount val).toNat v).bind fun v =>
  (v.write gr val).bind fun v =>
  .ok (⟨b.1.min, b.2.max⟩, goto v b.2.max)

/-- `hud.go:446-448`: `for ctx.Output.Cursor.X < x { ctx.Output.WriteRune(' ') }`; the
cursor moves right with each rune until it is there (or wraps, when it is as far to the
right as it gets); `fuel` bounds the number of runs (`button_drawn` shows the bound is not
met). -/
def fill (gr : Nat → Bool) (x : Int) : Nat → VScreen → Except Fault VScreen
  | 0, _ => .error .hang
  | fuel + 1, v =>
    if v.sc.cur.pt.x < x then (v.write gr [0x20]).bind fun v => fill gr x fuel v
    else .ok v

/-- `hud.go:799-812` `writeTruncated`: one or two writes. -/
def writeTruncated (gr : Nat → Bool) (w : Int) (b : Bytes) (v : VScreen) : Except Fault VScreen :=
  if (runeCount b : Int) - w > 0 then
    (v.write gr (Edl.dropLastRunes (runeCount b - w + 1).toNat b)).bind fun v =>
      v.write gr (encodeRune 0x2026)
  else v.write gr b

/-- The theme and the mouse: `HUDState.Mouse.Point`, `SelectAttr` and `ButtonAttr`. -/
structure Theme where
  mouse : Pt := ⟨0, 0⟩
  select : Attr := 0
  button : Attr := 0

/-- `hud.go:434-455` `drawButton`, with `withAttr` (`778-782`) and `withOverAttr` (`784-797`). -/
def drawButton (gr : Nat → Bool) (t : Theme) (box : Rect) (label : Bytes) (v : VScreen) : Except Fault VScreen :=
  let v := (goto v box.min).writeSGR [t.select]
  (mkRect box.min.x v.sc.cur.pt.y box.max.x (v.sc.cur.pt.y + 1)).bind fun at_ =>
  let over := ptIn t.mouse at_
  let v := if over then v.writeSGR [t.button] else v
  (v.write gr [0x5B, 0x20]).bind fun v =>
  let max := dx box - 4
  (spaces gr ((max - runeCount label) / 2).toNat v).bind fun v =>
  (writeTruncated gr max label v).bind fun v =>
  (fill gr (box.max.x - 2) ((box.max.x - 2 - v.sc.cur.pt.x).toNat + 1) v).bind fun v =>
  (v.write gr [0x20, 0x5D]).bind fun v =>
  let v := if over then v.writeSGR [t.select] else v
  let v := v.writeSGR [Sgr.clear]
  (mkPt (box.max.x - 1) box.max.y).bind fun p => .ok (goto v p)

/-- `hud.go:482-496` `drawToggleRow`: the new flag, the events, the boxes and the screen. -/
def drawToggleRow (gr : Nat → Bool) (dw : Int) (t : Theme) (es : Events) (v : VScreen) (name : Bytes) (flag : Bool) :
    Except Fault (Bool × Events × (Rect × Rect) × VScreen) :=
  (calcKVBox dw v name).bind fun b =>
  let r := countPressesIn b.2 1 0 es
  let flag := if r.2 % 2 = 1 then !flag else flag
  ((goto v b.1.min).write gr name).bind fun v =>
  (drawButton gr t b.2 (if flag then [0x74, 0x72, 0x75, 0x65] else [0x66, 0x61, 0x6C, 0x73, 0x65])
    (goto v b.2.min)).bind fun v => .ok (flag, r.1, b, v)

end Anansi.Hud
