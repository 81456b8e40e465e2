import Verif.Model.Hud
/-
`x/platform/hud.go:605-670`: the log viewer's `Update` with its input and its drawing.
`Model/LogView` has the choice of the lines.
Simplified as `Model/Hud`; `Logs.Sink` is the log, which does not change during the call.
-/
set_option autoImplicit false

namespace Anansi.Hud
open Geom Evq Lgv

/-- `hud.go:655`: "Logs (%v-%v/%v):" of three numbers. -/
def logTitle (start e lines : Int) : Bytes :=
  [0x4C, 0x6F, 0x67, 0x73, 0x20, 0x28] ++ itoa start ++ [0x2D] ++ itoa e ++ [0x2F] ++ itoa lines ++ [0x29, 0x3A]

/-- `hud.go:661-668`: the loop that draws the lines; `mx` is `bounds.Max.X`. -/
def drawLines (gr : Nat → Bool) (mx : Int) : List Bytes → VScreen → Except Fault VScreen
  | [], v => .ok v
  | b :: l, v =>
    (mkPt 1 (v.sc.cur.pt.y + 1)).bind fun p =>
    let v := goto v p
    (writeTruncated gr (mx - v.sc.cur.pt.x) b v).bind fun v => drawLines gr mx l v

/-- `hud.go:616-622`, `627-632`: the top row, from `outBounds.Max.Y - 1`. -/
def logTop (y : Int) (expanded : Bool) (viewLines : Int) : Int := if expanded then y - viewLines else y

/-- `hud.go:605-670` `Update`: the viewer, the events and the screen. -/
def logUpdate (gr : Nat → Bool) (lv : View) (s : Logs.Sink) (es : Events) (v : VScreen) :
    Except Fault (View × Events × VScreen) :=
  let ob := v.sc.grid.rect
  let n := if lv.viewLines = 0 then 10 else lv.viewLines
  (mkPt 1 (ob.max.y - 1)).bind fun tl =>
  let top := logTop tl.y lv.expanded n
  (mkRect tl.x top ob.max.x (top + 1)).bind fun box =>
  let c := countPressesIn box 1 0 es
  let lv := lv.begin c.2
  let top := logTop (ob.max.y - 1) lv.expanded n
  let viewLines := if lv.expanded then lv.viewLines else 1
  let lines : Int := s.eols.length
  if lines ≤ 0 then .ok (lv, c.1, v)
  else
    let diff := (ob.max.y + 1 - top) - lines + 1
    let top := if diff > 0 then top + diff else top
    let d := totalScrollIn ⟨⟨tl.x, top⟩, ⟨ob.max.x, ob.max.y + 1⟩⟩ 0 c.1
    let lv := if d.2 ≠ 0 then lv.scrollBy lines d.2 else lv
    let r := lv.window lines viewLines
    let v := goto v ⟨tl.x, top⟩
    (if lv.expanded ∧ n > 0 then v.write gr (logTitle r.2.1 r.2.2 lines) else .ok v).bind fun v =>
    match shown s r.2.1 r.2.2 with
    | none => .error .panic
    | some l => (drawLines gr ob.max.x l v).bind fun v => .ok (r.1, d.1, v)

end Anansi.Hud
