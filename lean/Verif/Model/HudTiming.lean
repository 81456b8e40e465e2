import Verif.Model.Hud
import Verif.Model.EscName
/-
`x/platform/hud.go:232-282` `drawTimingDetail`: the panel with the controls for pausing and
recording.  Simplified as `Model/Hud`; the texts made by `fmt` and `time` are parameters, and
`toggleRecRep` (`Model/Recording`) is reported, not run; that a pause switch sets `ctx.Time` to the
time of the platform (`246`) is left out.
-/
set_option autoImplicit false

namespace Anansi.Hud
open Geom Evq

/-- What the panel shows besides: the texts of the times, whether the client is paused, the text
of how far the replay is if there is one, and the name of the recording if there is one. -/
structure Timing where
  last : Bytes
  dt : Bytes
  paused : Bool := false
  replay : Option Bytes := none
  recording : Option Bytes := none

/-- `hud.go:240-253`: the first control: whether the client is then paused, the events and the
screen. -/
def drawPause (gr : Nat → Bool) (dw : Int) (t : Theme) (paused : Bool) (es : Events) (v : VScreen) :
    Except Fault (Bool × Events × VScreen) :=
  (calcKVBox dw v (ascii "paused")).bind fun b =>
  ((goto v b.1.min).write gr (ascii "paused ")).bind fun v =>
  let c := countPressesIn b.2 1 0 es
  let paused := if c.2 % 2 = 1 then !paused else paused
  (drawButton gr t b.2 (if paused then ascii "Resume" else ascii "Pause") (goto v b.2.min)).bind fun v =>
  .ok (paused, c.1, v)

/-- `hud.go:256-281`: the second control: whether `toggleRecRep` is called, the events and the
screen. -/
def drawRecord (gr : Nat → Bool) (dw : Int) (t : Theme) (p : Timing) (es : Events) (v : VScreen) :
    Except Fault (Bool × Events × VScreen) :=
  (calcKVBox dw v (ascii "replaying")).bind fun b =>
  let v := goto v b.1.min
  match p.replay with
  | some s =>
    (v.write gr (ascii "replaying ")).bind fun v =>
    ((goto v b.2.min).write gr s).bind fun v => .ok (false, es, goto v b.2.max)
  | none =>
    (v.write gr (ascii "recording ")).bind fun v =>
    (drawButton gr t b.2 (p.recording.getD (ascii "Start")) (goto v b.2.min)).bind fun v =>
    let c := countPressesIn b.2 1 0 es
    .ok (c.2 % 2 = 1, c.1, goto v b.2.max)

/-- `hud.go:232-282` `drawTimingDetail`, with `hud.TimeDetail` set: whether the client is then
paused, whether `toggleRecRep` is called, the events and the screen. -/
def timingDetail (gr : Nat → Bool) (dw : Int) (t : Theme) (p : Timing) (es : Events) (v : VScreen) :
    Except Fault (Bool × Bool × Events × VScreen) :=
  (detailRow gr dw v (ascii "last") p.last).bind fun r =>
  (detailRow gr dw r.2 ([0xE2, 0x88, 0x82] ++ ascii "t") p.dt).bind fun r =>
  (drawPause gr dw t p.paused es r.2).bind fun q =>
  (drawRecord gr dw t p q.2.1 q.2.2).bind fun s => .ok (q.1, s.1, s.2.1, s.2.2)

end Anansi.Hud
