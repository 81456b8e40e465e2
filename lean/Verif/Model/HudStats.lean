import Verif.Model.Hud
import Verif.Model.TeleLog
/-
`x/platform/hud.go:379-384, 393-432` `drawFPSDetail`, `drawFrameTiming` and `drawStallsDetail`: the
panel that shows and switches the telemetry.
Simplified as `Model/Hud`; the texts made by `fmt` and `time` are parameters, as their characters.
The switches run on `Model/TeleLog`.
-/
set_option autoImplicit false

namespace Anansi.Hud
open Geom Evq

variable {α : Type}

/-- How the panel writes its numbers: the estimate and the measured rate (`%.0f`), `fmtMS`
(`hud.go:414-416`), `Duration.String`, `strconv.Itoa` of a count, and the share (`%.2f%%`). -/
structure Says where
  estimate : List Nat
  fps : Tel.Timing → List Nat
  ms : Int → List Nat
  dur : Int → List Nat
  num : Nat → List Nat
  pct : Option (Int × Int) → List Nat

/-- Rows, one after the other. -/
def rows (gr : Nat → Bool) (dw : Int) : List (Bytes × Bytes) → VScreen → Except Fault VScreen
  | [], v => .ok v
  | r :: l, v => (detailRow gr dw v r.1 r.2).bind fun q => rows gr dw l q.2

/-- `hud.go:403-411`: the rows of the frames' durations. -/
def timingRows (s : Says) (p : Tel.Tele α) : List (Bytes × Bytes) :=
  let d := p.timing.stats
  [(ascii "estimate", encodeRunes s.estimate),
   (ascii "actual", encodeRunes (s.fps p.timing)),
   ([0xE2, 0x88, 0x82] ++ ascii "t min", encodeRunes (s.ms d.min)),
   (ascii "q1", encodeRunes (s.ms d.q1)),
   (ascii "q2", encodeRunes (s.ms d.q2)),
   (ascii "q3", encodeRunes (s.ms d.q3)),
   (ascii "max", encodeRunes (s.ms d.max))]

/-- `hud.go:424-431`: the rows of the stalls. -/
def stallRows (s : Says) (p : Tel.Tele α) : List (Bytes × Bytes) :=
  [(ascii "Stalls", encodeRunes (s.num p.stats.n)),
   (ascii "min t", encodeRunes (s.dur p.stats.min)),
   (ascii "max t", encodeRunes (s.dur p.stats.max)),
   ([0xE2, 0x88, 0x91] ++ ascii " t", encodeRunes (s.dur p.stats.sum)),
   (ascii "% t", encodeRunes (s.pct p.pct))]

/-- `hud.go:393-412` `drawFrameTiming`; `ctl` is `hud.FPSControl`. -/
def frameTiming (gr : Nat → Bool) (dw : Int) (sep : Bytes) (s : Says) (ctl : Bool) (p : Tel.Tele α) (es : Events) (v : VScreen) :
    Except Fault (Bool × Tel.Tele α × Events × VScreen) :=
  (detailHeader gr dw sep v (ascii "# Frame Control:")).bind fun b =>
  let c := countPressesIn b.1 1 0 es
  let ctl := if c.2 % 2 = 1 then !ctl else ctl
  (detailHeader gr dw sep b.2 (ascii "# Frame Timing:")).bind fun b =>
  let c := countPressesIn b.1 1 0 c.1
  let p := if c.2 % 2 = 1 then p.setTiming (!p.sw.timing) else p
  (if p.sw.timing then rows gr dw (timingRows s p) b.2 else .ok b.2).bind fun v => .ok (ctl, p, c.1, v)

/-- `hud.go:418-432` `drawStallsDetail`. -/
def stallsDetail (gr : Nat → Bool) (dw : Int) (sep : Bytes) (s : Says) (p : Tel.Tele α) (es : Events) (v : VScreen) :
    Except Fault (Tel.Tele α × Events × VScreen) :=
  (detailHeader gr dw sep v (ascii "# Output Stalls:")).bind fun b =>
  let c := countPressesIn b.1 1 0 es
  let p := if c.2 % 2 = 1 then p.setStalls (!p.sw.stalls) else p
  (if p.sw.stalls then rows gr dw (stallRows s p) b.2 else .ok b.2).bind fun v => .ok (p, c.1, v)

/-- `hud.go:379-384` `drawFPSDetail`, with `hud.FPSDetail` set: the control flag, the telemetry, the
events and the screen. -/
def fpsDetail (gr : Nat → Bool) (dw : Int) (sep : Bytes) (s : Says) (ctl : Bool) (p : Tel.Tele α) (es : Events) (v : VScreen) :
    Except Fault (Bool × Tel.Tele α × Events × VScreen) :=
  (frameTiming gr dw sep s ctl p es v).bind fun r =>
  (stallsDetail gr dw sep s r.2.1 r.2.2.1 r.2.2.2).bind fun q => .ok (r.1, q.1, q.2.1, q.2.2)

end Anansi.Hud
