import Verif.Model.Telemetry
import Verif.Model.EscName
import Verif.Model.Num
/-
`x/platform/diag.go:24-30, 160-231, 278-301, 320-453`: the switches of telemetry, what is collected
in a frame and what is logged of it, with `output.go:32-53, 97-102` and the order of a frame in
`x/platform/platform.go:190-226`.
Times are as in `Model/Telemetry`.  Slices that share memory are modelled as such: what is
collected of stalls is a length of the output's buffer (`Ref.shared`) as long as that is in use,
and what is collected of timing is whatever `Timing.ds` holds when it is logged.  The lock is left
out: the worker logs between frames, or not.  Not modelled: floating point results
(`FPSEstimate`, `FPS`, and the quotient `Pct`, of which the two numbers are kept), errors of
writing to the file, and the text of `log.Printf` when there is no file.
-/
set_option autoImplicit false

namespace Anansi
namespace Tel

/-- `diag.go:24-30` `TelemetryState`. -/
structure Switches where
  timing : Bool := false
  stalls : Bool := false
  logTiming : Bool := false
  logStalls : Bool := false
deriving DecidableEq, Repr

/-- `Output.blocks`: the memory written so far, the length and the capacity. -/
structure Blocks where
  mem : List Int := []
  len : Nat := 0
  cap : Nat
deriving DecidableEq, Repr

/-- `telemetryCollector.stalls`: a length of the output's buffer, or of one that is no longer in
use. -/
inductive Ref where
  | shared (len : Nat)
  | own (l : List Int)
deriving DecidableEq, Repr

/-- What is logged at a time: resource usage over some time, as the three durations `dt`, `utime`
and `stime`, the durations of frames, or stalls. -/
inductive Logged where
  | usage (t : Int) (ds : List (Int × Int × Int))
  | timing (t : Int) (ds : List Int)
  | stalls (t : Int) (ds : List Int)
deriving DecidableEq, Repr

/-- `diag.go:13-22, 320-332` `Telemetry` with its collector, the output's buffer and
`Config.LogTiming`; `file` says whether there is a log file. -/
structure Tele (α : Type) where
  sw : Switches := {}
  /-- `Platform.Config.LogTiming` -/
  cfgLog : Bool := false
  timing : Timing
  stats : Stalls := {}
  /-- the numbers divided for `Pct` -/
  pct : Option (Int × Int) := none
  blocks : Option Blocks := none
  t : Int := 0
  /-- whether `coll.timing` is `Timing.ds` (or nil) -/
  collTiming : Bool := false
  collStalls : Option Ref := none
  lastUse : Int := 0
  usage : Usage α
  file : Bool := false
  /-- all that was logged -/
  log : List Logged := []

variable {α : Type}

/-- `output.go:44-53` `Stalls`: nil, or the durations; and what is left. -/
def Blocks.stalls (b : Blocks) (consume : Bool) : Blocks :=
  if b.len = b.cap || consume then { b with len := 0 } else b

/-- `output.go:97-102` `recordStall` of a duration: `append` within the capacity. -/
def Blocks.record (b : Blocks) (d : Int) : Blocks :=
  if b.len < b.cap then { b with mem := b.mem.take b.len ++ d :: b.mem.drop (b.len + 1), len := b.len + 1 } else b

/-- What a slice holds. -/
def Ref.get (r : Ref) (b : Option Blocks) : List Int :=
  match r with
  | .shared n => match b with
    | some b => b.mem.take n
    | none => []
  | .own l => l

/-- `output.go:32-38` `TrackStalls`: the old buffer, if any, stays for whoever refers to it. -/
def Tele.trackStalls (p : Tele α) (n : Nat) : Tele α :=
  { p with
    blocks := if n = 0 then none else some { cap := n }
    collStalls := p.collStalls.map fun r => .own (r.get p.blocks) }

/-- `diag.go:278-301` `StallsData.update`, with the numbers of `Pct`. -/
def Tele.stallsUpdate (p : Tele α) (l : List Int) : Tele α :=
  let s := Tel.stallsUpdate p.t l
  { p with stats := s, pct := if p.stats.time = 0 then none else some (s.sum, s.time - p.stats.time) }

/-- `diag.go:205-231` `Telemetry.update` at a time, with the result of the system call for resource
usage: the state and whether the error is nil; `none` is an index panic. -/
def Tele.update (p : Tele α) (t : Int) (use : Option α) : Option (Tele α × Bool) :=
  let u := p.usage.update t use
  let p := { p with t := t, usage := u.1 }
  if u.2 then
    if p.sw.timing || p.sw.logTiming then
      (p.timing.update t).map fun r =>
      let p := { p with timing := r.1 }
      let p := if p.sw.logTiming && r.2 then { p with collTiming := true } else p
      match p.blocks with
      | none => (p, true)
      | some b =>
        let p := { p with blocks := some (b.stalls r.2) }
        let p := if p.sw.logStalls then { p with collStalls := some (.shared b.len) } else p
        let p := if p.sw.stalls then p.stallsUpdate (b.mem.take b.len) else p
        (p, true)
    else some (p, true)
  else some (p, false)

/-- `diag.go:160-167` `FPS`: whether it is the measured rate (otherwise it is the estimate). -/
def Tele.measured (p : Tele α) : Bool := p.sw.timing || p.sw.logTiming

/-- `diag.go:169-177` `SetTimingEnabled`; `p.LogTiming` is the field of the configuration, which is
less deep than that of the telemetry. -/
def Tele.setTiming (p : Tele α) (on : Bool) : Tele α :=
  if p.sw.timing ≠ on then
    let p := { p with sw := { p.sw with timing := on } }
    if !on && !p.cfgLog then { p with timing := p.timing.reset } else p
  else p

/-- `diag.go:179-188` `SetStallTracking`. -/
def Tele.setStalls (p : Tele α) (on : Bool) : Tele α :=
  let p := { p with sw := { p.sw with stalls := on } }
  if on then p.trackStalls p.timing.ts.length
  else { (p.trackStalls 0) with stats := {}, pct := none }

/-- What may be done to the switches in a frame. -/
inductive Op where
  /-- pressing "# Frame Timing:", `hud.go:399-402` -/
  | timing
  /-- pressing "# Output Stalls:", `hud.go:420-423` -/
  | stalls
  /-- pressing "Log Timing", `hud.go:389`; `ctx.LogTiming` is the field of the configuration, too -/
  | logTiming
  /-- pressing "Log Stalls", `hud.go:390` -/
  | logStalls
  /-- loading a state, `state.go:24` -/
  | load (sw : Switches)
  /-- the client sets the exported field `Telemetry.LogTiming` -/
  | client (on : Bool)
deriving DecidableEq, Repr

/-- Running it. -/
def Tele.op (p : Tele α) : Op → Tele α
  | .timing => p.setTiming (!p.sw.timing)
  | .stalls => p.setStalls (!p.sw.stalls)
  | .logTiming => { p with cfgLog := !p.cfgLog }
  | .logStalls => { p with sw := { p.sw with logStalls := !p.sw.logStalls } }
  | .load sw => { p with sw := sw }
  | .client on => { p with sw := { p.sw with logTiming := on } }

/-- A flush, which stalls for some time or not. -/
def Tele.flush (p : Tele α) (stall : Option Int) : Tele α :=
  match stall with
  | none => p
  | some d => { p with blocks := p.blocks.map fun b => b.record d }

/-- `diag.go:377-384`: the windows of resource usage, in nanoseconds. -/
def windows : List Int := (List.range 8).map fun k => ((k : Int) + 1) * 1000000000

/-- `diag.go:404-418, 427-434`: what is logged besides resource usage (without a file this goes to
the log, without the time). -/
def logRest (p : Tele α) : Tele α :=
  let p := if p.collTiming then { p with log := p.log ++ [.timing p.t p.timing.ds], collTiming := false } else p
  match p.collStalls with
  | some r => { p with log := p.log ++ [.stalls p.t (r.get p.blocks)], collStalls := none }
  | none => p

/-- `diag.go:364-435` `logData`; `cost` gives the three durations of a difference.  `none` is an
index panic. -/
def Tele.logData (cost : Entry α × Entry α → Int × Int × Int) (p : Tele α) : Option (Tele α) :=
  if p.file then
    if p.t - p.lastUse ≥ 1000000000 then
      let p := { p with lastUse := p.t }
      (p.usage.deltas windows).map fun ds =>
      logRest (if ds = [] then p else { p with log := p.log ++ [.usage p.t (ds.map cost)] })
    else some (logRest p)
  else some (logRest p)

/-- `platform.go:190-226`: what matters of a frame: the time, the resource usage, what is done to
the switches, whether the flush stalls, and whether the worker logs before the next frame. -/
structure TFrame (α : Type) where
  t : Int
  use : Option α
  ops : List Op := []
  stall : Option Int := none
  logs : Bool := true

/-- A frame: the state, and whether the loop goes on. -/
def Tele.frame (cost : Entry α × Entry α → Int × Int × Int) (p : Tele α) (f : TFrame α) : Option (Tele α × Bool) :=
  (p.update f.t f.use).bind fun r =>
  if r.2 then
    let p := (f.ops.foldl Tele.op r.1).flush f.stall
    if f.logs then (p.logData cost).map fun p => (p, true) else some (p, true)
  else some (r.1, false)

/-- Frames, up to one that ends the loop. -/
def Tele.frames (cost : Entry α × Entry α → Int × Int × Int) (p : Tele α) : List (TFrame α) → Option (Tele α)
  | [] => some p
  | f :: fs => (p.frame cost f).bind fun r => if r.2 then r.1.frames cost fs else some r.1

/-! ### The text -/

/-- `diag.go:437-446` `appendDurationsTo`: the durations after the first. -/
def moreDurations : List Int → Bytes
  | [] => []
  | d :: l => ascii "," ++ itoa d ++ moreDurations l

/-- `diag.go:437-446` `appendDurationsTo`. -/
def durations : List Int → Bytes
  | [] => ascii "[" ++ ascii "]"
  | d :: l => ascii "[" ++ (itoa d ++ moreDurations l) ++ ascii "]"

/-- `diag.go:388-402`: the loop over the differences, from number `i`. -/
def usages : Nat → List (Int × Int × Int) → Bytes
  | _, [] => []
  | i, d :: l => (if i > 0 then ascii "," else []) ++
      (ascii "{\"dt\":" ++ itoa d.1 ++ ascii ",\"utime\":" ++ itoa d.2.1 ++ ascii ",\"stime\":" ++ itoa d.2.2 ++ ascii "}") ++
      usages (i + 1) l

/-- `diag.go:386-418`: what is written for an entry; `unix` is `UnixNano`. -/
def Logged.text (unix : Int → Int) : Logged → Bytes
  | .usage t ds => ascii "{\"t\":" ++ itoa (unix t) ++ ascii ",\"name\":\"rusage_delta\",\"data\":[" ++ usages 0 ds ++ ascii "]}\n"
  | .timing t ds => ascii "{\"t\":" ++ itoa (unix t) ++ ascii ",\"name\":\"timing\",\"data\":" ++ durations ds ++ ascii "}\n"
  | .stalls t ds => ascii "{\"t\":" ++ itoa (unix t) ++ ascii ",\"name\":\"stalls\",\"stalls\":" ++ durations ds ++ ascii "}\n"

end Tel
end Anansi
