import Verif.Model.Config
import Verif.Model.LogSet
import Verif.Model.Telemetry
/-
`x/platform/platform.go:35-92` `New`, `x/platform/config.go:58-61, 85-133` `Config.apply` and
`setup`, `x/platform/options.go` and `term.go:199-209` `MustRun`.

Files are numbers, given out in order; that files of one name are one file is not modelled.  The
log is that of `Model/LogSet.lean`.  The terminal that is made (`platform.go:38-62`) is in
`Model/Session.lean`; it and the overlay (`hud.go:156-166`) are left out here, except for the error of `Term.Notify`.  `New` creates all buffers
but those for timing anew with fixed sizes; these are left out, too.
-/
set_option autoImplicit false

namespace Anansi
namespace Pnw

/-- An `Option`: the interface has an unexported method, so these are all there are (besides the
overlay, a pointer to which changes that overlay only, and types that embed one of these). -/
inductive Opt
  /-- a `Config` -/
  | config (c : Cfg.Config)
  /-- a `*Config`, which has the methods of `Config`, too -/
  | pointer (c : Cfg.Config)
  /-- `options.go:17-26` -/
  | frameRate (fps : Int)
deriving DecidableEq, Repr

/-- `options.go:28-35` `hasConfig`: the type assertion does not hold of pointers. -/
def hasConfig : List Opt → Bool
  | [] => false
  | .config _ :: _ => true
  | _ :: l => hasConfig l

/-- What `New` sets in a platform, of what is modelled. -/
structure Plat where
  config : Cfg.Config := {}
  /-- `ticker.d`, in nanoseconds: `platform.go:64` -/
  tick : Int := 1000000000 / 60
  /-- the length of `FPSEstimate.data`: `platform.go:67` -/
  fps : Nat := 60
  /-- the length of the timing data: `platform.go:66-69` -/
  timing : Nat := 60 / 4
  timingEnabled : Bool := false
  /-- the files: of the telemetry, the CPU profile, the trace -/
  telemetry : Option Nat := none
  cpu : Option Nat := none
  trace : Option Nat := none
  /-- `pprofProfiles`: the files of profiles of the heap -/
  heap : List Nat := []

/-- What is outside: files and the global log. -/
structure World where
  /-- the next file to be given out -/
  next : Nat := 0
  name : Nat → Bytes := fun _ => []
  opened : List Nat := []
  logs : Lgs.Sink := {}

/-- How calls go, and what is logged. -/
structure Calls where
  /-- `Term.Notify` (`input.go`) -/
  notifyOk : Bool := true
  /-- `os.Create` of a name -/
  createOk : Bytes → Bool := fun _ => true
  /-- closing the old log file -/
  closeOk : Bool := true
  /-- "logging telemetry to …" with a name -/
  telMsg : Bytes → Bytes := id
  /-- "logging to …" with a name -/
  logMsg : Bytes → Bytes := id

/-- The errors. -/
inductive Err
  | notify | telemetry | log | logClose | cpu | trace | mem
deriving DecidableEq, Repr

/-- `os.Create` when it succeeds: the file and the world after it. -/
def World.create (w : World) (nm : Bytes) : Nat × World :=
  (w.next, { w with next := w.next + 1, name := fun i => if i = w.next then nm else w.name i, opened := w.opened ++ [w.next] })

/-- `config.go:88-92`, with `diag.go:337-353` `create` for a collector without a file. -/
def setupTelemetry (o : Calls) (p : Plat) (w : World) : (Plat × World) × Option Err :=
  let nm := p.config.telemetryLogFileName
  if nm ≠ [] then
    if !o.createOk nm then ((p, w), some .telemetry)
    else
      let fw := w.create nm
      (({ p with telemetry := some fw.1 }, { fw.2 with logs := fw.2.logs.log (o.telMsg nm) }), none)
  else ((p, w), none)

/-- `config.go:94-102`: `p.logFile` is never set; with `log.go:128-148` `SetFile`, which closes
the old file. -/
def setupLog (o : Calls) (p : Plat) (w : World) : (Plat × World) × Option Err :=
  let nm := p.config.logFileName
  if nm ≠ [] then
    if !o.createOk nm then ((p, w), some .log)
    else
      let fw := w.create nm
      let l := fw.2.logs
      if l.f.isSome && !o.closeOk then ((p, fw.2), some .logClose)
      else ((p, { fw.2 with
        logs := l.setFile (some fw.1) o.closeOk (o.logMsg nm)
        opened := fw.2.opened.filter fun h => l.f ≠ some h }), none)
  else ((p, w), none)

/-- `config.go:104-110`. -/
def setupCpu (o : Calls) (p : Plat) (w : World) : (Plat × World) × Option Err :=
  let nm := p.config.cpuProfileName
  if nm ≠ [] then
    if !o.createOk nm then ((p, w), some .cpu)
    else
      let fw := w.create nm
      (({ p with cpu := some fw.1 }, fw.2), none)
  else ((p, w), none)

/-- `config.go:112-118`. -/
def setupTrace (o : Calls) (p : Plat) (w : World) : (Plat × World) × Option Err :=
  let nm := p.config.traceFileName
  if nm ≠ [] then
    if !o.createOk nm then ((p, w), some .trace)
    else
      let fw := w.create nm
      (({ p with trace := some fw.1 }, fw.2), none)
  else ((p, w), none)

/-- `config.go:120-130`. -/
def setupMem (o : Calls) (p : Plat) (w : World) : (Plat × World) × Option Err :=
  let nm := p.config.memProfileName
  if nm ≠ [] then
    if !o.createOk nm then ((p, w), some .mem)
    else
      let fw := w.create nm
      (({ p with heap := p.heap ++ [fw.1] }, fw.2), none)
  else ((p, w), none)

/-- Going on after a step without an error. -/
def andThen (r : (Plat × World) × Option Err) (f : Plat → World → (Plat × World) × Option Err) : (Plat × World) × Option Err :=
  match r.2 with
  | none => f r.1.1 r.1.2
  | some _ => r

/-- `config.go:85-133` `setup`, with `diag.go:170-177` `SetTimingEnabled` for a platform whose
timing is off. -/
def setup (o : Calls) (p : Plat) (w : World) : (Plat × World) × Option Err :=
  let p := { p with timingEnabled := p.config.logTiming }
  let r := setupTelemetry o p w
  let r := andThen r (setupLog o)
  let r := andThen r (setupCpu o)
  let r := andThen r (setupTrace o)
  andThen r (setupMem o)

/-- `platform.go:81-85`: applying an option; `none` is a panic. -/
def Plat.apply (p : Plat) : Opt → Option Plat
  | .config c => some { p with config := p.config.merge c }
  | .pointer c => some { p with config := p.config.merge c }
  | .frameRate fps =>
    (Tel.frameRate fps).map fun r => { p with tick := r.1, fps := fps.toNat, timing := r.2.ts.length }

/-- `platform.go:81-85`: the loop; no option returns an error. -/
def Plat.applyAll (p : Plat) : List Opt → Option Plat
  | [] => some p
  | x :: l => (p.apply x).bind fun p => p.applyAll l

/-- `platform.go:35-92` `New`.  `parsed` is `flag.Parsed()`, `flags` what the flags of the command line
amount to once they are parsed.  The platform is returned if there is no error. -/
def new (o : Calls) (parsed : Bool) (flags : Cfg.Config) (opts : List Opt) (w : World) : Option ((Plat × World) × Option Err) :=
  if !o.notifyOk then some (({}, w), some .notify)
  else
    let p : Plat := if !parsed && !hasConfig opts then { config := Cfg.Config.merge {} flags } else {}
    (p.applyAll opts).map fun p => setup o p w

/-! ### `term.go` -/

/-- An error, with its text: one that is an `ExitError` has an exit code. -/
structure Failure where
  code : Option Int := none
  text : Bytes
deriving DecidableEq, Repr

/-- `signal.go:106-112` `ExitCode` of a signal of the system. -/
def sigCode (sig : Nat) : Int := -(sig : Int)

/-- What the system makes of the argument of `os.Exit`: its last eight bits. -/
def status (code : Int) : Nat := (code % 256).toNat

/-- `term.go:199-209` `MustRun`: the exit status of the process, `none` if it goes on, and the log
after it.  `log.Fatalln` exits with status 1.  `due` and `fatal`
are the lines made of the text. -/
def mustRun (due fatal : Bytes → Bytes) (logs : Lgs.Sink) (e : Option Failure) : Lgs.Sink × Option Nat :=
  match e with
  | none => (logs, none)
  | some f =>
    match f.code with
    | some c =>
      let logs := logs.log (due f.text)
      if c ≠ 0 then (logs, some (status c)) else (logs.log (fatal f.text), some 1)
    | none => (logs.log (fatal f.text), some 1)

end Pnw
end Anansi
