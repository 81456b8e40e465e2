import Verif.Model.Basic
/-
`x/platform/config.go:20-83`, `x/platform/platform.go:72-90`: merging configurations.

Options that are files or profilers are unexported and not merged; they are left out.
-/
set_option autoImplicit false

namespace Anansi
namespace Cfg

/-- The exported fields of `config.go:20-31` `Config`. -/
structure Config where
  logFileName : Bytes := []
  cpuProfileName : Bytes := []
  traceFileName : Bytes := []
  memProfileName : Bytes := []
  startTiming : Bool := false
  logTiming : Bool := false
  telemetryLogFileName : Bytes := []
deriving DecidableEq, Repr

/-- The conditional assignment to a field, from the other configuration. -/
def pick (mine other : Bytes) : Bytes := if other ≠ [] ∧ mine = [] then other else mine

/-- `config.go:64-83` `Merge`; no field depends on another one. -/
def Config.merge (cfg other : Config) : Config :=
  { logFileName := pick cfg.logFileName other.logFileName
    cpuProfileName := pick cfg.cpuProfileName other.cpuProfileName
    traceFileName := pick cfg.traceFileName other.traceFileName
    memProfileName := pick cfg.memProfileName other.memProfileName
    startTiming := cfg.startTiming
    logTiming := if other.logTiming then true else cfg.logTiming
    telemetryLogFileName := pick cfg.telemetryLogFileName other.telemetryLogFileName }

/-- The part of `platform.go:76-94` `New` that concerns the configuration: that of the command
line, if it is used (`none` otherwise), then those given as options, each by `Config.apply`
(`config.go:58-61`). -/
def new (flags : Option Config) (opts : List Config) : Config :=
  opts.foldl Config.merge (match flags with | some f => Config.merge {} f | none => {})

end Cfg
end Anansi
