import Verif.Model.Sized
/-
`x/platform/config.go:135-403`: CPU profiling, execution tracing, and profiles written at the
end (like memory).

Files are numbers, given out in order, with their contents (`Model/Sized.lean`).  `os.Create`
makes a new empty file (that another open file may have the same name is not modelled).  The
profilers of the Go runtime write what they like to the file they were started with, until they
are stopped, and can only be started when they are not running.  Not modelled: messages to the log,
and users of the profilers other than the platform.
-/
set_option autoImplicit false

namespace Anansi
namespace Pfl
open Szd (File)

/-- `config.go:163-171` `cpuProfileContext` or `traceProfileContext`, the profiler, and files. -/
structure Ctx where
  active : Bool := false
  f : Option Nat := none
  /-- what the profiler of the Go runtime writes to, if it is running -/
  running : Option Nat := none
  files : Nat → File := fun _ => {}
  next : Nat := 0
  /-- the open files -/
  opened : List Nat := []

/-- How system calls go. -/
structure Calls where
  /-- of the file with the default name -/
  createOk : Bool := true
  seekOk : Bool := true
  truncOk : Bool := true
  /-- `pprof.StartCPUProfile` or `trace.Start`, when not running -/
  startOk : Bool := true
  /-- what the profiler writes when it is stopped -/
  last : Bytes := []
  syncOk : Bool := true
  /-- of the file with a given name -/
  namedOk : Bool := true
deriving DecidableEq, Repr

/-- A file has new contents. -/
def Ctx.put (c : Ctx) (h : Nat) (x : File) : Ctx := { c with files := fun i => if i = h then x else c.files i }

/-- `os.Create`. -/
def Ctx.created (c : Ctx) : Ctx :=
  { c.put c.next {} with f := some c.next, next := c.next + 1, opened := c.next :: c.opened }

/-- `config.go:300-312` or `339-351`: the end of `start`, with a file; whether there is no error. -/
def Ctx.startOn (c : Ctx) (h : Nat) (o : Calls) : Ctx × Bool :=
  if c.active then (c, true)
  else if !o.seekOk then (c, false)
  else
    let c := c.put h ((c.files h).seek 0)
    if !o.truncOk then (c, false)
    else
      let c := c.put h { c.files h with data := [] }
      if c.running.isSome || !o.startOk then (c, false)
      else ({ c with running := some h, active := true }, true)

/-- `config.go:289-313`, `328-352` `start`. -/
def Ctx.start (c : Ctx) (o : Calls) : Ctx × Bool :=
  match c.f with
  | some h => c.startOn h o
  | none => if o.createOk then c.created.startOn c.next o else (c, false)

/-- The profiler writes to its file. -/
def Ctx.emit (c : Ctx) (b : Bytes) : Ctx :=
  match c.running with
  | some h => c.put h ((c.files h).write b)
  | none => c

/-- `config.go:315-326`, `354-365` `stop`. -/
def Ctx.stop (c : Ctx) (o : Calls) : Ctx × Bool :=
  if !c.active then (c, true)
  else
    let c := { c.emit o.last with running := none }
    if !o.syncOk then (c, false) else ({ c with active := false }, true)

/-- `config.go:196-228` `create`. -/
def Ctx.create (c : Ctx) (o : Calls) : Ctx × Bool :=
  let s := if c.active then c.stop o else (c, true)
  if !s.2 then s
  else if !o.namedOk then (s.1, false)
  else
    let c := s.1.created
    let c := match s.1.f with
      | some g => { c with opened := c.opened.erase g }
      | none => c
    c.start o

/-- `config.go:247-252`, `261-266` `Enter`. -/
def Ctx.enter (c : Ctx) (o : Calls) : Ctx × Bool := if c.f.isNone then (c, true) else c.start o

/-- `config.go:254-259`, `268-273` `Exit`. -/
def Ctx.exit (c : Ctx) (o : Calls) : Ctx × Bool := if c.f.isNone then (c, true) else c.stop o

/-- What happens; `start`, `stop` and `create` come from the overlay (`hud.go`). -/
inductive Op
  | enter (o : Calls)
  | exit (o : Calls)
  | start (o : Calls)
  | stop (o : Calls)
  | create (o : Calls)
  | emit (b : Bytes)
deriving DecidableEq, Repr

def Ctx.op (c : Ctx) : Op → Ctx
  | .enter o => (c.enter o).1
  | .exit o => (c.exit o).1
  | .start o => (c.start o).1
  | .stop o => (c.stop o).1
  | .create o => (c.create o).1
  | .emit b => c.emit b

def Ctx.run (c : Ctx) (l : List Op) : Ctx := l.foldl Ctx.op c

/-! ### Profiles written at the end -/

/-- `config.go:173-178` `pprofProfileContext`, with what is in its file. -/
structure Snap where
  active : Bool := false
  f : Option File := none
deriving DecidableEq, Repr

/-- How system calls go, and the profile at that time. -/
structure SnapCalls where
  createOk : Bool := true
  seekOk : Bool := true
  truncOk : Bool := true
  /-- `none`: writing it fails -/
  profile : Option Bytes
  syncOk : Bool := true
deriving DecidableEq, Repr

/-- `config.go:367-377` `start`. -/
def Snap.start (s : Snap) (o : SnapCalls) : Snap × Bool :=
  match s.f with
  | some _ => ({ s with active := true }, true)
  | none => if o.createOk then ({ active := true, f := some {} }, true) else (s, false)

/-- `config.go:388-403` `take`.  (When writing fails nothing is written here.) -/
def take (f : File) (o : SnapCalls) : File × Bool :=
  if !o.seekOk then (f, false)
  else
    let f := f.seek 0
    if !o.truncOk then (f, false)
    else
      let f := { f with data := [] }
      match o.profile with
      | none => (f, false)
      | some b => (f.write b, o.syncOk)

/-- `config.go:379-386` `stop`; only with a file (`active` is set with one only). -/
def Snap.stop (s : Snap) (o : SnapCalls) : Snap × Bool :=
  if !s.active then (s, true)
  else
    match s.f with
    | none => (s, false)
    | some f => ({ active := false, f := some (take f o).1 }, (take f o).2)

/-- `config.go:275-280` `Enter`. -/
def Snap.enter (s : Snap) (o : SnapCalls) : Snap × Bool := if s.f.isNone then (s, true) else s.start o

/-- `config.go:282-287` `Exit`. -/
def Snap.exit (s : Snap) (o : SnapCalls) : Snap × Bool := if s.f.isNone then (s, true) else s.stop o

/-! ### All of them -/

/-- `config.go:32-36`. -/
structure Config where
  cpu : Ctx := {}
  trace : Ctx := {}
  snaps : List Snap := []

/-- `config.go:143-147`: the loop of `Enter`. -/
def enterSnaps : List Snap → List SnapCalls → List Snap × Bool
  | [], _ => ([], true)
  | s :: l, os =>
    let r := s.enter (os.headD { profile := none })
    if !r.2 then (r.1 :: l, false)
    else
      let q := enterSnaps l os.tail
      (r.1 :: q.1, q.2)

/-- `config.go:155-157`: the loop of `Exit`, from the last to the first; all are left whatever happens. -/
def exitSnaps : List Snap → List SnapCalls → List Snap × Bool
  | [], _ => ([], true)
  | s :: l, os =>
    let q := exitSnaps l os.tail
    let r := s.exit (os.headD { profile := none })
    (r.1 :: q.1, q.2 && r.2)

/-- `config.go:136-149` `Enter`. -/
def Config.enter (c : Config) (o1 o2 : Calls) (os : List SnapCalls) : Config × Bool :=
  let a := c.cpu.enter o1
  if !a.2 then ({ c with cpu := a.1 }, false)
  else
    let b := c.trace.enter o2
    if !b.2 then ({ c with cpu := a.1, trace := b.1 }, false)
    else
      let s := enterSnaps c.snaps os
      ({ cpu := a.1, trace := b.1, snaps := s.1 }, s.2)

/-- `config.go:153-161` `Exit`; whether there is no error. -/
def Config.exit (c : Config) (o1 o2 : Calls) (os : List SnapCalls) : Config × Bool :=
  let s := exitSnaps c.snaps os
  let b := c.trace.exit o2
  let a := c.cpu.exit o1
  ({ cpu := a.1, trace := b.1, snaps := s.1 }, s.2 && b.2 && a.2)

end Pfl
end Anansi
