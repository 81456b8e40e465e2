import Verif.Model.Basic
/-
`x/platform/log.go:49-61, 83-148`: where log lines go when the log file is changed.
`Model/Log.lean` has one file and all interleavings with the worker; here the worker always
comes to rest before the main goroutine goes on, and writing to an open file succeeds.  Files
are numbers.
-/
set_option autoImplicit false

namespace Anansi
namespace Lgs

/-- `log.go:20-29` `LogSink`, with the files and the worker. -/
structure Sink where
  f : Option Nat := none
  /-- `logs.w` is not nil -/
  w : Bool := false
  /-- there is a worker, and it waits for work -/
  alive : Bool := false
  direct : Bool := false
  fbuf : Bytes := []
  /-- the log in memory -/
  mem : Bytes := []
  files : Nat → Bytes := fun _ => []
  closed : List Nat := []

/-- Bytes appended to a file. -/
def Sink.append (s : Sink) (h : Nat) (b : Bytes) : Sink :=
  { s with files := fun i => if i = h then s.files i ++ b else s.files i }

/-- `log.go:49-61, 78` `Write`: a direct write to a closed file fails, and then the line does not
get into memory either. -/
def Sink.log (s : Sink) (p : Bytes) : Sink :=
  match s.f with
  | none => { s with mem := s.mem ++ p }
  | some h =>
    if s.direct then
      if h ∈ s.closed then s else { s.append h p with mem := s.mem ++ p }
    else { s with fbuf := s.fbuf ++ p, mem := s.mem ++ p }

/-- `log.go:108-124`: the worker is woken; it ends if there is no file. -/
def Sink.wake (s : Sink) : Sink :=
  if !s.alive then s
  else match s.f with
    | none => { s with alive := false }
    | some h => if h ∈ s.closed then s else { s.append h s.fbuf with fbuf := [] }

/-- `bg.go:98-109` `Notify`. -/
def Sink.notify (s : Sink) : Sink := if s.w then s.wake else s

/-- `log.go:86-96` `Start`. -/
def Sink.start (s : Sink) : Sink :=
  if s.f.isNone || s.w then s else { s with w := true, alive := true, direct := false }

/-- `log.go:100-107` `Stop`: the worker is woken and ends. -/
def Sink.stop (s : Sink) : Sink :=
  if s.f.isNone || !s.w then s else { s.wake with w := false, alive := false, direct := true }

/-- `log.go:128-148` `SetFile`, with what it logs; `closeOk`: closing the old file succeeds. -/
def Sink.setFile (s : Sink) (f : Option Nat) (closeOk : Bool) (msg : Bytes) : Sink :=
  if s.f = f then s
  else if s.f.isSome && !closeOk then s
  else
    let s := { s with closed := s.closed ++ s.f.toList }
    match f with
    | some h => ({ s.log msg with f := some h }).start
    | none => if s.f.isSome then ({ s.log msg with f := none }).stop else s

/-- What happens. -/
inductive Op
  | log (p : Bytes)
  | notify
  | start
  | stop
  | setFile (f : Option Nat) (closeOk : Bool) (msg : Bytes)
deriving DecidableEq, Repr

def Sink.op (s : Sink) : Op → Sink
  | .log p => s.log p
  | .notify => s.notify
  | .start => s.start
  | .stop => s.stop
  | .setFile f ok m => s.setFile f ok m

def Sink.run (s : Sink) (l : List Op) : Sink := l.foldl Sink.op s

end Lgs
end Anansi
