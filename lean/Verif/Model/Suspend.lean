import Mathlib.Data.List.Basic
/-
`term.go:172-187` `Suspend`, with `RunWithout` (`term.go:154-167`) around it: the goroutine that
calls it, the process stopped and continued from outside, and the goroutine of Go's `os/signal`
that hands signals on.

`os/signal` does not wait when it sends to a channel, and the channel of `Suspend` (line 177) has
no buffer: a signal is received only if the receiver is already waiting.  Between the return of
`syscall.Kill` and the receive (line 184) the goroutine can be anywhere; `recv` is before the
receive and `blocked` in it.  A stopped process does nothing.  The contexts are taken as one, with
the results of their `Exit` and `Enter` given; logging is left out.
-/
set_option autoImplicit false

namespace Anansi.Susp

/-- Which call a failure is from. -/
inductive Call
  | exit | kill | enter
deriving DecidableEq, Repr

/-- What the calls return. -/
structure Env where
  exitOk : Bool := true
  killOk : Bool := true
  enterOk : Bool := true
deriving DecidableEq, Repr

/-- Where the goroutine stands; a result of `none` is a nil error. -/
inductive Pc
  /-- lines 173-175 -/
  | start
  /-- `RunWithout`: lines 158-159 -/
  | exit
  /-- lines 177-178 -/
  | notify
  /-- line 181 -/
  | kill
  | recv
  | blocked
  /-- the deferred `signal.Stop`, line 179 -/
  | stop (r : Option Call)
  /-- `RunWithout`: lines 161-163 -/
  | enter
  | done (r : Option Call)
deriving DecidableEq, Repr

structure St where
  pc : Pc := .start
  /-- `term.active` -/
  active : Bool
  /-- the contexts are entered -/
  entered : Bool
  /-- the call came through `RunWithout` -/
  wrapped : Bool := false
  /-- `os/signal` sends to the channel -/
  registered : Bool := false
  /-- the process is stopped -/
  stopped : Bool := false
  /-- a SIGCONT has come and was not yet handed on -/
  pending : Bool := false
  /-- how often the process was stopped by the call, and continued after that -/
  stops : Nat := 0
  conts : Nat := 0
deriving DecidableEq, Repr

/-- What can happen next. -/
inductive Step
  /-- the goroutine goes on -/
  | go
  /-- somebody sends SIGCONT -/
  | cont
  /-- `os/signal` hands a signal on -/
  | deliver
deriving DecidableEq, Repr

/-- The goroutine's next step. -/
def St.go (v : Env) (s : St) : St :=
  match s.pc with
  | .start => if s.active then { s with pc := .exit, wrapped := true } else { s with pc := .notify }
  | .exit =>
    if v.exitOk then { s with pc := .notify, entered := false, active := false }
    else { s with pc := .done (some .exit), entered := false }
  | .notify => { s with pc := .kill, registered := true }
  | .kill =>
    if v.killOk then { s with pc := .recv, stopped := true, stops := s.stops + 1 }
    else { s with pc := .stop (some .kill) }
  | .recv => { s with pc := .blocked }
  | .blocked => s
  | .stop r =>
    { s with registered := false, pc := if s.wrapped ∧ r = none then .enter else .done r }
  | .enter =>
    if v.enterOk then { s with pc := .done none, entered := true, active := true }
    else { s with pc := .done (some .enter) }
  | .done _ => s

def St.step (v : Env) (s : St) : Step → St
  | .go => if s.stopped then s else s.go v
  | .cont => { s with stopped := false, pending := true, conts := if s.stops = 0 then 0 else s.conts + 1 }
  | .deliver =>
    if s.stopped ∨ s.pending = false then s
    else if s.registered ∧ s.pc = .blocked then { s with pending := false, pc := .stop none }
    else { s with pending := false }

def St.steps (v : Env) (s : St) (l : List Step) : St := l.foldl (St.step v) s

/-- A terminal, in use or not, when `Suspend` is called. -/
def init (active : Bool) : St := { active, entered := active }

end Anansi.Susp
