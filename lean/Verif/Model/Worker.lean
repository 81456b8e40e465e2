import Mathlib.Data.List.Basic
/-
`x/platform/bg.go` and the worker of `x/platform/log.go`: a background worker, and the
goroutine that stops it.
-/
set_option autoImplicit false

namespace Anansi
namespace Bg

/-- Where the worker stands (`log.go:108-119` `flushWorker`). -/
inductive WPc
  /-- about to evaluate `logs.w` (line 111) -/
  | eval
  /-- receiving from the channel evaluated, or from nil (line 111) -/
  | recv (nilChan : Bool)
  /-- about to test `logs.f` and flush (lines 112-115); `open` as received -/
  | work (opn : Bool)
  /-- sending an error (line 116) -/
  | sendErr (opn : Bool)
  /-- the deferred `close(logs.e)` (line 109) -/
  | closeE
  | done
deriving DecidableEq, Repr

/-- Where the main goroutine stands in `Stop` (`bg.go:74-83`, `log.go:99-106`). -/
inductive SPc
  /-- not stopping -/
  | idle
  /-- about to `close(core.w)` (`bg.go:76`) -/
  | closing
  /-- about to set `core.w = nil` (`bg.go:77`) -/
  | niling
  /-- receiving from `core.e` (`bg.go:82`) -/
  | waiting
  /-- `Stop` has returned, with an error or not -/
  | returned (err : Bool)
deriving DecidableEq, Repr

/-- The shared state: `wNil`: `core.w` is nil; `closed` and `tok`: the work channel (of
capacity one) is closed or holds a token; `eBuf` and `eClosed`: the error channel (of
capacity one) holds an error or is closed; `fNil`: `logs.f` is nil. -/
structure State where
  wNil : Bool := false
  closed : Bool := false
  tok : Bool := false
  eBuf : Bool := false
  eClosed : Bool := false
  fNil : Bool := false
  worker : WPc := .eval
  stop : SPc := .idle
deriving DecidableEq, Repr

/-- What can happen next. -/
inductive Act
  /-- the worker makes a step; if it flushes, whether that fails -/
  | worker (fails : Bool)
  /-- the main goroutine makes a step in `Stop`, or calls it -/
  | stop
  /-- the main goroutine calls `Notify` (taken as one step) -/
  | notify
deriving DecidableEq, Repr

/-- Back to the loop condition (`log.go:110`). -/
def loop (opn : Bool) : WPc := if opn then .eval else .closeE

/-- A step of the worker; `none` when it has to wait. -/
def State.stepWorker (s : State) (fails : Bool) : Option State :=
  match s.worker with
  | .eval => some { s with worker := .recv s.wNil }
  | .recv true => none
  | .recv false =>
    if s.tok then some { s with tok := false, worker := .work true }
    else if s.closed then some { s with worker := .work false }
    else none
  | .work opn =>
    if s.fNil then some { s with worker := .closeE }
    else if fails then some { s with worker := .sendErr opn }
    else some { s with worker := loop opn }
  | .sendErr opn => if s.eBuf then none else some { s with eBuf := true, worker := loop opn }
  | .closeE => some { s with eClosed := true, worker := .done }
  | .done => none

/-- A step of `LogSink.Stop`; `none` when it has to wait. -/
def State.stepStop (s : State) : Option State :=
  match s.stop with
  | .idle => if s.fNil || s.wNil then some { s with stop := .returned false } else some { s with stop := .closing }
  | .closing => some { s with closed := true, stop := .niling }
  | .niling => some { s with wNil := true, stop := .waiting }
  | .waiting =>
    if s.eBuf then some { s with eBuf := false, stop := .returned true }
    else if s.eClosed then some { s with stop := .returned false }
    else none
  | .returned _ => none

/-- `bg.go:98-109` `Notify` with `bg.go:85-96` `Error`. -/
def State.notify (s : State) : Option State :=
  if s.stop ≠ .idle then none
  else if s.wNil then some s
  else if s.eBuf then some { s with eBuf := false, closed := true, wNil := true }
  else some { s with tok := true }

def State.step (s : State) : Act → Option State
  | .worker f => s.stepWorker f
  | .stop => s.stepStop
  | .notify => s.notify

def State.run (s : State) : List Act → Option State
  | [] => some s
  | a :: l => (s.step a).bind fun s => s.run l

end Bg
end Anansi
