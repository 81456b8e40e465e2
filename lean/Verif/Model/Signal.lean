import Mathlib.Data.List.Basic
/-
`signal.go`: the signal channel and the goroutines that use it.
-/
set_option autoImplicit false

namespace Anansi
namespace Sig

/-- A signal or synthetic signal, by a number. -/
abbrev Msg := Nat

/-- A buffered channel. -/
structure Chan where
  cap : Nat := 1
  buf : List Msg := []
deriving DecidableEq, Repr

/-- Where a goroutine calling `Send` stands (`signal.go:79-89`). -/
inductive Pc
  /-- between calls -/
  | idle
  /-- found `sig.C` nil: about to make a channel (line 81) -/
  | make (m : Msg)
  /-- about to evaluate `sig.C` for the plain send (line 82) -/
  | put (m : Msg)
  /-- in the plain send (line 82) -/
  | putOn (k : Option Nat) (m : Msg)
  /-- about to evaluate `sig.C` for the `select` (line 86) -/
  | try (m : Msg)
  /-- in the `select` (lines 85-88) -/
  | tryOn (k : Option Nat) (m : Msg)
deriving DecidableEq, Repr

/-- A goroutine that sends messages one after another. -/
structure Thread where
  todo : List Msg
  pc : Pc := .idle
deriving DecidableEq, Repr

/-- The `Signal` with all channels ever made, the goroutines that send, and what has been
received. -/
structure State where
  c : Option Nat := none
  chans : List Chan := []
  threads : List Thread := []
  got : List Msg := []
deriving DecidableEq, Repr

/-- `signal.go:41-49` `Open`, as far as the channel goes. -/
def State.open (s : State) : State :=
  match s.c with
  | none => { s with c := some s.chans.length, chans := s.chans ++ [{}] }
  | some _ => s

/-- A send that does not wait, on channel `k`. -/
def State.trySend (s : State) (k : Nat) (m : Msg) : State :=
  match s.chans[k]? with
  | some ch => if ch.buf.length < ch.cap then { s with chans := s.chans.set k { ch with buf := ch.buf ++ [m] } } else s
  | none => s

/-- One step of a goroutine in `Send`; `none` when it cannot move. -/
def State.stepThread (s : State) (i : Nat) : Option State :=
  match s.threads[i]? with
  | none => none
  | some t =>
    let goto (s : State) (pc : Pc) : State := { s with threads := s.threads.set i { t with pc := pc } }
    match t.pc with
    | .idle =>
      match t.todo with
      | [] => none
      | m :: r =>
        some { s with threads := s.threads.set i { todo := r, pc := if s.c = none then .make m else .try m } }
    | .make m => some (goto { s with c := some s.chans.length, chans := s.chans ++ [{}] } (.put m))
    | .put m => some (goto s (.putOn s.c m))
    | .putOn none _ => none
    | .putOn (some k) m =>
      match s.chans[k]? with
      | some ch =>
        if ch.buf.length < ch.cap then
          some (goto { s with chans := s.chans.set k { ch with buf := ch.buf ++ [m] } } .idle)
        else none
      | none => none
    | .try m => some (goto s (.tryOn s.c m))
    | .tryOn none _ => some (goto s .idle)
    | .tryOn (some k) m => some (goto (s.trySend k m) .idle)

/-- `signal.go:63-70` `AsErr`: receive without waiting. -/
def State.recv (s : State) : State :=
  match s.c with
  | none => s
  | some k =>
    match s.chans[k]? with
    | some { cap := n, buf := m :: r } =>
      { s with chans := s.chans.set k { cap := n, buf := r }, got := s.got ++ [m] }
    | _ => s

/-- What can happen next. -/
inductive Act
  /-- goroutine `i` makes a step -/
  | thread (i : Nat)
  /-- the runtime delivers a signal to channel `k`, without waiting -/
  | deliver (k : Nat) (m : Msg)
  /-- a receive -/
  | recv
  /-- `signal.go:52-58` `Close` -/
  | close
deriving DecidableEq, Repr

def State.step (s : State) : Act → Option State
  | .thread i => s.stepThread i
  | .deliver k m => some (s.trySend k m)
  | .recv => some s.recv
  | .close => some { s with c := none }

/-- A schedule. -/
def State.run (s : State) : List Act → Option State
  | [] => some s
  | a :: l => (s.step a).bind fun s => s.run l

end Sig
end Anansi
