import Verif.Model.Basic
/-
`x/platform/tick.go`: the ticker of the frame loop.
Tickers (of package time) and channels are numbers, given out in order.  Times are natural
numbers other than zero (which is the zero time).
-/
set_option autoImplicit false

namespace Anansi
namespace Tik

/-- `tick.go:11-16` `Ticker`, and the tickers and channels there are. -/
structure Ticker where
  /-- `ct.d`, in nanoseconds -/
  d : Nat := 0
  /-- `ct.t` -/
  t : Option Nat := none
  /-- `ct.c` -/
  c : Option Nat := none
  tickers : Nat := 0
  chans : Nat := 0
  /-- tickers which have not been stopped, with their durations -/
  going : List (Nat × Nat) := []
  /-- closed channels -/
  closed : List Nat := []
  /-- tickers with a tick in their channel (which holds one), and its time -/
  ticks : List (Nat × Nat) := []
deriving DecidableEq, Repr

/-- `time.Second / defaultFrameRate` (`platform.go:31`). -/
def defaultTick : Nat := 1000000000 / 60

/-- `tick.go:31-41` `Exit`. -/
def Ticker.exit (k : Ticker) : Ticker :=
  let k := match k.t with
    | some n => { k with going := k.going.filter (fun x => x.1 ≠ n), t := none }
    | none => k
  match k.c with
  | some n => { k with closed := n :: k.closed, c := none }
  | none => k

/-- `tick.go:20-28` `Enter`. -/
def Ticker.enter (k : Ticker) : Ticker :=
  let k := k.exit
  let k := if k.d = 0 then { k with d := defaultTick } else k
  { k with t := some k.tickers, tickers := k.tickers + 1, c := some k.chans, chans := k.chans + 1,
           going := (k.tickers, k.d) :: k.going }

/-- A ticker puts a time into its channel, unless it is full or the ticker stopped. -/
def Ticker.fire (k : Ticker) (n time : Nat) : Ticker :=
  if n ∈ k.going.map Prod.fst ∧ n ∉ k.ticks.map Prod.fst then { k with ticks := (n, time) :: k.ticks } else k

/-- What happens while others wait. -/
inductive Op
  | enter
  | exit
  | fire (n time : Nat)
deriving DecidableEq, Repr

def Ticker.op (k : Ticker) : Op → Ticker
  | .enter => k.enter
  | .exit => k.exit
  | .fire n t => k.fire n t

def Ticker.run (k : Ticker) (l : List Op) : Ticker := l.foldl Ticker.op k

/-- `tick.go:45-56` `Wait`: the channels it waits for, which it looks up at the beginning (nil if
there is no ticker). -/
structure Wait where
  tc : Option Nat
  c : Option Nat
deriving DecidableEq, Repr

def Ticker.wait (k : Ticker) : Wait := ⟨k.t, k.c⟩

/-- What the wait can return now: nothing can be received from a nil channel, and always from a
closed one. -/
def Wait.ready (w : Wait) (k : Ticker) : List Nat :=
  (match w.tc with
   | some n => (k.ticks.filter fun x => x.1 = n).map Prod.snd
   | none => []) ++
  (match w.c with
   | some n => if n ∈ k.closed then [0] else []
   | none => [])

end Tik
end Anansi
