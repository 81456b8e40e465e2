import Verif.Model.Basic
import Mathlib.Data.List.Sort
/-
`x/platform/diag.go:40-48, 78-158, 190-199, 233-301` frame timing, output stalls and resource usage, and
`x/platform/options.go:17-26` `FrameRate`.
Times are nanoseconds from the zero time, which is 0; `time.Time.Sub` is exact (the code's
saturates at about 292 years).  Not modelled: floating point results (`FPS`, `Pct`,
`FPSEstimate`).  The switches and the log are in `Model/TeleLog`.
-/
set_option autoImplicit false

namespace Anansi
namespace Tel

/-- `diag.go:136-143` `TimingStats` without `FPS`. -/
structure Stats where
  time : Int := 0
  elapsed : Int := 0
  min : Int := 0
  max : Int := 0
  q1 : Int := 0
  q2 : Int := 0
  q3 : Int := 0
deriving DecidableEq, Repr

/-- `diag.go:125-133` `TimingData`. -/
structure Timing where
  stats : Stats := {}
  i : Nat := 0
  ts : List Int
  ds : List Int
deriving DecidableEq, Repr

/-- `diag.go:240-264`: the first pass over the times, from the time before and the
statistics so far: the durations and the statistics. -/
def pass (last : Int) (s : Stats) : List Int → List Int × Stats
  | [] => ([], s)
  | t :: l =>
    let d := if last = 0 then 0 else t - last
    let s := if s.elapsed = 0 then { s with min := d, max := d, elapsed := d }
      else { s with elapsed := s.elapsed + d,
                    min := if s.min > d then d else s.min,
                    max := if s.max < d then d else s.max }
    let r := pass t s l
    (d :: r.1, r.2)

/-- `diag.go:233-276` `TimingData.update` at a time: the data afterwards and whether a
round is complete; `none` is an index panic. -/
def Timing.update (td : Timing) (t : Int) : Option (Timing × Bool) :=
  if td.i < td.ts.length then
    let ts := td.ts.set td.i t
    let i := (td.i + 1) % ts.length
    if i > 0 then some ({ td with ts, i }, false)
    else if td.ds.length < ts.length then none
    else
      let r := pass td.stats.time { time := t } ts
      -- `sort.Sort` of the durations: any way to sort integers gives the same
      let ds := (r.1 ++ td.ds.drop ts.length).insertionSort (· ≤ ·)
      let q := ds.length / 4
      match ds[1 * q]?, ds[2 * q]?, ds[3 * q]? with
      | some q1, some q2, some q3 => some ({ ts, i, ds, stats := { r.2 with q1, q2, q3 } }, true)
      | _, _, _ => none
  else none

/-- Updates; the results of each. -/
def Timing.updates (td : Timing) : List Int → Option (Timing × List Bool)
  | [] => some (td, [])
  | t :: l => (td.update t).bind fun r => (r.1.updates l).map fun q => (q.1, r.2 :: q.2)

/-- `diag.go:190-199` `reset`. -/
def Timing.reset (td : Timing) : Timing :=
  { stats := {}, i := 0, ts := td.ts.map fun _ => 0, ds := td.ds.map fun _ => 0 }

/-- `options.go:17-26` `FrameRate`: the tick in nanoseconds and the timing data; `none` is
a panic, for division by zero or a negative length. -/
def frameRate (fps : Int) : Option (Int × Timing) :=
  if fps ≤ 0 then none
  else some (1000000000 / fps, { ts := List.replicate (fps / 4).toNat 0, ds := List.replicate (fps / 4).toNat 0 })

/-- `diag.go:150-158` `StallsStats` without `Pct`. -/
structure Stalls where
  n : Nat := 0
  time : Int := 0
  min : Int := 0
  max : Int := 0
  sum : Int := 0
deriving DecidableEq, Repr

/-- `diag.go:287-295`: the loop. -/
def stallLoop (s : Stalls) : List Int → Stalls
  | [] => s
  | d :: l => stallLoop { s with
      min := if s.min > d then d else s.min
      max := if s.max < d then d else s.max
      sum := s.sum + d } l

/-- `diag.go:278-301` `StallsData.update`. -/
def stallsUpdate (t : Int) : List Int → Stalls
  | [] => { n := 0, time := t }
  | d :: l => stallLoop { n := l.length + 1, time := t, min := d, max := d, sum := d } l

/-- `diag.go:45-48` `rusageEntry`: a time, and resource usage of any kind. -/
structure Entry (α : Type) where
  t : Int := 0
  use : α
deriving DecidableEq, Repr

/-- `diag.go:40-43` `rusageData`. -/
structure Usage (α : Type) where
  i : Nat := 0
  data : List (Entry α)
deriving DecidableEq, Repr

variable {α : Type}

/-- `diag.go:111-122` `rusageData.update` with the result of the system call (`none` when
it fails), and whether the error is nil.  (A failed call is taken not to have changed the
entry.) -/
def Usage.update (u : Usage α) (t : Int) (use : Option α) : Usage α × Bool :=
  if u.data = [] then (u, true)
  else match use with
  | none => (u, false)
  | some x => ({ i := (u.i + 1) % u.data.length, data := u.data.set u.i { t, use := x } }, true)

/-- `diag.go:94-99`: the entry `k` before number `j`. -/
def Usage.back (u : Usage α) (j k : Nat) : Option (Entry α) :=
  if j < k then u.data[u.data.length + j - k]? else u.data[j - k]?

/-- `diag.go:91-107`: the loop from `k`, `m` rounds, with the windows left. -/
def Usage.deltasFrom (u : Usage α) (j : Nat) (latest : Entry α) :
    Nat → Nat → Option (Entry α) → List Int → List (Entry α × Entry α)
  | 0, _, _, _ => []
  | _ + 1, _, _, [] => []
  | m + 1, k, oldest, o :: os =>
    match u.back j k with
    | none => []
    | some e =>
      if e.t = 0 ∨ latest.t - e.t > o then
        (match oldest with
          | some x => if x.t ≠ 0 then [(latest, x)] else []
          | none => []) ++ u.deltasFrom j latest m (k + 1) (some e) os
      else u.deltasFrom j latest m (k + 1) (some e) (o :: os)

/-- `diag.go:78-109` `computeDeltas`; `none` is an index panic. -/
def Usage.deltas (u : Usage α) (over : List Int) : Option (List (Entry α × Entry α)) :=
  let n := u.data.length
  if n = 0 then none
  else
    let j := if u.i = 0 then n - 1 else u.i - 1
    match u.data[j]? with
    | none => none
    | some latest => if latest.t = 0 then some [] else some (u.deltasFrom j latest (n - 1) 1 none over)

end Tel
end Anansi
