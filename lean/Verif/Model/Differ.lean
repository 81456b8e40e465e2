import Verif.Model.VScreen
import Verif.Model.Render
/-
`screen.go`: the screen differ.
-/
set_option autoImplicit false

namespace Anansi
open Geom

/-- `screen.go:22-27` `ScreenDiffer`. -/
structure Differ where
  user : Cursor := {}
  v : VScreen := {}
  real : Screen := {}
deriving DecidableEq, Repr

/-- What the destination does with the one `Write` call of `bytes.Buffer.WriteTo`:
takes everything, takes `k` bytes and would block, or takes `k` bytes and fails. -/
inductive Wrote
  | ok
  | block (k : Nat)
  | fail (k : Nat)
deriving DecidableEq, Repr

/-- The error returned. -/
inductive FlushErr
  | sub | wouldBlock | other
deriving DecidableEq, Repr

namespace Differ

/-- `screen.go:51-55` `Clear`. -/
def clear (d : Differ) : Except Fault Differ :=
  d.v.sc.clear.map fun sc => { d with v := ⟨sc, d.v.buf.reset⟩, user := {} }

/-- `screen.go:45-48` `Reset`. -/
def reset (d : Differ) : Except Fault Differ :=
  d.clear.map fun d => { d with v := { d.v with sc := { d.v.sc with cur := d.real.cur } } }

/-- `screen.go:67-69` `Invalidate`. -/
def invalidate (d : Differ) : Differ := { d with real := (d.real.resize (0, 0)).1 }

/-- `screen.go:58-64` `Resize`. -/
def resize (d : Differ) (s : Nat × Nat) : Differ × Bool :=
  let r := d.v.sc.resize s
  let d := { d with v := { d.v with sc := r.1 } }
  if r.2 then (d.invalidate, true) else (d, false)

/-- The recorded state and the updated copy of it share their cell arrays unless the
update had to allocate larger ones (`state.go:241-243`): the new cells then show up in
the recorded state at once. -/
def share (real state : Screen) : Screen :=
  if state.grid.cells.length = real.grid.cells.length then
    { real with grid := { real.grid with cells := state.grid.cells } }
  else real

/-- `screen.go:91-107` the deferred functions: flush the buffer, and record `state` on
success.  An empty buffer is flushed without calling `Write`. -/
def finish (d : Differ) (state : Screen) (o : Wrote) : Except Fault (Differ × Bytes × Option FlushErr) :=
  let b := d.v.buf.buf
  if b = [] then .ok ({ d with real := state }, [], none)
  else match o with
  | .ok => .ok ({ d with v := { d.v with buf := d.v.buf.writeTo b.length }, real := state }, b, none)
  | .block k => .ok ({ d with v := { d.v with buf := d.v.buf.writeTo k } }, b.take k, some .wouldBlock)
  | .fail k =>
    (({ d with v := { d.v with buf := d.v.buf.writeTo k } } : Differ).reset).map fun d =>
      (d.invalidate, b.take k, some .other)

/-- `screen.go:85-125` `WriteTo` a plain writer: the new state, the bytes accepted and
the error. -/
def writeTo (gr : Nat → Bool) (d : Differ) (o : Wrote) :
    Except Fault (Differ × Bytes × Option FlushErr) :=
  if d.v.sc.grid.isSub then .ok (d, [], some .sub)
  else if d.v.buf.buf.length > 0 then d.finish d.real o
  else
    let v : VScreen := { d.v with sc := { d.v.sc with cur := d.user } }
    match v.sc.update gr d.real with
    | none => .error .panic
    | some (state, b) =>
      ({ d with v := { v with buf := v.buf.write b }, real := share d.real state } : Differ).finish state o

/-- A sequence of flushes with nothing in between: what each accepted and returned. -/
def flushes (gr : Nat → Bool) (d : Differ) : List Wrote → Except Fault (Differ × List (Bytes × Option FlushErr))
  | [] => .ok (d, [])
  | o :: os => (d.writeTo gr o).bind fun r => (flushes gr r.1 os).map fun s => (s.1, r.2 :: s.2)

end Differ
end Anansi
