import Verif.Model.Render
/-
`render.go:159-187`: `WriteGrid`, `Screen.Update` and `Cursor.ApplyTo` (`state.go:209-213`,
`230-232`) with a destination that has none of the methods for writing sequences: all is put
together in a buffer first and then written with one `Write`.  The destination is given by what
its `Write` answers; Go's `bytes.Buffer.WriteTo` is modelled from its documentation and source:
it writes nothing if the buffer is empty, panics if more bytes were taken than given, and reports
a short write without an error as one.
-/
set_option autoImplicit false

namespace Anansi.Thru

/-- What a `Write` answers: how many bytes it took, and whether with an error. -/
structure Took where
  n : Nat
  err : Bool := false
deriving DecidableEq, Repr

/-- The errors of `bytes.Buffer.WriteTo`: the destination's, or `io.ErrShortWrite`. -/
inductive Err
  | failed | short
deriving DecidableEq, Repr

/-- `buffer.go:42-48` `WriteTo` of a fresh buffer with these bytes: what the destination got, and
the error; `none` is the panic. -/
def flush (b : Bytes) (o : Took) : Option (Bytes × Option Err) :=
  if b = [] then some ([], none)
  else if b.length < o.n then none
  else some (b.take o.n, if o.err then some .failed else if o.n ≠ b.length then some .short else none)

/-- What such a call returns, and what the destination got. -/
structure Out (α : Type) where
  n : Nat
  state : α
  err : Option Err
  got : Bytes
deriving Repr

/-- `render.go:159-175` `withAnsiCursorWriter`, of a function with this result. -/
def through {α : Type} (r : Option (α × Bytes)) (o : Took) : Option (Out α) :=
  r.bind fun r => (flush r.2 o).map fun f => { n := f.1.length, state := r.1, err := f.2, got := f.1 }

/-- `state.go:230-232` `Screen.Update`. -/
def update (gr : Nat → Bool) (sc prior : Screen) (o : Took) : Option (Out Screen) := through (sc.update gr prior) o

/-- `state.go:209-213` `Cursor.ApplyTo`. -/
def applyTo (cs cur : Cursor) (o : Took) : Option (Out Cursor) := through (cs.applyTo cur) o

/-- `render.go:15-25` `WriteGrid`. -/
def writeGrid (gr : Nat → Bool) (g : Grid) (prior : Screen) (ss : List StyleV) (o : Took) : Option (Out Screen) :=
  through (Render.writeGridTop gr g prior ss) o

end Anansi.Thru
