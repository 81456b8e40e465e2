import Verif.Model.Input
/-
`output.go`: flushing buffered output into a file, and stall records.
-/
set_option autoImplicit false

namespace Anansi
namespace Outp
open Inp (O_NONBLOCK SETFL_MASK)

/-- Errors of writes, as far as the code looks at them. -/
inductive WErr
  | wouldBlock
  | other
deriving DecidableEq, Repr

/-- Errors of `Flush`. -/
inductive FErr
  | nil
  | write (e : WErr)
  | fcntl
deriving DecidableEq, Repr

/-- The output file: its flags, all bytes written to it, and whether the `os.File` was
made in non-blocking mode (see `Inp.Input.polled`). -/
structure File where
  flags : BitVec 64 := 0
  polled : Bool := false
  written : Bytes := []
deriving DecidableEq, Repr

/-- `os.File.Fd`. -/
def File.fd (f : File) : File := if f.polled then { f with flags := f.flags &&& ~~~O_NONBLOCK } else f

/-- `fcntl(F_SETFL)`. -/
def File.setfl (f : File) (v : BitVec 64) : File :=
  { f with flags := (f.flags &&& ~~~SETFL_MASK) ||| (v &&& SETFL_MASK) }

/-- What happens to a write: how many bytes the file takes at most, and the error if
those are not all. -/
structure Outcome where
  takes : Nat
  err : WErr
deriving DecidableEq, Repr

/-- `wer.WriteTo(out.File)`, where `wer` holds `p` and drops what has been written (as
`bytes.Buffer` does): the file, what `wer` still holds, the number of bytes and the error. -/
def File.take (f : File) (p : Bytes) (o : Outcome) : File × Bytes × Nat × FErr :=
  ({ f with written := f.written ++ p.take o.takes }, p.drop o.takes, (p.take o.takes).length,
    if p.length ≤ o.takes then .nil else .write o.err)

/-- `output.go:14-18` `Output`; `blocks` are the recorded durations and the capacity. -/
structure Output where
  file : Option File := none
  flushed : Nat := 0
  blocks : Option (List Nat × Nat) := none
deriving DecidableEq, Repr

/-- `output.go:32-38` `TrackStalls`; `none` when `make` panics. -/
def Output.trackStalls (out : Output) (n : Int) : Option Output :=
  if n = 0 then some { out with blocks := none }
  else if n < 0 then none
  else some { out with blocks := some ([], n.toNat) }

/-- `output.go:44-53` `Stalls`. -/
def Output.stalls (out : Output) (consume : Bool) : Output × List Nat :=
  match out.blocks with
  | none => (out, [])
  | some (l, n) => if l.length = n || consume then ({ out with blocks := some ([], n) }, l) else (out, l)

/-- `output.go:97-102` `recordStall` of a duration. -/
def Output.recordStall (out : Output) (d : Nat) : Output :=
  match out.blocks with
  | some (l, n) => if l.length < n then { out with blocks := some (l ++ [d], n) } else out
  | none => out

/-- What the system does during a flush: the outcomes of the two writes, whether the
three `fcntl` calls succeed, and how long a blocking flush takes. -/
structure Sys where
  first : Outcome
  second : Outcome
  getOk : Bool := true
  clearOk : Bool := true
  restoreOk : Bool := true
  takes : Nat := 0
deriving DecidableEq, Repr

/-- `output.go:78-95` `blockingFlush`, when the file is `f`. -/
def Output.blockingFlush (out : Output) (f : File) (p : Bytes) (y : Sys) : Output × Bytes × FErr :=
  let stalled (r : Output × Bytes × FErr) : Output × Bytes × FErr :=
    if out.blocks.isSome then (r.1.recordStall y.takes, r.2) else r
  let f := f.fd
  if !y.getOk then stalled ({ out with file := some f }, p, .fcntl)
  else
    let flags := f.flags
    let f := f.fd
    if !y.clearOk then stalled ({ out with file := some f }, p, .fcntl)
    else
      let f := f.setfl (flags &&& ~~~O_NONBLOCK)
      let (f, rest, n, err) := f.take p y.second
      let f := f.fd
      let f := if y.restoreOk then f.setfl flags else f
      stalled ({ out with file := some f, flushed := out.flushed + n }, rest,
        if err = .nil then (if y.restoreOk then .nil else .fcntl) else err)

/-- `output.go:65-76` `Flush`: the output, what `wer` still holds, and the error. -/
def Output.flush (out : Output) (p : Bytes) (y : Sys) : Output × Bytes × FErr :=
  match out.file with
  | none => (out, p, .nil)
  | some f =>
    let (f, rest, n, err) := f.take p y.first
    let out := { out with file := some f, flushed := n }
    if err = .write .wouldBlock then out.blockingFlush f rest y else (out, rest, err)

/-- What a user does with an output. -/
inductive Op
  | track (n : Int)
  | stalls (consume : Bool)
  | flush (p : Bytes) (y : Sys)
deriving DecidableEq, Repr

/-- The output after an operation; `none` if it panics. -/
def Output.op (out : Output) : Op → Option Output
  | .track n => out.trackStalls n
  | .stalls c => some (out.stalls c).1
  | .flush p y => some (out.flush p y).1

/-- The output after operations. -/
def Output.ops (out : Output) : List Op → Option Output
  | [] => some out
  | o :: l => (out.op o).bind fun out => out.ops l

end Outp
end Anansi
