import Verif.Model.Basic
import Verif.Model.Worker
/-
`x/platform/log.go`: the log sink.

Two parts: the memory buffer with its line index (a sequential program), and the way of the
log lines to the log file (the main goroutine, which logs, and the worker of
`Model/Worker.lean`).
-/
set_option autoImplicit false

namespace Anansi
namespace Logs

/-- The memory part of `log.go:20-29` `LogSink`: the unread bytes of `buf`, and
`bufEOLs`. -/
structure Sink where
  buf : Bytes := []
  eols : List Nat := []
deriving DecidableEq, Repr

/-- `bytes.IndexByte` of a newline. -/
def indexNL (p : Bytes) : Option Nat := p.findIdx? (· = 0x0A)

/-- The loop `log.go:68-76`: the line ends found from `off` on, `base` being the length of
the buffer before.  Each turn advances, so as many turns as bytes are enough. -/
def eolLoop (base : Nat) (p : Bytes) : Nat → Nat → List Nat
  | 0, _ => []
  | f + 1, off =>
    if off < p.length then
      match indexNL (p.drop off) with
      | none => [base + p.length]
      | some i => (base + (off + i)) :: eolLoop base p f (off + i + 1)
    else []

/-- `log.go:64-67`: unwind an implicit line end; `none` is a panic (the index is out of
range). -/
def Sink.unwind (s : Sink) : Option (List Nat) :=
  match s.eols.getLast? with
  | none => some s.eols
  | some i =>
    if i < s.buf.length then
      if s.buf.getD i 0 ≠ 0x0A then some s.eols.dropLast else some s.eols
    else none

/-- `log.go:49-80` `Write`, apart from the file; `none` is a panic.  (If a direct write to
the file fails the function returns before, with the sink as it was.) -/
def Sink.write (s : Sink) (p : Bytes) : Option Sink :=
  if p.length = 0 then some s
  else s.unwind.map fun es => ⟨s.buf ++ p, es ++ eolLoop s.buf.length p p.length 0⟩

/-- `log.go:37-47` `Read` into a slice of length `k`: the new state and the bytes.  (The
line ends are natural numbers, as those kept are not less than `n`.) -/
def Sink.read (s : Sink) (k : Nat) : Sink × Bytes :=
  let n := min k s.buf.length
  (⟨s.buf.drop n, (s.eols.dropWhile (· < n)).map (· - n)⟩, s.buf.take n)

/-- A call. -/
inductive Call
  | write (p : Bytes)
  | read (k : Nat)
deriving DecidableEq, Repr

def Sink.call (s : Sink) : Call → Option Sink
  | .write p => s.write p
  | .read k => some (s.read k).1

/-- A sequence of calls; `none` is a panic. -/
def Sink.calls : Sink → List Call → Option Sink
  | s, [] => some s
  | s, c :: l => (s.call c).bind fun s => s.calls l

/-! ### The log file -/

/-- The log file and what is on its way there: `fbuf` (deferred bytes), `file` (bytes
written), `flushing`: the worker is inside `fbuf.WriteTo`, having taken that many bytes to
write; `direct` as in the code; `logged` collects all that was logged since. -/
structure File where
  bg : Bg.State := {}
  fbuf : Bytes := []
  file : Bytes := []
  flushing : Option Nat := none
  direct : Bool := false
  logged : Bytes := []
deriving DecidableEq, Repr

/-- What can happen next. -/
inductive Act
  /-- the worker enters `fbuf.WriteTo` (`log.go:122`) -/
  | flush
  /-- the worker or `Stop` or `Notify` makes a step; a failing flush has written some
  bytes -/
  | bg (a : Bg.Act) (k : Nat)
  /-- the main goroutine logs -/
  | log (p : Bytes)
deriving DecidableEq, Repr

/-- One step.  Leaving `fbuf.WriteTo` is the worker's step out of `work`: the bytes taken
at the beginning have been written, and `bytes.Buffer` is then reset (`log.go:122`; a
failed write keeps what was not written).  The main goroutine logs to the file or to the
buffer (`log.go:54-60`), but not while it is in `Stop`, which sets `direct` once it has
heard from the worker (`log.go:103-104`). -/
def File.step (s : File) : Act → Option File
  | .flush =>
    match s.bg.worker with
    | .work _ => if s.bg.fNil ∨ s.flushing.isSome then none else some { s with flushing := some s.fbuf.length }
    | _ => none
  | .bg a k =>
    (s.bg.step a).bind fun b =>
      match a, s.bg.worker with
      | .worker fails, .work _ =>
        if s.bg.fNil then some { s with bg := b }
        else match s.flushing with
          | none => none
          | some n =>
            if fails then
              some { s with bg := b, flushing := none, file := s.file ++ s.fbuf.take (min k n), fbuf := s.fbuf.drop (min k n) }
            else some { s with bg := b, flushing := none, file := s.file ++ s.fbuf.take n, fbuf := [] }
      | .stop, _ => some { s with bg := b, direct := s.direct || decide (s.bg.stop = .waiting) }
      | _, _ => some { s with bg := b }
  | .log p =>
    if s.bg.fNil then some s
    else match s.bg.stop with
      | .closing => none
      | .niling => none
      | .waiting => none
      | _ =>
        if s.direct then some { s with file := s.file ++ p, logged := s.logged ++ p }
        else some { s with fbuf := s.fbuf ++ p, logged := s.logged ++ p }

def File.run (s : File) : List Act → Option File
  | [] => some s
  | a :: l => (s.step a).bind fun s => s.run l

end Logs
end Anansi
