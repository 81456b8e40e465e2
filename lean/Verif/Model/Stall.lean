import Verif.Model.Output
import Verif.Model.Differ
/-
`input.go:543-556` `unwrapOSError`, and `output.go:65-95` `Flush` of a screen (`screen.go:85-125`) into a file that may not take all of it at once.
Calls of `fcntl` succeed here; see `Model/Output.lean` for their failures.
-/
set_option autoImplicit false

namespace Anansi
namespace Stl
open Outp Inp

/-- Errors: none, a number of the system, the end of a file, any other; and those of package `os` that hold another one. -/
inductive GoErr
  | nil
  | errno (n : Nat)
  | eof
  | other (id : Nat)
  | path (op name : Bytes) (e : GoErr)
  | link (op old new : Bytes) (e : GoErr)
  | syscall (name : Bytes) (e : GoErr)
deriving DecidableEq, Repr

/-- `input.go:543-556` `unwrapOSError`. -/
def unwrap : GoErr → GoErr
  | .path _ _ e => unwrap e
  | .link _ _ _ e => unwrap e
  | .syscall _ e => unwrap e
  | e => e

/-- Bytes that the file has taken. -/
def took (f : File) (b : Bytes) : File := { f with written := f.written ++ b }

/-- `output.go:78-95` `blockingFlush`. -/
def blockingFlush (gr : Nat → Bool) (f : File) (d : Differ) (o : Wrote) : Except Fault (Differ × File × Nat × Option FlushErr) :=
  let f := f.fd
  let flags := f.flags
  let f := f.fd.setfl (flags &&& ~~~O_NONBLOCK)
  (d.writeTo gr o).map fun r => (r.1, (took f r.2.1).fd.setfl flags, r.2.1.length, r.2.2)

/-- `output.go:65-76` `Flush`: the screen, the file, the number of bytes and the error. -/
def flush (gr : Nat → Bool) (f : File) (d : Differ) (first second : Wrote) : Except Fault (Differ × File × Nat × Option FlushErr) :=
  (d.writeTo gr first).bind fun r =>
    if r.2.2 = some .wouldBlock then
      (blockingFlush gr (took f r.2.1) r.1 second).map fun s => (s.1, s.2.1, r.2.1.length + s.2.2.1, s.2.2.2)
    else .ok (r.1, took f r.2.1, r.2.1.length, r.2.2)

end Stl
end Anansi
