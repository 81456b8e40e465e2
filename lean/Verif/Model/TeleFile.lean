import Verif.Model.Basic
/-
`x/platform/diag.go:337-353` `telemetryCollector.create` and the writing of `logData`
(`diag.go:364-370, 420-425`), on files.
A file is known by its name (no links, no removal); a handle has a name, an offset and is open or
closed.  `os.Create` empties the file; it is called before the lock is taken, so the worker may log
between it and the rest.  What the worker writes is any text.  After `Close` a handle is closed,
also when an error is returned (as in Go's `os`); closing or writing to a closed handle is an error
without effect.  Not modelled: the sending of errors to `coll.e`, and logging without a file.
-/
set_option autoImplicit false

namespace Anansi
namespace TFile

/-- A handle (`*os.File`). -/
structure Handle where
  name : Bytes
  off : Nat := 0
  isOpen : Bool := true
deriving DecidableEq, Repr

/-- The files by name, all handles that were made, and the collector: `coll.f` and `coll.buf`. -/
structure Coll where
  disk : Bytes → Option Bytes
  handles : List Handle := []
  f : Option Nat := none
  buf : Bytes := []

/-- What a file holds after bytes are written at an offset. -/
def writeAt (old : Bytes) (off : Nat) (b : Bytes) : Bytes :=
  old.take off ++ List.replicate (off - old.length) 0 ++ b ++ old.drop (off + b.length)

/-- `os.Create` when it succeeds: the number of the handle. -/
def Coll.osCreate (c : Coll) (nm : Bytes) : Nat × Coll :=
  (c.handles.length, { c with
    disk := fun n => if n = nm then some [] else c.disk n
    handles := c.handles ++ [{ name := nm }] })

/-- `os.File.Close` with how the system call goes: whether there is no error. -/
def Coll.close (c : Coll) (i : Nat) (ok : Bool) : Coll × Bool :=
  match c.handles[i]? with
  | some h =>
    if h.isOpen then ({ c with handles := c.handles.set i { h with isOpen := false } }, ok)
    else (c, false)
  | none => (c, false)

/-- `bytes.Buffer.WriteTo` of the collector's buffer to a handle, of which so many bytes get
through. -/
def Coll.writeTo (c : Coll) (i : Nat) (n : Nat) : Coll :=
  match c.handles[i]? with
  | some h =>
    if h.isOpen then
      let b := c.buf.take n
      if b = [] then c
      else { c with
        disk := fun nm => if nm = h.name then some (writeAt ((c.disk nm).getD []) h.off b) else c.disk nm
        handles := c.handles.set i { h with off := h.off + b.length }
        buf := c.buf.drop n }
    else c
  | none => c

/-- `diag.go:364-370, 420-425`: logging a text. -/
def Coll.logData (c : Coll) (text : Bytes) (n : Nat) : Coll :=
  match c.f with
  | some i =>
    let c := { c with buf := [] }
    let c := { c with buf := c.buf ++ text }
    c.writeTo i n
  | none => c

/-- Logging several. -/
def Coll.logAll (c : Coll) (l : List (Bytes × Nat)) : Coll :=
  l.foldl (fun c x => c.logData x.1 x.2) c

/-- `diag.go:342-352`: what is done under the lock with the new handle: whether there is no error. -/
def Coll.swap (c : Coll) (i : Nat) (closeOk : Bool) : Coll × Bool :=
  match c.f with
  | some j =>
    let r := c.close j closeOk
    if r.2 then ({ r.1 with f := some i }, true)
    else ((r.1.close i true).1, false)
  | none => ({ c with f := some i }, true)

/-- `diag.go:337-353` `create`; the texts are logged by the worker before the lock is taken. -/
def Coll.create (c : Coll) (nm : Bytes) (createOk closeOk : Bool) (mid : List (Bytes × Nat)) : Coll × Bool :=
  if !createOk then (c.logAll mid, false)
  else
    let r := c.osCreate nm
    (r.2.logAll mid).swap r.1 closeOk

/-- What happens: the worker logs a text, of which so many bytes can be written, or a file is
chosen (by the configuration, `config.go:88-92`, or in the overlay, `hud.go:551`). -/
inductive Step where
  | log (text : Bytes) (n : Nat)
  | create (nm : Bytes) (createOk closeOk : Bool) (mid : List (Bytes × Nat))
deriving DecidableEq, Repr

/-- A step. -/
def Coll.step (c : Coll) : Step → Coll
  | .log t n => c.logData t n
  | .create nm a b mid => (c.create nm a b mid).1

/-- Steps. -/
def Coll.run (c : Coll) (l : List Step) : Coll := l.foldl Coll.step c

end TFile
end Anansi
