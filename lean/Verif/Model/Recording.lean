import Verif.Model.Basic
/-
`x/platform/replay.go:155-227`: starting and stopping a recording, and loading it as a replay;
`input.go:306-311`: what goes to the recording while it is on.
Files are numbers, given out in order.  What is in them is in `Model/Sized.lean`,
`Model/Replay.lean` and `Model/Play.lean`; here it is what is done with them.  Not modelled:
messages to the log.
-/
set_option autoImplicit false

namespace Anansi
namespace Rcd

/-- What is done with files. -/
inductive Act
  /-- `os.Create` or `os.Open` -/
  | opened (h : Nat)
  | write (h : Nat) (b : Bytes)
  | read (h : Nat)
  /-- `os.Remove` of its name -/
  | remove (h : Nat)
  | close (h : Nat)
deriving DecidableEq, Repr

/-- `platform.go:98-131` `Platform`, as far as it matters here, and what has been done. -/
structure Plat where
  /-- `p.recording` -/
  recording : Option Nat := none
  /-- `p.term.Input.rec` -/
  input : Option Nat := none
  /-- the file from which `p.replay` is -/
  replay : Option Nat := none
  next : Nat := 0
  acts : List Act := []
deriving DecidableEq, Repr

/-- What writing the beginning of a recording comes to: the chunks of the state, and whether
writing the state, its size, and the size of the screen succeeds. -/
structure Begin where
  state : Bytes
  stateOk : Bool
  head : Bytes
  headOk : Bool
  size : Bytes
  sizeOk : Bool
deriving DecidableEq, Repr

/-- `replay.go:156-162`: the end of a recording. -/
def Plat.stop (p : Plat) : Plat :=
  let p := { p with input := none }
  match p.recording with
  | none => p
  | some g => { p with recording := none, acts := p.acts ++ [Act.close g] }

/-- `replay.go:164-174`: what is written at the beginning, and whether all of it was. -/
def Begin.acts (o : Begin) (h : Nat) : List Act × Bool :=
  if !o.stateOk then ([.write h o.state], false)
  else if !o.headOk then ([.write h o.state, .write h o.head], false)
  else ([.write h o.state, .write h o.head, .write h o.size], o.sizeOk)

/-- `replay.go:155-187` `setRecording` with a file (`none`: nil) and no error; an error comes
only with a nil file (from `os.Create`), and is then not looked at. -/
def Plat.setRecording (p : Plat) (f : Option Nat) (o : Begin) : Plat :=
  let p := p.stop
  match f with
  | none => p
  | some h =>
    let w := o.acts h
    let p := { p with acts := p.acts ++ w.1 }
    if w.2 then { p with recording := some h, input := some h }
    else { p with recording := none, acts := p.acts ++ [Act.remove h, Act.close h] }

/-- Errors returned by `toggleRecRep`. -/
inductive Res
  | nil
  | replayDone
  | failed
deriving DecidableEq, Repr

/-- How system calls go in a toggle. -/
structure Calls where
  /-- `os.Create` or `os.Open` -/
  openOk : Bool
  start : Begin
  readOk : Bool
  closeOk : Bool
deriving DecidableEq, Repr

/-- `replay.go:189-199` `loadReplay`; whether it succeeds. -/
def Plat.loadReplay (p : Plat) (h : Nat) (o : Calls) : Plat × Bool :=
  let p := p.setRecording none o.start
  let p := { p with acts := p.acts ++ [Act.read h] }
  if o.readOk then ({ p with replay := some h }, true) else (p, false)

/-- `replay.go:201-216` `toggleRecRep`. -/
def Plat.toggle (p : Plat) (o : Calls) : Plat × Res :=
  match p.recording with
  | none =>
    if o.openOk then
      let h := p.next
      let p := { p with next := h + 1, acts := p.acts ++ [Act.opened h] }
      (p.setRecording (some h) o.start, .nil)
    else (p.setRecording none o.start, .nil)
  | some _ =>
    let p := p.setRecording none o.start
    if o.openOk then
      let h := p.next
      let p := { p with next := h + 1, acts := p.acts ++ [Act.opened h] }
      let r := p.loadReplay h o
      let p := { r.1 with acts := r.1.acts ++ [Act.close h] }
      (p, if r.2 && o.closeOk then .replayDone else .failed)
    else (p, .failed)

/-- `input.go:306-311` `recordFrame`, called for every read while recording. -/
def Plat.readInput (p : Plat) (b : Bytes) : Plat :=
  match p.input with
  | none => p
  | some h => { p with acts := p.acts ++ [Act.write h b] }

/-- What happens. -/
inductive Op
  | toggle (o : Calls)
  | input (b : Bytes)
deriving DecidableEq, Repr

def Plat.op (p : Plat) : Op → Plat
  | .toggle o => (p.toggle o).1
  | .input b => p.readInput b

def Plat.run (p : Plat) (l : List Op) : Plat := l.foldl Plat.op p

end Rcd
end Anansi
