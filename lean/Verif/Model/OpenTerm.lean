import Verif.Model.Basic
/-
`term.go:10-57` `OpenTerm`, `openTermFiles` and `IsStandardTermFile`, with `attr.go:27-31, 42-47` `IsTerminal`.

Files are numbers, given out in order.  Whether a file is a terminal, and whether opening "/dev/tty" for
reading and for writing succeeds, is given.  What the comment of `openTermFiles` says about the log is not done by it.
-/
set_option autoImplicit false

namespace Anansi
namespace Opn

/-- The files of the process: which were opened here, under which name and for writing or not, and which were closed. -/
structure Files where
  next : Nat
  name : Nat → Bytes
  opened : List (Nat × Bool) := []
  closed : List Nat := []

/-- What is outside. -/
structure Calls where
  /-- `attr.go:42-47`: the call for the attributes succeeds -/
  isTerminal : Nat → Bool
  /-- opening "/dev/tty" for reading -/
  readOk : Bool
  /-- opening it for writing -/
  writeOk : Bool

/-- "/dev/tty" -/
def tty : Bytes := [0x2F, 0x64, 0x65, 0x76, 0x2F, 0x74, 0x74, 0x79]

/-- `os.OpenFile` of "/dev/tty", when it succeeds. -/
def Files.open (w : Files) (write : Bool) : Files × Nat :=
  ({ w with next := w.next + 1, name := fun i => if i = w.next then tty else w.name i, opened := w.opened ++ [(w.next, write)] }, w.next)

/-- `os.File.Close`. -/
def Files.close (w : Files) (h : Nat) : Files := { w with closed := w.closed ++ [h] }

/-- `term.go:26-38`: the file for input, and whether the deferred function is there; `none`: an error. -/
def openIn (o : Calls) (w : Files) (inn : Nat) : Files × Option (Nat × Bool) :=
  if !o.isTerminal inn then
    if !o.readOk then (w, none)
    else let r := w.open false; (r.1, some (r.2, true))
  else (w, some (inn, false))

/-- `term.go:39-45`: the file for output; `none`: an error. -/
def openOut (o : Calls) (w : Files) (out : Nat) : Files × Option Nat :=
  if !o.isTerminal out then
    if !o.writeOk then (w, none)
    else let r := w.open true; (r.1, some r.2)
  else (w, some out)

/-- `term.go:25-46` `openTermFiles`; the deferred function closes what the variable `in` holds then. -/
def openTermFiles (o : Calls) (w : Files) (inn out : Nat) : Files × Option (Nat × Nat) :=
  match openIn o w inn with
  | (w, none) => (w, none)
  | (w, some (inn, deferred)) =>
    match openOut o w out with
    | (w, none) => (if deferred then w.close inn else w, none)
    | (w, some out) => (w, some (inn, out))

/-- "/dev/std" and a rest -/
def std (l : Bytes) : Bytes := [0x2F, 0x64, 0x65, 0x76, 0x2F, 0x73, 0x74, 0x64] ++ l
def stdin : Bytes := std [0x69, 0x6E]
def stdout : Bytes := std [0x6F, 0x75, 0x74]
def stderr : Bytes := std [0x65, 0x72, 0x72]

/-- `term.go:51-57` `IsStandardTermFile`. -/
def isStandard (name : Bytes) : Bool := name = stdin || name = stdout || name = stderr || name = tty

/-- `term.go:13-19` `OpenTerm` in a process whose standard files are 0, 1 and 2. -/
def openTerm (o : Calls) (w : Files) : Files × Option (Nat × Nat) := openTermFiles o w 0 1

end Opn
end Anansi
