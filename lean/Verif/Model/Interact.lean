import Verif.Model.EditLine
import Verif.Model.EscName
/-
`cmd/interact/main.go`: a command line with variables to be filled in.  Strings are lists of bytes.
Drawing is left out; whether a word was pressed (`CountPressesIn`) and what the edit line makes of
the input are given from outside.  `Model/InteractDraw` has both.
-/
set_option autoImplicit false

namespace Anansi
namespace Itr
open Edl

/-- What the output area shows. -/
inductive Shown
  /-- there is no room for it -/
  | nothing
  /-- `Define variables to run` -/
  | prompt
  /-- the outcome of running a command -/
  | ran (args : List Bytes)
deriving DecidableEq, Repr

/-- `main.go:63-73` `inspect`.  Of `cmdOutput` its size and what it shows are kept; `runs` are the
commands executed so far, the latest first. -/
structure St where
  cmd : List Bytes := []
  argi : List Nat := []
  arg : List Bytes := []
  val : List Bytes := []
  edid : Nat := 0
  ed : EditLine := {}
  size : Int × Int := (0, 0)
  shown : Shown := .nothing
  runs : List (List Bytes) := []
deriving DecidableEq, Repr

/-- `main.go:92-99` `haveAllArgVals`. -/
def St.haveAllArgVals (s : St) : Bool := s.val.all (· ≠ [])

/-- `main.go:113-115`: the values put in their places; `none`: an index out of range. -/
def putVals : List Nat → List Bytes → List Bytes → Option (List Bytes)
  | _, [], args => some args
  | [], _ :: _, _ => none
  | i :: is, v :: vs, args => if i < args.length then putVals is vs (args.set i v) else none

/-- `main.go:101-130` `runCmd`; `none` is a panic: there is no `args[0]`. -/
def St.runCmd (s : St) : Option St :=
  if s.size.1 ≤ 0 ∨ s.size.2 ≤ 0 then some { s with shown := .nothing }
  else if !s.haveAllArgVals then some { s with shown := .prompt }
  else
    match putVals s.argi s.val s.cmd with
    | none => none
    | some [] => none
    | some (a :: args) => some { s with shown := .ran (a :: args), runs := (a :: args) :: s.runs }

/-- `main.go:80-88`: the words from the `i`-th on. -/
def setWords : Nat → List Bytes → St → St
  | _, [], s => s
  | i, w :: ws, s =>
    if [0x5C, 0x24].isPrefixOf w then setWords (i + 1) ws { s with cmd := s.cmd.set i (w.drop 1) }
    else if [0x24].isPrefixOf w then
      setWords (i + 1) ws { s with argi := s.argi ++ [i], arg := s.arg ++ [w.drop 1], val := s.val ++ [[]] }
    else setWords (i + 1) ws s

/-- `main.go:75-90` `setCmd`. -/
def St.setCmd (s : St) (cmd : List Bytes) : Option St :=
  (setWords 0 cmd { s with cmd := cmd, argi := [], arg := [], val := [] }).runCmd

/-- What comes in for a word: whether it was pressed an odd number of times, and the edit line's
update. -/
structure In where
  pressed : Bool := false
  upd : EditLine → EditLine := id

/-- `main.go:203-209`: the end of an edit. -/
def St.exit (s : St) : Option St := ({ s with ed := s.ed.reset, edid := 0 } : St).runCmd

/-- `main.go:157-240`, the body of the loop for word `i`; `j` is the next variable. -/
def St.word (s : St) (i j : Nat) (x : In) : Option (St × Nat) :=
  let var := s.argi[j]? = some i
  let j' := if var then j + 1 else j
  let edid := i + 1
  let enter := x.pressed ∧ s.edid ≠ edid
  let s := if x.pressed then { s with edid := if s.edid = edid then 0 else edid } else s
  if s.edid = edid ∧ var then
    let ed := if enter then { s.ed.reset with buf := s.val[j]?.getD [] } else s.ed
    let ed := x.upd ed
    let s := { s with ed }
    match ed.state with
    | .ready => some (s, j')
    | .done => ({ s with val := if ed.buf ≠ [] then s.val.set j ed.buf else s.val } : St).exit.map (·, j')
    | .canceled => s.exit.map (·, j')
  else some (s, j')

/-- The loop over the words from the `i`-th on, `n` of them; `x` has what comes in for each. -/
def words (x : Nat → In) : Nat → Nat → Nat → St → Option St
  | 0, _, _, s => some s
  | n + 1, i, j, s => (s.word i j (x i)).bind fun r => words x n (i + 1) r.2 r.1

/-- `main.go:132-255` `Update` on a screen of the given size.  `none`: a panic, of `runCmd` or of
resizing to a negative number of cells (`grid.go:46`). -/
def St.update (s : St) (hud : Bool) (w h : Int) (x : Nat → In) : Option St :=
  (words x s.cmd.length 0 0 s).bind fun s =>
    let top : Int := if hud then 3 else 2
    let sz := (w, h - top)
    if s.size = sz then some s
    else if sz.1 * sz.2 < 0 then none
    else ({ s with size := sz } : St).runCmd

end Itr
end Anansi
