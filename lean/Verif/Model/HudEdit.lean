import Verif.Model.Hud
/-
`x/platform/hud.go:62-65, 457-475, 498-581`: which control of the overlay is active, and
choosing a file.
Simplified: a frame is given by the controls it draws, in order, with their boxes (where these
are is modelled in `Model/Hud`), and by what it reads.  Between frames the client may draw
anything, so the screen and the user's cursor are those each frame begins with; the buttons of
the controls that are not active are left out.  `create` is reported, not run.
-/
set_option autoImplicit false

namespace Anansi.Hud
open Geom Evq Edl

/-- `hud.go:477-480` a `fileable`: its name, the name of its file if any, whether it has a
`create` method, and its default file name if it has one. -/
structure Fil where
  name : Bytes
  file : Option Bytes := none
  create : Bool := true
  dflt : Option Bytes := none
deriving DecidableEq, Repr

/-- `hud.go:56-57`: which control is active (0: none), and the line editor. -/
structure Ui where
  active : Nat := 0
  edlin : EditLine := {}
deriving DecidableEq, Repr

/-- What goes through a frame: the interaction state, `hud.uicur`, the events, the screen and
the user's cursor, and the files that were asked for: for which control, and by which name. -/
structure St where
  ui : Ui := {}
  uicur : Nat := 0
  es : Events := []
  v : VScreen := {}
  user : Cursor := {}
  made : List (Bytes × Bytes) := []

/-- `hud.go:520-525`: the deferred function when `exit` is set. -/
def St.exit (s : St) : St := { s with ui := ⟨0, s.ui.edlin.reset⟩ }

/-- `hud.go:548-562`: the deferred function when `done` is set, and then the former. -/
def St.done (s : St) (fil : Fil) : St :=
  let name := if s.ui.edlin.buf.length > 0 then s.ui.edlin.buf else fil.dflt.getD []
  { s with made := if name ≠ [] then s.made ++ [(fil.name, name)] else s.made }.exit

/-- `hud.go:518-581` `underFileEdit`; `gray` is `SGRGray12.FG()`. -/
def underFileEdit (gr : Nat → Bool) (gray : Attr) (fil : Fil) (s : St) (box : Rect) (enter : Bool) : Except Fault St :=
  if !fil.create then .ok s.exit
  else
    let l := if enter then { s.ui.edlin.reset with buf := fil.file.getD [] } else s.ui.edlin
    let name := fil.dflt.getD []
    (({ l with box } : EditLine).update gr s.es s.v s.user).bind fun f =>
    let s := { s with ui := { s.ui with edlin := f.line }, es := f.input, v := f.out, user := f.user }
    match f.line.state with
    | .ready =>
      if f.line.buf.length = 0 ∧ name ≠ [] then
        let c := countPressesIn box 1 0 s.es
        let s := { s with es := c.1 }
        if c.2 % 2 = 1 then .ok (s.done fil)
        else
          ((goto s.v f.line.box.min).writeSGR [gray]).write gr name |>.bind fun v =>
          .ok { s with v := v.writeSGR [Sgr.clear] }
      else .ok s
    | .done => .ok (s.done fil)
    | .canceled => .ok s.exit

/-- `hud.go:457-475` `underActivation`, with `nextID` (`62-65`), around `underFileEdit`. -/
def underActivation (gr : Nat → Bool) (gray : Attr) (fil : Fil) (s : St) (box : Rect) : Except Fault St :=
  let id := s.uicur + 1
  let s := { s with uicur := id }
  let enter := decide (s.ui.active ≠ id)
  let s :=
    if s.ui.active ≠ id then
      let c := countPressesIn box 1 0 s.es
      let s := { s with es := c.1 }
      if c.2 % 2 = 1 then { s with ui := { s.ui with active := id } } else s
    else s
  let s := if s.ui.active = id ∧ anyPressesOutside box s.es = true then { s with ui := { s.ui with active := 0 } } else s
  if s.ui.active = id then underFileEdit gr gray fil s box enter else .ok s

/-- A control: one to choose a file, or one that only takes presses in its box (a segment of
the header, a heading, a switch, a spinner). -/
inductive Ctl
  | file (box : Rect) (fil : Fil)
  | press (box : Rect)
deriving DecidableEq, Repr

/-- Its box. -/
def Ctl.box : Ctl → Rect
  | .file b _ => b
  | .press b => b

/-- A control is drawn. -/
def Ctl.update (gr : Nat → Bool) (gray : Attr) (s : St) : Ctl → Except Fault St
  | .file box fil => underActivation gr gray fil s box
  | .press box => .ok { s with es := (countPressesIn box 1 0 s.es).1 }

/-- Controls are drawn. -/
def controls (gr : Nat → Bool) (gray : Attr) : List Ctl → St → Except Fault St
  | [], s => .ok s
  | c :: cs, s => (c.update gr gray s).bind (controls gr gray cs)

/-- A frame of the visible overlay: the controls it draws, the events it gets, the screen and
the user's cursor. -/
structure Frame where
  cs : List Ctl
  es : Events
  v : VScreen := {}
  user : Cursor := {}

/-- `hud.go:71` and the controls: the interaction state and the files asked for. -/
def frame (gr : Nat → Bool) (gray : Attr) (ui : Ui) (made : List (Bytes × Bytes)) (f : Frame) :
    Except Fault (Ui × List (Bytes × Bytes)) :=
  (controls gr gray f.cs { ui, es := f.es, v := f.v, user := f.user, made }).map fun s => (s.ui, s.made)

/-- Frames. -/
def frames (gr : Nat → Bool) (gray : Attr) : Ui → List (Bytes × Bytes) → List Frame → Except Fault (Ui × List (Bytes × Bytes))
  | ui, made, [] => .ok (ui, made)
  | ui, made, f :: fs => (frame gr gray ui made f).bind fun r => frames gr gray r.1 r.2 fs

end Anansi.Hud
