import Verif.Model.Frame
import Verif.Model.EditLine
import Verif.Model.Differ
/-
A program on the platform whose client edits a line: `x/platform/platform.go:175-296` with
`x/platform/editline.go:51-120` as the client, the screen of `screen.go` and the frame loop of `Model/Frame.lean`.
Not modelled: the head-up display when it is shown, replays, and errors and short writes of the terminal.
-/
set_option autoImplicit false

namespace Anansi
namespace App
open Evq Frm

/-- The state: the line, the screen, and all that was written to the terminal. -/
structure State where
  line : Edl.EditLine
  screen : Differ := {}
  out : Bytes := []

/-- `screen.go:212-221` `SizeToTerm`, given what the terminal says. -/
def sizeToTerm (d : Differ) (size : Option Pt) : Differ :=
  match size with
  | some s => (d.invalidate.resize (s.x.toNat, s.y.toNat)).1
  | none => d

/-- `platform.go:204-205`: what polling does to the screen. -/
def polled (d : Differ) : Poll → Differ
  | .resize size => sizeToTerm d size
  | _ => d

/-- `platform.go:253-281` and `editline.go:51-120`: the screen is reset, a redraw forgets what the terminal shows
and asks for its size, and the client draws its line. -/
def draw (gr : Nat → Bool) (d : Differ) (redraw : Bool) (size : Option Pt) (l : Edl.EditLine) (es : Events) :
    Except Fault (Differ × Edl.Frame) :=
  d.reset.bind fun d =>
    let d := if redraw then sizeToTerm d.invalidate size else d
    (l.update gr es d.v d.user).map fun f => ({ d with v := f.out, user := f.user }, f)

/-- `platform.go:217-220`: after the update the screen is flushed. -/
def flush (gr : Nat → Bool) (out : Bytes) (r : Differ × Edl.Frame) : Except Fault State :=
  (r.1.writeTo gr .ok).map fun w => ⟨r.2.line, w.1, out ++ w.2.1⟩

/-- What the client leaves: `none` if it panics. -/
def left (gr : Nat → Bool) (out : Bytes) (v : View) {ε : Type} (r : Except Fault (Differ × Edl.Frame)) : Left (Option State) ε :=
  match r with
  | .error _ => { state := none, events := v.events, paused := v.paused, size := v.size, hud := v.hud, err := none }
  | .ok x =>
    { state := (flush gr out x).toOption, events := x.2.input, paused := v.paused, size := Geom.size x.1.v.sc.grid.rect,
      hud := v.hud, err := none }

/-- The client in a frame, with all that happens to the screen in it. -/
def client (gr : Nat → Bool) {ε : Type} (f : Frame ε) (s : Option State) (v : View) : Left (Option State) ε :=
  match s with
  | none => { state := none, events := v.events, paused := v.paused, size := v.size, hud := v.hud, err := none }
  | some a => left gr a.out v (draw gr (f.polls.foldl polled a.screen) v.redraw f.termSize a.line v.events)

/-- `platform.go:191-229`: one round of the loop of `Run`. -/
def frame (gr : Nat → Bool) {ε : Type} (p : Plat (Option State)) (f : Frame ε) : Done (Option State) ε :=
  p.frame (client gr f) f

end App
end Anansi
