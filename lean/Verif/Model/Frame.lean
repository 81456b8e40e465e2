import Verif.Model.Events
/-
`x/platform/platform.go:173-308` `Run`, `Context`, `Update` and `runClient`, and the
beginning of `x/platform/hud.go:68-88` `HUD.Update`: the frame loop without a replay
(`Model/Play.lean` has that).
Not modelled here: the contents of the screen (`Model/Differ.lean`), telemetry, and what the
overlay draws; the overlay's handling of input left by the client counts as the client's.
-/
set_option autoImplicit false

namespace Anansi
namespace Frm
open Evq

/-- Errors. -/
inductive Err (ε : Type)
  /-- `anansi.SigErr` -/
  | signal (n : Nat)
  /-- from reading input -/
  | input (e : Inp.Err)
  | other (e : ε)
deriving DecidableEq, Repr

/-- `platform.go:303-308` `errOr`. -/
def errOr {α : Type} (a b : Option α) : Option α := if a.isSome then a else b

/-- What a round of the polling loop (`platform.go:199-215`) finds: a signal to stop; a
change of size, with what the terminal then says its size is (`none` when that fails);
input to read, with what there is and how the system calls go. -/
inductive Poll
  | stop (sig : Nat)
  | resize (size : Option Pt)
  | input (av : List Inp.Avail) (getOk setOk : Bool)
deriving DecidableEq, Repr

/-- What the client gets to see in a frame: `platform.go:145-153` `Context`. -/
structure View where
  /-- a `time.Time`: nanoseconds from the zero time, which is 0 -/
  time : Int
  redraw : Bool
  events : Events
  size : Pt
  /-- `ctx.Paused` -/
  paused : Bool
  /-- `hud.Visible` -/
  hud : Bool
deriving DecidableEq, Repr

/-- What the client leaves. -/
structure Left (σ ε : Type) where
  state : σ
  events : Events
  paused : Bool
  size : Pt
  hud : Bool
  err : Option (Err ε)

/-- `platform.go:98-131` `Platform`, as far as it is modelled here. -/
structure Plat (σ : Type) where
  input : Inp.Input := {}
  events : Events := []
  paused : Bool := false
  lastTime : Int := 0
  lastSize : Pt := ⟨0, 0⟩
  size : Pt := ⟨0, 0⟩
  hud : Bool := false
  client : σ

/-- What happens in one frame. -/
structure Frame (ε : Type) where
  time : Int
  /-- the result of `Telemetry.update` -/
  telemetry : Option (Err ε) := none
  polls : List Poll := []
  /-- the terminal's size when asked on a redraw -/
  termSize : Option Pt := none
  /-- the result of `toggleRecRep` if called -/
  toggle : Option (Err ε) := none
  /-- the result of flushing the output if attempted -/
  flush : Option (Err ε) := none
  /-- the result of notifying the background workers if attempted -/
  notify : Option (Err ε) := none

/-- The error of a read. -/
def readErr {ε : Type} (e : Inp.Err) : Option (Err ε) := if e = .nil then none else some (.input e)

/-- `screen.go:214-221` `SizeToTerm`, which always returns a nil error. -/
def sizeTo (size : Pt) (term : Option Pt) : Pt := term.getD size

/-- `platform.go:200-214`: one round of polling; `none` when reading waits for ever. -/
def Plat.poll {σ ε : Type} (p : Plat σ) (err : Option (Err ε)) : Poll → Option (Plat σ × Option (Err ε))
  | .stop sig => some (p, errOr err (some (.signal sig)))
  | .resize sz => some ({ p with size := sizeTo p.size sz }, errOr err none)
  | .input av g s =>
    match p.input.readAny av g s with
    | none => none
    | some (inp, n, e, _) =>
      if 0 < n then
        let d := decodeInput [] inp
        some ({ p with events := d.1, input := d.2 }, errOr err (readErr e))
      else some ({ p with events := [], input := inp }, errOr err (readErr e))

/-- `platform.go:198-215`: the polling loop. -/
def Plat.polls {σ ε : Type} (p : Plat σ) (err : Option (Err ε)) : List Poll → Option (Plat σ × Option (Err ε))
  | [] => some (p, err)
  | q :: l => (p.poll err q).bind fun r => r.1.polls r.2 l

/-- `platform.go:253-296` `Update` and `runClient`, `hud.go:68-88`: the platform afterwards,
what the client saw, and the error. -/
def Plat.update {σ ε : Type} (client : σ → View → Left σ ε) (p : Plat σ) (f : Frame ε) (err : Option (Err ε)) :
    Plat σ × View × Option (Err ε) :=
  let l := countRune [0x0C] 0 p.events
  let redraw := decide (l.2 > 0) || decide (p.size = ⟨0, 0⟩) || decide (p.size ≠ p.lastSize)
  let size := if redraw then sizeTo p.size f.termSize else p.size
  let r := countRune [0x12] 0 l.1
  let err := if r.2 % 2 = 1 then errOr err f.toggle else err
  let time := if p.paused then p.lastTime else f.time
  let k := countRune [0x0B] 0 r.1
  let hud := if k.2 % 2 = 1 then !p.hud else p.hud
  let v : View := { time, redraw, events := k.1, size, paused := p.paused, hud }
  let c := client p.client v
  ({ p with events := c.events, paused := c.paused, lastTime := time, lastSize := c.size, size := c.size,
            hud := c.hud, client := c.state }, v, errOr err c.err)

/-- What a frame comes to. -/
inductive Done (σ ε : Type)
  | hang
  /-- the run returns -/
  | stop (v : Option View) (e : Err ε)
  | next (p : Plat σ) (v : View)

/-- `platform.go:191-229`: the body of the loop of `Run`. -/
def Plat.frame {σ ε : Type} (client : σ → View → Left σ ε) (p : Plat σ) (f : Frame ε) : Done σ ε :=
  match f.telemetry with
  | some e => .stop none e
  | none =>
    match p.polls none f.polls with
    | none => .hang
    | some (p, err) =>
      let u := p.update client f err
      let err := if u.2.2.isNone then f.flush else u.2.2
      let err := if err.isNone then f.notify else err
      match err with
      | some e => .stop (some u.2.1) e
      | none => .next u.1 u.2.1

/-- How a run ends. -/
inductive Ending (ε : Type)
  /-- it has not, with the frames there are -/
  | running
  | hang
  /-- `Run` returns -/
  | returned (e : Option (Err ε))
deriving DecidableEq, Repr

/-- `platform.go:175-232` `Run`, without a replay: what the client saw, frame by frame, and the
ending. -/
def Plat.run {σ ε : Type} (client : σ → View → Left σ ε) (p : Plat σ) : List (Frame ε) → List View × Ending ε
  | [] => ([], .running)
  | f :: l =>
    if f.time = 0 then ([], .returned none)
    else
      match p.frame client f with
      | .hang => ([], .hang)
      | .stop v e => (v.toList, .returned (some e))
      | .next p v => let r := p.run client l; (v :: r.1, r.2)

end Frm
end Anansi
