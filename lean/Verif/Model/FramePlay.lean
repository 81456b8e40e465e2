import Verif.Model.Frame
import Verif.Model.Play
/-
`x/platform/platform.go:175-308` `Run`, `Update` and `runClient` with `x/platform/replay.go:37-116`
`update` and `runClient`: the frame loop with a replay.

The replay itself is `Model/Play.lean`, the loop without one `Model/Frame.lean`.  The zero time is 0
for the platform and `none` for a replay.  Not modelled here: the mark of the mouse
(`Model/PlayMouse.lean`), and what toggling a recording in a frame loads.
-/
set_option autoImplicit false

namespace Anansi
namespace Frm
open Evq

/-- `platform.go:288-296` `runClient`, at a time, with `hud.go:68-88`. -/
def Plat.runClient {σ ε : Type} (client : σ → View → Left σ ε) (p : Plat σ) (time : Int) (redraw : Bool) :
    Plat σ × View × Option (Err ε) :=
  let time := if p.paused then p.lastTime else time
  let k := countRune [0x0B] 0 p.events
  let hud := if k.2 % 2 = 1 then !p.hud else p.hud
  let v : View := { time, redraw, events := k.1, size := p.size, paused := p.paused, hud }
  let c := client p.client v
  ({ p with events := c.events, paused := c.paused, lastTime := time, lastSize := c.size, size := c.size,
            hud := c.hud, client := c.state }, v, c.err)

/-- `platform.go:276-285`: the rest of `Update` when no replay goes on. -/
def Plat.goOn {σ ε : Type} (client : σ → View → Left σ ε) (p : Plat σ) (f : Frame ε) (redraw : Bool) (err : Option (Err ε)) :
    Plat σ × View × Option (Err ε) :=
  let size := if redraw then sizeTo p.size f.termSize else p.size
  let r := countRune [0x12] 0 p.events
  let err := if r.2 % 2 = 1 then errOr err f.toggle else err
  let u := ({ p with size, events := r.1 } : Plat σ).runClient client f.time redraw
  (u.1, u.2.1, errOr err u.2.2)

/-- `platform.go:98-131` `Platform` with its replay. -/
structure RPlat (σ : Type) where
  p : Plat σ
  rep : Option (Rpl.Play Int) := none

/-- `platform.go:253-286` `Update`: the platform afterwards, what the client saw if it was run, and
the error; `done` is `errReplayDone`. -/
def RPlat.update {σ ε : Type} (client : σ → View → Left σ ε) (done : Err ε) (r : RPlat σ) (f : Frame ε) (err : Option (Err ε)) :
    RPlat σ × Option View × Option (Err ε) :=
  let l := countRune [0x0C] 0 r.p.events
  let redraw := decide (l.2 > 0) || decide (r.p.size = ⟨0, 0⟩) || decide (r.p.size ≠ r.p.lastSize)
  let p := { r.p with events := l.1 }
  match r.rep with
  | none =>
    let u := p.goOn client f redraw err
    (⟨u.1, none⟩, some u.2.1, u.2.2)
  | some rep =>
    if rep.cur = [] then (⟨p, some rep⟩, none, some done)
    else
      let t := hasTerminal 0x03 p.events
      if t.2 then
        if err.isSome then (⟨{ p with events := t.1 }, none⟩, none, err)
        else
        let u := ({ p with events := t.1 } : Plat σ).goOn client f redraw err
        (⟨u.1, none⟩, some u.2.1, u.2.2)
      else
        let s := countRune [0x20] 0 p.events
        let paused := if s.2 % 2 = 1 then rep.pause.isNone && rep.frame.t.isSome else rep.pause.isSome
        let d := if paused then countRune [0x2E] 0 s.1 else (s.1, 0)
        let q := rep.update false s.2 d.2
        match q.2 with
        | .run t size input =>
          let events := match input with
            | some b => decodeBytes [] b
            | none => d.1
          let u := ({ p with size, events } : Plat σ).runClient client (t.getD 0) redraw
          (⟨u.1, some q.1⟩, some u.2.1, u.2.2)
        | _ => (⟨{ p with events := d.1 }, some q.1⟩, none, some done)

/-- What a frame comes to. -/
inductive RDone (σ ε : Type)
  | hang
  /-- the run returns; the platform is kept for the next run -/
  | stop (r : RPlat σ) (v : Option View) (e : Err ε)
  | next (r : RPlat σ) (v : Option View)

/-- `platform.go:191-229`: the body of the loop of `Run`. -/
def RPlat.frame {σ ε : Type} (client : σ → View → Left σ ε) (done : Err ε) (r : RPlat σ) (f : Frame ε) : RDone σ ε :=
  match f.telemetry with
  | some e => .stop r none e
  | none =>
    match r.p.polls none f.polls with
    | none => .hang
    | some (p, err) =>
      let u := ({ r with p } : RPlat σ).update client done f err
      let err := if u.2.2.isNone then f.flush else u.2.2
      let err := if err.isNone then f.notify else err
      match err with
      | some e => .stop u.1 u.2.1 e
      | none => .next u.1 u.2.1

/-- `platform.go:190-232`: the loop of `Run`: what the client saw, and the ending. -/
def RPlat.run {σ ε : Type} (client : σ → View → Left σ ε) (done : Err ε) (r : RPlat σ) : List (Frame ε) → List View × Ending ε
  | [] => ([], .running)
  | f :: l =>
    if f.time = 0 then ([], .returned none)
    else
      match r.frame client done f with
      | .hang => ([], .hang)
      | .stop _ v e => (v.toList, .returned (some e))
      | .next r v => let x := r.run client done l; (v.toList ++ x.1, x.2)

end Frm
end Anansi
