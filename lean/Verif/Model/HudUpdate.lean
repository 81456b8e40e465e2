import Verif.Model.LogDraw
/-
`x/platform/hud.go:68-154`: the debug overlay around a client's frame.
Simplified as `Model/Hud`: the texts of the header made by `fmt` and `time` are parameters, as
are the details (`hud.go:132-145`), whose rows are modelled in `Model/Hud`, `Model/HudEdit` and
`Model/HudPick`.  The client is a function of the events and the screen it is shown; it does not
change the overlay, nor does it look at `ctx.Platform` otherwise.  `hud.bla`, which is written
and not read, is left out.
-/
set_option autoImplicit false

namespace Anansi.Hud
open Geom Evq Lgv

/-- `hud.go:22-59` `HUD` and `HUDState`, as far as `Update` itself uses it. -/
structure Hud where
  mouse : Mouse.MState × Pt := (0, ⟨0, 0⟩)
  visible : Bool := false
  timeDetail : Bool := false
  profDetail : Bool := false
  fpsDetail : Bool := false
  active : Nat := 0
  logs : View := {}
deriving DecidableEq, Repr

/-- What `Update` is run with: the client, the details, and the texts of the header (the
profiling sign is "⊙" or one of the spinner's). -/
structure Env (ε : Type) where
  gr : Nat → Bool
  client : Events → VScreen → Events × VScreen × Option ε
  details : Hud → Events → VScreen → Except Fault (Hud × Events × VScreen × Option ε)
  log : Logs.Sink
  time : Bytes
  fps : Bytes
  prof : Bytes
  size : Bytes
  flushed : Bytes
  mouse : Mouse.MState × Pt → Bytes

/-- `x/platform/platform.go:303-308` `errOr`: the first error. -/
def errFirst {ε : Type} (a b : Option ε) : Option ε :=
  match a with
  | some e => some e
  | none => b

/-- `hud.go:91-153`: the visible overlay, after the client; `mx` is `outBounds.Max.X` and `err`
the client's error. -/
def overlay {ε : Type} (E : Env ε) (mx : Int) (hud : Hud) (es : Events) (v : VScreen) (err : Option ε) :
    Except Fault (Hud × Events × VScreen × Option ε) :=
  (v.write E.gr [0x1B, 0x37]).bind fun v =>
  (mkPt mx 1).bind fun p =>
  (rightSegment E.gr (goto v p) E.time).bind fun s =>
  let c := countPressesIn s.1 1 0 es
  let hud := if c.2 % 2 = 1 then { hud with timeDetail := !hud.timeDetail } else hud
  (rightSegment E.gr s.2 E.fps).bind fun s =>
  let c := countPressesIn s.1 1 0 c.1
  let hud := if c.2 % 2 = 1 then { hud with fpsDetail := !hud.fpsDetail } else hud
  (rightSegment E.gr s.2 E.prof).bind fun s =>
  let c := countPressesIn s.1 1 0 c.1
  let hud := if c.2 % 2 = 1 then { hud with profDetail := !hud.profDetail } else hud
  (rightSegment E.gr s.2 E.size).bind fun s =>
  (rightSegment E.gr s.2 E.flushed).bind fun s =>
  (rightSegment E.gr s.2 (E.mouse hud.mouse)).bind fun s =>
  (if hud.timeDetail ∨ hud.profDetail ∨ hud.fpsDetail then
    (mkPt mx 2).bind fun p => E.details hud c.1 (goto s.2 p)
  else .ok (hud, c.1, s.2, none)).bind fun d =>
  (logUpdate E.gr d.1.logs E.log d.2.1 d.2.2.1).bind fun l =>
  (l.2.2.write E.gr [0x1B, 0x38]).bind fun v =>
  .ok ({ d.1 with logs := l.1 }, l.2.1, v, errFirst err d.2.2.2)

/-- `hud.go:68-154` `Update`: the overlay, the events, the screen and the error afterwards. -/
def Hud.update {ε : Type} (E : Env ε) (hud : Hud) (es : Events) (v : VScreen) :
    Except Fault (Hud × Events × VScreen × Option ε) :=
  let m := lastMouse false none es
  let hud := match m.2 with
    | some p => { hud with mouse := p }
    | none => hud
  let k := countRune [0x0B] 0 m.1
  let hud := if k.2 % 2 = 1 then { hud with visible := !hud.visible } else hud
  let c := E.client k.1 v
  if hud.visible then overlay E v.sc.grid.rect.max.x hud c.1 c.2.1 c.2.2
  else .ok ({ hud with active := 0 }, c.1, c.2.1, c.2.2)

end Anansi.Hud
