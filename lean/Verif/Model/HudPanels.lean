import Verif.Model.HudEdit
import Verif.Model.HudPick
import Verif.Model.HudTiming
import Verif.Model.HudStats
import Verif.Model.HudUpdate
/-
`x/platform/hud.go:132-145, 284-300, 386-391, 498-516, 704-738`: the rows to choose files in, the
panels for telemetry and profiling, and the order of all panels.
Simplified as `Model/Hud`, `Model/HudEdit` and `Model/HudPick`.  What a frame reads of files and
profilers is a parameter: `create`, `start` and `stop` are reported, not run, and what they change
is in what is read afterwards.  Errors that are logged are left out.
-/
set_option autoImplicit false

namespace Anansi.Hud
open Geom Evq

variable {α : Type}

/-- `hud.go:507-511`: what the button says. -/
def fileLabel (after : Option Bytes) (label : Bytes) : Bytes :=
  after.getD (if label = [] then ascii "Choose File" else label)

/-- `hud.go:498-516` `drawFileEditRow`; `after` is the name of the file, if there is one, when the
button is drawn (it may just have been created). -/
def fileRow (gr : Nat → Bool) (dw : Int) (gray : Attr) (t : Theme) (fil : Fil) (after : Option Bytes) (label : Bytes) (s : St) :
    Except Fault ((Rect × Rect) × St) :=
  (calcKVBox dw s.v fil.name).bind fun b =>
  ((goto s.v b.1.min).write gr fil.name).bind fun v =>
  (underActivation gr gray fil { s with v := goto v b.2.min } b.2).bind fun s' =>
  (if s'.ui.active = s.uicur + 1 then .ok s'.v
    else drawButton gr t b.2 (fileLabel after label) s'.v).bind fun v =>
  .ok (b, { s' with v := goto v b.2.max })

/-- `hud.go:386-391` `drawTelemetry`: the telemetry and the state; `file` is the name of the log's
file, if there is one, and `after` when the button is drawn. -/
def telemetryPanel (gr : Nat → Bool) (dw : Int) (sep : Bytes) (gray : Attr) (t : Theme) (file after : Option Bytes)
    (p : Tel.Tele α) (s : St) : Except Fault (Tel.Tele α × St) :=
  (detailHeader gr dw sep s.v (ascii "# Telemetry:")).bind fun b =>
  (fileRow gr dw gray t { name := ascii "Telemetry Log", file, dflt := some (ascii "telemetry.log") } after (ascii "Go Log")
    { s with v := b.2 }).bind fun r =>
  (drawToggleRow gr dw t r.2.es r.2.v (ascii "Log Timing") p.cfgLog).bind fun q =>
  (drawToggleRow gr dw t q.2.1 q.2.2.2 (ascii "Log Stalls") p.sw.logStalls).bind fun u =>
  .ok ({ p with cfgLog := q.1, sw := { p.sw with logStalls := u.1 } }, { r.2 with es := u.2.1, v := u.2.2.2 })

/-- A profiler as a frame reads it: as something with a file, the name of the file when its button
is drawn, and whether it is active when its sign is drawn. -/
structure Prof where
  fil : Fil
  after : Option Bytes := none
  active : Bool := false
deriving DecidableEq, Repr

/-- `hud.go:60, 716-719`: the sign of a profiler; `ns` is the fraction of a second in nanoseconds.
`none` is an index panic. -/
def sign (active : Bool) (ns : Nat) : Option Nat :=
  if active then [0x25F4, 0x25F7, 0x25F6, 0x25F5][ns / 1000000 / 250]? else some 0x2299

/-- `hud.go:715-732` `drawSpinner`: whether the profiler is started or stopped, the events and the
screen. -/
def drawSpinner (gr : Nat → Bool) (ns : Nat) (active : Bool) (box : Rect) (es : Events) (v : VScreen) :
    Except Fault (Option Bool × Events × VScreen) :=
  match sign active ns with
  | none => .error .panic
  | some r =>
    ((goto v box.min).write gr (encodeRune r)).bind fun v =>
    let c := countPressesIn box 1 0 es
    .ok (if c.2 % 2 = 1 then some (!active) else none, c.1, v)

/-- `hud.go:709-713` `hudProfileControl.update`. -/
def profControl (gr : Nat → Bool) (dw : Int) (gray : Attr) (t : Theme) (ns : Nat) (p : Prof) (s : St) :
    Except Fault (Option Bool × St) :=
  (fileRow gr dw gray t p.fil p.after [] s).bind fun r =>
  (mkRect r.1.1.max.x r.1.1.min.y r.1.2.min.x r.1.1.max.y).bind fun b =>
  (drawSpinner gr ns p.active b r.2.es r.2.v).bind fun q =>
  .ok (q.1, { r.2 with es := q.2.1, v := goto q.2.2 r.1.2.max })

/-- The controls of several profilers: for each whether it is started or stopped. -/
def profControls (gr : Nat → Bool) (dw : Int) (gray : Attr) (t : Theme) (ns : Nat) : List Prof → St →
    Except Fault (List (Option Bool) × St)
  | [], s => .ok ([], s)
  | p :: l, s => (profControl gr dw gray t ns p s).bind fun r =>
    (profControls gr dw gray t ns l r.2).bind fun q => .ok (r.1 :: q.1, q.2)

/-- What the profiling panel leaves: `hud.ProfDetail`, what is started or stopped, the profiles
that are there and the state. -/
structure Profs where
  detail : Bool := true
  calls : List (Option Bool) := []
  have_ : List Bytes := []
  s : St := {}

/-- `hud.go:284-300` `drawProfDetail`, with `hud.ProfDetail` set; `l` is all profilers together, and
then each of them (`hud.go:294-297`). -/
def profDetail (gr : Nat → Bool) (dw : Int) (sep : Bytes) (gray : Attr) (t : Theme) (ns : Nat) (l : List Prof) (all have_ : List Bytes)
    (s : St) : Except Fault Profs :=
  (detailHeader gr dw sep s.v (ascii "# Profiling Control:")).bind fun b =>
  let c := countPressesIn b.1 1 0 s.es
  let s := { s with es := c.1, v := b.2 }
  if c.2 % 2 = 1 then .ok { detail := false, have_, s }
  else
    (profControls gr dw gray t ns l s).bind fun r =>
    (drawSelector gr dw t (r.2.uicur + 1) all ⟨r.2.ui.active, have_, r.2.es, r.2.v⟩).bind fun k =>
    .ok { calls := r.1, have_ := k.have_
          s := { r.2 with uicur := r.2.uicur + 1, ui := { r.2.ui with active := k.active }, es := k.es, v := k.v } }

/-! ### All panels -/

/-- What the panels are drawn with. -/
structure Panels where
  gr : Nat → Bool
  dw : Int
  sep : Bytes
  gray : Attr
  theme : Theme
  texts : Says
  timing : Timing
  ns : Nat
  logFile : Option Bytes
  logAfter : Option Bytes
  profs : List Prof
  all : List Bytes

/-- What they change. -/
structure Panel (α : Type) where
  time : Bool
  prof : Bool
  fps : Bool
  ctl : Bool := false
  paused : Bool := false
  record : Bool := false
  tele : Tel.Tele α
  calls : List (Option Bool) := []
  have_ : List Bytes := []
  s : St := {}

/-- `hud.go:136` and `233-235`. -/
def timePanel (e : Panels) (p : Panel α) : Except Fault (Panel α) :=
  if p.time then
    (timingDetail e.gr e.dw e.theme { e.timing with paused := p.paused } p.s.es p.s.v).bind fun r =>
    .ok { p with paused := r.1, record := r.2.1, s := { p.s with es := r.2.2.1, v := r.2.2.2 } }
  else .ok p

/-- `hud.go:138-140`. -/
def telePanel (e : Panels) (p : Panel α) : Except Fault (Panel α) :=
  if p.time || p.fps then
    (telemetryPanel e.gr e.dw e.sep e.gray e.theme e.logFile e.logAfter p.tele p.s).bind fun r =>
    .ok { p with tele := r.1, s := r.2 }
  else .ok p

/-- `hud.go:142` and `285-287`. -/
def profPanel (e : Panels) (p : Panel α) : Except Fault (Panel α) :=
  if p.prof then
    (profDetail e.gr e.dw e.sep e.gray e.theme e.ns e.profs e.all p.have_ p.s).bind fun r =>
    .ok { p with prof := r.detail, calls := r.calls, have_ := r.have_, s := r.s }
  else .ok p

/-- `hud.go:144` and `380-383`. -/
def fpsPanel (e : Panels) (p : Panel α) : Except Fault (Panel α) :=
  if p.fps then
    (fpsDetail e.gr e.dw e.sep e.texts p.ctl p.tele p.s.es p.s.v).bind fun r =>
    .ok { p with ctl := r.1, tele := r.2.1, s := { p.s with es := r.2.2.1, v := r.2.2.2 } }
  else .ok p

/-- `hud.go:136-144`: the panels one after the other. -/
def panels (e : Panels) (p : Panel α) : Except Fault (Panel α) :=
  (timePanel e p).bind fun p => (telePanel e p).bind fun p => (profPanel e p).bind fun p => fpsPanel e p

/-- `hud.go:132-145` in `Model/HudUpdate`: the panels as the details of the overlay; `recErr` is what
`toggleRecRep` returns, and `p` is what the panels change, but for the overlay's own state. -/
def detailsOf {ε : Type} (e : Panels) (p : Panel α) (recErr : Option ε) (hud : Hud) (es : Events) (v : VScreen) :
    Except Fault (Hud × Events × VScreen × Option ε) :=
  (panels { e with theme := { e.theme with mouse := hud.mouse.2 } }
    { p with time := hud.timeDetail, prof := hud.profDetail, fps := hud.fpsDetail
             s := { p.s with ui := { p.s.ui with active := hud.active }, uicur := 0, es, v } }).bind fun q =>
  .ok ({ hud with profDetail := q.prof, active := q.s.ui.active }, q.s.es, q.s.v, if q.record then recErr else none)

end Anansi.Hud
