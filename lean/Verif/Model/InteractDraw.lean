import Verif.Model.Interact
import Verif.Model.Demo
import Verif.Model.Draw
import Verif.Model.VScreen
/-
`cmd/interact/main.go`: the same client with its screen: what `Update` draws, where its words can
be pressed, and what the edit line makes of the events.

The output is a `VirtualScreen` and the user cursor; the differ's record of the real screen, which
nothing here reads, is left out.  Running a command is given by its outcome, which may be
different every time; `ctx.Suspend` by the error it returns; the log is left out.  The size of
`cmdOutput` is kept in `St.size` (see `Model/Interact`).
-/
set_option autoImplicit false

namespace Anansi
namespace Itr
open Edl Evq

/-- `ansi/sgr.go`: `SGRRed.FG()`, `SGRGreen.FG()`, `SGRCyan.FG()`, `SGRBrightBlue.FG()`. -/
def redFG : Attr := Sgr.colorFG 1
def greenFG : Attr := Sgr.colorFG 2
def cyanFG : Attr := Sgr.colorFG 6
def blueFG : Attr := Sgr.colorFG 12

/-- What running a command comes to: the texts of the process state and of the error, if there is
one, and the output. -/
structure Outcome where
  status : Bytes := []
  err : Option Bytes := none
  out : Bytes := []
deriving DecidableEq, Repr

/-- The command and the screen of its output (`main.go:72`). -/
structure Full where
  s : St := {}
  out : VScreen := {}
deriving DecidableEq, Repr

/-- What the loop over the words works on: the events, the output and its user cursor. -/
structure Sh where
  es : Events
  v : VScreen
  user : Cursor
deriving DecidableEq, Repr

/-- `main.go:123-127`: what is written for an error. -/
def complain (gr : Nat → Bool) (e : Option Bytes) (v : VScreen) : Except Fault VScreen :=
  match e with
  | none => .ok v
  | some e =>
    ((v.writeSGR [redFG]).write gr (ascii "error: " ++ e ++ [0x0D, 0x0A])).map fun v => v.writeSGR [Sgr.clear]

/-- `main.go:122-128`: what is written for an outcome. -/
def report (gr : Nat → Bool) (o : Outcome) (v : VScreen) : Except Fault VScreen :=
  (v.write gr (ascii "status: " ++ o.status ++ [0x0D, 0x0A])).bind fun v =>
  (complain gr o.err v).bind fun v => v.write gr o.out

/-- `main.go:102-128`: the output area, for what is to be shown there. -/
def print (gr : Nat → Bool) (o : Outcome) (what : Shown) (v : VScreen) : Except Fault VScreen :=
  (v.sc.clear).bind fun sc =>
  let v : VScreen := ⟨sc, v.buf.reset⟩
  match what with
  | .nothing => .ok v
  | .prompt => ({ v with sc := v.sc.to ⟨1, 1⟩ } : VScreen).write gr (ascii "Define variables to run")
  | .ran _ => report gr o { v with sc := v.sc.to ⟨1, 1⟩ }

/-- `main.go:101-130` `runCmd`; `world` tells the outcome of the latest run. -/
def Full.runCmd (gr : Nat → Bool) (world : List (List Bytes) → Outcome) (f : Full) : Except Fault Full :=
  match f.s.runCmd with
  | none => .error .panic
  | some s => (print gr (world s.runs) s.shown f.out).map fun out => ⟨s, out⟩

/-- `main.go:203-209`: the end of an edit. -/
def Full.exit (gr : Nat → Bool) (world : List (List Bytes) → Outcome) (f : Full) : Except Fault Full :=
  Full.runCmd gr world { f with s := { f.s with ed := f.s.ed.reset, edid := 0 } }

/-- `main.go:159-187`: draw word `i`, which is `w`; the box of the word, and the screen. -/
def St.drawWord (gr : Nat → Bool) (s : St) (i j : Nat) (w : Bytes) (v : VScreen) : Except Fault (Rect × VScreen) :=
  (if i > 0 then v.write gr (encodeRune 0x20) else .ok v).bind fun v =>
  let var := s.argi[j]? = some i
  let attr : Attr := if var then cyanFG else if i = 0 then greenFG else 0
  let val := if var then s.val[j]?.getD [] else []
  let v := if attr ≠ 0 then v.writeSGR [attr] else v
  let min := v.sc.cur.pt
  (v.write gr w).bind fun v =>
  let r : Rect := ⟨min, ⟨v.sc.cur.pt.x, v.sc.cur.pt.y + 1⟩⟩
  let v := if attr ≠ 0 then v.writeSGR [Sgr.clear] else v
  if val ≠ [] then
    (v.write gr (encodeRune 0x3D)).bind fun v =>
    ((v.writeSGR [blueFG]).write gr val).map fun v => (r, v.writeSGR [Sgr.clear])
  else .ok (r, v)

/-- `main.go:157-240`, the body of the loop for word `i`, which is `w`; `j` is the next variable. -/
def Full.word (gr : Nat → Bool) (world : List (List Bytes) → Outcome) (f : Full) (i j : Nat) (w : Bytes) (c : Sh) :
    Except Fault (Full × Nat × Sh) :=
  (f.s.drawWord gr i j w c.v).bind fun d =>
  let var := f.s.argi[j]? = some i
  let j' := if var then j + 1 else j
  let edid := i + 1
  let k := countPressesIn d.1 1 0 c.es
  let pressed := k.2 % 2 = 1
  let s := f.s
  let enter := pressed ∧ s.edid ≠ edid
  let s := if pressed then { s with edid := if s.edid = edid then 0 else edid } else s
  if s.edid = edid ∧ var then
    let ed := if enter then { s.ed.reset with buf := s.val[j]?.getD [] } else s.ed
    (({ ed with box := d.1 } : EditLine).update gr k.1 d.2 c.user).bind fun fr =>
    let s := { s with ed := fr.line }
    let c : Sh := ⟨fr.input, fr.out, fr.user⟩
    match fr.line.state with
    | .ready => .ok ({ f with s }, j', c)
    | .done =>
      (Full.exit gr world { f with s := { s with
        val := if fr.line.buf ≠ [] then s.val.set j fr.line.buf else s.val } }).map fun f => (f, j', c)
    | .canceled => (Full.exit gr world { f with s }).map fun f => (f, j', c)
  else .ok ({ f with s }, j', ⟨k.1, d.2, c.user⟩)

/-- `main.go:157-240`: the loop over the words from the `i`-th on. -/
def drawWords (gr : Nat → Bool) (world : List (List Bytes) → Outcome) :
    List Bytes → Nat → Nat → Full → Sh → Except Fault (Full × Sh)
  | [], _, _, f, c => .ok (f, c)
  | w :: ws, i, j, f, c => (f.word gr world i j w c).bind fun r => drawWords gr world ws (i + 1) r.2.1 r.1 r.2.2

/-- `main.go:241-249`: give the output area its size on a screen of `w` columns and `h` rows. -/
def Full.fit (gr : Nat → Bool) (world : List (List Bytes) → Outcome) (hud : Bool) (w h : Int) (f : Full) : Except Fault Full :=
  let top : Int := if hud then 3 else 2
  let sz := (w, h - top)
  if f.s.size = sz then .ok f
  else if sz.1 * sz.2 < 0 then .error .panic
  else
    Full.runCmd gr world
      ⟨{ f.s with size := sz }, { f.out with sc := (f.out.sc.resize (sz.1.toNat, sz.2.toNat)).1 }⟩

/-- `main.go:252`: draw the output area. -/
def overlay (hud : Bool) (v out : VScreen) : Except Fault VScreen :=
  let p : Pt := ⟨1, if hud then 3 else 2⟩
  if Geom.ptIn p v.sc.grid.rect then
    match Grid.drawGrid (v.sc.grid.subAt p) out.sc.grid [] with
    | none => .error .panic
    | some cs => .ok { v with sc := { v.sc with grid := { v.sc.grid with cells := cs } } }
  else .ok v

/-- What a frame leaves. -/
structure Out (ε : Type) where
  f : Full
  c : Sh
  res : Dem.Res ε
  suspended : Bool

/-- `main.go:132-255` `Update`, with the HUD shown or not, on the given output. -/
def Full.update {ε : Type} (gr : Nat → Bool) (world : List (List Bytes) → Outcome) (suspend : Option ε) (hud : Bool)
    (f : Full) (es : Events) (v : VScreen) : Except Fault (Out ε) :=
  let t := hasTerminal 0x03 es
  let z := countRune [0x1A] 0 t.1
  let susp := z.2 > 0 ∧ t.2 = false
  (v.sc.clear).bind fun sc =>
  let v : VScreen := ⟨sc.to ⟨1, if hud then 2 else 1⟩, v.buf.reset⟩
  (drawWords gr world f.s.cmd 0 0 f ⟨z.1, v, {}⟩).bind fun q =>
  (q.1.fit gr world hud (Geom.dx v.sc.grid.rect) (Geom.dy v.sc.grid.rect)).bind fun f =>
  (overlay hud q.2.v f.out).map fun v =>
  { f, c := { q.2 with v }
    res := if t.2 then .interrupt
           else if susp then (match suspend with | some e => .failed e | none => .ok) else .ok
    suspended := decide susp }

end Itr
end Anansi
