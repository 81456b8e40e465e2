import Verif.Model.Replay
import Verif.Model.Num
/-
`x/platform/replay.go:37-116, 146-153, 218-243`: replaying a recorded session, and sizes.
Not modelled: the mouse shown on the screen (`drawOverlay`), and messages to the log.
-/
set_option autoImplicit false

namespace Anansi
namespace Rpl

/-- "resize:" -/
def resize : Bytes := [0x72, 0x65, 0x73, 0x69, 0x7A, 0x65, 0x3A]

/-- `replay.go:218-227` `recordSize`: what is written. -/
def recordSize (sz : Pt) : Bytes := [0x1B, 0x5F] ++ resize ++ itoa sz.x ++ [0x2C] ++ itoa sz.y ++ [0x1B, 0x5C]

/-- `replay.go:229-243` `parseSize`; `none`: an error. -/
def parseSize (b : Bytes) : Option Pt :=
  match b.dropWhile (· ≠ 0x2C) with
  | [] => none
  | _ :: rest =>
    let dx := decodeNumber (b.takeWhile (· ≠ 0x2C))
    if dx.err ≠ none then none
    else
      let dy := decodeNumber rest
      if dy.err ≠ none then none else some ⟨dx.val, dy.val⟩

/-- `replay.go:24-35` `replay`, as far as it is modelled. -/
structure Play (τ : Type) where
  cur : List (Frame τ)
  frame : Frame τ := {}
  pause : Option τ := none
  size : Pt := ⟨0, 0⟩
deriving DecidableEq, Repr

/-- `replay.go:74-83`: what a message does to the size. -/
def sizeOf (m : Bytes) (size : Pt) : Pt :=
  if resize.isPrefixOf m then
    match parseSize (m.drop 7) with
    | some sz => sz
    | none => size
  else size

/-- `replay.go:73-87`: the loop to the next frame with a time, and `next` (`146-153`). -/
def advance {τ : Type} (frame : Frame τ) (size : Pt) : List (Frame τ) → Frame τ × Pt × List (Frame τ)
  | [] => (frame, size, [])
  | f :: l =>
    let size := sizeOf f.m size
    if f.t.isSome then (f, size, l) else advance f size l

/-- What an update comes to. -/
inductive Outcome (τ : Type)
  /-- `errReplayDone` -/
  | done
  /-- the replay is stopped, and the platform goes on as usual -/
  | stopped
  /-- the client is run at a time, with a screen size and with input: recorded bytes, or
  (`none`) what the user types -/
  | run (t : Option τ) (size : Pt) (input : Option Bytes)
deriving DecidableEq, Repr

/-- `replay.go:37-116` `update` and `runClient`, given the user's input: whether there is a
Ctrl-C, how many spaces and how many dots. -/
def Play.update {τ : Type} (p : Play τ) (ctrlC : Bool) (spaces dots : Nat) : Play τ × Outcome τ :=
  if p.cur = [] then (p, .done)
  else if ctrlC then (p, .stopped)
  else
    let pause := if spaces % 2 = 1 then (if p.pause.isNone then p.frame.t else none) else p.pause
    let step := pause.isSome && dots % 2 = 1
    let pause := if step then p.frame.t else pause
    if step || pause.isNone then
      let a := advance p.frame p.size p.cur
      let p := { cur := a.2.2, frame := a.1, pause, size := a.2.1 }
      if a.1.t.isNone then (p, .done) else (p, .run a.1.t a.2.1 (some a.1.b))
    else ({ p with pause }, .run p.frame.t p.size none)

/-- Updates with the user's inputs; the outcomes. -/
def Play.updates {τ : Type} (p : Play τ) : List (Bool × Nat × Nat) → List (Outcome τ)
  | [] => []
  | u :: us =>
    let r := p.update u.1 u.2.1 u.2.2
    r.2 :: r.1.updates us

end Rpl
end Anansi
