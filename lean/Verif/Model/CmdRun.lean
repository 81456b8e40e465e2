import Verif.Model.FramePlay
import Verif.Model.PlatNew
import Verif.Model.Demo
/-
How the interactive commands end: `cmd/demo/main.go:17-34`, `cmd/interact/main.go:42-62`,
`cmd/lolwut/interact.go:16-24` and `x/platform/platform.go:17-19` `MustRun`.

`p.Run` is given by how it ends, time after time; entering and leaving the terminal, with the
closing of files, succeeds.  The commands' keys are in `Model/Demo`, `Model/InteractDraw` and
`Model/Lolwut`.
-/
set_option autoImplicit false

namespace Anansi.Cmd
open Evq Frm

/-- The errors that are not of signals or input: `errReplayDone`, the `errInt` of a command, any other. -/
inductive CErr
  | replayDone
  | int
  | other (text : Bytes)
deriving DecidableEq, Repr

abbrev Fail := Frm.Err CErr

/-- What a command's `Update` returns, as an error: `cmd/demo/main.go:42-57`, `cmd/interact/main.go:133-150`,
`cmd/lolwut/interact.go:28-44`. -/
def failOf : Dem.Res Fail → Option Fail
  | .ok => none
  | .interrupt => some (.other .int)
  | .failed e => some e

/-- A command as a client of the platform, by what its `Update` does: its state, the events left, and what is returned. -/
def client {σ : Type} (upd : σ → View → σ × Events × Dem.Res Fail) (s : σ) (v : View) : Left σ CErr :=
  let r := upd s v
  { state := r.1, events := r.2.1, paused := v.paused, size := v.size, hud := v.hud, err := failOf r.2.2 }

/-- `cmd/demo/main.go:22-34` and `cmd/interact/main.go:47-62` `Run`, for the results of `p.Run`, one after the other; the log
is left out. -/
def loop : List (Ending CErr) → Ending CErr
  | [] => .running
  | .running :: _ => .running
  | .hang :: _ => .hang
  | .returned none :: l => loop l
  | .returned (some e) :: l =>
    if e = .other .replayDone then loop l
    else if e = .input .eof ∨ e = .other .int then .returned none
    else .returned (some e)

/-- `cmd/lolwut/interact.go:17-23`: the function that is run. -/
def once (r : Ending CErr) : Ending CErr := r

/-- An error as `MustRun` takes it: that of a signal is an `ExitError` (`signal.go:99-112`). -/
def failure (say : Fail → Bytes) (e : Fail) : Pnw.Failure :=
  { code := match e with | .signal n => some (Pnw.sigCode n) | _ => none, text := say e }

/-- `platform.go:17-19` `MustRun` and the end of `main`: the exit status, `none` if the process goes on. -/
def exit (due fatal : Bytes → Bytes) (say : Fail → Bytes) (logs : Lgs.Sink) : Ending CErr → Option Nat
  | .returned e => some ((Pnw.mustRun due fatal logs (e.map (failure say))).2.getD 0)
  | _ => none

end Anansi.Cmd
