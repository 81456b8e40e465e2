import Verif.Model.Profile
/-
Groups: the background workers of a run (`x/platform/bg.go:24-60`), and all profiles
together (`x/platform/hud.go:715-776`), with the control that starts and stops them.
-/
set_option autoImplicit false

namespace Anansi

namespace Wks

/-- Calls of a worker's methods. -/
inductive Call
  | start (i : Nat)
  | stop (i : Nat)
  | notify (i : Nat)
deriving DecidableEq, Repr

/-- What a call returns, given the calls made before: an error, or nil. -/
abbrev Reply := List Call → Call → Option Nat

/-- `bg.go:32-39` `Enter`: the calls made so far and the error. -/
def enter (v : Reply) (tr : List Call) : List Nat → List Call × Option Nat
  | [] => (tr, none)
  | i :: l =>
    match v tr (.start i) with
    | none => enter v (tr ++ [.start i]) l
    | some e => (tr ++ [.start i], some e)

/-- `bg.go:44-49`: the loop of `Exit`, over the reversed workers. -/
def exitLoop (v : Reply) (tr : List Call) (err : Option Nat) : List Nat → List Call × Option Nat
  | [] => (tr, err)
  | i :: l => exitLoop v (tr ++ [.stop i]) (if err.isNone then v tr (.stop i) else err) l

/-- `bg.go:43-50` `Exit`. -/
def exit (v : Reply) (tr : List Call) (l : List Nat) : List Call × Option Nat := exitLoop v tr none l.reverse

/-- `bg.go:53-60` `Notify`. -/
def notify (v : Reply) (tr : List Call) : List Nat → List Call × Option Nat
  | [] => (tr, none)
  | i :: l =>
    match v tr (.notify i) with
    | none => notify v (tr ++ [.notify i]) l
    | some e => (tr ++ [.notify i], some e)

/-- The frames of a run (`platform.go:222-229`): the workers are notified at the end of
each, and a failure ends the run. -/
def frames (v : Reply) (ws : List Nat) : Nat → List Call → List Call × Option Nat
  | 0, tr => (tr, none)
  | n + 1, tr =>
    match notify v tr ws with
    | (tr, none) => frames v ws n tr
    | (tr, some e) => (tr, some e)

/-- `term.go:92-127` `RunWith` around a run of at most `n` frames, the workers being the
only context that does anything. -/
def life (v : Reply) (ws : List Nat) (n : Nat) : List Call × Option Nat :=
  let a := enter v [] ws
  let b := if a.2.isNone then frames v ws n a.1 else a
  let c := exit v b.1 ws
  (c.1, if b.2.isNone then c.2 else b.2)

end Wks

namespace Pfl

/-- `platform.go:303-308` `errOr` on the place of the profile that failed. -/
def errOr (a b : Option Nat) : Option Nat := if a.isSome then a else b

/-- What failed, by its place. -/
def failed (i : Nat) (ok : Bool) : Option Nat := if ok then none else some i

/-- `hud.go:761-766`: the part of the loop of `start` over the profiles written at the end. -/
def startSnaps (i : Nat) (err : Option Nat) : List Snap → List SnapCalls → List Snap × Option Nat
  | [], _ => ([], err)
  | s :: l, os =>
    let r := s.start (os.headD { profile := none })
    let q := startSnaps (i + 1) (errOr err (failed i r.2)) l os.tail
    (r.1 :: q.1, q.2)

/-- `hud.go:767-772`: the same of `stop`. -/
def stopSnaps (i : Nat) (err : Option Nat) : List Snap → List SnapCalls → List Snap × Option Nat
  | [], _ => ([], err)
  | s :: l, os =>
    let r := s.stop (os.headD { profile := none })
    let q := stopSnaps (i + 1) (errOr err (failed i r.2)) l os.tail
    (r.1 :: q.1, q.2)

/-- `hud.go:752-759` `isActive`, on the profiles collected by `hud.go:166-175`. -/
def Config.isActive (c : Config) : Bool := c.cpu.active || c.trace.active || c.snaps.any Snap.active

/-- `hud.go:761-766` `start`. -/
def Config.startAll (c : Config) (o1 o2 : Calls) (os : List SnapCalls) : Config × Option Nat :=
  let a := c.cpu.start o1
  let b := c.trace.start o2
  let s := startSnaps 2 (errOr (failed 0 a.2) (failed 1 b.2)) c.snaps os
  ({ cpu := a.1, trace := b.1, snaps := s.1 }, s.2)

/-- `hud.go:767-772` `stop`. -/
def Config.stopAll (c : Config) (o1 o2 : Calls) (os : List SnapCalls) : Config × Option Nat :=
  let a := c.cpu.stop o1
  let b := c.trace.stop o2
  let s := stopSnaps 2 (errOr (failed 0 a.2) (failed 1 b.2)) c.snaps os
  ({ cpu := a.1, trace := b.1, snaps := s.1 }, s.2)

/-- `hud.go:722-731`: `n` presses on the control of all profiles; errors are logged. -/
def Config.press (c : Config) (n : Nat) (o1 o2 : Calls) (os : List SnapCalls) : Config × Option Nat :=
  if n % 2 = 1 then
    if c.isActive then c.stopAll o1 o2 os else c.startAll o1 o2 os
  else (c, none)

/-- `hud.go:716-719`: the place of the spinner's rune in `profileSpinner`, from the
nanoseconds within the second. -/
def spinnerIndex (ns : Nat) : Nat := ns / 1000000 / 250

end Pfl
end Anansi
