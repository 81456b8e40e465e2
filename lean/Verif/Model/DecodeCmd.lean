import Verif.Model.Decode
import Verif.Model.Sgr
import Verif.Model.SgrName
/-
`cmd/decode/main.go`: printing what a stream of bytes is decoded to; and `MustRun` of `term.go`.
Writing the output is assumed to succeed.  What package `fmt` makes of byte strings (`%q`), of
code points (`%q`, `%U`), of errors and of mouse reports are parameters.
-/
set_option autoImplicit false

namespace Anansi
namespace Dcm
open Sgr

/-- What is not modelled of package `fmt`. -/
structure Fmt where
  /-- `%q` of bytes -/
  quote : Bytes → Bytes
  /-- `%q` of a rune -/
  quoteRune : Nat → Bytes
  /-- `%v` of a decoding error -/
  err : DecErr → Bytes
  /-- `%U` -/
  point : Nat → Bytes
  /-- `" mouse-%v@%v"` or `" mouse-err:%v"` -/
  mouse : Nat → Bytes → Bytes

/-- `%v` of an escape; `escString` always gives something (`control_string`, `other_string`). -/
def name (fm : Fmt) (e : Nat) : Bytes := (escString fm.quoteRune e).getD []

/-- `main.go:112-125`: what is written for an escape. -/
def note (fm : Fmt) (strip : Bool) (e : Nat) (a : Bytes) : Bytes :=
  if strip then []
  else if e = csiId 0x6D then
    let d := decode a
    match d.err with
    | none => ascii "[ansi:SGR " ++ attrString d.val ++ ascii "]"
    | some x => ascii "[ansi:SGR ERR:" ++ fm.err x ++ ascii " " ++ fm.quote a ++ ascii "]"
  else if a ≠ [] then ascii "[ansi:" ++ name fm e ++ ascii " " ++ fm.quote a ++ ascii "]"
  else ascii "[ansi:" ++ name fm e ++ ascii "]"

/-- One iteration of the loop `main.go:95-126`: the bytes left, and what is written unless the
function returns.  `full`: there is no room behind the bytes in the buffer, `len(p) == cap(p)`, which
taking bytes from its front does not change. -/
def step (fm : Fmt) (strip full : Bool) (p : Bytes) : Bytes × Option Bytes :=
  let d := decodeEscape p
  let q := d.buf.drop d.n
  if d.e = 0 then
    let (r, m) := decodeRune q
    if r = 0x90 ∨ r = 0x9B ∨ r = 0x9D ∨ r = 0x9E ∨ r = 0x9F then (q, none)
    else if r = 0x1B ∧ full then (q, none)
    else (q.drop m, some (encodeRune r))
  else (q, some (note fm strip d.e d.arg))

/-- The loop `main.go:95-126`, at most `fuel` iterations: what is written, and the bytes left. -/
def loop (fm : Fmt) (strip full : Bool) : Nat → Bytes → Bytes × Bytes
  | 0, p => ([], p)
  | fuel + 1, p =>
    if p = [] then ([], [])
    else
      match step fm strip full p with
      | (q, none) => ([], q)
      | (q, some o) => let r := loop fm strip full fuel q; (o ++ r.1, r.2)

/-- `main.go:83-128` `processBatch`.  Every iteration uses up at least one byte (`step_progress`). -/
def batch (fm : Fmt) (strip full : Bool) (p : Bytes) : Bytes × Bytes := loop fm strip full p.length p

/-- What a read gives: bytes, whether they fill the room there was, and an error, given by
its exit code if it is an `ExitError`. -/
structure Read where
  data : Bytes
  full : Bool := false
  err : Option (Option Int) := none

/-- `main.go:60-81` `runBatch` with the given reads: all that is written, the bytes left (which are
logged), and the error returned; `none` if it waits for more reads. -/
def runBatch (fm : Fmt) (strip : Bool) : Bytes → List Read → Option (Bytes × Bytes × Option (Option Int))
  | _, [] => none
  | buf, r :: rs =>
    let o := batch fm strip r.full (buf ++ r.data)
    match r.err with
    | some e => some (o.1, o.2, some e)
    | none => (runBatch fm strip o.2 rs).map fun x => (o.1 ++ x.1, x.2)

/-- `term.go:199-209` `MustRun`: the status the program exits with, `none` if it does not; an error
is given by its exit code if it has one.  `log.Fatalln` exits with 1. -/
def mustRun (err : Option (Option Int)) : Option Int :=
  match err with
  | none => none
  | some ex =>
    match ex with
    | some ec => if ec ≠ 0 then some ec else some 1
    | none => some 1

/-! ### Interactively -/

/-- What `handle` does besides printing. -/
inductive Act
  | go | quit | suspend | clear
deriving DecidableEq, Repr

/-- `main.go:209-268` `handle`: what is printed (up to where it returns), what else is done, and the
next value of `prior`.  `suspOk`: suspending succeeds. -/
def handle (fm : Fmt) (suspOk : Bool) (prior e : Nat) (a : Bytes) : Bytes × Act × Nat :=
  let hd := fm.point e ++ 0x20 :: name fm e ++ (if a ≠ [] then 0x20 :: fm.quote a else [])
  let nl : Bytes := [0x0D, 0x0A]
  if e = csiId 0x4D ∨ e = csiId 0x6D then (hd ++ fm.mouse e a ++ nl, .go, e)
  else if e = 0x03 then
    if prior = 0x03 then (hd, .quit, prior)
    else (hd ++ ascii " \x1b[91m<press Ctrl-C again to quit>\x1b[0m" ++ nl, .go, e)
  else if e = 0x0C then
    if prior = 0x0C then (hd ++ ascii "\x1b[2J\x1b[H" ++ nl, .clear, e)
    else (hd ++ ascii " \x1b[93m<press Ctrl-L again to quit>\x1b[0m" ++ nl, .go, e)
  else if e = 0x1A then
    if prior = 0x1A then (if suspOk then (hd ++ nl, .suspend, e) else (hd, .quit, prior))
    else (hd ++ ascii " \x1b[92m<press Ctrl-Z again to suspend>\x1b[0m" ++ nl, .go, e)
  else (hd ++ nl, .go, e)

/-- What can happen in the loop `main.go:178-204`. -/
inductive Ev
  /-- SIGTERM or SIGHUP -/
  | stop
  /-- SIGINT -/
  | interrupt
  /-- SIGWINCH; what is printed then -/
  | resize (text : Bytes)
  /-- from the reading goroutine -/
  | input (e : Nat) (a : Bytes)
  | inputErr
deriving DecidableEq, Repr

/-- The loop `main.go:178-204`: all that is printed, what was done, and whether it has returned. -/
def interact (fm : Fmt) (suspOk : Bool) : Nat → List Ev → Bytes × List Act × Bool
  | _, [] => ([], [], false)
  | _, .stop :: _ => ([], [], true)
  | _, .inputErr :: _ => ([], [], true)
  | prior, .resize t :: l => let r := interact fm suspOk prior l; (t ++ r.1, r.2)
  | prior, .interrupt :: l =>
    let h := handle fm suspOk prior 0x03 []
    if h.2.1 = .quit then (h.1, [.quit], true)
    else let r := interact fm suspOk h.2.2 l; (h.1 ++ r.1, h.2.1 :: r.2.1, r.2.2)
  | prior, .input e a :: l =>
    let h := handle fm suspOk prior e a
    if h.2.1 = .quit then (h.1, [.quit], true)
    else let r := interact fm suspOk h.2.2 l; (h.1 ++ r.1, h.2.1 :: r.2.1, r.2.2)

end Dcm
end Anansi
