import Verif.Model.Input
import Verif.Model.Seq
/-
`input.go:306-332, 456-541`: recording input and reading a recording back.

Times are values of any type `τ`, as far as the RFC 3339 format with nanoseconds can tell them
apart; formatting and parsing are parameters.  The zero time is `none`.
-/
set_option autoImplicit false

namespace Anansi
namespace Rpl
open Inp

/-- "recTime:" -/
def recTime : List Nat := [0x72, 0x65, 0x63, 0x54, 0x69, 0x6D, 0x65, 0x3A]
/-- "recReadErr:" -/
def recReadErr : List Nat := [0x72, 0x65, 0x63, 0x52, 0x65, 0x61, 0x64, 0x45, 0x72, 0x72, 0x3A]

def ascii (l : List Nat) : Bytes := l.map UInt8.ofNat

/-- An APC string, as `input.go:68-77` has it. -/
def apc (body : Bytes) : Bytes := [0x1B, 0x5F] ++ body ++ [0x1B, 0x5C]

/-- `input.go:306-332` `recordFrame`, `writeIntoBuffer`: what is recorded for a read with time
`t`, error text `e` (`none`: no error) and bytes `b`. -/
def record {τ : Type} (fmt : τ → Bytes) (t : τ) (e : Option Bytes) (b : Bytes) : Bytes :=
  match e with
  | none => apc (ascii recTime ++ fmt t) ++ b
  | some e => apc (ascii recTime ++ fmt t) ++ apc (ascii recReadErr ++ e) ++ b

/-- `input.go:465-470` `protoFrame`.  Its `e` and `E` are never set. -/
structure Proto (τ : Type) where
  t : Option τ := none
  b : Nat × Nat := (0, 0)
  m : Nat × Nat := (0, 0)
deriving DecidableEq, Repr

/-- `input.go:472-478`: the variables of the loop, but for `in`. -/
structure St (τ : Type) where
  frames : List (Proto τ) := []
  bs : Bytes := []
  off : Nat := 0
  prot : Proto τ := {}
deriving DecidableEq, Repr

/-- `input.go:480-487` `push`. -/
def St.push {τ : Type} (s : St τ) : St τ :=
  if s.prot.m ≠ (0, 0) ∨ s.prot.t.isSome ∨ s.off < s.bs.length then
    { s with frames := s.frames ++ [{ s.prot with b := (s.off, s.bs.length) }], prot := {}, off := s.bs.length }
  else s

/-- `input.go:500-524`: what is done with an event; `none` if the time is invalid.
`parse` returns `some none` for the zero time. -/
def St.step {τ : Type} (parse : Bytes → Option (Option τ)) (s : St τ) (ev : Event) : Option (St τ) :=
  let e := ev.1
  let a := ev.2
  if e = 0x9F then
    if (ascii recTime).isPrefixOf a then
      (parse (a.drop 8)).map fun t =>
        let s := s.push
        { s with prot := { s.prot with t } }
    else if (ascii recReadErr).isPrefixOf a then
      let bs := s.bs ++ a.drop 11
      some ({ s with bs, prot := { s.prot with m := (s.off, bs.length) }, off := bs.length } : St τ).push
    else
      let s := s.push
      let bs := s.bs ++ a
      some { s with bs, prot := { s.prot with m := (s.off, bs.length) }, off := bs.length }
  else if 0xEF00 ≤ e ∧ e ≤ 0xEFFF then some { s with bs := s.bs ++ escAppendWith e a }
  else some { s with bs := s.bs ++ encodeRune e }

/-- All events there are. -/
def St.steps {τ : Type} (parse : Bytes → Option (Option τ)) (s : St τ) (evs : List Event) : Option (St τ) :=
  evs.foldlM (St.step parse) s

/-- `input.go:489-525`: the loop, with what the file has to offer.  `none`: an error, or it
waits for ever.  A read that succeeds leaves `e` zero, and a zero is taken as input
(`loop_data`). -/
def loop {τ : Type} (parse : Bytes → Option (Option τ)) (s : St τ) (inp : Input) : List Avail → Option (St τ)
  | [] => none
  | .nothing :: l => loop parse s inp l
  | .fail :: _ => none
  | .eof :: _ => (s.steps parse inp.drain.2).map St.push
  | .data b t full :: l =>
    match s.steps parse inp.drain.2 with
    | none => none
    | some s =>
      match s.step parse (0, []) with
      | none => none
      | some s => loop parse s { inp.drain.1 with buf := inp.drain.1.buf ++ b :: t, full := full, ateof := false } l

/-- `input.go:410-416` `InputFrame`; the error is always nil in a replay. -/
structure Frame (τ : Type) where
  t : Option τ := none
  m : Bytes := []
  b : Bytes := []
deriving DecidableEq, Repr

/-- A part of the bytes. -/
def part (bs : Bytes) (r : Nat × Nat) : Bytes := (bs.take r.2).drop r.1

/-- `input.go:527-539`: the frames. -/
def St.result {τ : Type} (s : St τ) : List (Frame τ) :=
  s.frames.map fun p =>
    ⟨p.t, if p.m ≠ (0, 0) then part s.bs p.m else [], if p.b ≠ (0, 0) then part s.bs p.b else []⟩

/-- `input.go:456-541` `ReadInputReplay`. -/
def readInputReplay {τ : Type} (parse : Bytes → Option (Option τ)) (av : List Avail) : Option (List (Frame τ)) :=
  (loop parse {} {} av).map St.result

end Rpl
end Anansi
