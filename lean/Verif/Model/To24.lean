import Verif.Model.Process
import Verif.Model.Colors
/-
`cmd/to24bit/main.go`: a filter that turns the legacy colours in a stream of terminal
output into 24-bit ones.  Writing the output is assumed to succeed.
-/
set_option autoImplicit false

namespace Anansi
namespace T24
open Sgr

/-- `main.go:79-98`: the attribute to send in place of the one decoded, if any.  The
second condition compares the converted background with itself. -/
def convertAttr (attr : Attr) : Option Attr :=
  let (attr, needed) := match fg attr with
    | some c => if Col.to24 c ≠ c then (sansFG attr ||| colorFG (Col.to24 c), true) else (attr, false)
    | none => (attr, false)
  let (attr, needed) := match bg attr with
    | some c =>
      if Col.to24 c ≠ Col.to24 c then (sansBG attr ||| colorBG (Col.to24 c), true) else (attr, needed)
    | none => (attr, needed)
  if needed then some attr else none

/-- `main.go:68-111` `process`: the bytes written. -/
def convert (ev : Event) : Bytes :=
  if !isEscape ev.1 then encodeRune ev.1
  else
    let p :=
      if ev.1 = csiId 0x6D then
        let d := decode ev.2
        if d.err = none then ((convertAttr d.val).map append).getD [] else []
      else []
    if p = [] then escAppendWith ev.1 ev.2 else p

/-- One iteration of `main.go:51-64`: the bytes left, and what was decoded unless the
loop breaks. -/
def step (ateof : Bool) (p : Bytes) : Bytes × Option Event :=
  let d := decodeEscape p
  let q := d.buf.drop d.n
  if d.e = 0 then
    let (r, m) := decodeRune q
    if r = 0x1B ∧ q.length = 1 ∧ ateof = false then (q, none)
    else (q.drop m, some (r, d.arg))
  else (q, some (d.e, d.arg))

/-- The loop `main.go:51-64`, at most `fuel` iterations. -/
def loop (ateof : Bool) : Nat → Bytes → Bytes × Bytes
  | 0, p => ([], p)
  | fuel + 1, p =>
    if p = [] then ([], [])
    else
      match step ateof p with
      | (q, none) => ([], q)
      | (q, some ev) => let r := loop ateof fuel q; (convert ev ++ r.1, r.2)

/-- `main.go:50-66` `processMore`: the bytes written and the bytes kept.  Every iteration
uses up at least one byte (`loop_eq`). -/
def processMore (ateof : Bool) (p : Bytes) : Bytes × Bytes := loop ateof p.length p

/-- `main.go:24-48` `readMore`: all that is written when the reads return the given chunks
and then the end of the file. -/
def readMore : List Bytes → Bytes → Bytes
  | [], buf => (processMore true buf).1
  | c :: cs, buf => let r := processMore false (buf ++ c); r.1 ++ readMore cs r.2

end T24
end Anansi
