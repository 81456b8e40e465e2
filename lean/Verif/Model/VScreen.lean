import Verif.Model.State
/-
`screen.go`: the virtual screen, i.e. the emulator fed through a buffer.
-/
set_option autoImplicit false

namespace Anansi

/-- `screen.go:39-42` `VirtualScreen`. -/
structure VScreen where
  sc : Screen := {}
  buf : Buffer := .empty
deriving DecidableEq, Repr

namespace VScreen

/-- `screen.go:190-193` `process`. -/
def process (gr : Nat → Bool) (v : VScreen) : Except Fault VScreen :=
  match v.buf.process? with
  | none => .error .panic
  | some (evs, b) => (v.sc.processAll gr evs).bind fun sc => .ok { sc, buf := b.discard }

/-- `screen.go:129-173` `Write`, `WriteString`, `WriteRune`, `WriteByte`, `WriteESC`
and `WriteSeq`, each of which appends some bytes `p` and processes. -/
def write (gr : Nat → Bool) (v : VScreen) (p : Bytes) : Except Fault VScreen :=
  ({ v with buf := v.buf.write p } : VScreen).process gr

/-- `screen.go:178-182`: the loop of `WriteSGR`, returning the count of bytes. -/
def sgrLoop (v : VScreen) : List Attr → VScreen × Nat
  | [] => (v, 0)
  | a :: t =>
    let (cur, d) := v.sc.cur.mergeSGR a
    let v1 : VScreen := { v with sc := { v.sc with cur } }
    if d ≠ 0 then
      let r := ({ v1 with buf := v1.buf.write (Sgr.append d) } : VScreen).sgrLoop t
      (r.1, (Sgr.append d).length + r.2)
    else v1.sgrLoop t

/-- `screen.go:177-188` `WriteSGR`. -/
def writeSGR (v : VScreen) (attrs : List Attr) : VScreen :=
  let r := v.sgrLoop attrs
  if r.2 > 0 then { r.1 with buf := r.1.buf.skip r.2 } else r.1

/-- A call on a virtual screen. -/
inductive Op
  | write (p : Bytes)
  | sgr (attrs : List Attr)
  | moveTo (p : Pt)
deriving DecidableEq, Repr

/-- The calls: `Write*`, `WriteSGR` and `To` (`state.go:202`). -/
def op (gr : Nat → Bool) (v : VScreen) : Op → Except Fault VScreen
  | .write p => v.write gr p
  | .sgr l => .ok (v.writeSGR l)
  | .moveTo p => .ok { v with sc := v.sc.to p }

/-- A sequence of calls. -/
def ops (gr : Nat → Bool) : VScreen → List Op → Except Fault VScreen
  | v, [] => .ok v
  | v, o :: t => (v.op gr o).bind fun v => v.ops gr t

end VScreen
end Anansi
