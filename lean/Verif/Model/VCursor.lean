import Verif.Model.Differ
/-
`cursor.go`: the virtual cursor.
-/
set_option autoImplicit false

namespace Anansi

/-- `cursor.go:14-19` `VirtualCursor`. -/
structure VCursor where
  cur : Cursor := {}
  real : Cursor := {}
  buf : Buffer := .empty
deriving DecidableEq, Repr

namespace VCursor

/-- `cursor.go:23-26` `Reset`. -/
def reset (v : VCursor) : VCursor := { v with cur := v.real, buf := v.buf.reset }

/-- `cursor.go:31-42` `WriteTo`: the new state, the bytes accepted, the error.
`bytes.Buffer.WriteTo` calls no `Write` when the buffer is empty. -/
def writeTo (v : VCursor) (o : Wrote) : VCursor × Bytes × Option FlushErr :=
  let b := v.buf.buf
  if b = [] then ({ v with buf := v.buf.writeTo 0, real := v.cur }, [], none)
  else match o with
  | .ok => ({ v with buf := v.buf.writeTo b.length, real := v.cur }, b, none)
  | .block k => ({ v with buf := v.buf.writeTo k, real := {} }, b.take k, some .wouldBlock)
  | .fail k => (({ v with buf := v.buf.writeTo k, real := {} } : VCursor).reset, b.take k, some .other)

/-- The calls `ProcessANSI` of `Process`. -/
def processAll (gr : Nat → Bool) (c : Cursor) : List Event → Option Cursor
  | [] => some c
  | e :: t => (c.processANSI gr e).bind fun c => processAll gr c t

/-- `cursor.go:47-92` `Write`, `WriteString`, `WriteRune`, `WriteByte`, `WriteESC` and
`WriteSeq`, each of which appends some bytes `p` and processes.  `none` is a panic, or a
call that never returns. -/
def write (gr : Nat → Bool) (v : VCursor) (p : Bytes) : Option VCursor :=
  (v.buf.write p).process?.bind fun eb =>
    (processAll gr v.cur eb.1).map fun c => { v with cur := c, buf := eb.2 }

/-- `cursor.go:97-99`: the loop of `WriteSGR` and its count. -/
def sgrLoop (v : VCursor) : List Attr → VCursor × Nat
  | [] => (v, 0)
  | a :: t =>
    let m := v.cur.mergeSGR a
    let r := ({ v with cur := m.1, buf := v.buf.write (sgrText m.2) } : VCursor).sgrLoop t
    (r.1, (sgrText m.2).length + r.2)

/-- `cursor.go:96-104` `WriteSGR`. -/
def writeSGR (v : VCursor) (attrs : List Attr) : VCursor :=
  let r := v.sgrLoop attrs
  if r.2 > 0 then { r.1 with buf := r.1.buf.skip r.2 } else r.1

/-- `cursor.go:108-110`, `114-116`, `120-122`: write a sequence and skip it. -/
def emit (v : VCursor) (m : Option (Cursor × Seq)) : Option VCursor :=
  m.bind fun m => m.2.append.map fun b =>
    { v with cur := m.1, buf := (v.buf.write b).skip b.length }

/-- `cursor.go:108-110` `To`. -/
def to (v : VCursor) (p : Pt) : Option VCursor := v.emit (v.cur.to p)
/-- `cursor.go:114-116` `Show`. -/
def show_ (v : VCursor) : Option VCursor := v.emit v.cur.show_
/-- `cursor.go:120-122` `Hide`. -/
def hide (v : VCursor) : Option VCursor := v.emit v.cur.hide

/-- `cursor.go:126-128` `Apply`.  The bytes written are not skipped. -/
def apply (v : VCursor) (cs : Cursor) : Option VCursor :=
  (cs.applyTo v.cur).map fun r => { v with cur := r.1, buf := v.buf.write r.2 }

/-- A call on a virtual cursor. -/
inductive Op
  | write (p : Bytes)
  | sgr (attrs : List Attr)
  | moveTo (p : Pt)
  | show_
  | hide
  | apply (c : Cursor)
deriving DecidableEq, Repr

/-- One call. -/
def op (gr : Nat → Bool) (v : VCursor) : Op → Option VCursor
  | .write p => v.write gr p
  | .sgr l => some (v.writeSGR l)
  | .moveTo p => v.to p
  | .show_ => v.show_
  | .hide => v.hide
  | .apply c => v.apply c

/-- A sequence of calls. -/
def ops (gr : Nat → Bool) : VCursor → List Op → Option VCursor
  | v, [] => some v
  | v, o :: t => (v.op gr o).bind fun v => v.ops gr t

end VCursor
end Anansi
