import Verif.Model.Decode
/-
`buffer.go`: the deferred output buffer and the stream processor.
-/
set_option autoImplicit false

namespace Anansi

/-- A call `proc.ProcessANSI(e, a)`. -/
abbrev Event := Nat × Bytes

/-- Result of `Process`: the calls made, the bytes processed (as they stand in
the buffer afterwards) and the bytes left over; `n` is `done.length`, and the
buffer, which decoding may rewrite in place, is `done ++ rest`. -/
structure Processed where
  events : List Event
  done : Bytes
  rest : Bytes
deriving DecidableEq, Repr

/-- `buffer.go:150-166` `Process`, at most `fuel` iterations. -/
def processAux : Nat → Bytes → Processed
  | 0, p => ⟨[], [], p⟩
  | fuel + 1, p =>
    if p = [] then ⟨[], [], []⟩
    else
      let d := decodeEscape p
      let q := d.buf.drop d.n
      if d.e ≠ 0 then
        let r := processAux fuel q
        ⟨(d.e, d.arg) :: r.events, d.buf.take d.n ++ r.done, r.rest⟩
      else
        let (c, m) := decodeRune q
        if c = 0x1B then ⟨[], d.buf.take d.n, q⟩
        else
          let r := processAux fuel (q.drop m)
          ⟨(c, []) :: r.events, d.buf.take d.n ++ q.take m ++ r.done, r.rest⟩

/-- `buffer.go:150-166` `Process`.  Every iteration consumes at least one byte
(theorem `processAux_fuel`), so as many iterations as bytes are enough. -/
def process (p : Bytes) : Processed := processAux p.length p

/-- `buffer.go:14-17` `Buffer`: buffered bytes and the processing offset. -/
structure Buffer where
  buf : Bytes
  off : Nat
deriving DecidableEq, Repr

namespace Buffer

/-- The empty buffer. -/
def empty : Buffer := ⟨[], 0⟩

/-- `buffer.go:108-126` `Write`, `WriteString`, `WriteRune`, `WriteByte`, and the
effect of `WriteESC`, `WriteSeq`, `WriteSGR` (`50-106`): append bytes. -/
def write (b : Buffer) (p : Bytes) : Buffer := { b with buf := b.buf ++ p }

/-- `buffer.go:131-133` `Skip`. -/
def skip (b : Buffer) (n : Nat) : Buffer := { b with off := b.off + n }

/-- `buffer.go:136-141` `Discard`; `bytes.Buffer.Next` clamps to the length. -/
def discard (b : Buffer) : Buffer := if b.off > 0 then ⟨b.buf.drop b.off, 0⟩ else b

/-- `buffer.go:36-39` `Reset`. -/
def reset (_ : Buffer) : Buffer := ⟨[], 0⟩

/-- `buffer.go:42-48` `WriteTo`, when the destination accepts `n` bytes. -/
def writeTo (b : Buffer) (n : Nat) : Buffer := ⟨b.buf.drop n, b.off - n⟩

/-- `buffer.go:145-147` `Process`: the events and the new state; `none` when the
slice expression `[b.off:]` panics. -/
def process? (b : Buffer) : Option (List Event × Buffer) :=
  if b.off ≤ b.buf.length then
    let r := process (b.buf.drop b.off)
    some (r.events, ⟨b.buf.take b.off ++ r.done ++ r.rest, b.off + r.done.length⟩)
  else none

end Buffer
end Anansi
