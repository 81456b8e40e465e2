import Verif.Model.Process
/-
`input.go:20-405`: reading and decoding terminal input, and the file flags.
Recording is in `Model/Replay.lean`.
-/
set_option autoImplicit false

namespace Anansi
namespace Inp

/-! Constants of package `syscall` on Linux, amd64. -/
def O_NONBLOCK : BitVec 64 := 0x800
def O_ASYNC : BitVec 64 := 0x2000
/-- The flags `fcntl(F_SETFL)` can change: `O_APPEND`, `O_NONBLOCK`, `O_ASYNC`, `O_DIRECT`
and `O_NOATIME`; it ignores all others. -/
def SETFL_MASK : BitVec 64 := 0x46C00

/-- Results of system calls and of the functions here, as far as the code looks at them. -/
inductive Err
  | nil
  | eof
  | wouldBlock
  /-- any other read error -/
  | other
  /-- a failed `fcntl` -/
  | fcntl
deriving DecidableEq, Repr

/-- What the terminal has to offer to successive reads: bytes (at least one; `full` tells
whether they fill the space the reader offers), nothing for the time being, the end of
the file, or an error. -/
inductive Avail
  | data (b : UInt8) (t : Bytes) (full : Bool)
  | nothing
  | eof
  | fail
deriving DecidableEq, Repr

/-- `input.go:24-37` `Input`, with the flags of its file.  `full` tells whether the
buffer's bytes end at its capacity.  `polled` tells whether the `os.File` was made from a
descriptor already in non-blocking mode: then its method `Fd` puts the descriptor back
into blocking mode every time (Go standard library, `os/file_unix.go`). -/
structure Input where
  file : Bool := true
  oldFlags : BitVec 64 := 0
  ateof : Bool := false
  nonblock : Bool := false
  async : Bool := false
  buf : Bytes := []
  full : Bool := false
  flags : BitVec 64 := 0
  polled : Bool := false
deriving DecidableEq, Repr

/-- Reads do not wait. -/
def Input.nonblocking (s : Input) : Bool := (s.flags &&& O_NONBLOCK) ≠ 0

/-- `os.File.Fd`. -/
def Input.fd (s : Input) : Input :=
  if s.polled then { s with flags := s.flags &&& ~~~O_NONBLOCK } else s

/-- `fcntl(F_SETFL)`. -/
def Input.setfl (s : Input) (v : BitVec 64) : Input :=
  { s with flags := (s.flags &&& ~~~SETFL_MASK) ||| (v &&& SETFL_MASK) }

/-- `input.go:389-397` `buildFlags`. -/
def Input.buildFlags (s : Input) (flags : BitVec 64) : BitVec 64 :=
  let flags := if s.nonblock then flags ||| O_NONBLOCK else flags
  if s.async then flags ||| O_ASYNC else flags

/-- `input.go:372-387` `setFlags`, given whether the two `fcntl` calls succeed: the prior
flags, and whether the error is nil. -/
def Input.setFlags (s : Input) (getOk setOk : Bool) : Input × BitVec 64 × Bool :=
  if !s.file then (s, 0, true)
  else
    let s := s.fd
    if !getOk then (s, 0, false)
    else
      let prior := s.flags
      if !setOk then (s.fd, prior, false)
      else (s.fd.setfl (s.buildFlags prior), prior, true)

/-- `input.go:363-370` `setNonblock`. -/
def Input.setNonblock (s : Input) (nonblock getOk setOk : Bool) : Input × Bool :=
  if nonblock = s.nonblock then (s, true)
  else
    let r := ({ s with nonblock := nonblock } : Input).setFlags getOk setOk
    (r.1, r.2.2)

/-- `input.go:346-361` `setAsync` on Linux; `ownOk` tells whether `F_SETOWN` succeeds. -/
def Input.setAsync (s : Input) (async getOk setOk ownOk : Bool) : Input × Bool :=
  if async = s.async then (s, true)
  else
    let r := ({ s with async := async } : Input).setFlags getOk setOk
    if !r.2.2 then (r.1, false)
    else if async && r.1.file then (r.1.fd, ownOk) else (r.1, true)

/-- `os.File.Read`: bytes, whether they fill the buffer, error and what is left to read;
`none` when it waits for ever. -/
def fileRead (nb : Bool) : List Avail → Option (Bytes × Bool × Err × List Avail)
  | [] => if nb then some ([], false, .wouldBlock, []) else none
  | .data b t full :: l => some (b :: t, full, .nil, l)
  | .nothing :: l => if nb then some ([], false, .wouldBlock, l) else fileRead nb l
  | .eof :: l => some ([], false, .eof, l)
  | .fail :: l => some ([], false, .other, l)

/-- `input.go:173-222` `ReadMore`, without recording.  The loop never goes round: a read
returns bytes or an error.  `readBuf` (`336-344`) makes room, so the buffer is no longer
full before the read.  `none` when it waits for ever. -/
def Input.readMore (s : Input) (av : List Avail) (getOk setOk : Bool) :
    Option (Input × Nat × Err × List Avail) :=
  match fileRead s.nonblocking av with
  | none => none
  | some (b, full, err, av) =>
    let s := { s with buf := s.buf ++ b, full := full }
    match err with
    | .eof =>
      if s.ateof then some (s, b.length, .eof, av)
      else some ({ s with ateof := true }, b.length, .eof, av)
    | .wouldBlock =>
      let r := ({ s with ateof := false } : Input).setNonblock false getOk setOk
      if !r.2 then some (r.1, 0, .fcntl, av) else some (r.1, b.length, .wouldBlock, av)
    | .nil => some ({ s with ateof := false }, b.length, .nil, av)
    | e => some (s, b.length, e, av)

/-- `input.go:238-247`: the loop of `ReadAny`, with the number of bytes so far. -/
def Input.readLoop (s : Input) (n : Nat) : List Avail → Option (Input × Nat × Err × List Avail)
  | [] => if s.nonblocking then some ({ s with full := false }, n, .wouldBlock, []) else none
  | .data b t full :: l =>
    ({ s with buf := s.buf ++ b :: t, full := full } : Input).readLoop (n + (t.length + 1)) l
  | .nothing :: l =>
    if s.nonblocking then some ({ s with full := false }, n, .wouldBlock, l)
    else ({ s with full := false } : Input).readLoop n l
  | .eof :: l => some ({ s with full := false }, n, .eof, l)
  | .fail :: l => some ({ s with full := false }, n, .other, l)

/-- `input.go:227-274` `ReadAny`, without recording. -/
def Input.readAny (s : Input) (av : List Avail) (getOk setOk : Bool) :
    Option (Input × Nat × Err × List Avail) :=
  let r := s.setNonblock true getOk setOk
  if !r.2 then some (r.1, 0, .fcntl, av)
  else
    match ({ r.1 with ateof := false } : Input).readLoop 0 av with
    | none => none
    | some (s, n, .eof, av) => some ({ s with ateof := true }, n, .eof, av)
    | some (s, n, .wouldBlock, av) => some ({ s with ateof := false }, n, .nil, av)
    | some (s, n, e, av) => some (s, n, e, av)

/-- `input.go:278-284` `Enter`. -/
def Input.enter (s : Input) (getOk setOk : Bool) : Input × Bool :=
  let r := s.setFlags getOk setOk
  if r.2.2 then ({ r.1 with oldFlags := r.2.1 }, true) else (r.1, false)

/-- `input.go:287-295` `Exit`. -/
def Input.exit (s : Input) (setOk : Bool) : Input × Bool :=
  if !s.file then (s, true)
  else if !setOk then (s.fd, false) else (s.fd.setfl s.oldFlags, true)

/-- `input.go:130-168` `Decode`, `decodeEscape` and `decodeRune`. -/
def Input.decode (s : Input) : Input × Option Event :=
  if s.buf = [] then (s, none)
  else
    let d := decodeEscape s.buf
    let q := d.buf.drop d.n
    if d.e ≠ 0 then ({ s with buf := q }, some (d.e, d.arg))
    else if q = [] then ({ s with buf := q }, none)
    else
      let (r, m) := decodeRune q
      if !s.ateof && (r = 0x90 || r = 0x9B || r = 0x9D || r = 0x9E || r = 0x9F ||
          (r = 0x1B && s.full)) then ({ s with buf := q }, none)
      else ({ s with buf := q.drop m }, some (r, []))

/-- Decoding until nothing more is available, at most `fuel` times. -/
def Input.drainAux : Nat → Input → Input × List Event
  | 0, s => (s, [])
  | fuel + 1, s =>
    match s.decode with
    | (s, none) => (s, [])
    | (s, some ev) => let r := drainAux fuel s; (r.1, ev :: r.2)

/-- Decoding until nothing more is available; every event takes at least one byte
(`drain_eq`), so as many rounds as bytes plus one are enough. -/
def Input.drain (s : Input) : Input × List Event := s.drainAux (s.buf.length + 1)

/-- What a user does between entering and leaving. -/
inductive Op
  /-- `Notify` (`input.go:93-103`) with a channel or with nil -/
  | notify (on getOk setOk ownOk : Bool)
  | readMore (av : List Avail) (getOk setOk : Bool)
  | readAny (av : List Avail) (getOk setOk : Bool)
  | decode
deriving DecidableEq, Repr

/-- The state after an operation; `none` if it never returns. -/
def Input.op (s : Input) : Op → Option Input
  | .notify on g t o => some (s.setAsync on g t o).1
  | .readMore av g t => (s.readMore av g t).map (·.1)
  | .readAny av g t => (s.readAny av g t).map (·.1)
  | .decode => some s.decode.1

/-- The state after operations. -/
def Input.ops (s : Input) : List Op → Option Input
  | [] => some s
  | o :: l => (s.op o).bind fun s => s.ops l

end Inp
end Anansi
