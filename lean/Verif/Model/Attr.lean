import Verif.Model.Basic
/-
`attr.go` and `attr_linux.go`: terminal attributes.
-/
set_option autoImplicit false

namespace Anansi
namespace Tty

/-- `syscall.Termios` on Linux; `rest` stands for the line discipline and the speeds. -/
structure Termios where
  iflag : BitVec 32 := 0
  oflag : BitVec 32 := 0
  cflag : BitVec 32 := 0
  lflag : BitVec 32 := 0
  cc : List UInt8 := List.replicate 19 0
  rest : Nat := 0
deriving DecidableEq, Repr

/-! The constants of package `syscall` on Linux, amd64. -/
def BRKINT : BitVec 32 := 0x2
def ICRNL : BitVec 32 := 0x100
def INPCK : BitVec 32 := 0x10
def ISTRIP : BitVec 32 := 0x20
def IXON : BitVec 32 := 0x400
def OPOST : BitVec 32 := 0x1
def CSIZE : BitVec 32 := 0x30
def PARENB : BitVec 32 := 0x100
def CS8 : BitVec 32 := 0x30
def ECHO : BitVec 32 := 0x8
def ICANON : BitVec 32 := 0x2
def IEXTEN : BitVec 32 := 0x8000
def ISIG : BitVec 32 := 0x1
def VTIME : Nat := 5
def VMIN : Nat := 6

/-- `attr.go:15-23` `Attr`; `file` tells whether it is set: the only file it can be set
to is the terminal's output file. -/
structure Attr where
  file : Bool := false
  own : Bool := false
  orig : Termios := {}
  cur : Termios := {}
  raw : Bool := false
  echo : Bool := false
deriving DecidableEq, Repr

/-- `attr.go:91-111` `modifyTermios`. -/
def Attr.modify (at_ : Attr) (t : Termios) : Termios :=
  let t := if at_.raw then { t with
      iflag := t.iflag &&& ~~~(BRKINT ||| ICRNL ||| INPCK ||| ISTRIP ||| IXON)
      oflag := t.oflag &&& ~~~OPOST
      cflag := (t.cflag &&& ~~~(CSIZE ||| PARENB)) ||| CS8
      lflag := t.lflag &&& ~~~(ECHO ||| ICANON ||| IEXTEN ||| ISIG)
      cc := (t.cc.set VMIN 1).set VTIME 0 } else t
  if at_.echo then { t with lflag := t.lflag ||| ECHO }
  else { t with lflag := t.lflag &&& ~~~ECHO }

/-- An `Attr` and the attributes of the terminal. -/
structure State where
  at_ : Attr := {}
  tty : Termios := {}
deriving DecidableEq, Repr

/-- `attr_linux.go:31-33` `setAttr`: the terminal takes the attributes, or the call fails
and changes nothing. -/
def State.put (s : State) (t : Termios) (ok : Bool) : State := if ok then { s with tty := t } else s

/-- Calls, with what the system calls they may make return. -/
inductive Call
  | setRaw (raw : Bool) (ok : Bool)
  | setEcho (echo : Bool) (ok : Bool)
deriving DecidableEq, Repr

/-- `attr.go:55-68` `SetRaw` and `attr.go:72-89` `SetEcho`: the state, and whether nil is
returned. -/
def State.call (s : State) : Call → State × Bool
  | .setRaw raw ok =>
    if raw = s.at_.raw then (s, true)
    else
      let a := { s.at_ with raw := raw }
      if !a.file then ({ s with at_ := a }, true)
      else
        let a := { a with cur := a.modify a.orig }
        (({ s with at_ := a } : State).put a.cur ok, ok)
  | .setEcho echo ok =>
    if echo = s.at_.echo then (s, true)
    else
      let a := { s.at_ with echo := echo }
      if !a.file then ({ s with at_ := a }, true)
      else
        let a := { a with cur := { a.cur with
          lflag := if echo then a.cur.lflag ||| ECHO else a.cur.lflag &&& ~~~ECHO } }
        (({ s with at_ := a } : State).put a.cur ok, ok)

/-- A sequence of calls. -/
def State.calls (s : State) (l : List Call) : State := l.foldl (fun s c => (s.call c).1) s

/-- `attr.go:115-134` `Enter`, when the terminal has an output file or not, and the system
calls succeed or not.  A failed `TCGETS` leaves zero attributes. -/
def State.enter (s : State) (out getOk setOk : Bool) : State × Bool :=
  let a := if s.at_.file then { s.at_ with own := true } else { s.at_ with file := out, own := false }
  if !a.file then ({ s with at_ := a }, true)
  else if !getOk then ({ s with at_ := { a with orig := {} } }, false)
  else
    let a := { a with orig := s.tty, cur := a.modify s.tty }
    (({ s with at_ := a } : State).put a.cur setOk, setOk)

/-- `attr.go:138-150` `Exit`. -/
def State.exit (s : State) (setOk : Bool) : State × Bool :=
  if !s.at_.file then (s, true)
  else if !setOk then (s, false)
  else
    let s := s.put s.at_.orig true
    (if !s.at_.own then { s with at_ := { s.at_ with file := false, own := false } } else s, true)

end Tty
end Anansi
