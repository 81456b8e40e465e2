import Verif.Model.Attr
/-
What the attributes of a terminal in use should be.
-/
set_option autoImplicit false

namespace Anansi
namespace Tty

/-- `t` is `o` as configured: input is echoed exactly when asked for.  In raw mode, input
is not translated (no break interrupts, carriage returns kept, no parity check, eighth bit
kept, no flow control), output is not processed, characters have eight bits without
parity, input is not collected into lines, has no special characters and makes no
signals, and reads wait for one byte without a timeout.  Everything else is as in `o`. -/
structure Configured (raw echo : Bool) (o t : Termios) : Prop where
  iflag : ∀ i, t.iflag.getLsbD i =
    (o.iflag.getLsbD i && !(raw && decide (i ∈ [1, 4, 5, 8, 10])))
  oflag : ∀ i, t.oflag.getLsbD i = (o.oflag.getLsbD i && !(raw && decide (i = 0)))
  cflag : ∀ i, t.cflag.getLsbD i =
    if raw && decide (i = 4 ∨ i = 5) then true else (o.cflag.getLsbD i && !(raw && decide (i = 8)))
  lflag : ∀ i, t.lflag.getLsbD i =
    if i = 3 then echo else (o.lflag.getLsbD i && !(raw && decide (i ∈ [0, 1, 15])))
  cc : ∀ i < o.cc.length, t.cc[i]? = if raw && decide (i = 6) then some 1
    else if raw && decide (i = 5) then some 0 else o.cc[i]?
  len : t.cc.length = o.cc.length
  rest : t.rest = o.rest

/-- What the calls ask for last. -/
def wants (raw echo : Bool) : List Call → Bool × Bool
  | [] => (raw, echo)
  | .setRaw r _ :: l => wants r echo l
  | .setEcho e _ :: l => wants raw e l

/-- The system call succeeds. -/
def Call.succeeds : Call → Bool
  | .setRaw _ ok => ok
  | .setEcho _ ok => ok

end Tty
end Anansi
