import Verif.Model.FramePlay
import Verif.Model.PlayMouse
/-
`x/platform/state.go` `writeState` and `readState`, and `x/platform/platform.go:175-183`: the state a
run with a replay starts from.

Of `encoding/gob` this much is modelled: a struct is sent as its fields that are not zero, each with the
difference of its number to that of the one before; receiving sets the fields that were sent and leaves
the others as they were.  Structs within structs are taken apart into their fields.  Writer and reader
have the same types; types that gob cannot send, pointers, maps, interfaces, and slices other than of numbers are
not modelled.  `readState` after a `writeState` that failed is not, either: then there is no recording
(`Model/Recording.lean`).
-/
set_option autoImplicit false

namespace Anansi
namespace Rst

/-- A field of a type that gob sends as a whole: a number (or a boolean), or bytes (a string, or a slice
of numbers). -/
inductive Leaf
  | num (n : Int)
  | bytes (b : Bytes)
deriving DecidableEq, Repr

/-- The zero value of its type. -/
def Leaf.zero : Leaf → Leaf
  | .num _ => .num 0
  | .bytes _ => .bytes []

/-- A message: numbers of fields, as differences, and values. -/
abbrev Msg := List (Nat × Leaf)

/-- `gob.Encoder.Encode`, `d` being the difference to the last field sent. -/
def encodeFrom (d : Nat) : List Leaf → Msg
  | [] => []
  | x :: l => if x = x.zero then encodeFrom (d + 1) l else (d, x) :: encodeFrom 1 l

/-- `gob.Encoder.Encode`: numbering starts before the first field. -/
def encode (l : List Leaf) : Msg := encodeFrom 1 l

/-- `gob.Decoder.Decode` into a struct, `n` being the number of the next field: what becomes of it, and
whether all of the message could be put there. -/
def decodeFrom (n : Nat) (old : List Leaf) : Msg → List Leaf × Bool
  | [] => (old, true)
  | (d, x) :: m => if d = 0 ∨ old.length < n + d then (old, false) else decodeFrom (n + d) (old.set (n + d - 1) x) m

/-- `gob.Decoder.Decode`. -/
def decode (old : List Leaf) (m : Msg) : List Leaf × Bool := decodeFrom 0 old m

/-- What is saved of a platform: the fields of `state` (`state.go:8-13`), and the exported ones of the client. -/
structure Saved where
  own : List Leaf
  client : List Leaf
deriving DecidableEq, Repr

/-- `state.go:30-44` `writeState`, when no write fails. -/
def Saved.write (s : Saved) : List Msg := [encode s.own, encode s.client]

/-- `state.go:15-28` `readState`: what becomes of the platform, and whether it succeeds. -/
def Saved.read (s : Saved) : List Msg → Saved × Bool
  | [] => (s, false)
  | m :: ms =>
    let st := decode (s.own.map Leaf.zero) m
    if st.2 then
      match ms with
      | [] => (s, false)
      | m :: _ =>
        let c := decode s.client m
        if c.2 then (⟨st.1, c.1⟩, true) else ({ s with client := c.1 }, false)
    else (s, false)

/-- `replay.go:24-35` `replay`: the saved state, the recorded input, where the replay is, and the mouse's mark. -/
structure Rep where
  cereal : List Msg
  input : List (Rpl.Frame Int)
  play : Rpl.Play Int
  mark : Rpl.Mark := {}
deriving DecidableEq, Repr

/-- `platform.go:178-183`: the beginning of a run with a replay; whether it goes on. -/
def start (s : Saved) (r : Rep) : (Saved × Rep) × Bool :=
  let x := s.read r.cereal
  if x.2 then ((x.1, { r with play := { r.play with cur := r.input } }), true) else ((x.1, r), false)

/-- A frame of the replay (`replay.go:37-109`), the keys for it being given: what the client is run with. -/
def Rep.update (r : Rep) (u : Bool × Nat × Nat) : Rep × Rpl.Outcome Int :=
  let x := r.play.update u.1 u.2.1 u.2.2
  match x.2 with
  | .run _ _ (some b) => ({ r with play := x.1, mark := r.mark.frame (Evq.decodeBytes [] b) }, x.2)
  | _ => ({ r with play := x.1 }, x.2)

/-- Frames: the replay afterwards, and what the client was run with. -/
def Rep.updates (r : Rep) : List (Bool × Nat × Nat) → Rep × List (Rpl.Outcome Int)
  | [] => (r, [])
  | u :: us =>
    let x := r.update u
    let y := x.1.updates us
    (y.1, x.2 :: y.2)

end Rst
end Anansi
