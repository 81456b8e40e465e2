import Verif.Model.Basic
/-
`ansi/decode.go:219-306`, `515-551`: numbers, points, modes, cursor moves.
-/
set_option autoImplicit false

namespace Anansi

/-- The error values of `decode.go:219-224`. -/
inductive DecErr
  | range | syntax | sgrInvalid | modeInvalid
deriving DecidableEq, Repr

/-- `decode.go:264` `cutoff = maxUint64/10 + 1`. -/
def numCutoff : Nat := (2 ^ 64 - 1) / 10 + 1

/-- `decode.go:265` `maxVal`. -/
def numMaxVal : Nat := 2 ^ 32 - 1

/-- `decode.go:275-281`: one digit of the accumulation loop.  The first
component is the new `un` (`uint64` arithmetic), the second says whether the
digit was accepted (`continue`). -/
def numStep (un d : Nat) : Nat × Bool :=
  if un < numCutoff then
    let u := un * 10 % 2 ^ 64
    let un1 := (u + d) % 2 ^ 64
    if ¬ (un1 < u ∨ un1 > numMaxVal) then (un1, true) else (u, false)
  else (un, false)

/-- Result of a decoder: value, bytes used, error. -/
structure Dec (α : Type) where
  val : α
  n : Nat
  err : Option DecErr
deriving DecidableEq, Repr

/-- `decode.go:269-293`: the digit loop and the final conversion. -/
def numLoop (neg : Bool) (un n : Nat) : Bytes → Dec Int
  | c :: t =>
    if c.toNat < 0x30 ∨ 0x39 < c.toNat then
      ⟨if neg then wrap64 (-toInt64 un) else toInt64 un, n, none⟩
    else
      let (un', ok) := numStep un (c.toNat - 0x30)
      if ok then numLoop neg un' (n + 1) t
      else if !neg && decide (numMaxVal ≥ numCutoff) then ⟨numCutoff - 1, n + 1, some .range⟩
      else if neg && decide (numMaxVal > numCutoff) then ⟨-numCutoff, n + 1, some .range⟩
      else numLoop neg un' (n + 1) t
  | [] => ⟨if neg then wrap64 (-toInt64 un) else toInt64 un, n, none⟩

/-- `decode.go:248-258`: the optional sign; `n` bytes were used before. -/
def numSign (n : Nat) (p : Bytes) : Dec Int :=
  match p with
  | [] => ⟨0, 0, some .syntax⟩
  | c :: t =>
    if c = 0x2D ∨ c = 0x2B then
      if t = [] then ⟨0, 0, some .syntax⟩ else numLoop (c = 0x2D) 0 (n + 1) t
    else numLoop false 0 n p

/-- `decode.go:230-294` `DecodeNumber`. -/
def decodeNumber (p : Bytes) : Dec Int :=
  match p with
  | [] => ⟨0, 0, some .syntax⟩
  | c :: t => if c = 0x3B then numSign 1 t else numSign 0 p

/-- `ansi.Point` (`ansi/geom.go:5-8`, embeds `image.Point`). -/
structure Pt where
  x : Int
  y : Int
deriving DecidableEq, Repr

/-- `decode.go:298-306` `DecodePoint`. -/
def decodePoint (a : Bytes) : Dec Pt :=
  let dy := decodeNumber a
  if dy.err = none then
    let dx := decodeNumber (a.drop dy.n)
    ⟨⟨dx.val, dy.val⟩, dy.n + dx.n, dx.err⟩
  else ⟨⟨0, dy.val⟩, dy.n, dy.err⟩

/-- `ansi/modes.go:8` `ModePrivate`. -/
def modePrivate : BitVec 64 := 1#64 <<< 63

/-- `decode.go:516-529` `DecodeMode`; a `Mode` is a `uint64`. -/
def decodeMode (priv : Bool) (a : Bytes) : Dec (BitVec 64) :=
  if a = [] then ⟨0, 0, some .modeInvalid⟩
  else
    let d := decodeNumber a
    if d.err = none then
      let mode := BitVec.ofInt 64 d.val
      ⟨if priv then mode ||| modePrivate else mode, d.n, none⟩
    else ⟨0, d.n, d.err⟩

end Anansi
