import Verif.Model.Escape
import Verif.Model.Num
/-
`ansi/control.go`: building and encoding of escape and control sequences, and
`ansi/modes.go`.
-/
set_option autoImplicit false

namespace Anansi

/-- `control.go:8-11`. -/
def numStaticBytes : Nat := 3
def numStaticInts : Nat := 3

/-- `control.go:16-27` `Seq`.  The fixed arrays are lists of length three. -/
structure Seq where
  id : Nat
  numBytes : Nat := 0
  numInts : Nat := 0
  argBytes : List UInt8 := [0, 0, 0]
  argInts : List Int := [0, 0, 0]
  extraBytes : List UInt8 := []
  extraInts : List Int := []
deriving DecidableEq, Repr

/-- `control.go:29-36` `Escape.seq`; `none` is the panic. -/
def escSeq (id : Nat) : Option Seq :=
  if (0x0000 < id ∧ id < 0x001F) ∨ (0xEF00 < id ∧ id < 0xEFFF) then some { id := id } else none

/-- `control.go:72-80`: the two copy loops of `Seq.With` (the loop index `i` is
replaced by recursion over the remaining arguments, `n` is the running count). -/
def withLoop {α : Type} (static extra : List α) (n : Nat) : List α → List α × List α × Nat
  | [] => (static, extra, n)
  | a :: t =>
    if n < 3 then withLoop (static.set n a) extra (n + 1) t
    else withLoop static (extra ++ [a]) (n + 1) t

/-- `control.go:60-83` `Seq.With`.  Lines 65-71 only re-allocate the extra
slice (so that the receiver's copy is not aliased); lists make that implicit. -/
def Seq.with (s : Seq) (arg : List UInt8) : Seq :=
  if arg = [] then s
  else
    let (st, ex, n) := withLoop s.argBytes s.extraBytes s.numBytes arg
    { s with argBytes := st, extraBytes := ex, numBytes := n }

/-- `control.go:89-115` `Seq.WithInts`; `none` is the panic for a non-CSI id. -/
def Seq.withInts (s : Seq) (args : List Int) : Option Seq :=
  if args = [] then some s
  else if 0xEF80 ≥ s.id ∨ s.id ≥ 0xEFFF then none
  else
    let (st, ex, n) := withLoop s.argInts s.extraInts s.numInts args
    some { s with argInts := st, extraInts := ex, numInts := n }

/-- `control.go:119` `Seq.WithPoint`: row first, then column. -/
def Seq.withPoint (s : Seq) (p : Pt) : Option Seq := s.withInts [p.y, p.x]

/-- `control.go:122-135` `Escape.AppendTo` (the bytes appended). -/
def escAppend (id : Nat) : Bytes :=
  if 0x0000 < id ∧ id < 0x001F then [UInt8.ofNat (id % 32)]
  else if 0x0080 < id ∧ id < 0x009F then [0x1B, UInt8.ofNat (0x40 + id % 32)]
  else if 0xEF20 < id ∧ id < 0xEF7E then [0x1B, UInt8.ofNat (id % 128)]
  else if 0xEF80 < id ∧ id < 0xEFFF then [0x1B, 0x5B, UInt8.ofNat (id % 128)]
  else []

/-- `control.go:139-152` `Escape.AppendWith` (the bytes appended). -/
def escAppendWith (id : Nat) (arg : Bytes) : Bytes :=
  if 0x0000 < id ∧ id ≤ 0x001F then [UInt8.ofNat (id % 32)]
  else if 0x0080 < id ∧ id ≤ 0x009F then [0x1B, UInt8.ofNat (0x40 + id % 32)]
  else if 0xEF20 < id ∧ id < 0xEF7E then [0x1B] ++ arg ++ [UInt8.ofNat (id % 128)]
  else if 0xEF80 < id ∧ id < 0xEFFF then [0x1B, 0x5B] ++ arg ++ [UInt8.ofNat (id % 128)]
  else []

/-- `control.go:184-198` `appendArgBytes`. -/
def Seq.argByteList (s : Seq) : Bytes :=
  if s.numBytes ≤ 3 then s.argBytes.take s.numBytes
  else s.argBytes.take 3 ++ s.extraBytes

/-- `control.go:207-210`: static numbers from index `i`. `argInts[i]` on the
fixed array is in range because `i < 3`. -/
def Seq.staticNums (s : Seq) (i : Nat) : Bytes :=
  if i < s.numInts ∧ i < 3 then
    0x3B :: itoa (s.argInts[i]?.getD 0) ++ s.staticNums (i + 1)
  else []
termination_by 3 - i

/-- `control.go:211-214`: extra numbers; `none` is an index panic. -/
def Seq.extraNums (s : Seq) (i : Nat) : Option Bytes :=
  if i < s.numInts then
    match s.extraInts[i - 3]? with
    | none => none
    | some v => (s.extraNums (i + 1)).map (0x3B :: itoa v ++ ·)
  else some []
termination_by s.numInts - i

/-- `control.go:200-216` `appendArgNums`. -/
def Seq.argNums (s : Seq) : Option Bytes :=
  if s.numInts = 0 then some []
  else
    (s.extraNums 3).map (fun ex => itoa (s.argInts[0]?.getD 0) ++ s.staticNums 1 ++ ex)

/-- `control.go:155-182` `Seq.AppendTo` (the bytes appended); `none` is a panic.
The case order is that of the code, so the character-set case at lines 173-177
is never reached. -/
def Seq.append (s : Seq) : Option Bytes :=
  if s.id = 0 then some []
  else if 0x0000 < s.id ∧ s.id < 0x001F then some (UInt8.ofNat s.id :: s.argByteList)
  else if 0xEF80 < s.id ∧ s.id < 0xEFFF then
    s.argNums.map (fun nums =>
      [0x1B, 0x5B] ++ s.argByteList ++ nums ++ [UInt8.ofNat (s.id % 128)])
  else if 0xEF00 < s.id ∧ s.id < 0xEF7F then
    some ([0x1B] ++ s.argByteList ++ [UInt8.ofNat (s.id % 128)])
  else if 0xEF20 < s.id ∧ s.id < 0xEF2F then
    some [0x1B, UInt8.ofNat (s.id % 128), s.argBytes[0]?.getD 0]
  else none

/-- `control.go:219-231` `Escape.Size`. -/
def escSize (id : Nat) : Nat :=
  if 0x0000 < id ∧ id ≤ 0x001F then 1
  else if 0x0080 < id ∧ id ≤ 0x009F then 2
  else if 0xEF20 < id ∧ id < 0xEF7E then 2
  else if 0xEF80 < id ∧ id < 0xEFFF then 3
  else 0

/-- `control.go:234-239` `Seq.Size`. -/
def Seq.size (s : Seq) : Nat := if s.id = 0 then 0 else 4 + s.numBytes + 10 * s.numInts

/-- `ansi/funcs.go:41-502`: the CSI identifiers used by the model. -/
def CUU : Nat := csiId 0x41
def CUD : Nat := csiId 0x42
def CUF : Nat := csiId 0x43
def CUB : Nat := csiId 0x44
def CUP : Nat := csiId 0x48
def ED : Nat := csiId 0x4A
def EL : Nat := csiId 0x4B
def SM : Nat := csiId 0x68
def RM : Nat := csiId 0x6C
def SGR : Nat := csiId 0x6D

/-- `ansi/modes.go:12-17` `Mode.Set` (`SMprivate` is `SM.With('?')`,
`funcs.go:258`); `none` would be a panic. -/
def modeSet (mode : BitVec 64) : Option Seq :=
  if mode &&& modePrivate = 0 then
    (escSeq SM).bind (·.withInts [mode.toInt])
  else
    (escSeq SM).bind (fun s => (s.with [0x3F]).withInts [(mode &&& ~~~modePrivate).toInt])

/-- `ansi/modes.go:20-25` `Mode.Reset`. -/
def modeReset (mode : BitVec 64) : Option Seq :=
  if mode &&& modePrivate = 0 then
    (escSeq RM).bind (·.withInts [mode.toInt])
  else
    (escSeq RM).bind (fun s => (s.with [0x3F]).withInts [(mode &&& ~~~modePrivate).toInt])

/-- `decode.go:532-551` `DecodeCursorCardinal`: the displacement, `none` for
other identifiers. -/
def decodeCursorCardinal (id : Nat) (a : Bytes) : Option Pt :=
  let d : Option Pt :=
    if id = CUU then some ⟨0, -1⟩
    else if id = CUD then some ⟨0, 1⟩
    else if id = CUF then some ⟨1, 0⟩
    else if id = CUB then some ⟨-1, 0⟩
    else none
  d.map (fun d =>
    if a.length > 0 then
      let k := decodeNumber a
      if k.err = none then ⟨d.x * k.val, d.y * k.val⟩ else d
    else d)

end Anansi
