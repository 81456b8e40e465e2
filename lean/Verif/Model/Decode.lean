import Verif.Model.Utf8
import Verif.Model.Escape
/-
`ansi/decode.go:17-217`: decoding of control runes, escape sequences, control
sequences and control strings.
-/
set_option autoImplicit false

namespace Anansi

/-- `ansi/decode.go:17-26` `DecodeRune`: UTF-8 decoding, with ESC followed by a
byte `0x40..0x5F` normalised to the corresponding C1 control. -/
def ansiDecodeRune (p : Bytes) : Nat × Nat :=
  let (r, m) := decodeRune p
  if r = 0x1B then
    let (rr, mm) := decodeRune (p.drop m)
    if 0x40 ≤ rr ∧ rr ≤ 0x5F then (0x80 + rr % 32, m + mm) else (r, m)
  else (r, m)

/-- Result of `DecodeEscape`: escape identifier (`0`: none), argument bytes
(`nil` and empty are not distinguished), number of processed bytes, and the
caller's buffer after the call, since the function may rewrite it in place. -/
structure EscRes where
  e : Nat
  arg : Bytes
  n : Nat
  buf : Bytes
deriving DecidableEq, Repr

/-- `decode.go:164-183` and `187-195`: the two scanning loops of `decodeCSI`.
`inter` says which of the loops is running; `ai` is the index of the first
argument byte, `ni` the index of the next byte.  The result is the final `ai`,
`ni` and terminating byte (label `term`), `none` if the input ends first. -/
def csiScan (inter : Bool) (ai : Option Nat) (ni : Nat) : Bytes → Option (Option Nat × Nat × UInt8)
  | [] => none
  | c :: t =>
    if !inter && 0x30 ≤ c.toNat && c.toNat ≤ 0x3F then
      csiScan inter (if ai = none then some ni else ai) (ni + 1) t
    else if 0x40 ≤ c.toNat && c.toNat ≤ 0x7E then some (ai, ni, c)
    else if 0x20 ≤ c.toNat && c.toNat ≤ 0x2F then
      csiScan true (if ai = none then some ni else ai) (ni + 1) t
    else csiScan inter ai (ni + 1) t

/-- `decode.go:156-203` `decodeCSI`, given the bytes after the introducer; `none`
stands for the result `(0, nil, 0)`. -/
def decodeCSI (p : Bytes) : Option (Nat × Bytes × Nat) :=
  match csiScan false none 0 p with
  | none => none
  | some (ai, ni, c) =>
    let a := match ai with
      | none => []
      | some i => (p.drop i).take (ni - i)
    some (csiId c, a, ni + 1)

/-- `decode.go:205-217` `decodeString`: `n` bytes of `p` have been skipped so
far; `none` stands for `(nil, 0)`.  The `fuel` bounds the number of loop
iterations and is started at the length of the input plus one; every iteration
that does not return consumes at least one byte. -/
def decodeStringFrom (p : Bytes) : Nat → Nat → Option (Bytes × Nat)
  | 0, _ => none
  | fuel + 1, n =>
    let (r, m) := ansiDecodeRune (p.drop n)
    if r = runeError then none
    else if r = 0x9C then some (p.take n, n + m)
    else decodeStringFrom p fuel (n + m)

/-- `decode.go:205-217` `decodeString`. -/
def decodeString (p : Bytes) : Option (Bytes × Nat) := decodeStringFrom p (p.length + 1) 0

/-- `decode.go:74-154` `decodeESC`.  The Go code keeps three indices into the
buffer; the model keeps the buffer split at them: `pre` = `p[:ei]` (deleted
bytes moved in front of the escape), `mid` = `p[ei:ni]` (the ESC byte followed by
the intermediates seen so far), `rest` = `p[ni:]`.  `ai`, when set, is always
`ei+1`, so "argument present" is "`mid` has more than one byte".  `rshift(m)`
moves the `m` bytes at `ni` in front of `mid`.  `n` counts all bytes up to and
including the current rune, which is `len(pre)+len(mid)+m`.
`fuel` bounds the number of iterations; each consumes a byte of `rest`. -/
def decodeESCLoop : Nat → Bytes → Bytes → Bytes → EscRes
  | 0, pre, mid, rest => ⟨0, [], pre.length, pre ++ mid ++ rest⟩
  | fuel + 1, pre, mid, rest =>
    let (r0, m) := decodeRune rest
    let buf := pre ++ mid ++ rest
    let shifted := pre ++ rest.take m ++ mid ++ rest.drop m
    if r0 = runeError then ⟨0, [], pre.length, buf⟩
    else if r0 > 0xFF then ⟨0, [], pre.length, shifted⟩
    else
      let r := r0 % 128
      let n := pre.length + mid.length + m
      if 0x30 ≤ r ∧ r ≤ 0x7E then
        match mid.tail with
        | [] => ⟨0xEF00 + r, [], n, buf⟩
        | [b] =>
          if 0x20 ≤ b.toNat ∧ b.toNat ≤ 0x2F then ⟨escId b, rest.take m, n, buf⟩
          else ⟨0xEF00 + r, [b], n, buf⟩
        | bs => ⟨0xEF00 + r, bs, n, buf⟩
      else if 0x20 ≤ r ∧ r ≤ 0x2F then
        decodeESCLoop fuel pre (mid ++ rest.take m) (rest.drop m)
      else if r = 0x7F then
        decodeESCLoop fuel (pre ++ rest.take m) mid (rest.drop m)
      else if r = 0x18 then ⟨0, [], n, buf⟩
      else ⟨0, [], pre.length, shifted⟩

/-- `decode.go:74-154` `decodeESC` on a buffer whose first byte is ESC. -/
def decodeESC (p : Bytes) : EscRes :=
  decodeESCLoop (p.length + 1) [] (p.take 1) (p.drop 1)

/-- `decode.go:67-71`: the tail of `DecodeEscape` for an incomplete or
unrecognised sequence: a two-byte C1 introducer is replaced in place by the
UTF-8 encoding of the control rune. -/
def decodeEscapeNone (p : Bytes) (r m : Nat) : EscRes :=
  if p.head? = some 0x1B then ⟨0, [], 0, encodeRune r ++ p.drop m⟩ else ⟨0, [], 0, p⟩

/-- `decode.go:42-72` `DecodeEscape` for non-empty `p` (an empty `p` panics in
`p[0]`, see `decodeEscape?`). -/
def decodeEscape (p : Bytes) : EscRes :=
  let (r, m) := ansiDecodeRune p
  if r = 0x1B then decodeESC p
  else if r = 0x9B then
    match decodeCSI (p.drop m) with
    | some (e, a, n) => ⟨e, a, m + n, p⟩
    | none => decodeEscapeNone p r m
  else if r = 0x90 ∨ r = 0x9D ∨ r = 0x9E ∨ r = 0x9F then
    match decodeString (p.drop m) with
    | some (a, n) => ⟨r, a, m + n, p⟩
    | none => decodeEscapeNone p r m
  else decodeEscapeNone p r m

/-- `DecodeEscape` including its panic on an empty slice (`none`). -/
def decodeEscape? (p : Bytes) : Option EscRes :=
  if p = [] then none else some (decodeEscape p)

end Anansi
