import Verif.Spec.Stream
/-
What a terminal sends, and where reads may cut it.
-/
set_option autoImplicit false

namespace Anansi

/-- One thing a terminal sends. -/
inductive InItem
  /-- a character or a simple control -/
  | rune (r : Nat)
  /-- a control sequence with its argument and final bytes; introduced by one C1 rune or
  by two bytes -/
  | csi (c1 : Bool) (arg : Bytes) (f : UInt8)
  /-- a control string with its introducer and body; introduced and ended by one C1 rune
  or by two bytes -/
  | str (c1 : Bool) (r : Nat) (body : List Nat) (st1 : Bool)
  /-- ESC and one more byte: a key pressed with Alt, or a C1 control that begins nothing -/
  | esc (f : UInt8)
deriving DecidableEq, Repr

/-- A C1 control as one rune or as two bytes. -/
def c1Bytes (c1 : Bool) (r : Nat) : Bytes := if c1 then encodeRune r else [0x1B, UInt8.ofNat (r - 0x40)]

/-- The bytes sent. -/
def InItem.bytes : InItem → Bytes
  | .rune r => encodeRune r
  | .csi c1 arg f => c1Bytes c1 0x9B ++ (arg ++ [f])
  | .str c1 r body st1 => c1Bytes c1 r ++ (encodeRunes body ++ c1Bytes st1 0x9C)
  | .esc f => [0x1B, f]

/-- What it means. -/
def InItem.event : InItem → Nat × Bytes
  | .rune r => (r, [])
  | .csi _ arg f => (0xEF80 + f.toNat, arg)
  | .str _ r body _ => (r, encodeRunes body)
  | .esc f => (if 0x40 ≤ f.toNat ∧ f.toNat ≤ 0x5F then 0x40 + f.toNat else 0xEF00 + f.toNat, [])

/-- Items that terminals can send. -/
def InItem.Ok : InItem → Prop
  | .rune r => plainRune r
  | .csi _ arg f => (∀ b ∈ arg, 0x20 ≤ b.toNat ∧ b.toNat ≤ 0x3F) ∧ 0x40 ≤ f.toNat ∧ f.toNat ≤ 0x7E
  | .str _ r body _ => (r = 0x90 ∨ r = 0x9D ∨ r = 0x9E ∨ r = 0x9F) ∧
      ∀ c ∈ body, validRune c = true ∧ c ≠ 0xFFFD ∧ c ≠ 0x1B ∧ c ≠ 0x9C
  | .esc f => (0x30 ≤ f.toNat ∧ f.toNat ≤ 0x7E) ∧ ¬ f.toNat ∈ [0x50, 0x5B, 0x5D, 0x5E, 0x5F]

/-- The introducer of an item that has one. -/
def InItem.intro? : InItem → Option Bytes
  | .csi c1 _ _ => some (c1Bytes c1 0x9B)
  | .str c1 r _ _ => some (c1Bytes c1 r)
  | _ => none

/-- A beginning of an item that may be the last thing in a read: nothing, any part of a
control sequence or string from its introducer on, or just an ESC if it is the last byte
there was room for. -/
def Held (full : Bool) (part : Bytes) : Prop :=
  part = [] ∨ (full = true ∧ part = [0x1B]) ∨
    ∃ (i : InItem) (intro : Bytes), i.Ok ∧ i.intro? = some intro ∧ intro <+: part ∧ part <+: i.bytes ∧ part ≠ i.bytes

/-- A read may end after `p`: whole items and a beginning of one more. -/
def SafeCut (full : Bool) (p : Bytes) : Prop :=
  ∃ (is : List InItem) (part : Bytes), (∀ i ∈ is, InItem.Ok i) ∧ Held full part ∧ p = is.flatMap InItem.bytes ++ part

end Anansi
