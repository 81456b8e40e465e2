import Verif.Model.Utf8
import Verif.Model.Seq
import Verif.Spec.Seq
import Verif.Spec.Sgr
/-
Specification vocabulary for byte streams.
-/
set_option autoImplicit false

namespace Anansi
open Spec

/-- `c` is an interleaving of `a` and `b` that keeps the order inside each. -/
inductive Shuffle {α : Type} : List α → List α → List α → Prop
  | nil : Shuffle [] [] []
  | left {x a b c} : Shuffle a b c → Shuffle (x :: a) b (x :: c)
  | right {x a b c} : Shuffle a b c → Shuffle a (x :: b) (x :: c)

/-- Runes that begin an escape, a control sequence or a control string. -/
def startsEscape (r : Nat) : Prop :=
  r = 0x1B ∨ r = 0x90 ∨ r = 0x9B ∨ r = 0x9D ∨ r = 0x9E ∨ r = 0x9F
instance (r : Nat) : Decidable (startsEscape r) := by unfold startsEscape; infer_instance

/-- A rune that is plain text or a simple control. -/
def plainRune (r : Nat) : Prop := validRune r = true ∧ ¬ startsEscape r
instance (r : Nat) : Decidable (plainRune r) := by unfold plainRune; infer_instance

/-- One thing a program writes to the output. -/
inductive Item
  /-- a text rune or simple control (`WriteRune`) -/
  | rune (r : Nat)
  /-- a control sequence given its final byte and argument bytes -/
  | csi (f : UInt8) (arg : Bytes)
  /-- a control sequence put together by builder calls (`WriteSeq`) -/
  | seq (f : UInt8) (calls : List Call)
  /-- a style (`WriteSGR`) -/
  | sgr (s : Sgr.Style)
deriving DecidableEq, Repr

/-- Items that can be written at all: runes exist and are not escape
introducers, final and argument bytes are in the ranges of the standard. -/
def Item.Ok : Item → Prop
  | .rune r => plainRune r
  | .csi f arg => (0x40 ≤ f.toNat ∧ f.toNat ≤ 0x7E) ∧ ∀ b ∈ arg, 0x20 ≤ b.toNat ∧ b.toNat ≤ 0x3F
  | .seq f calls =>
    (0x40 ≤ f.toNat ∧ f.toNat ≤ 0x7E) ∧ ∀ b ∈ allBytes calls, 0x20 ≤ b.toNat ∧ b.toNat ≤ 0x3F
  | .sgr _ => True

end Anansi
