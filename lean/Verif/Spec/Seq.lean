import Verif.Model.Basic
/-
Independent specification of sequence building: what a list of builder calls
amounts to.
-/
set_option autoImplicit false

namespace Anansi.Spec

/-- One builder call: more argument bytes or more integer arguments. -/
inductive Call
  | bytes (bs : List UInt8)
  | ints (is : List Int)
deriving DecidableEq, Repr

/-- All argument bytes given, in order. -/
def allBytes : List Call → List UInt8
  | [] => []
  | .bytes bs :: t => bs ++ allBytes t
  | .ints _ :: t => allBytes t

/-- All integer arguments given, in order. -/
def allInts : List Call → List Int
  | [] => []
  | .bytes _ :: t => allInts t
  | .ints is :: t => is ++ allInts t

/-- Decimal numbers separated by semicolons. -/
def joinInts : List Int → List UInt8
  | [] => []
  | [i] => itoa i
  | i :: t => itoa i ++ 0x3B :: joinInts t

end Anansi.Spec
