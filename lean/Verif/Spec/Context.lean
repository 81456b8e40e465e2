import Verif.Model.Context
/-
Specification vocabulary for contexts and terminal runs.
-/
set_option autoImplicit false

namespace Anansi
namespace Ctx

/-- The contexts a value stands for, in order. -/
def Cx.den (h : Heap) : Cx → List Nat
  | .nil => []
  | .leaf i => [i]
  | .many arr len _ => slice h arr len

/-- A value that Go could hold: its array exists and has the capacity's length, and the
slice fits in it. -/
def Cx.Ok (h : Heap) : Cx → Prop
  | .many arr len cap => arr < h.length ∧ (h.getD arr []).length = cap ∧ len ≤ cap
  | _ => True

/-- `x` is a longer slice of `a`'s array: appending to `a` may write into it. -/
def Cx.Longer (a x : Cx) : Prop :=
  match a, x with
  | .many arr len _, .many arr' len' _ => arr = arr' ∧ len < len'
  | _, _ => False

/-- The first of some values that is not nil. -/
def Cx.first : List Cx → Cx
  | [] => .nil
  | .nil :: l => Cx.first l
  | a :: _ => a

/-- What a sequence of calls returns when they are all made, one after the other. -/
def replies (v : Env) : List Ev → List Ev → List Res
  | _, [] => []
  | tr, e :: l => v.reply tr e :: replies v (tr ++ [e]) l

/-- The first result that is not a success, or success. -/
def firstFailure (l : List Res) : Res := (l.find? (· ≠ .ok)).getD .ok

/-- Following one context through a history: whether it is entered, or nothing when it was
entered twice, exited or closed out of turn, or when the program ran with it entered
while it should not be, or not entered while it should. -/
def watch1 (i : Nat) : Option Bool → Ev → Option Bool
  | none, _ => none
  | some on, .enter j => if i = j then (if on then none else some true) else some on
  | some on, .exit j => if i = j then (if on then some false else none) else some on
  | some on, .close j => if i = j then (if on then none else some on) else some on
  | some on, .user _ w => if on = w then some on else none

/-- Following one context, starting outside. -/
def watch (i : Nat) (tr : List Ev) : Option Bool := tr.foldl (watch1 i) (some false)

/-- The program's own events say whether they are directly under a `RunWith` (or not under
anything, or under a `RunWithout`); no contexts are added. -/
def Prog.Tagged (w : Bool) : Prog → Prop
  | .ret _ => True
  | .user _ b p => b = w ∧ p.Tagged w
  | .runWith body k => body.Tagged true ∧ ∀ r, (k r).Tagged w
  | .runWithout body k => body.Tagged false ∧ ∀ r, (k r).Tagged w
  | .addContext _ _ => False

/-- However it goes, the program returns no error and does not panic. -/
def Prog.Fine : Prog → Prop
  | .ret r => r = .ok
  | .user _ _ p => p.Fine
  | .runWith _ k => ∀ r, (k r).Fine
  | .runWithout _ k => ∀ r, (k r).Fine
  | .addContext _ k => ∀ r, (k r).Fine

/-- Every function given to `RunWithout` is fine. -/
def Prog.WithoutFine : Prog → Prop
  | .ret _ => True
  | .user _ _ p => p.WithoutFine
  | .runWith body k => body.WithoutFine ∧ ∀ r, (k r).WithoutFine
  | .runWithout body k => body.Fine ∧ body.WithoutFine ∧ ∀ r, (k r).WithoutFine
  | .addContext _ k => ∀ r, (k r).WithoutFine

/-- No `RunWithout` anywhere. -/
def Prog.NoWithout : Prog → Prop
  | .ret _ => True
  | .user _ _ p => p.NoWithout
  | .runWith body k => body.NoWithout ∧ ∀ r, (k r).NoWithout
  | .runWithout _ _ => False
  | .addContext _ k => ∀ r, (k r).NoWithout

/-- No `RunWith` anywhere. -/
def Prog.NoWith : Prog → Prop
  | .ret _ => True
  | .user _ _ p => p.NoWith
  | .runWith _ _ => False
  | .runWithout body k => body.NoWith ∧ ∀ r, (k r).NoWith
  | .addContext _ k => ∀ r, (k r).NoWith

/-- No `RunWith` inside a `RunWithout`. -/
def Prog.Flat : Prog → Prop
  | .ret _ => True
  | .user _ _ p => p.Flat
  | .runWith body k => body.Flat ∧ ∀ r, (k r).Flat
  | .runWithout body k => body.NoWith ∧ ∀ r, (k r).Flat
  | .addContext _ k => ∀ r, (k r).Flat

/-- Context methods that always succeed. -/
def Env.Calm (v : Env) : Prop := ∀ tr e, v.reply tr e = .ok

/-- Exit methods may fail but do not panic. -/
def Env.ExitsReturn (v : Env) : Prop := ∀ tr i e, v.reply tr (.exit i) ≠ .panic e

/-- A `Close` call. -/
def Ev.isClose : Ev → Bool
  | .close _ => true
  | _ => false

end Ctx
end Anansi
