import Verif.Model.Bitmap
/-
`cmd/lolwut/main.go:184-217`: `drawLine` and `abs`. Coordinates are unbounded
integers; Go's `int` overflow is not modelled (it needs coordinates near `2^61`).
-/
set_option autoImplicit false

namespace Anansi
namespace Line

/-- `cmd/lolwut/main.go:212-217` `abs`. -/
def abs (n : Int) : Int := if n < 0 then -n else n

/-- The loop variables of `cmd/lolwut/main.go:186-210`: `from` and `err`. -/
structure LoopVars where
  p : Pt
  err : Int
deriving DecidableEq, Repr

/-- `cmd/lolwut/main.go:200-207`, one round of the loop up to the `Set` call. -/
def round (dx dy sx sy : Int) (v : LoopVars) : LoopVars :=
  let e2 := v.err * 2
  let v1 : LoopVars := if e2 > -dy then ⟨⟨v.p.x + sx, v.p.y⟩, v.err - dy⟩ else v
  if e2 < dx then ⟨⟨v1.p.x, v1.p.y + sy⟩, v1.err + dx⟩ else v1

/-- `cmd/lolwut/main.go:199-209`, the loop: the points given to `Set`, in order; `none`
when the loop has not ended after `fuel` rounds. -/
def loop (dx dy sx sy : Int) (dst : Pt) : Nat → LoopVars → Option (List Pt)
  | 0, v => if v.p = dst then some [] else none
  | n + 1, v =>
    if v.p = dst then some []
    else
      let v' := round dx dy sx sy v
      (loop dx dy sx sy dst n v').map (v'.p :: ·)

/-- `cmd/lolwut/main.go:186-210` `drawLine`: the points given to `Set`, in order. -/
def points (fuel : Nat) (fr dst : Pt) : Option (List Pt) :=
  let dx := abs (dst.x - fr.x)
  let dy := abs (dst.y - fr.y)
  let sx : Int := if fr.x ≥ dst.x then -1 else 1
  let sy : Int := if fr.y ≥ dst.y then -1 else 1
  (loop dx dy sx sy dst fuel ⟨fr, dx - dy⟩).map (fr :: ·)

/-- The `canvas.Set` calls, in order; `none` is a panic. The canvas is passed by value,
but shares its bits with the caller's. -/
def setAll (val : Bool) : List Pt → Bitmap → Option Bitmap
  | [], b => some b
  | p :: ps, b =>
    match b.set p val with
    | none => none
    | some bits => setAll val ps { b with bit := bits }

/-- `cmd/lolwut/main.go:186-210` `drawLine`: the caller's canvas after the call; `none`
is a panic, or not having returned within `fuel` rounds. -/
def drawLine (fuel : Nat) (canvas : Bitmap) (fr dst : Pt) (val : Bool) : Option Bitmap :=
  match points fuel fr dst with
  | none => none
  | some ps => setAll val ps canvas

end Line
end Anansi
