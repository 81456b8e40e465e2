import Verif.Model.Num
/-
`ansi/geom.go`: points and rectangles.  Coordinates are unbounded integers; the
machine `int` cannot overflow for the sizes a terminal has.
`image.Point` and `image.Rectangle` are represented by the same structures.
-/
set_option autoImplicit false

namespace Anansi

/-- `geom.go:14` `Rectangle`. -/
structure Rect where
  min : Pt
  max : Pt
deriving DecidableEq, Repr

namespace Geom

/-- `geom.go:18`, `22`: `ZR`, `ZP`. -/
def zp : Pt := ⟨0, 0⟩
def zr : Rect := ⟨zp, zp⟩

/-- `geom.go:26-39` `Rect`; `none` is the panic. -/
def rect (x0 y0 x1 y1 : Int) : Option Rect :=
  if x0 < 1 ∨ y0 < 1 ∨ x1 < 1 ∨ y1 < 1 then none
  else
    some ⟨⟨if x0 > x1 then x1 else x0, if y0 > y1 then y1 else y0⟩,
          ⟨if x0 > x1 then x0 else x1, if y0 > y1 then y0 else y1⟩⟩

/-- `geom.go:44-49` `RectFromImage`: after the check the named result is returned
without having been set. -/
def rectFromImage (ir : Rect) : Option Rect :=
  if ir.min.x < 0 ∨ ir.min.y < 0 ∨ ir.max.x < 0 ∨ ir.max.y < 0 then none else some zr

/-- `geom.go:53-58` `Pt`. -/
def pt (x y : Int) : Option Pt := if x < 1 ∨ y < 1 then none else some ⟨x, y⟩

/-- `geom.go:63-70` `PtFromImage`. -/
def ptFromImage (p : Pt) : Option Pt :=
  if p.x < 0 ∨ p.y < 0 then none else some ⟨p.x + 1, p.y + 1⟩

/-- `geom.go:73-75` `Point.Valid`. -/
def valid (p : Pt) : Bool := p.x ≥ 1 && p.y ≥ 1

/-- `geom.go:79-84` `Point.ToImage`. -/
def ptToImage (p : Pt) : Option Pt :=
  if p.x < 1 ∨ p.y < 1 then none else some ⟨p.x - 1, p.y - 1⟩

/-- Go's `image.Rect`: the canonical rectangle. -/
def imageRect (x0 y0 x1 y1 : Int) : Rect :=
  ⟨⟨if x0 > x1 then x1 else x0, if y0 > y1 then y1 else y0⟩,
   ⟨if x0 > x1 then x0 else x1, if y0 > y1 then y0 else y1⟩⟩

/-- `geom.go:88-93` `Rectangle.ToImage`. -/
def rectToImage (r : Rect) : Option Rect :=
  if r.min.x < 1 ∨ r.min.y < 1 ∨ r.max.x < 1 ∨ r.max.y < 1 then none
  else some (imageRect (r.min.x - 1) (r.min.y - 1) (r.max.x - 1) (r.max.y - 1))

/-- `geom.go:97-101` `Point.Add`, `105-109` `Sub`, `112-114` `Diff`. -/
def ptAdd (p q : Pt) : Pt := ⟨p.x + q.x, p.y + q.y⟩
def ptSub (p q : Pt) : Pt := ⟨p.x - q.x, p.y - q.y⟩

/-- `geom.go:131-134` `Point.In`. -/
def ptIn (p : Pt) (r : Rect) : Bool :=
  r.min.x ≤ p.x && p.x < r.max.x && r.min.y ≤ p.y && p.y < r.max.y

/-- `geom.go:147-154` `Dx`, `Dy`; `157-162` `Size`. -/
def dx (r : Rect) : Int := r.max.x - r.min.x
def dy (r : Rect) : Int := r.max.y - r.min.y
def size (r : Rect) : Pt := ⟨r.max.x - r.min.x, r.max.y - r.min.y⟩

/-- `geom.go:165-171` `Rectangle.Add`, `174-180` `Sub`. -/
def rectAdd (r : Rect) (p : Pt) : Rect := ⟨ptAdd r.min p, ptAdd r.max p⟩
def rectSub (r : Rect) (p : Pt) : Rect := ⟨ptSub r.min p, ptSub r.max p⟩

/-- `geom.go:185-201` `Inset`; Go's `/` truncates. -/
def inset (r : Rect) (n : Int) : Rect :=
  ⟨⟨if dx r < 2 * n then Int.tdiv (r.min.x + r.max.x) 2 else r.min.x + n,
    if dy r < 2 * n then Int.tdiv (r.min.y + r.max.y) 2 else r.min.y + n⟩,
   ⟨if dx r < 2 * n then Int.tdiv (r.min.x + r.max.x) 2 else r.max.x - n,
    if dy r < 2 * n then Int.tdiv (r.min.y + r.max.y) 2 else r.max.y - n⟩⟩

/-- `geom.go:204-206` `Empty`. -/
def empty (r : Rect) : Bool := r.min.x ≥ r.max.x || r.min.y ≥ r.max.y

/-- `geom.go:210-231` `Intersect`. -/
def intersect (r s : Rect) : Rect :=
  let r : Rect := ⟨⟨if r.min.x < s.min.x then s.min.x else r.min.x,
                    if r.min.y < s.min.y then s.min.y else r.min.y⟩,
                   ⟨if r.max.x > s.max.x then s.max.x else r.max.x,
                    if r.max.y > s.max.y then s.max.y else r.max.y⟩⟩
  if empty r then ⟨r.min, r.min⟩ else r

/-- `geom.go:234-254` `Union`. -/
def union (r s : Rect) : Rect :=
  if empty r then s
  else if empty s then r
  else ⟨⟨if r.min.x > s.min.x then s.min.x else r.min.x,
         if r.min.y > s.min.y then s.min.y else r.min.y⟩,
        ⟨if r.max.x < s.max.x then s.max.x else r.max.x,
         if r.max.y < s.max.y then s.max.y else r.max.y⟩⟩

/-- `geom.go:258-260` `Eq`. -/
def rectEq (r s : Rect) : Bool := r == s || empty r && empty s

/-- `geom.go:263-267` `Overlaps`. -/
def overlaps (r s : Rect) : Bool :=
  !empty r && !empty s && r.min.x < s.max.x && s.min.x < r.max.x &&
    r.min.y < s.max.y && s.min.y < r.max.y

/-- `geom.go:270-278` `Rectangle.In`. -/
def rectIn (r s : Rect) : Bool :=
  if empty r then true
  else s.min.x ≤ r.min.x && r.max.x ≤ s.max.x && s.min.y ≤ r.min.y && r.max.y ≤ s.max.y

/-- `geom.go:282-290` `Canon`. -/
def canon (r : Rect) : Rect :=
  ⟨⟨if r.max.x < r.min.x then r.max.x else r.min.x, if r.max.y < r.min.y then r.max.y else r.min.y⟩,
   ⟨if r.max.x < r.min.x then r.min.x else r.max.x, if r.max.y < r.min.y then r.min.y else r.max.y⟩⟩

end Geom
end Anansi
