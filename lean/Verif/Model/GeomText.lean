import Verif.Model.Geom
/-
`ansi/geom.go:112-128`, `137-144`: the rest of the arithmetic of points, and their text.

Here the machine `int` is exact: products and quotients are taken modulo 2^64, as Go takes them.
`Point.String` is that of `image.Point`, which is embedded (Go standard library, modelled by its
documentation); a quotient by zero panics (`none`).
-/
set_option autoImplicit false

namespace Anansi.Geom

/-- `geom.go:112-114` `Point.Diff`. -/
def ptDiff (p q : Pt) : Pt := ⟨p.x - q.x, p.y - q.y⟩

/-- `geom.go:117-121` `Point.Mul`. -/
def ptMul (p : Pt) (k : Int) : Pt := ⟨wrap64 (p.x * k), wrap64 (p.y * k)⟩

/-- `geom.go:124-128` `Point.Div`; Go's `/` truncates. -/
def ptDiv (p : Pt) (k : Int) : Option Pt :=
  if k = 0 then none else some ⟨wrap64 (p.x.tdiv k), wrap64 (p.y.tdiv k)⟩

/-- `geom.go:137-139` `Point.Eq`. -/
def ptEq (p q : Pt) : Bool := p == q

/-- `image.Point.String`. -/
def ptString (p : Pt) : Bytes := [0x28] ++ itoa p.x ++ [0x2C] ++ itoa p.y ++ [0x29]

/-- `geom.go:142-144` `Rectangle.String`. -/
def rectString (r : Rect) : Bytes := ptString r.min ++ [0x2D] ++ ptString r.max

end Anansi.Geom
