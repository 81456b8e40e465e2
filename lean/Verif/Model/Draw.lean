import Verif.Model.Grid
/-
`draw.go`: drawing grids onto grids, and `style.go`.
-/
set_option autoImplicit false

namespace Anansi

/-- `style.go:20-22` the `Style` interface: `(p, pr, r, pa, a) ↦ (rune, attr)`. -/
abbrev StyleFn := Pt → Nat → Nat → Attr → Attr → Nat × Attr

/-- The values of type `Style`: the no-op, any other implementation, or the
`styles` slice made by `Styles`.  A `styles` value only ever holds other
implementations, since `Styles` flattens (`style.go:30-37`). -/
inductive StyleV
  | noop
  | fn (f : StyleFn)
  | many (fs : List StyleFn)

namespace StyleV

/-- `style.go:59-61` `_noopStyle.Style`. -/
def noopFn : StyleFn := fun _ _ r _ _ => (r, 0)

/-- `style.go:68-73` `styles.Style`. -/
def manyFn (fs : List StyleFn) : StyleFn := fun p pr r pa a =>
  fs.foldl (fun ra f => f p pr ra.1 pa ra.2) (r, a)

/-- Calling the `Style` method. -/
def apply : StyleV → StyleFn
  | .noop => noopFn
  | .fn f => f
  | .many fs => manyFn fs

/-- `style.go:29-38`: the flattening loop of `Styles`. -/
def flatten : List StyleV → List StyleFn
  | [] => []
  | .noop :: t => flatten t
  | .fn f :: t => f :: flatten t
  | .many fs :: t => fs ++ flatten t

/-- `style.go:27-47` `Styles`. -/
def styles (ss : List StyleV) : StyleV :=
  match flatten ss with
  | [] => .noop
  | [f] => .fn f
  | fs => .many fs

end StyleV

namespace Style

/-- `style.go:83-88` `ZeroRuneStyle`. -/
def zeroRune (es : Nat) : StyleFn := fun _ _ r _ a => if r = es then (0, 0) else (r, a)
/-- `style.go:95-100` `FillRuneStyle`. -/
def fillRune (fs : Nat) : StyleFn := fun _ _ r _ a => (if r = 0 then fs else r, a)
/-- `style.go:108-113` `DefaultRuneStyle`. -/
def defaultRune (fs : Nat) : StyleFn := fun _ _ r _ a => (if r = 0 ∧ a ≠ 0 then fs else r, a)
/-- `style.go:119-124` `AttrStyle`. -/
def attr (as : Attr) : StyleFn := fun _ _ r _ a => (r, if r ≠ 0 then as else a)
/-- `style.go:149-154` `TransparentRunes`. -/
def transparentRunes : StyleFn := fun _ pr r _ a => (if r = 0 then pr else r, a)
/-- `style.go:156-161` `transparentAttrStyle`. -/
def transparentAttr (ta : Attr) : StyleFn := fun _ _ r pa a =>
  (r, if a &&& ta = 0 then a ||| (pa &&& ta) else a)

end Style

namespace Grid
open Geom

/-- Go's `copy` of `w` cells between distinct stores. -/
def copyCells (dst : List Cell) (di : Nat) (src : List Cell) (si w : Nat) : List Cell :=
  dst.take di ++ (src.drop si).take w ++ dst.drop (di + w)

/-- `draw.go:46-52` and `53-59`: the row loops of `copyGrid` (the runes and the
attributes are copied one after the other by identical loops over disjoint
arrays; here both at once).  `none` is the slice panic (an end beyond the
capacity, or, for negative `w`, an end before the start). -/
def copyRows (src : List Cell) (dstride sstride : Nat) (w : Int) :
    Nat → Nat → Nat → List Cell → Option (List Cell)
  | 0, _, _, dst => some dst
  | rows + 1, di, si, dst =>
    if 0 ≤ w ∧ di + w.toNat ≤ dst.length ∧ si + w.toNat ≤ src.length then
      copyRows src dstride sstride w rows (di + dstride) (si + sstride)
        (copyCells dst di src si w.toNat)
    else none

/-- `draw.go:41-67` `copyGrid`, `copySetup`: the new destination store.  The two
grids have separate stores. -/
def copyGrid (dst src : Grid) : Option (List Cell) :=
  let w := if dx src.rect > dx dst.rect then dx dst.rect else dx src.rect
  (dst.offset0? dst.rect.min).bind fun di =>
  (src.offset0? src.rect.min).bind fun si =>
    copyRows src.cells dst.stride src.stride w (min (dy src.rect) (dy dst.rect)).toNat di si dst.cells

/-- `draw.go:25-34`: the inner loop of the styled path, `k` columns left.  Only
the source column is advanced, so the style always gets the point `dp`. -/
def styleRow (style : StyleFn) (slen dlen : Nat) (src : List Cell) (dp : Pt) :
    Nat → Nat → Nat → List Cell → Option (List Cell)
  | 0, _, _, dst => some dst
  | k + 1, dii, sii, dst =>
    if dii < dlen ∧ sii < slen then
      let d := dst[dii]?.getD {}
      let s := src[sii]?.getD {}
      let ra := style dp d.rune s.rune d.attr s.attr
      styleRow style slen dlen src dp k (dii + 1) (sii + 1)
        (if ra.1 ≠ 0 then dst.set dii ⟨ra.1, ra.2⟩ else dst)
    else none

/-- `draw.go:21-38`: the outer loop of the styled path, `rows` rows left.  Only
the destination row is advanced. -/
def styleRows (style : StyleFn) (slen dlen : Nat) (src : List Cell) (dstride sstride w : Nat) :
    Nat → Pt → Nat → Nat → List Cell → Option (List Cell)
  | 0, _, _, _, dst => some dst
  | rows + 1, dp, di, si, dst =>
    (styleRow style slen dlen src dp w di si dst).bind
      (styleRows style slen dlen src dstride sstride w rows ⟨dp.x, dp.y + 1⟩ (di + dstride) (si + sstride))

/-- `draw.go:21-38`: the styled path.  The outer condition is
`sp.Y < src.Max.Y && dp.Y < dst.Max.Y` with `sp.Y` constant, the inner one
`sp.X < src.Max.X && dp.X < dst.Max.X` with `dp.X` constant. -/
def drawStyled (style : StyleFn) (dst src : Grid) : Option (List Cell) :=
  let rows := if src.rect.min.y < src.rect.max.y then (dy dst.rect).toNat else 0
  let w := if dst.rect.min.x < dst.rect.max.x then (dx src.rect).toNat else 0
  (dst.offset0? dst.rect.min).bind fun di =>
  (src.offset0? src.rect.min).bind fun si =>
    styleRows style src.len dst.len src.cells dst.stride src.stride w rows dst.rect.min di si dst.cells

/-- `draw.go:15-39` `DrawGrid`. -/
def drawGrid (dst src : Grid) (ss : List StyleV) : Option (List Cell) :=
  match StyleV.styles ss with
  | .noop => copyGrid dst src
  | st => drawStyled st.apply dst src

end Grid
end Anansi
