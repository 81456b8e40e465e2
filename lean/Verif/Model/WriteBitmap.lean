import Verif.Model.Render
import Verif.Model.Bitmap
/-
`render.go:117-160`: writing a bitmap as braille runes.  The destination is an
`ansiWriter` that appends (a `Buffer`); the functions return the bytes appended.
`none` is a panic or a call that never returns.
-/
set_option autoImplicit false

namespace Anansi.Render
open Geom

/-- `render.go:124-129`: the style put after the given ones. -/
def blankStyle : StyleFn := fun _ _ r _ a => if r = 0 then (0x20, 0) else (r, a)

/-- `render.go:140-153`: one block. -/
def bitmapRune (gr : Nat → Bool) (st : StyleFn) (b : Bitmap) (bp : Pt) (cur : Cursor) :
    Option (Cursor × Bytes) :=
  (ptFromImage bp).bind fun sp =>
  (b.rune bp).bind fun sr =>
  let ra := st sp 0 sr 0 0
  let m := if ra.2 ≠ 0 then cur.mergeSGR ra.2 else (cur, 0)
  (m.1.processANSI gr (ra.1, [])).map fun c => (c, sgrText m.2 ++ encodeRune ra.1)

/-- `render.go:139-154`: `k` blocks of a row. -/
def bitmapRow (gr : Nat → Bool) (st : StyleFn) (b : Bitmap) : Nat → Pt → Cursor →
    Option (Cursor × Bytes)
  | 0, _, cur => some (cur, [])
  | k + 1, bp, cur =>
    (bitmapRune gr st b bp cur).bind fun v =>
      (bitmapRow gr st b k ⟨bp.x + 2, bp.y⟩ v.1).map fun r => (r.1, v.2 ++ r.2)

/-- `render.go:135-155`: `n` rows of `k` blocks; the loop sets `bp.X` back to the left
edge for every row. -/
def bitmapRows (gr : Nat → Bool) (st : StyleFn) (b : Bitmap) (k : Nat) : Nat → Pt → Cursor →
    Option (Cursor × Bytes)
  | 0, _, cur => some (cur, [])
  | n + 1, bp, cur =>
    (if bp.y > 0 then cur.newLine.bind fun m => m.2.append.map fun nl => (m.1, nl)
      else some (cur, [])).bind fun m =>
    (bitmapRow gr st b k bp m.1).bind fun v =>
      (bitmapRows gr st b k n ⟨bp.x, bp.y + 4⟩ v.1).map fun r => (r.1, m.2 ++ v.2 ++ r.2)

/-- `render.go:120-131`, `134-157` `WriteBitmap`: rows while `bp.Y < Max.Y` in steps of
4, columns while `bp.X < Max.X` in steps of 2, from the zero cursor state. -/
def writeBitmap (gr : Nat → Bool) (b : Bitmap) (ss : List StyleV) : Option Bytes :=
  (bitmapRows gr (StyleV.styles [StyleV.styles ss, .fn blankStyle]).apply b
    ((dx b.rect + 1) / 2).toNat ((dy b.rect + 3) / 4).toNat b.rect.min {}).map (·.2)

end Anansi.Render
