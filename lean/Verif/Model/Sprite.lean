import Verif.Model.Bitmap
/-
`bitmap.go:91-99, 197-207`: bitmaps written in the source of a program, and parts of bitmaps.
-/
set_option autoImplicit false

namespace Anansi.Bitmap
open Geom

/-- `bitmap.go:91-99` `MustParseBitmap`; `none` is a panic. -/
def mustParse (pat : List Nat) (lines : List (List Nat)) : Option (Nat × List Bool) :=
  match parse pat lines with
  | some r => some r
  | none => none

/-- `bitmap.go:197-201` `SubAt`. -/
def subAt (b : Bitmap) (at_ : Pt) : Bitmap := b.subRect ⟨at_, b.rect.max⟩

/-- `bitmap.go:203-207` `SubSize`. -/
def subSize (b : Bitmap) (sz : Pt) : Bitmap := b.subRect ⟨b.rect.min, ⟨b.rect.min.x + sz.x, b.rect.min.y + sz.y⟩⟩

/-- `bi.Load(MustParseBitmap(set, lines...))`, as in `render_test.go:17-18`, and a part of it. -/
def sprite (pat : List Nat) (lines : List (List Nat)) (at_ size : Pt) : Option Bitmap :=
  (mustParse pat lines).bind fun r => (load r.1 r.2).map fun b => (b.subAt at_).subSize size

end Anansi.Bitmap
