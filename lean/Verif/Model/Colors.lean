import Verif.Model.Sgr
import Verif.Model.Context
/-
`ansi/colors.go` and the conversions of `ansi/sgr.go:371-443`: palettes and colour models.
-/
set_option autoImplicit false

namespace Anansi
namespace Col
open Sgr

/-- Components. -/
abbrev Rgb := UInt8 × UInt8 × UInt8

/-- `colors.go:93-433`: the definitions `Palette3Colors`, `Palette4Colors` and
`Palette8Colors`, the latter beginning with the former. -/
def table : List Rgb :=
  [(0, 0, 0), (128, 0, 0), (0, 128, 0), (128, 128, 0), (0, 0, 128), (128, 0, 128), (0, 128, 128),
   (192, 192, 192), (128, 128, 128), (255, 0, 0), (0, 255, 0), (255, 255, 0), (0, 0, 255),
   (255, 0, 255), (0, 255, 255), (255, 255, 255), (0, 0, 0), (0, 0, 95), (0, 0, 135), (0, 0, 175),
   (0, 0, 215), (0, 0, 255), (0, 95, 0), (0, 95, 95), (0, 95, 135), (0, 95, 175), (0, 95, 215),
   (0, 95, 255), (0, 135, 0), (0, 135, 95), (0, 135, 135), (0, 135, 175), (0, 135, 215),
   (0, 135, 255), (0, 175, 0), (0, 175, 95), (0, 175, 135), (0, 175, 175), (0, 175, 215),
   (0, 175, 255), (0, 215, 0), (0, 215, 95), (0, 215, 135), (0, 215, 175), (0, 215, 215),
   (0, 215, 255), (0, 255, 0), (0, 255, 95), (0, 255, 135), (0, 255, 175), (0, 255, 215),
   (0, 255, 255), (95, 0, 0), (95, 0, 95), (95, 0, 135), (95, 0, 175), (95, 0, 215), (95, 0, 255),
   (95, 95, 0), (95, 95, 95), (95, 95, 135), (95, 95, 175), (95, 95, 215), (95, 95, 255),
   (95, 135, 0), (95, 135, 95), (95, 135, 135), (95, 135, 175), (95, 135, 215), (95, 135, 255),
   (95, 175, 0), (95, 175, 95), (95, 175, 135), (95, 175, 175), (95, 175, 215), (95, 175, 255),
   (95, 215, 0), (95, 215, 95), (95, 215, 135), (95, 215, 175), (95, 215, 215), (95, 215, 255),
   (95, 255, 0), (95, 255, 95), (95, 255, 135), (95, 255, 175), (95, 255, 215), (95, 255, 255),
   (135, 0, 0), (135, 0, 95), (135, 0, 135), (135, 0, 175), (135, 0, 215), (135, 0, 255),
   (135, 95, 0), (135, 95, 95), (135, 95, 135), (135, 95, 175), (135, 95, 215), (135, 95, 255),
   (135, 135, 0), (135, 135, 95), (135, 135, 135), (135, 135, 175), (135, 135, 215),
   (135, 135, 255), (135, 175, 0), (135, 175, 95), (135, 175, 135), (135, 175, 175),
   (135, 175, 215), (135, 175, 255), (135, 215, 0), (135, 215, 95), (135, 215, 135),
   (135, 215, 175), (135, 215, 215), (135, 215, 255), (135, 255, 0), (135, 255, 95),
   (135, 255, 135), (135, 255, 175), (135, 255, 215), (135, 255, 255), (175, 0, 0), (175, 0, 95),
   (175, 0, 135), (175, 0, 175), (175, 0, 215), (175, 0, 255), (175, 95, 0), (175, 95, 95),
   (175, 95, 135), (175, 95, 175), (175, 95, 215), (175, 95, 255), (175, 135, 0), (175, 135, 95),
   (175, 135, 135), (175, 135, 175), (175, 135, 215), (175, 135, 255), (175, 175, 0),
   (175, 175, 95), (175, 175, 135), (175, 175, 175), (175, 175, 215), (175, 175, 255),
   (175, 215, 0), (175, 215, 95), (175, 215, 135), (175, 215, 175), (175, 215, 215),
   (175, 215, 255), (175, 255, 0), (175, 255, 95), (175, 255, 135), (175, 255, 175),
   (175, 255, 215), (175, 255, 255), (215, 0, 0), (215, 0, 95), (215, 0, 135), (215, 0, 175),
   (215, 0, 215), (215, 0, 255), (215, 95, 0), (215, 95, 95), (215, 95, 135), (215, 95, 175),
   (215, 95, 215), (215, 95, 255), (215, 135, 0), (215, 135, 95), (215, 135, 135),
   (215, 135, 175), (215, 135, 215), (215, 135, 255), (215, 175, 0), (215, 175, 95),
   (215, 175, 135), (215, 175, 175), (215, 175, 215), (215, 175, 255), (215, 215, 0),
   (215, 215, 95), (215, 215, 135), (215, 215, 175), (215, 215, 215), (215, 215, 255),
   (215, 255, 0), (215, 255, 95), (215, 255, 135), (215, 255, 175), (215, 255, 215),
   (215, 255, 255), (255, 0, 0), (255, 0, 95), (255, 0, 135), (255, 0, 175), (255, 0, 215),
   (255, 0, 255), (255, 95, 0), (255, 95, 95), (255, 95, 135), (255, 95, 175), (255, 95, 215),
   (255, 95, 255), (255, 135, 0), (255, 135, 95), (255, 135, 135), (255, 135, 175),
   (255, 135, 215), (255, 135, 255), (255, 175, 0), (255, 175, 95), (255, 175, 135),
   (255, 175, 175), (255, 175, 215), (255, 175, 255), (255, 215, 0), (255, 215, 95),
   (255, 215, 135), (255, 215, 175), (255, 215, 215), (255, 215, 255), (255, 255, 0),
   (255, 255, 95), (255, 255, 135), (255, 255, 175), (255, 255, 215), (255, 255, 255), (8, 8, 8),
   (18, 18, 18), (28, 28, 28), (38, 38, 38), (48, 48, 48), (58, 58, 58), (68, 68, 68),
   (78, 78, 78), (88, 88, 88), (98, 98, 98), (108, 108, 108), (118, 118, 118), (128, 128, 128),
   (138, 138, 138), (148, 148, 148), (158, 158, 158), (168, 168, 168), (178, 178, 178),
   (188, 188, 188), (198, 198, 198), (208, 208, 208), (218, 218, 218), (228, 228, 228),
   (238, 238, 238)]

def palette8Colors : List Color := table.map fun x => rgb x.1 x.2.1 x.2.2

/-- `colors.go:9-89` `Palette8`: the constants of `sgr.go:103-369`, in order. -/
def palette8 : List Color := (List.range 256).map (BitVec.ofNat 32)

/-- `sgr.go:433`: the low three bytes. -/
def low (c : Color) : Rgb :=
  (chan c 0, chan c 1, chan c 2)

/-- `sgr.go:429-434` `SGRColor.RGB`. -/
def comps (c : Color) : Rgb :=
  low (if c &&& color24 = 0 then palette8Colors.getD (c &&& 0xff#32).toNat 0 else c)

/-- `sgr.go:438-443` `SGRColor.To24Bit`. -/
def to24 (c : Color) : Color :=
  if c &&& color24 ≠ 0 then c else rgb (comps c).1 (comps c).2.1 (comps c).2.2

/-- `sgr.go:420-426` `SGRColor.RGBA`: `r | r<<8`, and so on; alpha is always `0xffff`. -/
def rgba (c : Color) : BitVec 32 × BitVec 32 × BitVec 32 :=
  let f := fun (x : UInt8) => x.toBitVec.setWidth 32 ||| (x.toBitVec.setWidth 32 <<< 8)
  (f (comps c).1, f (comps c).2.1, f (comps c).2.2)

/-- One component in `sgr.go:378-389` `RGBA`: clipped, and its high byte. -/
def clip (x : BitVec 32) : UInt8 := ⟨((if x > 0xffff#32 then 0xffff#32 else x) >>> 8).setWidth 8⟩

/-- `sgr.go:378-389` `RGBA`. -/
def ofRGBA (x : BitVec 32 × BitVec 32 × BitVec 32) : Color := rgb (clip x.1) (clip x.2.1) (clip x.2.2)

/-- `colors.go:722-725` `sqDiff`, on `uint32` with its wrapping subtraction. -/
def sqDiff (x y : UInt8) : BitVec 32 :=
  let d := x.toBitVec.setWidth 32 - y.toBitVec.setWidth 32
  (d * d) >>> 2

/-- The sum in `colors.go:711`. -/
def sum (c p : Rgb) : BitVec 32 := sqDiff c.1 p.1 + sqDiff c.2.1 p.2.1 + sqDiff c.2.2 p.2.2

/-- The loop `colors.go:709-717`, from index `i` on. -/
def indexLoop (c : Rgb) : List Color → Nat → Nat → BitVec 32 → Nat
  | [], _, ret, _ => ret
  | p :: ps, i, ret, best =>
    if sum c (comps p) < best then
      if sum c (comps p) = 0 then i else indexLoop c ps (i + 1) i (sum c (comps p))
    else indexLoop c ps (i + 1) ret best

/-- `colors.go:706-719` `Palette.Index`. -/
def index (p : List Color) (c : Color) : Nat := indexLoop (comps c) p 0 0 0xffffffff#32

/-- `colors.go:697-702` `Palette.Convert`. -/
def paletteConvert (p : List Color) (c : Color) : Color := if p = [] then 0#32 else p.getD (index p c) 0

/-- `colors.go:493-499`: the map `SGRColorCanon` is filled in order, so that the last entry for
a colour is what counts. -/
def canonMap : List (Color × Color) := palette8Colors.zip palette8

/-- A lookup in a map filled in the order of the list. -/
def lookupLast (m : List (Color × Color)) (c : Color) : Option Color :=
  m.foldl (fun r kv => if kv.1 = c then some kv.2 else r) none

/-- `colors.go:502-507` `SGRColorMap.Convert`. -/
def mapConvert (m : List (Color × Color)) (c : Color) : Color := (lookupLast m c).getD c

/-- `SGRColorCanon.Convert`. -/
def canon (c : Color) : Color := mapConvert canonMap c

/-- `colors.go:521-530` `ColorTheme.Convert`. -/
def themeConvert (theme : List Color) (c : Color) : Color :=
  if c &&& color24 ≠ 0 then c
  else if (c &&& 0xff#32).toNat < theme.length then theme.getD (c &&& 0xff#32).toNat 0
  else palette8.getD (c &&& 0xff#32).toNat 0

/-- `colors.go:442-447` `colorModels.Convert`, for models given by what they do. -/
def applyAll (env : Nat → Color → Color) (l : List Nat) (c : Color) : Color :=
  l.foldl (fun c i => env i c) c

/-- `colors.go:451-478` `ColorModels`: word for word the same as `Contexts`, of which the
model is used here, with models in place of contexts. -/
def colorModels (grow : Nat → Nat → Nat) (h : Ctx.Heap) (ms : List Ctx.Cx) : Ctx.Heap × Ctx.Cx :=
  Ctx.contexts grow h ms

/-- `Convert` of a (combined) model; that of nil panics. -/
def modelConvert (env : Nat → Color → Color) (h : Ctx.Heap) (m : Ctx.Cx) (c : Color) : Option Color :=
  match m with
  | .nil => none
  | .leaf i => some (env i c)
  | .many arr len _ => some (applyAll env (Ctx.slice h arr len) c)

end Col
end Anansi
