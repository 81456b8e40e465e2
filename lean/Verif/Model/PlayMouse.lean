import Verif.Model.Play
import Verif.Model.Events
import Verif.Model.Grid
import Verif.Model.Sgr
/-
`x/platform/replay.go:31-34, 96-105, 118-144`: the mouse's mark in a replay.

The escapes to save and restore the cursor that are written to the screen around it
(`replay.go:131, 143`) change neither cells nor cursor of a virtual screen, and are left out.
-/
set_option autoImplicit false

namespace Anansi
namespace Rpl
open Geom

/-- `replay.go:31-34`: the field `mouse`. -/
structure Mark where
  ms : Mouse.MState := 0
  pt : Pt := ⟨0, 0⟩
  decay : Nat := 0
deriving DecidableEq, Repr

/-- `replay.go:96-105`: for the events of a frame that is played. -/
def Mark.frame (m : Mark) (es : Evq.Events) : Mark :=
  match (Evq.lastMouse false none es).2 with
  | some x => ⟨x.1, x.2, 15⟩
  | none =>
    if m.decay > 0 then
      let m := { m with decay := m.decay - 1 }
      if m.decay = 0 then { m with ms := 3 } else m
    else m

/-- Frames that are played one after another; a frame's input is decoded into an empty queue
(`replay.go:93-94`). -/
def Mark.frames (m : Mark) : List Bytes → Mark
  | [] => m
  | b :: l => (m.frame (Evq.decodeBytes [] b)).frames l

/-- `replay.go:118-126` `buttonAttrs`. -/
def buttonAttrs : List Attr :=
  [Sgr.clear ||| Sgr.bold ||| Sgr.colorBG 7 ||| Sgr.colorFG 7,
   Sgr.clear ||| Sgr.bold ||| Sgr.colorFG 7 ||| Sgr.colorBG 1,
   Sgr.clear ||| Sgr.bold ||| Sgr.colorFG 7 ||| Sgr.colorBG 2,
   Sgr.clear ||| Sgr.bold ||| Sgr.colorFG 7 ||| Sgr.colorBG 4,
   Sgr.clear ||| Sgr.bold ||| Sgr.colorFG 7 ||| Sgr.colorBG 5,
   Sgr.clear ||| Sgr.bold ||| Sgr.colorFG 7 ||| Sgr.colorBG 6,
   Sgr.clear ||| Sgr.bold ||| Sgr.colorFG 7 ||| Sgr.colorBG 3]

/-- `replay.go:128-144` `drawOverlay`; `none` is a panic, of `CellOffset` or of an index. -/
def Mark.draw (m : Mark) (g : Grid) : Option Grid :=
  if m.ms ≠ 0 ∨ m.pt ≠ ⟨0, 0⟩ then
    match g.cellOffset? m.pt with
    | none => none
    | some none => some g
    | some (some i) =>
      if i < g.len then
        (buttonAttrs[(Mouse.buttonID m.ms).toNat]?).map fun a => { g with cells := g.cells.set i ⟨0x58, a⟩ }
      else none
  else some g

end Rpl
end Anansi
