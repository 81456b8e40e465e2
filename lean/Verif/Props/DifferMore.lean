import Verif.Props.Differ
/-
C34 and C35: satisfiable hypotheses and negations.
-/
set_option autoImplicit false

namespace Anansi
open Vt Geom Render
namespace Differ

/-- Replace the cells of the virtual screen. -/
def paint (d : Differ) (sc : Screen) : Differ := { d with v := { d.v with sc := sc } }

/-- `x` and a bold `w`. -/
def stripBold : Screen := { strip 120 119 with grid := { (strip 120 119).grid with
  cells := [⟨120, 0⟩, ⟨119, Sgr.Style.build { bold := true }⟩] } }

/-- The state after showing `xy` from a fresh start. -/
def shownXY : Differ :=
  { v := ⟨strip 120 121, .empty⟩, real := { strip 120 121 with cur := { attrKnown := true, visKnown := true } } }

/-- Showing `xy` gets there. -/
theorem shownXY_reached : ({ v := ⟨strip 120 121, .empty⟩ } : Differ).writeTo Screen.ascii .ok =
    .ok (shownXY, text [.hide, .eraseAll, .cup 1 1, .sgr [0], .put 120, .put 121], none) := by decide +kernel

/-- The hypotheses of `resume_bytes_partial` can be met: a frame cut in three. -/
example : ∃ state b, ({ stripBold with cur := {} } : Screen).update Screen.ascii shownXY.real = some (state, b) ∧
    ([3, 4] : List Nat).sum < b.length ∧ (shownXY.paint stripBold).v.buf.buf = [] ∧
    (shownXY.paint stripBold).v.sc.grid.isSub = false :=
  ⟨{ stripBold with cur := { pt := ⟨3, 1⟩, attr := Sgr.Style.build { bold := true }, attrKnown := true, visKnown := true } },
    text [.cup 1 2, .sgr [1], .put 119], by decide +kernel, by decide +kernel, by decide +kernel, by decide +kernel⟩

/-- Negation for **C34**: after a frame with a bold `w` was interrupted once and
resumed, the recorded attributes are those before the frame, and the next frame's plain
`z` is displayed bold. -/
theorem resume_forgets_style (t : Term) (hw : t.w = 2) (hh : t.h = 1) :
    ∃ d1 d2 l o1 o2 o3, ({ v := ⟨strip 120 121, .empty⟩ } : Differ).writeTo Screen.ascii .ok =
        .ok (shownXY, text o1, none) ∧
      (shownXY.paint stripBold).flushes Screen.ascii [.block 1, .ok] = .ok (d1, l) ∧
      (l.map (·.1)).flatten = text o2 ∧ d1.real.cur.attrKnown = true ∧ d1.real.cur.attr = 0 ∧
      (t.run (o1 ++ o2)).style = { bold := true } ∧
      (d1.paint (strip 120 122)).writeTo Screen.ascii .ok = .ok (d2, text o3, none) ∧
      (t.run (o1 ++ o2 ++ o3)).cell 1 0 = ⟨122, { bold := true }⟩ := by
  refine ⟨{ shownXY with
      v := ⟨{ stripBold with cur := {} }, .empty⟩
      real := { stripBold with cur := shownXY.real.cur } },
    { shownXY with
      v := ⟨strip 120 122, .empty⟩
      real := { strip 120 122 with cur := { pt := ⟨3, 1⟩, attrKnown := true, visKnown := true } } },
    [([0x1B], some .wouldBlock), ((text [.cup 1 2, .sgr [1], .put 119]).drop 1, none)], _,
    [.cup 1 2, .sgr [1], .put 119], [.cup 1 2, .put 122], shownXY_reached, ?_, ?_, rfl, rfl, ?_, ?_, ?_⟩
  · decide +kernel
  · decide +kernel
  · simp [Term.run, Term.step, rendition, rend, hw, hh]
  · decide +kernel
  · simp [Term.run, Term.step, hw, hh, rendition, rend]

/-- Negation for **C34**: text written to the screen between an interrupted flush and
its continuation makes the rest of the frame disappear: it is processed as if it had been
written to the virtual screen.  Here the bold `w` of the interrupted frame is never sent,
not even by the next flush, though the recorded state has it. -/
theorem write_eats_frame :
    ∃ d1 d2 v, (shownXY.paint stripBold).writeTo Screen.ascii (.block 1) = .ok (d1, [0x1B], some .wouldBlock) ∧
      d1.v.buf.buf ≠ [] ∧ d1.v.write Screen.ascii [0x61] = .ok v ∧ v.buf.buf = [] ∧
      ({ d1 with v } : Differ).writeTo Screen.ascii .ok =
        .ok (d2, text [.cup 1 1, .sgr [1], .put 97], none) ∧
      d2.real.look 2 1 0 = some ⟨119, Sgr.Style.build { bold := true }⟩ := by
  refine ⟨{ shownXY with
      v := ⟨{ stripBold with cur := {} }, ⟨(text [.cup 1 2, .sgr [1], .put 119]).drop 1, 0⟩⟩
      real := { stripBold with cur := shownXY.real.cur } },
    { shownXY with
      v := ⟨{ stripBold with
        grid := { stripBold.grid with cells := [⟨97, 2⟩, ⟨119, 2⟩] } }, .empty⟩
      real := { stripBold with
        cur := { pt := ⟨2, 1⟩, attr := 2, attrKnown := true, visKnown := true }
        grid := { stripBold.grid with cells := [⟨97, 2⟩, ⟨119, 2⟩] } } },
    ⟨{ stripBold with
        cur := { pt := ⟨2, 1⟩, attr := 2 }
        grid := { stripBold.grid with cells := [⟨97, 2⟩, ⟨119, 2⟩] } }, .empty⟩, ?_, ?_, ?_, ?_, ?_, ?_⟩ <;>
    decide +kernel

/-- Negation for **C34**: when a flush fails after part of the frame was accepted, the
recorded attributes stay "known" although the terminal's are others, and the full redraw
that follows shows plain text in bold. -/
theorem failed_keeps_style (t : Term) (hw : t.w = 2) (hh : t.h = 1) :
    ∃ d1 d2 o1 o2 o3, ({ v := ⟨strip 120 121, .empty⟩ } : Differ).writeTo Screen.ascii .ok =
        .ok (shownXY, text o1, none) ∧
      (shownXY.paint stripBold).writeTo Screen.ascii (.fail 10) = .ok (d1, text o2, some .other) ∧
      (d1.paint (strip 120 122)).writeTo Screen.ascii .ok = .ok (d2, text o3, none) ∧
      (t.run (o1 ++ o2 ++ o3)).cell 1 0 = ⟨122, { bold := true }⟩ := by
  refine ⟨{ shownXY with
      v := ⟨{ (strip 0 0) with cur := shownXY.real.cur }, .empty⟩
      real := { cur := shownXY.real.cur, grid := { stripBold.grid with
        rect := ⟨⟨1, 1⟩, ⟨1, 1⟩⟩, stride := 0, len := 0 } } },
    { shownXY with
      v := ⟨strip 120 122, .empty⟩
      real := { strip 120 122 with cur := { attrKnown := true, visKnown := true } } },
    _, [.cup 1 2, .sgr [1]], [.eraseAll, .cup 1 1, .put 120, .put 122], shownXY_reached, ?_, ?_, ?_⟩
  · decide +kernel
  · decide +kernel
  · simp [Term.run, Term.step, hw, hh, rendition, rend]

/-! ### C35 -/

/-- The hypotheses of `flush_shows_partial` can be met, on a fresh start. -/
example (t : Term) (hw : t.w = 2) (hh : t.h = 2) (hb : t.bce = false) :
    ∃ d' ops, ({ v := ⟨demo1, .empty⟩ } : Differ).writeTo Screen.ascii .ok = .ok (d', text ops, none) ∧
      Shows (t.run ops) demo1 2 2 := by
  obtain ⟨d', ops, h1, h2, _⟩ := flush_shows_partial Screen.ascii t { v := ⟨demo1, .empty⟩ } 2 2 rfl
    (demo_whole _ rfl) hw hh (agree_fresh t) demo_drawable.1 (ascii_printable _ (by decide))
    (fun h => absurd h (by decide)) (.full (0, 0) ⟨by decide, by decide, by decide, Or.inr rfl, by decide⟩
      (fun _ => rfl) (by decide) (fun h => by simp [hb] at h) (by decide +kernel))
  exact ⟨d', ops, h1, h2⟩

/-- Negation for **C35**: whenever anything is left over in the buffer, a flush sends
just that, whatever the virtual screen holds. -/
theorem flush_only_leftover (gr : Nat → Bool) (d : Differ) (hs : d.v.sc.grid.isSub = false)
    (hb : d.v.buf.buf ≠ []) : ∃ d', d.writeTo gr .ok = .ok (d', d.v.buf.buf, none) ∧ d'.real = d.real := by
  rw [writeTo_left hs hb, finish]
  simp only [if_neg hb]
  exact ⟨_, rfl, rfl⟩

/-- Negation for **C35**: writing `hi`, then setting a style, then flushing, sends the
style and not the text. -/
theorem style_drops_frame : ∃ v d', ({ sc := strip 0 0 } : VScreen).ops Screen.ascii
      [.moveTo ⟨1, 1⟩, .write [0x68], .sgr [Sgr.Style.build { bold := true }]] = .ok v ∧
    v.sc.look 2 0 0 = some ⟨0x68, 0⟩ ∧
    ({ v } : Differ).writeTo Screen.ascii .ok = .ok (d', text [.sgr [0, 1]], none) ∧
    d'.real = {} := by
  refine ⟨⟨{ strip 0x68 0 with cur := { pt := ⟨2, 1⟩, attr := 2, attrKnown := true } }, ⟨text [.sgr [0, 1]], 6⟩⟩,
    { v := ⟨{ strip 0x68 0 with cur := { pt := ⟨2, 1⟩, attr := 2, attrKnown := true } }, ⟨[], 0⟩⟩ }, ?_, ?_, ?_, rfl⟩ <;>
    decide +kernel

/-- Negation for **C35**: so does an escape that was not finished. -/
theorem pending_drops_frame : ∃ v d', ({ sc := strip 0 0 } : VScreen).ops Screen.ascii
      [.moveTo ⟨1, 1⟩, .write [0x68, 0x1B]] = .ok v ∧ v.sc.look 2 0 0 = some ⟨0x68, 0⟩ ∧
    ({ v } : Differ).writeTo Screen.ascii .ok = .ok (d', [0x1B], none) ∧ d'.real = {} := by
  refine ⟨⟨{ strip 0x68 0 with cur := { pt := ⟨2, 1⟩ } }, ⟨[0x1B], 0⟩⟩,
    { v := ⟨{ strip 0x68 0 with cur := { pt := ⟨2, 1⟩ } }, ⟨[], 0⟩⟩ }, ?_, ?_, ?_, rfl⟩ <;>
    decide +kernel

/-- The hypotheses of `staged_complete` can be met. -/
example : ∀ v1 l1 o l2, [VScreen.Op.moveTo ⟨1, 1⟩, .write [0x68, 0x1B, 0x5B, 0x48]] = l1 ++ o :: l2 →
    ({ sc := strip 0 0 } : VScreen).ops Screen.ascii l1 = .ok v1 → Complete v1 o := by
  intro v1 l1 o l2 h _
  match l1, h with
  | [], h => cases h; trivial
  | [_], h => cases h; show (process _).rest = []; decide +kernel
  | _ :: _ :: l, h => cases l <;> simp at h

end Differ
end Anansi
