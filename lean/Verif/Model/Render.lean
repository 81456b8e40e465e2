import Verif.Model.State
import Verif.Model.Draw
/-
`render.go` and the update half of `state.go`: writing grids, cursor states and
screens as bytes.  The destination is an `ansiWriter` that appends (a `Buffer`);
the functions return the bytes appended.  `none` is a panic or a call that never
returns; theorem `update_shows_partial` and others show where neither happens.
-/
set_option autoImplicit false

namespace Anansi

/-- `buffer.go:89-106` `WriteSGR` of one attribute: zero values are skipped. -/
def sgrText (a : Attr) : Bytes := if a = 0 then [] else Sgr.append a

namespace Render
open Geom

/-- `render.go:49-55`, `98-104`: move, set attributes, write the rune, and let the
cursor track the rune. -/
def writeCell (gr : Nat → Bool) (cur : Cursor) (p : Pt) (r : Nat) (a : Attr) :
    Option (Cursor × Bytes) :=
  (cur.to p).bind fun m =>
  let s := m.1.mergeSGR a
  m.2.append.bind fun mv =>
  (s.1.processANSI gr (r, [])).map fun cur => (cur, mv ++ sgrText s.2 ++ encodeRune r)

/-- `render.go:58-61`, `109-112`: the next point of the scan. -/
def next (rect : Rect) (p : Pt) : Pt :=
  if p.x + 1 ≥ rect.max.x then ⟨rect.min.x, p.y + 1⟩ else ⟨p.x + 1, p.y⟩

/-- `render.go:47-62`: the loop of `writeGridFull` over the remaining cells. -/
def fullLoop (gr : Nat → Bool) (style : StyleFn) (rect : Rect) :
    List Cell → Pt → Cursor → Option (Cursor × Bytes)
  | [], _, cur => some (cur, [])
  | c :: t, p, cur =>
    let ra := style p 0 c.rune 0 c.attr
    if ra.1 ≠ 0 then
      (writeCell gr cur p ra.1 ra.2).bind fun w =>
        (fullLoop gr style rect t (next rect p) w.1).map fun r => (r.1, w.2 ++ r.2)
    else fullLoop gr style rect t (next rect p) cur

/-- `render.go:39-64` `writeGridFull`. -/
def writeGridFull (gr : Nat → Bool) (cur : Cursor) (g : Grid) (style : StyleV) :
    Option (Cursor × Bytes) :=
  let style := if (style.apply zp 0 0 0 0).1 = 0x20 then
    StyleV.styles [style, .fn (Style.zeroRune 0x20)] else style
  let style := StyleV.styles [style, .fn (Style.defaultRune 0x20)]
  (escSeq ED).bind fun s => ((s.with [0x32]).append).bind fun b =>
    (fullLoop gr style.apply g.rect g.data ⟨1, 1⟩ cur).map fun r => (r.1, b ++ r.2)

/-- `render.go:76-113`: the loop of `writeGridDiff` over the remaining cells; the
`goto next` of line 90 is the first branch.  `none` is also the panic of
`CellOffset` or of an index. -/
def diffLoop (gr : Nat → Bool) (style : StyleFn) (fr : Nat) (fa : Attr) (rect : Rect) (prior : Grid) :
    List Cell → Pt → Bool → Cursor → Option (Cursor × Bytes)
  | [], _, _, cur => some (cur, [])
  | c :: t, p, diffing, cur =>
    let ra := style p fr c.rune fa c.attr
    let write : Bool → Option (Cursor × Bytes) := fun diffing =>
      if ra.1 ≠ 0 then
        (writeCell gr cur p ra.1 ra.2).bind fun w =>
          (diffLoop gr style fr fa rect prior t (next rect p) diffing w.1).map fun r =>
            (r.1, w.2 ++ r.2)
      else diffLoop gr style fr fa rect prior t (next rect p) diffing cur
    if diffing then
      match prior.cellOffset? p with
      | none => none
      | some (some j) =>
        if j < prior.len then
          let d := prior.cells[j]?.getD {}
          let pr := if d.rune = 0 then fr else d.rune
          let pa := if d.attr = 0 then fa else d.attr
          if ra.1 = pr ∧ ra.2 = pa then
            diffLoop gr style fr fa rect prior t (next rect p) diffing cur
          else write true
        else none
      | some none => write false
    else write false

/-- `render.go:66-115` `writeGridDiff`. -/
def writeGridDiff (gr : Nat → Bool) (g : Grid) (prior : Screen) (style : StyleV) :
    Option (Screen × Bytes) :=
  let fill := style.apply zp 0 0 0 0
  let fr := if fill.1 = 0 then 0x20 else fill.1
  let style := if fill.1 = 0 then StyleV.styles [style, .fn (Style.fillRune fr)] else style
  let style := StyleV.styles [style, .fn (Style.defaultRune 0x20)]
  (diffLoop gr style.apply fr fill.2 g.rect prior.grid g.data ⟨1, 1⟩ true prior.cur).map fun r =>
    ({ prior with cur := r.1 }, r.2)

/-- `render.go:27-37` `writeGrid`. -/
def writeGrid (gr : Nat → Bool) (g : Grid) (prior : Screen) (style : StyleV) :
    Option (Screen × Bytes) :=
  if g.len = 0 then some (prior, [])
  else if prior.grid.len = 0 ∨ empty prior.grid.rect = true ∨ rectEq prior.grid.rect g.rect = false then
    (writeGridFull gr prior.cur g style).map fun r => ({ prior with cur := r.1 }, r.2)
  else writeGridDiff gr g prior style

/-- `render.go:15-25` `WriteGrid` (into a buffered writer); `none` is also its panics. -/
def writeGridTop (gr : Nat → Bool) (g : Grid) (prior : Screen) (ss : List StyleV) :
    Option (Screen × Bytes) :=
  if (g.stride : Int) ≠ dx g.rect then none
  else if g.rect.min ≠ ⟨1, 1⟩ then none
  else writeGrid gr g prior (StyleV.styles ss)

end Render

namespace Cursor
open Geom

/-- `state.go:215-224` `applyTo`: the state reached and the bytes. -/
def applyTo (cs cur : Cursor) : Option (Cursor × Bytes) :=
  if cs.visible && valid cs.pt then
    (cur.to cs.pt).bind fun m =>
    m.2.append.bind fun mv =>
    let s := m.1.mergeSGR cs.attr
    s.1.show_.bind fun v =>
    v.2.append.map fun vb => (v.1, mv ++ sgrText s.2 ++ vb)
  else cur.hide.bind fun v => v.2.append.map fun vb => (v.1, vb)

end Cursor

namespace Screen
open Geom

/-- `state.go:242-243`: Go's `copy` of the cells, limited by both slice lengths. -/
def copyIn (dst src : Grid) : Grid :=
  { dst with cells := src.data.take dst.len ++ dst.cells.drop (min dst.len src.len) }

/-- `state.go:234-245` `update`.  The size is that of the (whole) grid's bounds, which
is not negative. -/
def update (gr : Nat → Bool) (sc prior : Screen) : Option (Screen × Bytes) :=
  prior.cur.hide.bind fun v =>
  v.2.append.bind fun vb =>
  (Render.writeGrid gr sc.grid { prior with cur := v.1 } .noop).bind fun g =>
  (sc.cur.applyTo g.1.cur).map fun a =>
    let p : Screen := { g.1 with cur := a.1 }
    let p := (p.resize ((dx sc.grid.rect).toNat, (dy sc.grid.rect).toNat)).1
    ({ p with grid := copyIn p.grid sc.grid }, vb ++ g.2 ++ a.2)

end Screen
end Anansi
