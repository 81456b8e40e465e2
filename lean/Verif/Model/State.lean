import Verif.Model.Grid
import Verif.Model.Seq
import Verif.Model.Process
/-
`state.go`: the tracked cursor and the screen emulator.

`unicode.IsGraphic` is a parameter `gr` of every definition that uses it.
A loop that makes no progress, and so never ends, is `none` in the cursor
functions and `.error .hang` in the screen functions; `.error .panic` is a Go
panic (index out of range).  Coordinates are unbounded integers.
-/
set_option autoImplicit false

namespace Anansi

/-- `state.go:23-30` `Cursor`. -/
structure Cursor where
  pt : Pt := ⟨0, 0⟩
  attr : Attr := 0
  visible : Bool := false
  attrKnown : Bool := false
  visKnown : Bool := false
deriving DecidableEq, Repr

/-- `state.go:35-38` `Screen`. -/
structure Screen where
  cur : Cursor := {}
  grid : Grid := {}
deriving DecidableEq, Repr

/-- How a call can fail to return. -/
inductive Fault
  | panic | hang
deriving DecidableEq, Repr

/-- `ansi/modes.go:55` `ShowCursor`. -/
def showCursor : BitVec 64 := modePrivate ||| 25

/-- `ansi.Seq{}`. -/
def Seq.zero : Seq := { id := 0 }

namespace Cursor
open Geom

/-- `state.go:95-103` `Show`: the new cursor and the sequence; `none` is a panic of
the sequence builder. -/
def show_ (cs : Cursor) : Option (Cursor × Seq) :=
  if !cs.visKnown || !cs.visible then
    (modeSet showCursor).map ({ cs with visKnown := true, visible := true }, ·)
  else some (cs, .zero)

/-- `state.go:107-115` `Hide`. -/
def hide (cs : Cursor) : Option (Cursor × Seq) :=
  if !cs.visKnown || cs.visible then
    (modeReset showCursor).map ({ cs with visKnown := true, visible := false }, ·)
  else some (cs, .zero)

/-- `state.go:118-127` `MergeSGR`. -/
def mergeSGR (cs : Cursor) (a : Attr) : Cursor × Attr :=
  if !cs.attrKnown then ({ cs with attr := a, attrKnown := true }, a ||| Sgr.clear)
  else ({ cs with attr := Sgr.merge cs.attr (Sgr.diff cs.attr a) }, Sgr.diff cs.attr a)

/-- `state.go:180-184` `NewLine`. -/
def newLine (cs : Cursor) : Option (Cursor × Seq) :=
  (escSeq 0x0D).map fun s => ({ cs with pt := ⟨1, cs.pt.y + 1⟩ }, s.with [0x0A])

/-- `state.go:133-176` `To`.  The second displacement (line 161) is computed from
the columns, and after the column was updated. -/
def to (cs : Cursor) (p : Pt) : Option (Cursor × Seq) :=
  if !valid cs.pt then
    (escSeq CUP).bind fun s => (s.withPoint p).map ({ cs with pt := p }, ·)
  else if p.y = cs.pt.y + 1 ∧ p.x = 1 then cs.newLine
  else if p.x ≠ cs.pt.x ∧ p.y ≠ cs.pt.y then
    (escSeq CUP).bind fun s => (s.withPoint p).map ({ cs with pt := p }, ·)
  else
    let dx := p.x - cs.pt.x
    let cs := { cs with pt := ⟨p.x, cs.pt.y⟩ }
    if dx = 1 then (escSeq CUF).map fun s => (cs, s.with [])
    else if dx = -1 then (escSeq CUB).map fun s => (cs, s.with [])
    else if dx > 0 then (escSeq CUF).bind fun s => (s.withInts [dx]).map (cs, ·)
    else if dx < 0 then (escSeq CUB).bind fun s => (s.withInts [-dx]).map (cs, ·)
    else
      let dy := p.x - cs.pt.x
      let cs := { cs with pt := ⟨cs.pt.x, p.y⟩ }
      if dy = 0 then some (cs, .zero)
      else if dy = 1 then (escSeq CUD).map fun s => (cs, s.with [])
      else if dy = -1 then (escSeq CUU).map fun s => (cs, s.with [])
      else if dy > 0 then (escSeq CUD).bind fun s => (s.withInts [dy]).map (cs, ·)
      else (escSeq CUU).bind fun s => (s.withInts [-dy]).map (cs, ·)

/-- `state.go:317-327`, `333-343`: the mode loop on the arguments left, setting the
visibility to `on` for `ShowCursor`.  `none`: the loop does not advance and never
ends. -/
def modeLoop (on : Bool) (a : Bytes) (vis : Bool) : Option Bool :=
  if h : a = [] then some vis
  else
    let d := decodeMode true a
    if d.err ≠ none then some vis
    else if hn : d.n = 0 then none
    else modeLoop on (a.drop d.n) (if d.val = showCursor then on else vis)
termination_by a.length
decreasing_by
  have : 0 < a.length := List.length_pos_iff.mpr h
  simp only [List.length_drop]
  have : 0 < (decodeMode true a).n := Nat.pos_of_ne_zero hn
  omega

/-- `state.go:315-328`. -/
def modes (cs : Cursor) (on : Bool) (a : Bytes) : Option Cursor :=
  if a.length > 1 ∧ a.head? = some 0x3F then
    (modeLoop on (a.drop 1) cs.visible).map fun v => { cs with visible := v }
  else some cs

/-- `state.go:12-17` `cursorMoves`. -/
def moveOf (e : Nat) : Pt :=
  if e = CUU then ⟨0, -1⟩ else if e = CUD then ⟨0, 1⟩ else if e = CUF then ⟨1, 0⟩ else ⟨-1, 0⟩

/-- `state.go:279-346` `processEscape`. -/
def processEscape (clamp : Pt → Pt) (cs : Cursor) (e : Nat) (a : Bytes) : Option Cursor :=
  if e = CUU ∨ e = CUD ∨ e = CUF ∨ e = CUB then
    let d := moveOf e
    if a.length > 0 then
      let k := decodeNumber a
      if k.err ≠ none then some cs
      else some { cs with pt := clamp (ptAdd cs.pt ⟨d.x * k.val, d.y * k.val⟩) }
    else some { cs with pt := clamp (ptAdd cs.pt d) }
  else if e = CUP then
    if a.length > 0 then
      let k := decodePoint a
      if k.err ≠ none then some cs else some { cs with pt := clamp k.val }
    else some { cs with pt := clamp ⟨1, 1⟩ }
  else if e = SGR then
    let k := Sgr.decode a
    if k.err = none then some { cs with attr := Sgr.merge cs.attr k.val } else some cs
  else if e = SM then cs.modes true a
  else if e = RM then cs.modes false a
  else some cs

/-- `state.go:261-273` `ProcessANSI`. -/
def processANSI (gr : Nat → Bool) (cs : Cursor) (ev : Event) : Option Cursor :=
  if isEscape ev.1 then cs.processEscape id ev.1 ev.2
  else if ev.1 = 0x0A then some { cs with pt := ⟨cs.pt.x, cs.pt.y + 1⟩ }
  else if ev.1 = 0x0D then some { cs with pt := ⟨1, cs.pt.y⟩ }
  else if gr ev.1 then some { cs with pt := ⟨cs.pt.x + 1, cs.pt.y⟩ }
  else some cs

end Cursor

/-- `state.go:484-496` `clampPointTo`. -/
def clampPointTo (p : Pt) (r : Rect) : Pt :=
  ⟨if p.x < r.min.x then r.min.x else if p.x ≥ r.max.x then r.max.x - 1 else p.x,
   if p.y < r.min.y then r.min.y else if p.y ≥ r.max.y then r.max.y - 1 else p.y⟩

namespace Screen
open Geom

/-- `state.go:42-45` `Full`. -/
def full (sc : Screen) : Screen := { sc with grid := sc.grid.full }

/-- `state.go:61-65` `SubRect`; the cursor is clamped to the rectangle as given. -/
def subRect (sc : Screen) (r : Rect) : Screen :=
  { cur := { sc.cur with pt := clampPointTo sc.cur.pt r }, grid := sc.grid.subRect r }

/-- `state.go:49-51` `SubAt`, `55-57` `SubSize`. -/
def subAt (sc : Screen) (at_ : Pt) : Screen := sc.subRect ⟨at_, sc.grid.rect.max⟩
def subSize (sc : Screen) (s : Pt) : Screen :=
  sc.subRect ⟨sc.grid.rect.min, ptAdd sc.grid.rect.min s⟩

/-- `state.go:76-79` `Clear`. -/
def clear (sc : Screen) : Except Fault Screen :=
  match sc.grid.clear with
  | some cs => .ok { cur := {}, grid := { sc.grid with cells := cs } }
  | none => .error .panic

/-- `state.go:83-91` `Resize`. -/
def resize (sc : Screen) (s : Nat × Nat) : Screen × Bool :=
  if (sc.grid.resize s).2 then
    ({ grid := (sc.grid.resize s).1,
       cur := if ptIn sc.cur.pt (sc.grid.resize s).1.rect then sc.cur
              else { sc.cur with pt := zp } }, true)
  else ({ sc with grid := (sc.grid.resize s).1 }, false)

/-- `state.go:186-199` `clamp`. -/
def clamp (sc : Screen) (p : Pt) : Pt := clampPointTo p sc.grid.rect

/-- `state.go:202-204` `To`. -/
def to (sc : Screen) (p : Pt) : Screen := { sc with cur := { sc.cur with pt := sc.clamp p } }

/-- `state.go:450-455` `clearRegion`. -/
def clearRegion (sc : Screen) (i max : Nat) : Except Fault Screen :=
  match Grid.clearRow sc.grid.len (max - i) i sc.grid.cells with
  | some cs => .ok { sc with grid := { sc.grid with cells := cs } }
  | none => .error .panic

/-- A `CellOffset` call. -/
def offset (sc : Screen) (p : Pt) : Except Fault (Option Nat) :=
  match sc.grid.cellOffset? p with
  | some o => .ok o
  | none => .error .panic

/-- `state.go:465-476` `scrollBy` (its argument is not used): the slices are copied
down from index `i` and the rest is zeroed. -/
def scrollBy (sc : Screen) : Except Fault Screen :=
  (sc.offset (ptAdd sc.cur.pt ⟨1, 2⟩)).bind fun
    | none => .ok sc
    | some i =>
      if i ≤ sc.grid.len then
        .ok { sc with grid := { sc.grid with
          cells := sc.grid.data.drop i ++ List.replicate (min i sc.grid.len) {} ++
            sc.grid.cells.drop sc.grid.len } }
      else .error .panic

/-- `state.go:457-463` `linefeed`. -/
def linefeed (sc : Screen) : Except Fault Screen :=
  if sc.cur.pt.y + 1 < sc.grid.rect.max.y then
    .ok { sc with cur := { sc.cur with pt := ⟨sc.cur.pt.x, sc.cur.pt.y + 1⟩ } }
  else sc.scrollBy

/-- `state.go:386-448` `processEscape`. -/
def processEscape (sc : Screen) (e : Nat) (a : Bytes) : Except Fault Screen :=
  if e = ED then
    if a = [0x30] then
      (sc.offset sc.cur.pt).bind fun
        | some i => sc.clearRegion (i + 1) sc.grid.len
        | none => .ok sc
    else if a = [0x31] then
      (sc.offset sc.cur.pt).bind fun
        | some i => sc.clearRegion 0 (i + 1)
        | none => .ok sc
    else if a = [0x32] then sc.clearRegion 0 sc.grid.len
    else .ok sc
  else if e = EL then
    if a = [0x30] ∨ a = [0x31] ∨ a = [0x32] then
      let m := ptSub sc.grid.rect.max ⟨1, 1⟩
      let lo : Pt := if a = [0x30] then sc.cur.pt else ⟨1, sc.cur.pt.y⟩
      let hi : Pt := if a = [0x31] then sc.cur.pt else ⟨m.x, sc.cur.pt.y⟩
      (sc.offset lo).bind fun i => (sc.offset hi).bind fun j =>
        match i, j with
        | some i, some j => sc.clearRegion i (j + 1)
        | _, _ => .ok sc
    else .ok sc
  else
    match sc.cur.processEscape sc.clamp e a with
    | some cs => .ok { sc with cur := cs }
    | none => .error .hang

/-- `state.go:375-382`: a graphic rune. -/
def print (sc : Screen) (r : Nat) : Except Fault Screen :=
  (sc.offset sc.cur.pt).bind fun o =>
    let put : Except Fault Screen := match o with
      | some i =>
        if i < sc.grid.len then
          .ok { sc with grid := { sc.grid with cells := sc.grid.cells.set i ⟨r, sc.cur.attr⟩ } }
        else .error .panic
      | none => .ok sc
    put.bind fun sc =>
      if sc.cur.pt.x + 1 ≥ sc.grid.rect.max.x then
        linefeed { sc with cur := { sc.cur with pt := ⟨sc.grid.rect.min.x, sc.cur.pt.y⟩ } }
      else .ok { sc with cur := { sc.cur with pt := ⟨sc.cur.pt.x + 1, sc.cur.pt.y⟩ } }

/-- `state.go:363-365`: the zero cursor becomes `(1,1)`. -/
def home (sc : Screen) : Screen :=
  if sc.cur.pt = zp then { sc with cur := { sc.cur with pt := ⟨1, 1⟩ } } else sc

/-- `state.go:362-384` `ProcessANSI`. -/
def processANSI (gr : Nat → Bool) (sc : Screen) (ev : Event) : Except Fault Screen :=
  let sc := sc.home
  if isEscape ev.1 then sc.processEscape ev.1 ev.2
  else if ev.1 = 0x0A then sc.linefeed
  else if ev.1 = 0x0D then .ok { sc with cur := { sc.cur with pt := ⟨1, sc.cur.pt.y⟩ } }
  else if gr ev.1 then sc.print ev.1
  else .ok sc

/-- A sequence of `ProcessANSI` calls. -/
def processAll (gr : Nat → Bool) : Screen → List Event → Except Fault Screen
  | sc, [] => .ok sc
  | sc, ev :: t => (sc.processANSI gr ev).bind fun sc => sc.processAll gr t

end Screen
end Anansi
