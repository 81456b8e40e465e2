import Verif.Model.Mouse
import Verif.Model.Input
import Verif.Model.Geom
/-
`x/platform/event.go`: the queue of input events.
-/
set_option autoImplicit false

namespace Anansi
namespace Evq

/-- `event.go:26-31` `EventType`. -/
inductive Kind
  | none | escape | rune | mouse
deriving DecidableEq, Repr

/-- One entry of `event.go:14-19` `Events`; the four slices of the code always have the
same length (`add` and `Clear` are the only functions that change it), so the model has
one list of entries. -/
structure Ev where
  kind : Kind
  esc : Nat
  arg : Bytes
  ms : Mouse.MState
  pt : Pt
deriving DecidableEq, Repr

abbrev Events := List Ev

/-- The entry marked as handled. -/
def Ev.struck (e : Ev) : Ev := { e with kind := .none }

/-- `event.go:49-56` `Empty`. -/
def isEmpty : Events → Bool
  | [] => true
  | e :: l => if e.kind ≠ .none then false else isEmpty l

/-- `event.go:60-70` `HasTerminal`. -/
def hasTerminal (r : Nat) : Events → Events × Bool
  | [] => ([], false)
  | e :: l =>
    if e.kind = .rune ∧ e.esc = r then ((e :: l).map Ev.struck, true)
    else
      let (l', b) := hasTerminal r l
      (e :: l', b)

/-- `event.go:78-83`: the inner loop of `CountRune` over the runes asked for. -/
def countIn (e : Ev) (n : Nat) : List Nat → Ev × Nat
  | [] => (e, n)
  | r :: rs => if e.esc = r then countIn e.struck (n + 1) rs else countIn e n rs

/-- `event.go:73-86` `CountRune`, with the count so far. -/
def countRune (rs : List Nat) (n : Nat) : Events → Events × Nat
  | [] => ([], n)
  | e :: l =>
    if e.kind ≠ .rune then
      let (l', k) := countRune rs n l
      (e :: l', k)
    else
      let (e', m) := countIn e n rs
      let (l', k) := countRune rs m l
      (e' :: l', k)

/-- `event.go:90-102` `CountPressesIn`. -/
def countPressesIn (box : Rect) (button : BitVec 8) (n : Nat) : Events → Events × Nat
  | [] => ([], n)
  | e :: l =>
    if e.kind = .mouse ∧ Mouse.isPress e.ms = some button ∧ Geom.ptIn e.pt box = true then
      let (l', k) := countPressesIn box button (n + 1) l
      (e.struck :: l', k)
    else
      let (l', k) := countPressesIn box button n l
      (e :: l', k)

/-- `event.go:106-117` `AnyPressesOutside`. -/
def anyPressesOutside (box : Rect) : Events → Bool
  | [] => false
  | e :: l =>
    if e.kind = .mouse ∧ (Mouse.isPress e.ms).isSome ∧ Geom.ptIn e.pt box = false then true
    else anyPressesOutside box l

/-- `event.go:121-135` `TotalScrollIn`. -/
def totalScrollIn (box : Rect) (n : Int) : Events → Events × Int
  | [] => ([], n)
  | e :: l =>
    if e.kind = .mouse ∧ Geom.ptIn e.pt box = true then
      if Mouse.buttonID e.ms = 4 then
        let (l', k) := totalScrollIn box (n - 1) l
        (e.struck :: l', k)
      else if Mouse.buttonID e.ms = 5 then
        let (l', k) := totalScrollIn box (n + 1) l
        (e.struck :: l', k)
      else
        let (l', k) := totalScrollIn box n l
        (e :: l', k)
    else
      let (l', k) := totalScrollIn box n l
      (e :: l', k)

/-- `event.go:140-150` `TotalCursorMovement`. -/
def totalCursorMovement (move : Pt) : Events → Events × Pt
  | [] => ([], move)
  | e :: l =>
    match (if e.kind = .escape then decodeCursorCardinal e.esc e.arg else none) with
    | some d =>
      let (l', k) := totalCursorMovement (Geom.ptAdd move d) l
      (e.struck :: l', k)
    | none =>
      let (l', k) := totalCursorMovement move l
      (e :: l', k)

/-- `event.go:154-165` `LastMouse`, with what has been found so far. -/
def lastMouse (consume : Bool) (m : Option (Mouse.MState × Pt)) : Events → Events × Option (Mouse.MState × Pt)
  | [] => ([], m)
  | e :: l =>
    if e.kind = .mouse then
      let (l', k) := lastMouse consume (some (e.ms, e.pt)) l
      ((if consume then e.struck else e) :: l', k)
    else
      let (l', k) := lastMouse consume m l
      (e :: l', k)

/-- `event.go:208-230` `add`: the entry it appends. -/
def entry (e : Nat) (a : Bytes) : Ev :=
  let kind : Kind := if !isEscape e then .rune else .escape
  if e = csiId 0x4D ∨ e = csiId 0x6D then
    let (ms, p, err) := Mouse.decodeMouse e a
    if err ≠ none then ⟨kind, e, a, ms, p⟩
    else if ms ≠ 0 ∨ Geom.valid p = true then ⟨.mouse, e, a, ms, p⟩
    else ⟨kind, e, a, ms, p⟩
  else ⟨kind, e, a, 0, ⟨0, 0⟩⟩

/-- One round of the loop of `DecodeBytes` (`event.go:189-198`) for non-empty `b`: the
decoded item and the bytes left. -/
def decodeStep (b : Bytes) : (Nat × Bytes) × Bytes :=
  let d := decodeEscape b
  let b := d.buf.drop d.n
  if d.e = 0 then
    let (r, n) := decodeRune b
    ((r, d.arg), b.drop n)
  else ((d.e, d.arg), b)

/-- The items decoded by `DecodeBytes`, in at most `fuel` rounds. -/
def itemsAux : Nat → Bytes → List (Nat × Bytes)
  | 0, _ => []
  | fuel + 1, b =>
    if b = [] then []
    else
      let (x, b') := decodeStep b
      x :: itemsAux fuel b'

/-- The items decoded by `DecodeBytes`; every round takes a byte (`decodeStep_shorter`). -/
def items (b : Bytes) : List (Nat × Bytes) := itemsAux b.length b

/-- `event.go:188-199` `DecodeBytes`. -/
def decodeBytes (es : Events) (b : Bytes) : Events := es ++ (items b).map fun x => entry x.1 x.2

/-- `event.go:202-206` `DecodeInput`: the queue and the input afterwards. -/
def decodeInput (es : Events) (s : Inp.Input) : Events × Inp.Input :=
  (es ++ s.drain.2.map fun x => entry x.1 x.2, s.drain.1)

end Evq
end Anansi
