import Verif.Model.Seq
/-
`ansi/mouse.go`: mouse states and xterm's extended mouse reports.
-/
set_option autoImplicit false

namespace Anansi
namespace Mouse

/-- `mouse.go:9` `MouseState`. -/
abbrev MState := BitVec 8

/-- `mouse.go:14-25`. -/
def modShift : MState := 4
def modMeta : MState := 8
def modControl : MState := 16
def motion : MState := 32
def wheel : MState := 64
def release : MState := 128

/-- `mouse.go:30-36` `ButtonID`. -/
def buttonID (ms : MState) : BitVec 8 :=
  let i := ((ms &&& (0 ||| 1 ||| 2)) + 1) &&& 3
  if ms &&& wheel ≠ 0 then i + 3 else i

/-- `mouse.go:40-42` `Modifier`. -/
def modifier (ms : MState) : MState := ms &&& (modShift ||| modMeta ||| modControl)

/-- `mouse.go:45` `IsMotion`. -/
def isMotion (ms : MState) : Bool := ms &&& motion ≠ 0

/-- `mouse.go:48` `IsRelease`. -/
def isRelease (ms : MState) : Bool := ms &&& release ≠ 0

/-- `mouse.go:51-56` `IsPress`. -/
def isPress (ms : MState) : Option (BitVec 8) :=
  if ms &&& (release ||| motion) ≠ 0 then none else some (buttonID ms)

/-- `mouse.go:59-62` `IsDrag`. -/
def isDrag (ms : MState) : Bool := buttonID ms ≠ 0 && ms &&& (release ||| motion) = motion

/-- Which part of a report is wrong (`MouseDecodeError.What`). -/
inductive What
  | cb | cx | cy | extra
deriving DecidableEq, Repr

/-- `mouse.go:160-195` `DecodeXtermExtendedMouse`: the state, the point and the error. -/
def decodeMouse (id : Nat) (arg : Bytes) : MState × Pt × Option What :=
  if (id = csiId 0x4D ∨ id = csiId 0x6D) ∧ arg.head? = some 0x3C then
    let arg := arg.drop 1
    let v := decodeNumber arg
    if v.err ≠ none ∨ v.val > 0xFF ∨ v.val < 0 then (0, ⟨0, 0⟩, some .cb)
    else
      let b : MState := BitVec.ofInt 8 v.val
      let b := if id = csiId 0x6D then b ||| release else b
      let arg := arg.drop v.n
      let x := decodeNumber arg
      if x.err ≠ none then (0, ⟨x.val, 0⟩, some .cx)
      else
        let arg := arg.drop x.n
        let y := decodeNumber arg
        if y.err ≠ none then (0, ⟨x.val, y.val⟩, some .cy)
        else if (arg.drop y.n).length > 0 then (0, ⟨x.val, y.val⟩, some .extra)
        else (b, ⟨x.val, y.val⟩, none)
  else (0, ⟨0, 0⟩, none)

end Mouse
end Anansi
