import Verif.Model.Mouse
import Verif.Model.EscName
/-
`ansi/mouse.go:64-136`: the names of mouse states.
-/
set_option autoImplicit false

namespace Anansi
namespace Mouse

/-- `mouse.go:93-112` `ButtonName`; `none` is the panic of line 110. -/
def buttonName (ms : MState) : Option Bytes :=
  match (buttonID ms).toNat with
  | 0 => some []
  | 1 => some (ascii "left")
  | 2 => some (ascii "middle")
  | 3 => some (ascii "right")
  | 4 => some (ascii "wheelUp")
  | 5 => some (ascii "wheelDown")
  | 6 => some (ascii "thirdWheel")
  | _ => none

/-- `mouse.go:115-136` `ModifierName`; `none` is the panic of line 134. -/
def modifierName (ms : MState) : Option Bytes :=
  let m := modifier ms
  if m = 0 then some []
  else if m = modControl then some (ascii "ctrl")
  else if m = modShift then some (ascii "shift")
  else if m = modMeta then some (ascii "meta")
  else if m = modControl ||| modShift then some (ascii "ctrl+shift")
  else if m = modControl ||| modMeta then some (ascii "ctrl+meta")
  else if m = modShift ||| modMeta then some (ascii "shift+meta")
  else if m = modControl ||| modShift ||| modMeta then some (ascii "ctrl+shift+meta")
  else none

/-- `mouse.go:66-85`, the part before the modifiers. -/
def actionName (ms : MState) (s : Bytes) : Bytes :=
  let m := ms &&& (motion ||| release)
  if m = motion then (if s = [] then ascii "motion" else s ++ ascii "-drag")
  else if m = release then (if s = [] then ascii "??? release" else s ++ ascii "-release")
  else if m = motion ||| release then
    (if s = [] then ascii "??? motion+release" else ascii "??? " ++ s ++ ascii "-motion+release")
  else s

/-- `mouse.go:64-90` `String`. -/
def mouseString (ms : MState) : Option Bytes :=
  (buttonName ms).bind fun b =>
  (modifierName ms).bind fun m =>
  some (if m ≠ [] then m ++ ascii "+" ++ actionName ms b else actionName ms b)

end Mouse
end Anansi
