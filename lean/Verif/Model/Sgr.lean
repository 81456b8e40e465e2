import Verif.Model.Seq
/-
`ansi/sgr.go` and `ansi/decode.go:308-513`: SGR attributes.
-/
set_option autoImplicit false

namespace Anansi

/-- `sgr.go:53` `SGRAttr` (`uint64`). -/
abbrev Attr := BitVec 64
/-- `sgr.go:101` `SGRColor` (`uint32`). -/
abbrev Color := BitVec 32

namespace Sgr

/-- `sgr.go:60-74`. -/
def clear : Attr := 1#64
def bold : Attr := 1#64 <<< 1
def dim : Attr := 1#64 <<< 2
def italic : Attr := 1#64 <<< 3
def underscore : Attr := 1#64 <<< 4
def negative : Attr := 1#64 <<< 5
def conceal : Attr := 1#64 <<< 6

/-- `sgr.go:77-84`. -/
def color24 : Color := 1#32 <<< 24
def colorSet : Color := 1#32 <<< 25
def colorMask : Color := 0x01ffffff#32
def fgShift : Nat := 7
def bgShift : Nat := 7 + 26

/-- `sgr.go:86-96`. -/
def fgSet : Attr := colorSet.setWidth 64 <<< fgShift
def bgSet : Attr := colorSet.setWidth 64 <<< bgShift
def attrMask : Attr := bold ||| dim ||| italic ||| underscore ||| negative ||| conceal
def fgMask : Attr := (colorSet ||| colorMask).setWidth 64 <<< fgShift
def bgMask : Attr := (colorSet ||| colorMask).setWidth 64 <<< bgShift

/-- `sgr.go:371-373` `RGB`. -/
def rgb (r g b : UInt8) : Color :=
  color24 ||| r.toBitVec.setWidth 32 ||| (g.toBitVec.setWidth 32 <<< 8) |||
    (b.toBitVec.setWidth 32 <<< 16)

/-- `sgr.go:410-412` `SGRColor.FG`. -/
def colorFG (c : Color) : Attr := fgSet ||| ((c &&& colorMask).setWidth 64 <<< fgShift)
/-- `sgr.go:415-417` `SGRColor.BG`. -/
def colorBG (c : Color) : Attr := bgSet ||| ((c &&& colorMask).setWidth 64 <<< bgShift)

/-- `sgr.go:545-550` `SGRAttr.FG`: the colour if set. -/
def fg (a : Attr) : Option Color :=
  if a &&& fgSet ≠ 0 then some ((a >>> fgShift).setWidth 32 &&& colorMask) else none
/-- `sgr.go:554-559` `SGRAttr.BG`. -/
def bg (a : Attr) : Option Color :=
  if a &&& bgSet ≠ 0 then some ((a >>> bgShift).setWidth 32 &&& colorMask) else none

/-- `sgr.go:562` `SansFG`. -/
def sansFG (a : Attr) : Attr := a &&& ~~~fgMask
/-- `sgr.go:565` `SansBG`. -/
def sansBG (a : Attr) : Attr := a &&& ~~~bgMask

/-- `sgr.go:568-580` `SGRAttr.Merge`. -/
def merge (attr other : Attr) : Attr :=
  let attr := if other &&& clear ≠ 0 then 0 else attr
  let attr := attr ||| (other &&& attrMask)
  let attr := match fg other with
    | some c => sansFG attr ||| colorFG c
    | none => attr
  match bg other with
    | some c => sansBG attr ||| colorBG c
    | none => attr

/-- `sgr.go:584-620` `SGRAttr.Diff`. -/
def diff (attr other : Attr) : Attr :=
  if other &&& clear ≠ 0 then other
  else
    let fgM : Attr := fgSet ||| (colorMask.setWidth 64 <<< fgShift)
    let bgM : Attr := bgSet ||| (colorMask.setWidth 64 <<< bgShift)
    let attrFlags := attr &&& attrMask
    let otherFlags := other &&& attrMask
    let changed := attrFlags ^^^ otherFlags
    let gone := attrFlags &&& changed
    let attrFG := attr &&& fgM
    let attrBG := attr &&& bgM
    let otherFG := other &&& fgM
    let otherBG := other &&& bgM
    if gone ≠ 0 ∨ (otherFG = 0 ∧ attrFG ≠ 0) ∨ (otherBG = 0 ∧ attrBG ≠ 0) then
      other ||| clear
    else
      let d := otherFlags &&& changed
      let d := if otherFG ≠ attrFG then d ||| otherFG else d
      if otherBG ≠ attrBG then d ||| otherBG else d

/-- `sgr.go:535-541` `colorStrings[i]`: `";" + strconv.Itoa(i)`. -/
def colorString (i : UInt8) : Bytes := 0x3B :: itoaNat i.toNat

/-- `uint8(c)`, `uint8(c>>8)`, `uint8(c>>16)`. -/
def chan (c : Color) (k : Nat) : UInt8 := ⟨(c >>> (8 * k)).setWidth 8⟩

/-- `sgr.go:501-506` `appendRGB`. -/
def appendRGB (c : Color) : Bytes :=
  colorString (chan c 0) ++ colorString (chan c 1) ++ colorString (chan c 2)

/-- `sgr.go:508-513` `rgbSize`. -/
def rgbSize (c : Color) : Nat :=
  (colorString (chan c 0)).length + (colorString (chan c 1)).length +
    (colorString (chan c 2)).length

/-- `sgr.go:445-457` `appendFGTo` (the bytes appended). -/
def appendFG (c : Color) : Bytes :=
  if c &&& color24 ≠ 0 then [0x33, 0x38, 0x3B, 0x32] ++ appendRGB c
  else if c ≤ 7 then [0x33, 0x30 + chan c 0]
  else if c ≤ 15 then [0x39, 0x30 + chan c 0 - 8]
  else if c ≤ 255 then [0x33, 0x38, 0x3B, 0x35] ++ colorString (chan c 0)
  else []

/-- `sgr.go:473-485` `appendBGTo` (the bytes appended). -/
def appendBG (c : Color) : Bytes :=
  if c &&& color24 ≠ 0 then [0x34, 0x38, 0x3B, 0x32] ++ appendRGB c
  else if c ≤ 7 then [0x34, 0x30 + chan c 0]
  else if c ≤ 15 then [0x31, 0x30, 0x30 + chan c 0 - 8]
  else if c ≤ 255 then [0x34, 0x38, 0x3B, 0x35] ++ colorString (chan c 0)
  else []

/-- `sgr.go:459-471` `fgSize`. -/
def fgSize (c : Color) : Nat :=
  if c &&& color24 ≠ 0 then 4 + rgbSize c
  else if c ≤ 7 then 2
  else if c ≤ 15 then 2
  else if c ≤ 255 then 4 + (colorString (chan c 0)).length
  else 0

/-- `sgr.go:487-499` `bgSize`. -/
def bgSize (c : Color) : Nat :=
  if c &&& color24 ≠ 0 then 4 + rgbSize c
  else if c ≤ 7 then 2
  else if c ≤ 15 then 3
  else if c ≤ 255 then 4 + (colorString (chan c 0)).length
  else 0

/-- `sgr.go:644-652`: flag bit index and its SGR code byte. -/
def flagCodes : List (Nat × UInt8) :=
  [(0, 0x30), (1, 0x31), (2, 0x32), (3, 0x33), (4, 0x34), (5, 0x37), (6, 0x38)]

/-- `sgr.go:653-660`: append one argument, with a separator unless first. -/
def addArg (st : Bool × Bytes) (b : Bytes) : Bool × Bytes :=
  if st.1 then (false, st.2 ++ b) else (false, st.2 ++ 0x3B :: b)

/-- `sgr.go:644-661`: the flag loop; the state is `(first, p)`. -/
def appendFlags (a : Attr) (st : Bool × Bytes) : Bool × Bytes :=
  flagCodes.foldl (fun st ib => if a &&& (1#64 <<< ib.1) ≠ 0 then addArg st [ib.2] else st) st

/-- `sgr.go:634-684` `SGRAttr.AppendTo` (the bytes appended). -/
def append (a : Attr) : Bytes :=
  if a = 0 ∨ a = clear then escAppendWith SGR [0x30]
  else
    let p := escAppend SGR
    let final := p.drop (p.length - 1)
    let p := p.take (p.length - 1)
    let st := appendFlags a (true, p)
    let st := match fg a with
      | some c => addArg st (appendFG c)
      | none => st
    let st := match bg a with
      | some c => addArg st (appendBG c)
      | none => st
    st.2 ++ final

/-- `sgr.go:687-721` `SGRAttr.Size`. -/
def size (a : Attr) : Int :=
  let n : Int := -1
  let n := n + if a &&& clear ≠ 0 then 2 else 0
  let n := n + if a &&& bold ≠ 0 then 2 else 0
  let n := n + if a &&& dim ≠ 0 then 2 else 0
  let n := n + if a &&& italic ≠ 0 then 2 else 0
  let n := n + if a &&& underscore ≠ 0 then 2 else 0
  let n := n + if a &&& negative ≠ 0 then 2 else 0
  let n := n + if a &&& conceal ≠ 0 then 2 else 0
  let n : Int := n + (match fg a with
    | some c => 1 + fgSize c
    | none => 0 : Nat)
  let n : Int := n + (match bg a with
    | some c => 1 + bgSize c
    | none => 0 : Nat)
  let n := if n < 0 then 1 else n
  n + 3

/-! ### Decoding (`ansi/decode.go`) -/

def isDigit (c : UInt8) : Bool := 0x30 ≤ c.toNat && c.toNat ≤ 0x39

/-- `decode.go:499-511`: the loop of `decodeUint8`; `v` is the `uint16`
accumulator (it never exceeds 2559, so it does not wrap). -/
def uint8Loop (v n : Nat) : Bytes → Dec UInt8
  | [] => ⟨UInt8.ofNat v, n, none⟩
  | c :: t =>
    if c = 0x3B then ⟨UInt8.ofNat v, n + 1, none⟩
    else if isDigit c then
      let v' := 10 * v + (c.toNat - 0x30)
      if v' > 0xFF then ⟨0, n, some .sgrInvalid⟩ else uint8Loop v' (n + 1) t
    else ⟨0, n, some .sgrInvalid⟩

/-- `decode.go:494-513` `decodeUint8`. -/
def decodeUint8 (a : Bytes) : Dec UInt8 :=
  if a = [] then ⟨0, 0, some .sgrInvalid⟩ else uint8Loop 0 0 a

/-- `decode.go:471-492` `decodeSGRRGBColor`. -/
def decodeRGBColor (a : Bytes) : Dec Color :=
  match a with
  | c0 :: t =>
    if t ≠ [] ∧ c0 = 0x3B then
      let r := decodeUint8 t
      if r.err ≠ none then ⟨0, 1 + r.n, r.err⟩ else
      let t := t.drop r.n
      let g := decodeUint8 t
      if g.err ≠ none then ⟨0, 1 + r.n + g.n, g.err⟩ else
      let t := t.drop g.n
      let b := decodeUint8 t
      if b.err ≠ none then ⟨0, 1 + r.n + g.n + b.n, b.err⟩ else
      ⟨rgb r.val g.val b.val, 1 + r.n + g.n + b.n, none⟩
    else ⟨0, 0, some .sgrInvalid⟩
  | [] => ⟨0, 0, some .sgrInvalid⟩

/-- `decode.go:458-469` `decodeSGRColorNumber`. -/
def decodeColorNumber (a : Bytes) : Dec Color :=
  match a with
  | c0 :: t =>
    if t ≠ [] ∧ c0 = 0x3B then
      let r := decodeUint8 t
      ⟨if r.err = none then r.val.toBitVec.setWidth 32 else 0, 1 + r.n, r.err⟩
    else ⟨0, 0, some .sgrInvalid⟩
  | [] => ⟨0, 0, some .sgrInvalid⟩

/-- Shift the byte count of a result by `k`. -/
def Dec.shift {α : Type} (d : Dec α) (k : Nat) : Dec α := { d with n := k + d.n }

/-- `decode.go:440-456` `decodeSGRExtendedColor`. -/
def decodeExtendedColor (a : Bytes) : Dec Color :=
  match a with
  | c0 :: c1 :: t =>
    if c0 = 0x3B then
      if c1 = 0x32 then Dec.shift (decodeRGBColor t) 2
      else if c1 = 0x35 then Dec.shift (decodeColorNumber t) 2
      else ⟨0, 1, some .sgrInvalid⟩
    else ⟨0, 0, some .sgrInvalid⟩
  | _ => ⟨0, 0, some .sgrInvalid⟩

/-- `decode.go:416-426` `decodeSGRClassicColor` and `428-438`
`decodeSGRBrightColor`, which differ only in the offset `off` (0 or 8). -/
def decodeClassicColor (off : Nat) (a : Bytes) : Dec Color :=
  match a with
  | b :: t =>
    if 0x30 ≤ b.toNat ∧ b.toNat ≤ 0x37 then
      if t = [] ∨ t.head? = some 0x3B then ⟨BitVec.ofNat 32 (off + (b.toNat - 0x30)), 1, none⟩
      else ⟨0, 1, some .sgrInvalid⟩
    else ⟨0, 0, some .sgrInvalid⟩
  | [] => ⟨0, 0, some .sgrInvalid⟩

/-- `decode.go:399-414` `decodeSGRColor`. -/
def decodeColor (a : Bytes) : Dec Color :=
  match a with
  | [] => ⟨0, 0, some .sgrInvalid⟩
  | c :: t => if c = 0x38 then Dec.shift (decodeExtendedColor t) 1 else decodeClassicColor 0 a

/-- `decode.go:325-341`: effect of a single-digit code on the attribute. -/
def applyDigit (attr : Attr) (c : UInt8) : Attr :=
  if c = 0x30 then clear
  else if c = 0x31 then attr ||| bold
  else if c = 0x32 then attr ||| dim
  else if c = 0x33 then attr ||| italic
  else if c = 0x34 then attr ||| underscore
  else if c = 0x37 then attr ||| negative
  else attr

/-- `decode.go:310-397` `DecodeSGR`: the loop, with `a` the remaining bytes and
`n` the index of the first of them. -/
def decodeLoop (attr : Attr) (n : Nat) (a : Bytes) : Dec Attr :=
  match a with
  | [] => ⟨attr, n, none⟩
  | c :: t =>
    if c = 0x3B then decodeLoop attr (n + 1) t
    else if c = 0x30 ∧ (∃ d ∈ t.head?, isDigit d) then decodeLoop attr (n + 1) t
    else if (0x30 ≤ c.toNat ∧ c.toNat ≤ 0x38) ∧ (t = [] ∨ t.head? = some 0x3B) then
      -- a single digit argument: skip it and the separator after it, if any
      decodeLoop (applyDigit attr c) (n + (if t = [] then 1 else 2)) (t.drop 1)
    else if c = 0x33 then
      let d := decodeColor t
      if d.err ≠ none then ⟨attr, n + 1 + d.n, d.err⟩
      else decodeLoop (sansFG attr ||| colorFG d.val) (n + 1 + d.n) (t.drop d.n)
    else if c = 0x34 then
      let d := decodeColor t
      if d.err ≠ none then ⟨attr, n + 1 + d.n, d.err⟩
      else decodeLoop (sansBG attr ||| colorBG d.val) (n + 1 + d.n) (t.drop d.n)
    else if c = 0x39 then
      let d := decodeClassicColor 8 t
      if d.err ≠ none then ⟨attr, n + 1 + d.n, d.err⟩
      else decodeLoop (sansFG attr ||| colorFG d.val) (n + 1 + d.n) (t.drop d.n)
    else if c = 0x31 then
      match t with
      | c1 :: t1 =>
        if c1 ≠ 0x30 ∨ t1 = [] then ⟨attr, n + 1, some .sgrInvalid⟩
        else
          let d := decodeClassicColor 8 t1
          if d.err ≠ none then ⟨attr, n + 2 + d.n, d.err⟩
          else decodeLoop (sansBG attr ||| colorBG d.val) (n + 2 + d.n) (t1.drop d.n)
      | [] => ⟨attr, n + 1, some .sgrInvalid⟩ -- not reached: caught above
    else ⟨attr, n, some .sgrInvalid⟩
termination_by a.length
decreasing_by all_goals (simp_all; try omega)

/-- `decode.go:310-397` `DecodeSGR`. -/
def decode (a : Bytes) : Dec Attr := decodeLoop 0 0 a

end Sgr
end Anansi
