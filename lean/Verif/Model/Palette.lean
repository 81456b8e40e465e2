import Verif.Model.Colors
import Verif.Model.EscName
/-
`cmd/palette/main.go`: the command that lists the palettes, every colour shown as a foreground
and as a background, with the controls that select it.

Left out: the parsing of the arguments (`Model/Flags.lean`).  What the command is given here are the names of the
models asked for, in order, and whether themes are asked for.  All text printed is ASCII, so that
the runes counted for padding are bytes.
-/
set_option autoImplicit false

namespace Anansi.Pal
open Sgr Col

/-- `ansi/colors.go:533-550` `VGAPalette`. -/
def vGAPalette : List Rgb :=
  [(0x00, 0x00, 0x00), (0xAA, 0x00, 0x00), (0x00, 0xAA, 0x00), (0xAA, 0x55, 0x00),
   (0x00, 0x00, 0xAA), (0xAA, 0x00, 0xAA), (0x00, 0xAA, 0xAA), (0xAA, 0xAA, 0xAA),
   (0x55, 0x55, 0x55), (0xFF, 0x55, 0x55), (0x55, 0xFF, 0x55), (0xFF, 0xFF, 0x55),
   (0x55, 0x55, 0xFF), (0xFF, 0x55, 0xFF), (0x55, 0xFF, 0xFF), (0xFF, 0xFF, 0xFF)]

/-- `ansi/colors.go:553-570` `CMDPalette`. -/
def cMDPalette : List Rgb :=
  [(0x01, 0x01, 0x01), (0x80, 0x00, 0x00), (0x00, 0x80, 0x00), (0x80, 0x80, 0x00),
   (0x00, 0x00, 0x80), (0x80, 0x00, 0x80), (0x00, 0x80, 0x80), (0xC0, 0xC0, 0xC0),
   (0x80, 0x80, 0x80), (0xFF, 0x00, 0x00), (0x00, 0xFF, 0x00), (0xFF, 0xFF, 0x00),
   (0x00, 0x00, 0xFF), (0xFF, 0x00, 0xFF), (0x00, 0xFF, 0xFF), (0xFF, 0xFF, 0xFF)]

/-- `ansi/colors.go:573-590` `TermnialAppPalette`. -/
def termnialAppPalette : List Rgb :=
  [(0x00, 0x00, 0x00), (0xC2, 0x36, 0x21), (0x25, 0xBC, 0x24), (0xAD, 0xAD, 0x27),
   (0x49, 0x2E, 0xE1), (0xD3, 0x38, 0xD3), (0x33, 0xBB, 0xC8), (0xCB, 0xCC, 0xCD),
   (0x81, 0x83, 0x83), (0xFC, 0x39, 0x1F), (0x31, 0xE7, 0x22), (0xEA, 0xEC, 0x23),
   (0x58, 0x33, 0xFF), (0xF9, 0x35, 0xF8), (0x14, 0xF0, 0xF0), (0xE9, 0xEB, 0xEB)]

/-- `ansi/colors.go:593-610` `PuTTYPalette`. -/
def puTTYPalette : List Rgb :=
  [(0x00, 0x00, 0x00), (0xBB, 0x00, 0x00), (0x00, 0xBB, 0x00), (0xBB, 0xBB, 0x00),
   (0x00, 0x00, 0xBB), (0xBB, 0x00, 0xBB), (0x00, 0xBB, 0xBB), (0xBB, 0xBB, 0xBB),
   (0x55, 0x55, 0x55), (0xFF, 0x55, 0x55), (0x55, 0xFF, 0x55), (0xFF, 0xFF, 0x55),
   (0x55, 0x55, 0xFF), (0xFF, 0x55, 0xFF), (0x55, 0xFF, 0xFF), (0xFF, 0xFF, 0xFF)]

/-- `ansi/colors.go:613-630` `MIRCPalette`. -/
def mIRCPalette : List Rgb :=
  [(0x00, 0x00, 0x00), (0x7F, 0x00, 0x00), (0x00, 0x93, 0x00), (0xFC, 0x7F, 0x00),
   (0x00, 0x00, 0x7F), (0x9C, 0x00, 0x9C), (0x00, 0x93, 0x93), (0xD2, 0xD2, 0xD2),
   (0x7F, 0x7F, 0x7F), (0xFF, 0x00, 0x00), (0x00, 0xFC, 0x00), (0xFF, 0xFF, 0x00),
   (0x00, 0x00, 0xFC), (0xFF, 0x00, 0xFF), (0x00, 0xFF, 0xFF), (0xFF, 0xFF, 0xFF)]

/-- `ansi/colors.go:633-650` `XTermPalette`. -/
def xTermPalette : List Rgb :=
  [(0x00, 0x00, 0x00), (0xCD, 0x00, 0x00), (0x00, 0xCD, 0x00), (0xCD, 0xCD, 0x00),
   (0x00, 0x00, 0xEE), (0xCD, 0x00, 0xCD), (0x00, 0xCD, 0xCD), (0xE5, 0xE5, 0xE5),
   (0x7F, 0x7F, 0x7F), (0xFF, 0x00, 0x00), (0x00, 0xFF, 0x00), (0xFF, 0xFF, 0x00),
   (0x5C, 0x5C, 0xFF), (0xFF, 0x00, 0xFF), (0x00, 0xFF, 0xFF), (0xFF, 0xFF, 0xFF)]

/-- `ansi/colors.go:653-670` `XPalette`. -/
def xPalette : List Rgb :=
  [(0x00, 0x00, 0x00), (0xFF, 0x00, 0x00), (0x00, 0xFF, 0x00), (0xFF, 0xFF, 0x00),
   (0x00, 0x00, 0xFF), (0xFF, 0x00, 0xFF), (0x00, 0xFF, 0xFF), (0xFF, 0xFF, 0xFF),
   (0x80, 0x80, 0x80), (0xFF, 0x00, 0x00), (0x90, 0xEE, 0x90), (0xFF, 0xFF, 0xE0),
   (0xAD, 0xD8, 0xE6), (0xFF, 0x00, 0xFF), (0xE0, 0xFF, 0xFF), (0xFF, 0xFF, 0xFF)]

/-- `ansi/colors.go:673-690` `UbuntuPalette`. -/
def ubuntuPalette : List Rgb :=
  [(0xDE, 0x38, 0x2B), (0x39, 0xB5, 0x4A), (0xFF, 0xC7, 0x06), (0x00, 0x6F, 0xB8),
   (0x76, 0x26, 0x71), (0x2C, 0xB5, 0xE9), (0xCC, 0xCC, 0xCC), (0xFF, 0xFF, 0xFF),
   (0x80, 0x80, 0x80), (0x00, 0xFF, 0x00), (0xFF, 0xFF, 0x00), (0x00, 0x00, 0xFF),
   (0xAD, 0xD8, 0xE6), (0x00, 0xFF, 0xFF), (0xE0, 0xFF, 0xFF), (0xFF, 0xFF, 0xFF)]

/-- Colours given by components. -/
def direct (l : List Rgb) : List Color := l.map fun x => rgb x.1 x.2.1 x.2.2

/-- `ansi/colors.go:9-18` `Palette3`. -/
def palette3 : List Color := palette8.take 8

/-- `ansi/colors.go:22-31` `Palette4`. -/
def palette4 : List Color := palette8.take 16

/-- `main.go:10-17` `colorModels`. -/
def models : List (Bytes × (Color → Color)) :=
  [(ascii "id", id), (ascii "3", paletteConvert palette3), (ascii "4", paletteConvert palette4),
   (ascii "8", paletteConvert palette8), (ascii "24", to24), (ascii "canon", canon)]

/-- `main.go:19-25` `colorCtlWidths`. -/
def ctlWidths : List (Bytes × Nat) :=
  [(ascii "", 24), (ascii "3", 12), (ascii "4", 12), (ascii "8", 16), (ascii "id", 16)]

/-- A map read at a key. -/
def get {α : Type} (m : List (Bytes × α)) (k : Bytes) : Option α := (m.find? fun kv => kv.1 = k).map (·.2)

/-- A lower case hexadecimal digit. -/
def hexDigit (n : Nat) : UInt8 := if n < 10 then UInt8.ofNat (0x30 + n) else UInt8.ofNat (0x61 + (n - 10))

/-- One byte of ASCII text in `strconv.Quote`. -/
def quoteByte (b : UInt8) : Bytes :=
  if b = 0x22 ∨ b = 0x5C then [0x5C, b]
  else if 0x20 ≤ b ∧ b < 0x7F then [b]
  else if b = 0x07 then [0x5C, 0x61]
  else if b = 0x08 then [0x5C, 0x62]
  else if b = 0x0C then [0x5C, 0x66]
  else if b = 0x0A then [0x5C, 0x6E]
  else if b = 0x0D then [0x5C, 0x72]
  else if b = 0x09 then [0x5C, 0x74]
  else if b = 0x0B then [0x5C, 0x76]
  else [0x5C, 0x78, hexDigit (b.toNat / 16), hexDigit (b.toNat % 16)]

/-- The verb `%q` for ASCII text. -/
def quote (s : Bytes) : Bytes := 0x22 :: (s.flatMap quoteByte ++ [0x22])

/-- A width with the flag `-`: padded on the right. -/
def padRight (w : Nat) (s : Bytes) : Bytes := s ++ List.replicate (w - s.length) 0x20

/-- The verb `% 3d`: a space in place of the sign, then padded on the left. -/
def number (n : Nat) : Bytes := List.replicate (3 - (0x20 :: itoaNat n).length) 0x20 ++ 0x20 :: itoaNat n

/-- `main.go:27-30` `colorModelFlag`. -/
structure Flag where
  name : Bytes
  model : Color → Color

/-- `main.go:48`: the flag to begin with. -/
def Flag.initial : Flag := ⟨ascii "id", id⟩

/-- Quoted texts with a space between. -/
def quoted : List Bytes → Bytes
  | [] => []
  | [s] => quote s
  | s :: t => quote s ++ 0x20 :: quoted t

/-- `main.go:33-45` `colorModelFlag.Set`.  `order` is the order in which ranging over the map
gives its names. -/
def Flag.set (order : List Bytes) (f : Flag) (s : Bytes) : Flag × Option Bytes :=
  match get models s with
  | none => (f, some (ascii "no such color model, valid choices:[" ++ quoted order ++ ascii "]"))
  | some m => (⟨s, m⟩, none)

/-- `main.go:57-60`: the width of a control. -/
def ctlWidth (name : Bytes) : Nat :=
  if (get ctlWidths name).getD 0 = 0 then (get ctlWidths (ascii "")).getD 0 else (get ctlWidths name).getD 0

/-- `main.go:62-66` `palEnt`. -/
structure Ent where
  name : Bytes
  extra : Bytes
  off : Nat
  pal : List Color

/-- `main.go:68-72`. -/
def base : List Ent :=
  [⟨ascii "Palette3", [], 0, palette3⟩, ⟨ascii "Palette4", ascii "Palette3 + ...", 8, palette4.drop 8⟩,
   ⟨ascii "Palette8", ascii "Palette4 + ...", 16, palette8.drop 16⟩]

/-- `main.go:74-83`. -/
def themes : List Ent :=
  [⟨ascii "VGAPalette", [], 0, direct vGAPalette⟩, ⟨ascii "CMDPalette", [], 0, direct cMDPalette⟩,
   ⟨ascii "TermnialAppPalette", [], 0, direct termnialAppPalette⟩,
   ⟨ascii "PuTTYPalette", [], 0, direct puTTYPalette⟩, ⟨ascii "MIRCPalette", [], 0, direct mIRCPalette⟩,
   ⟨ascii "XTermPalette", [], 0, direct xTermPalette⟩, ⟨ascii "XPalette", [], 0, direct xPalette⟩,
   ⟨ascii "UbuntuPalette", [], 0, direct ubuntuPalette⟩]

/-- `main.go:68-87`: what is listed. -/
def listed (showThemes : Bool) : List Ent :=
  if showThemes then base.take 2 ++ themes ++ base.drop 2 else base

/-- `main.go:99-111`: the line of a colour. -/
def line (f : Flag) (n : Nat) (c : Color) : Bytes :=
  let c := f.model c
  let rst := Sgr.append Sgr.clear
  let fg := Sgr.append (colorFG c)
  let bg := Sgr.append (colorBG c)
  rst ++ number n ++ ascii " " ++ fg ++ ascii "[ fg ]" ++ rst ++ bg ++ ascii "[ bg ]" ++ rst ++
    ascii " fg_ctl:" ++ padRight (ctlWidth f.name) (quote fg) ++
    ascii " bg_ctl:" ++ padRight (ctlWidth f.name) (quote bg) ++ ascii "\n"

/-- `main.go:98-112`: the rest of the lines of a palette, the first of them with number `n`. -/
def lines (f : Flag) : Nat → List Color → Bytes
  | _, [] => []
  | n, c :: cs => line f n c ++ lines f (n + 1) cs

/-- `main.go:93-97`: the title of a palette. -/
def title (p : Ent) : Bytes :=
  if p.extra ≠ [] then p.name ++ ascii " (" ++ p.extra ++ ascii "):\n" else p.name ++ ascii ":\n"

/-- `main.go:89-113`: the palettes, from the `i`th on. -/
def palettes (f : Flag) : Nat → List Ent → Bytes
  | _, [] => []
  | i, p :: ps => (if i > 0 then ascii "\n" else []) ++ title p ++ lines f p.off p.pal ++ palettes f (i + 1) ps

/-- `main.go:54-113`: what is printed with the flags as parsed. -/
def page (f : Flag) (showThemes : Bool) : Bytes :=
  ascii "using " ++ quote f.name ++ ascii " model (pass -model to change)\n" ++ palettes f 0 (listed showThemes)

/-- The models asked for, one after the other: package flag gives up at the first error. -/
def parse (order : List Bytes) (f : Flag) : List Bytes → Except Bytes Flag
  | [] => .ok f
  | s :: ss => match f.set order s with
    | (_, some e) => .error e
    | (f, none) => parse order f ss

/-- `main.go:47-114` `main`: the error with which the command ends, or what it prints. -/
def main (order : List Bytes) (asked : List Bytes) (showThemes : Bool) : Except Bytes Bytes :=
  match parse order Flag.initial asked with
  | .error e => .error e
  | .ok f => .ok (page f showThemes)

end Anansi.Pal
