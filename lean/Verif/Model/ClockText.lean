import Verif.Model.HudPanels
/-
`x/platform/hud.go:18,98,111-117,236`: the clock and the profiling sign in the header of the overlay.
Simplified: `ctx.Time.Format(hudTimeFmt)` is Go's `time.Time.Format` for the layout "15:04:05.000000", written down from its
documentation; a time is the nanoseconds since midnight of its day and zone.
-/
set_option autoImplicit false

namespace Anansi.Hud

/-- `n` in `w` decimal digits. -/
def fixed : Nat → Nat → Bytes
  | 0, _ => []
  | w + 1, n => fixed w (n / 10) ++ [UInt8.ofNat (0x30 + n % 10)]

/-- `hud.go:18,98` `ctx.Time.Format("15:04:05.000000")`: hours, minutes, seconds and microseconds, the rest cut off. -/
def clockString (ns : Nat) : Bytes :=
  fixed 2 (ns / 3600000000000) ++ [0x3A] ++ fixed 2 (ns / 60000000000 % 60) ++ [0x3A] ++ fixed 2 (ns / 1000000000 % 60) ++ [0x2E] ++
    fixed 6 (ns / 1000 % 1000000)

/-- `hud.go:111-117`: the profiling segment; `none` where the index is out of range. -/
def profString (active : Bool) (ns : Nat) : Option Bytes := (sign active ns).map encodeRune

end Anansi.Hud
