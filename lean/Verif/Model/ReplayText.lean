import Verif.Model.Replay
/-
`input.go:424-453` `InputReplay.Duration` and `InputFrame.String`.

A time is a number of nanoseconds since the zero time, the beginning of the year 1; a duration is 64 bits.
Texts of times and quoting (`%q`) are parameters.
-/
set_option autoImplicit false

namespace Anansi
namespace Rpl

/-- `time.Time.Sub`: the largest or the smallest duration if it is none. -/
def timeSub (a b : Int) : Int := max (-2 ^ 63) (min (a - b) (2 ^ 63 - 1))

/-- The time of a frame in nanoseconds. -/
def Frame.ns {τ : Type} (ns : τ → Int) (f : Frame τ) : Int :=
  match f.t with
  | some t => ns t
  | none => 0

/-- `input.go:425-430` `Duration`. -/
def duration {τ : Type} (ns : τ → Int) : List (Frame τ) → Int
  | [] => 0
  | f :: l => timeSub (((f :: l).getLast (by simp)).ns ns) (f.ns ns)

/-- " err=" -/
def errText : Bytes := [0x20, 0x65, 0x72, 0x72, 0x3D]
/-- " mess=" -/
def messText : Bytes := [0x20, 0x6D, 0x65, 0x73, 0x73, 0x3D]
/-- " mark" -/
def markText : Bytes := [0x20, 0x6D, 0x61, 0x72, 0x6B]

/-- `input.go:432-453` `String`; `e` is the text of the error (`%s` of an `InputError` and `Error()` are
the same). -/
def Frame.string {τ : Type} (time : Option τ → Bytes) (q : Bytes → Bytes) (f : Frame τ) (e : Option Bytes) : Bytes :=
  time f.t ++
  (match e with
    | some e => errText ++ e
    | none => []) ++
  (if f.m.length ≠ 0 then messText ++ q f.m else []) ++
  (if f.b.length = 0 then markText else 0x20 :: q f.m)

end Rpl
end Anansi
