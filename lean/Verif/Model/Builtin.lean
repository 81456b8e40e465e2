import Verif.Model.Terminfo
/-
Package `terminfo`: the builtin entries and the maps of strings by name.

The unused strings at index 0 of `Keys` and `Funcs` are left out, as in `Model/Terminfo`.
-/
set_option autoImplicit false

namespace Anansi
namespace Tin

/-- The builtin entries. -/
inductive Known
  | eterm
  | linux
  | rxvt256color
  | rxvtUnicode
  | screen
  | xterm
deriving DecidableEq, Repr

/-- The names under which the entries are in `builtins`. -/
def Known.name : Known → Bytes
  | .eterm => str "Eterm"
  | .linux => str "linux"
  | .rxvt256color => str "rxvt-256color"
  | .rxvtUnicode => str "rxvt-unicode"
  | .screen => str "screen"
  | .xterm => str "xterm"

/-- All of them. -/
def Known.all : List Known := [.eterm, .linux, .rxvt256color, .rxvtUnicode, .screen, .xterm]

/-- `builtin_eterm_terminfo.go:3-46` -/
def eterm : Terminfo where
  keys := [
    "\x1b[11~", "\x1b[12~", "\x1b[13~", "\x1b[14~", "\x1b[15~", "\x1b[17~", "\x1b[18~", "\x1b[19~", "\x1b[20~", "\x1b[21~",
    "\x1b[23~", "\x1b[24~", "\x1b[2~", "\x1b[3~", "\x1b[7~", "\x1b[8~", "\x1b[5~", "\x1b[6~", "\x1b[A", "\x1b[B", "\x1b[D",
    "\x1b[C"].map str
  funcs := [
    "\x1b7\x1b[?47h", "\x1b[2J\x1b[?47l\x1b8", "\x1b[?25h", "\x1b[?25l", "\x1b[H\x1b[2J", "\x1b[m\x0f", "\x1b[4m", "\x1b[1m",
    "\x1b[5m", "\x1b[7m", "", "", "", ""].map str

/-- `builtin_linux_terminfo.go:3-46` -/
def linux : Terminfo where
  keys := [
    "\x1b[[A", "\x1b[[B", "\x1b[[C", "\x1b[[D", "\x1b[[E", "\x1b[17~", "\x1b[18~", "\x1b[19~", "\x1b[20~", "\x1b[21~",
    "\x1b[23~", "\x1b[24~", "\x1b[2~", "\x1b[3~", "\x1b[1~", "\x1b[4~", "\x1b[5~", "\x1b[6~", "\x1b[A", "\x1b[B", "\x1b[D",
    "\x1b[C"].map str
  funcs := [
    "", "", "\x1b[?25h\x1b[?0c", "\x1b[?25l\x1b[?1c", "\x1b[H\x1b[J", "\x1b[0;10m", "\x1b[4m", "\x1b[1m", "\x1b[5m", "\x1b[7m",
    "", "", "", ""].map str

/-- `builtin_rxvt_256color_terminfo.go:3-46` -/
def rxvt256color : Terminfo where
  keys := [
    "\x1b[11~", "\x1b[12~", "\x1b[13~", "\x1b[14~", "\x1b[15~", "\x1b[17~", "\x1b[18~", "\x1b[19~", "\x1b[20~", "\x1b[21~",
    "\x1b[23~", "\x1b[24~", "\x1b[2~", "\x1b[3~", "\x1b[7~", "\x1b[8~", "\x1b[5~", "\x1b[6~", "\x1b[A", "\x1b[B", "\x1b[D",
    "\x1b[C"].map str
  funcs := [
    "\x1b7\x1b[?47h", "\x1b[2J\x1b[?47l\x1b8", "\x1b[?25h", "\x1b[?25l", "\x1b[H\x1b[2J", "\x1b[m\x0f", "\x1b[4m", "\x1b[1m",
    "\x1b[5m", "\x1b[7m", "\x1b=", "\x1b>", "\x1b[?1000h\x1b[?1002h\x1b[?1015h\x1b[?1006h",
    "\x1b[?1006l\x1b[?1015l\x1b[?1002l\x1b[?1000l"].map str

/-- `builtin_rxvt_unicode_terminfo.go:3-46` -/
def rxvtUnicode : Terminfo where
  keys := [
    "\x1b[11~", "\x1b[12~", "\x1b[13~", "\x1b[14~", "\x1b[15~", "\x1b[17~", "\x1b[18~", "\x1b[19~", "\x1b[20~", "\x1b[21~",
    "\x1b[23~", "\x1b[24~", "\x1b[2~", "\x1b[3~", "\x1b[7~", "\x1b[8~", "\x1b[5~", "\x1b[6~", "\x1b[A", "\x1b[B", "\x1b[D",
    "\x1b[C"].map str
  funcs := [
    "\x1b[?1049h", "\x1b[r\x1b[?1049l", "\x1b[?25h", "\x1b[?25l", "\x1b[H\x1b[2J", "\x1b[m\x1b(B", "\x1b[4m", "\x1b[1m",
    "\x1b[5m", "\x1b[7m", "\x1b=", "\x1b>", "\x1b[?1000h\x1b[?1002h\x1b[?1015h\x1b[?1006h",
    "\x1b[?1006l\x1b[?1015l\x1b[?1002l\x1b[?1000l"].map str

/-- `builtin_screen_terminfo.go:3-46` -/
def screen : Terminfo where
  keys := [
    "\x1bOP", "\x1bOQ", "\x1bOR", "\x1bOS", "\x1b[15~", "\x1b[17~", "\x1b[18~", "\x1b[19~", "\x1b[20~", "\x1b[21~", "\x1b[23~",
    "\x1b[24~", "\x1b[2~", "\x1b[3~", "\x1b[1~", "\x1b[4~", "\x1b[5~", "\x1b[6~", "\x1bOA", "\x1bOB", "\x1bOD", "\x1bOC"].map str
  funcs := [
    "\x1b[?1049h", "\x1b[?1049l", "\x1b[34h\x1b[?25h", "\x1b[?25l", "\x1b[H\x1b[J", "\x1b[m\x0f", "\x1b[4m", "\x1b[1m",
    "\x1b[5m", "\x1b[7m", "\x1b[?1h\x1b=", "\x1b[?1l\x1b>", "\x1b[?1000h\x1b[?1002h\x1b[?1015h\x1b[?1006h",
    "\x1b[?1006l\x1b[?1015l\x1b[?1002l\x1b[?1000l"].map str

/-- `builtin_xterm_terminfo.go:3-46` -/
def xterm : Terminfo where
  keys := [
    "\x1bOP", "\x1bOQ", "\x1bOR", "\x1bOS", "\x1b[15~", "\x1b[17~", "\x1b[18~", "\x1b[19~", "\x1b[20~", "\x1b[21~", "\x1b[23~",
    "\x1b[24~", "\x1b[2~", "\x1b[3~", "\x1bOH", "\x1bOF", "\x1b[5~", "\x1b[6~", "\x1bOA", "\x1bOB", "\x1bOD", "\x1bOC"].map str
  funcs := [
    "\x1b[?1049h", "\x1b[?1049l", "\x1b[?12l\x1b[?25h", "\x1b[?25l", "\x1b[H\x1b[2J", "\x1b(B\x1b[m", "\x1b[4m", "\x1b[1m",
    "\x1b[5m", "\x1b[7m", "\x1b[?1h\x1b=", "\x1b[?1l\x1b>", "\x1b[?1000h\x1b[?1002h\x1b[?1015h\x1b[?1006h",
    "\x1b[?1006l\x1b[?1015l\x1b[?1002l\x1b[?1000l"].map str

/-- The entry a builtin name stands for. -/
def Known.entry : Known → Terminfo
  | .eterm => Tin.eterm
  | .linux => Tin.linux
  | .rxvt256color => Tin.rxvt256color
  | .rxvtUnicode => Tin.rxvtUnicode
  | .screen => Tin.screen
  | .xterm => Tin.xterm

/-- `terminfo.go:169-186` `FuncMap`, as the assignments of names to strings; the constants are
those of `terminfo.go:29-46`, less one. -/
def Terminfo.funcMap (ti : Terminfo) : List (String × Bytes) :=
  [("EnterCA", ti.funcs.getD 0 []), ("ExitCA", ti.funcs.getD 1 []), ("ShowCursor", ti.funcs.getD 2 []),
    ("HideCursor", ti.funcs.getD 3 []), ("ClearScreen", ti.funcs.getD 4 []), ("SGR0", ti.funcs.getD 5 []),
    ("Underline", ti.funcs.getD 6 []), ("Bold", ti.funcs.getD 7 []), ("Blink", ti.funcs.getD 8 []),
    ("Reverse", ti.funcs.getD 9 []), ("EnterKeypad", ti.funcs.getD 10 []), ("ExitKeypad", ti.funcs.getD 11 []),
    ("EnterMouse", ti.funcs.getD 12 []), ("ExitMouse", ti.funcs.getD 13 [])]

/-- `terminfo.go:191-216` `KeyMap`, in the same way; the constants are those of
`terminfo.go:49-74`, less one. -/
def Terminfo.keyMap (ti : Terminfo) : List (String × Bytes) :=
  [("F1", ti.keys.getD 0 []), ("F2", ti.keys.getD 1 []), ("F3", ti.keys.getD 2 []), ("F4", ti.keys.getD 3 []),
    ("F5", ti.keys.getD 4 []), ("F6", ti.keys.getD 5 []), ("F7", ti.keys.getD 6 []), ("F8", ti.keys.getD 7 []),
    ("F9", ti.keys.getD 8 []), ("F10", ti.keys.getD 9 []), ("F11", ti.keys.getD 10 []), ("F12", ti.keys.getD 11 []),
    ("Insert", ti.keys.getD 12 []), ("Delete", ti.keys.getD 13 []), ("Home", ti.keys.getD 14 []), ("End", ti.keys.getD 15 []),
    ("PageUp", ti.keys.getD 16 []), ("PageDown", ti.keys.getD 17 []), ("Up", ti.keys.getD 18 []), ("Down", ti.keys.getD 19 []),
    ("Left", ti.keys.getD 20 []), ("Right", ti.keys.getD 21 [])]

end Tin
end Anansi
