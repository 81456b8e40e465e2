import Verif.Model.Basic
/-
Package `terminfo`: reading compiled entries and finding them.

A file is its bytes; every read gets as much as an oracle says, at least a byte unless at the
end.  `binary.Read` reads all it needs (`io.ReadFull`) and fails at the end of the file.
Strings are lists of bytes.
-/
set_option autoImplicit false

namespace Anansi
namespace Tin

/-- A little endian 16 bit number. -/
def le16 (lo hi : UInt8) : BitVec 16 := BitVec.ofNat 16 (lo.toNat + 256 * hi.toNat)

/-- `read.go:128-136` `readUint16`; `none`: an error. -/
def readUint16 (data : Bytes) (off : BitVec 16) : Option (BitVec 16) :=
  match data.drop off.toNat with
  | lo :: hi :: _ => some (le16 lo hi)
  | _ => none

/-- `read.go:138-154` `readNullString` of what is left; `none`: the end of the file.  There are
no more reads than bytes, but for one at the end. -/
def readNullString : Nat → List Nat → Bytes → Option Bytes
  | 0, _, _ => none
  | fuel + 1, ks, d =>
    let n := min (min 8 (max 1 (ks.headD 0))) d.length
    if n = 0 then none
    else
      let buf := d.take n
      if 0 ∈ buf then some (buf.takeWhile (· ≠ 0))
      else (readNullString fuel ks.tail (d.drop n)).map (buf ++ ·)

/-- `read.go:117-126` `readTableString`.  All of it is 16 bit arithmetic. -/
def readTableString (data : Bytes) (ks : List Nat) (off table : BitVec 16) : Option Bytes :=
  match readUint16 data off with
  | none => none
  | some index => readNullString (data.length + 1) ks (data.drop (table + index).toNat)

/-- `read.go:15-39` `tiKeys`, without the first. -/
def tiKeys : List Nat :=
  [66, 68, 69, 70, 71, 72, 73, 74, 75, 67, 216, 217, 77, 59, 76, 164, 82, 81, 87, 61, 79, 83]

/-- `read.go:43-57` `tiFuncs`, without the first. -/
def tiFuncs : List Nat := [28, 40, 16, 13, 5, 39, 36, 27, 26, 34, 89, 88]

def str (s : String) : Bytes := s.toUTF8.toList

/-- `read.go:10` -/
def tiMouseEnter : Bytes := str "\x1b[?1000h\x1b[?1002h\x1b[?1015h\x1b[?1006h"
/-- `read.go:11` -/
def tiMouseLeave : Bytes := str "\x1b[?1006l\x1b[?1015l\x1b[?1002l\x1b[?1000l"

/-- `terminfo.go:77-81` `Terminfo`, without the name and without the unused strings at index 0:
the keys from `KeyF1` on and the functions from `FuncEnterCA` on. -/
structure Terminfo where
  keys : List Bytes
  funcs : List Bytes
deriving DecidableEq, Repr

/-- `read.go:64-115` `ReadFrom`; `none`: an error.  `ks` tells how much reads get.  (The sum of
two `int16` is odd as a signed number if it is as an unsigned one.) -/
def readFrom (data : Bytes) (ks : Nat → List Nat) : Option Terminfo :=
  match readUint16 data 0, readUint16 data 2, readUint16 data 4, readUint16 data 6, readUint16 data 8, readUint16 data 10 with
  | some h0, some h1, some h2, some h3, some h4, some _ =>
    if h0 ≠ 0o432 then none
    else
      let h2 := if (h1 + h2).toNat % 2 ≠ 0 then h2 + 1 else h2
      let strOffset := 12 + (h1 + h2 + 2 * h3)
      let tableOffset := strOffset + 2 * h4
      match tiKeys.mapM fun i => readTableString data (ks i) (strOffset + 2 * BitVec.ofNat 16 i) tableOffset with
      | none => none
      | some keys =>
        match tiFuncs.mapM fun i => readTableString data (ks i) (strOffset + 2 * BitVec.ofNat 16 i) tableOffset with
        | none => none
        | some funcs => some ⟨keys, funcs ++ [tiMouseEnter, tiMouseLeave]⟩
  | _, _, _, _, _, _ => none

/-! ### Finding entries -/

/-- `strings.Split(s, ":")`. -/
def splitColon : Bytes → List Bytes
  | [] => [[]]
  | c :: t =>
    if c = 0x3A then [] :: splitColon t
    else match splitColon t with
      | [] => [[c]]
      | w :: ws => (c :: w) :: ws

/-- `terminfo.go:85` `defaultPath`. -/
def defaultPath : Bytes := str "/usr/share/terminfo"

/-- `terminfo.go:90-130` `SearchPath`, given the environment variables `TERMINFO` and
`TERMINFO_DIRS` (empty if not set) and the path of `.terminfo` in the user's home, if known. -/
def searchPath (terminfo dirs : Bytes) (home : Option Bytes) : List Bytes :=
  if terminfo ≠ [] then [terminfo]
  else
    let cands := home.toList
    let ds := if dirs ≠ [] then splitColon dirs else []
    let cands := cands ++ ds.map fun d => if d = [] then defaultPath else d
    if [] ∈ ds then cands else cands ++ [defaultPath]

/-- What `Load` gives. -/
inductive Loaded
  | panic
  /-- an error -/
  | err
  /-- an entry that was read -/
  | file (ti : Terminfo)
  /-- a builtin one, by name -/
  | builtin (name : Bytes)
deriving DecidableEq, Repr

/-- The builtin entries by name: `builtins` as set up in the `init` functions. -/
def builtins : List Bytes := ["Eterm", "linux", "rxvt-256color", "rxvt-unicode", "screen", "xterm"].map str

/-- `compatTable`, in the order of the files' names, as `init` functions run. -/
def compatTable : List (Bytes × Bytes) :=
  [("Eterm", "Eterm"), ("linux", "linux"), ("rxvt", "rxvt-unicode"), ("screen", "screen"), ("xterm", "xterm"),
    ("cygwin", "xterm"), ("st", "xterm")].map fun x => (str x.1, str x.2)

/-- `strings.Contains`. -/
def contains (s sub : Bytes) : Bool :=
  sub.isPrefixOf s || match s with
    | [] => false
    | _ :: t => contains t sub

/-- `builtin.go:10-26` `GetBuiltin`; `defaultTerm` is empty. -/
def getBuiltin (term : Bytes) : Loaded :=
  if term = [] then .err
  else if term ∈ builtins then .builtin term
  else match compatTable.find? fun c => contains term c.1 with
    | some c => .builtin c.2
    | none => .err

/-- `terminfo.go:144-147`: the files tried in a directory: two ways to name the subdirectory. -/
inductive Sub
  /-- the first letter -/
  | letter
  /-- its code in hexadecimal -/
  | hex
deriving DecidableEq, Repr

/-- `terminfo.go:138-164` `Load`, with the entry cached for the name, if any; `file` tells what
is in the files that can be opened.  Closing succeeds. Returns the entry that is cached
afterwards, too. -/
def load (cached : Option Terminfo) (paths : List Bytes) (file : Bytes → Sub → Option Bytes) (ks : Nat → List Nat)
    (term : Bytes) : Loaded × Option Terminfo :=
  match cached with
  | some ti => (.file ti, cached)
  | none =>
    if term = [] ∧ paths ≠ [] then (.panic, none)
    else
      match (paths.flatMap fun p => [file p .letter, file p .hex]).find? Option.isSome with
      | some (some data) =>
        match readFrom data ks with
        | some ti => (.file ti, some ti)
        | none => (.err, none)
      | _ => (getBuiltin term, none)

end Tin
end Anansi
