import Verif.Model.PlatNew
import Verif.Model.Palette
/-
Command lines: `x/platform/config.go:38-56` `AddFlags` with `x/platform/platform.go:73-80`,
`cmd/palette/main.go:47-52`, `cmd/decode/main.go:19-27`, `cmd/lolwut/main.go:47-54, 219-231`.

The loop of Go's package flag (`FlagSet.Parse` and `parseOne`), `strconv.ParseBool` and
`strconv.Atoi` are not part of the repository; they are modelled here as they are documented, with
64 bit integers.  What is printed on errors is left out: the process ends.  The flags a program
defines on its own besides those of the platform are left out.
-/
set_option autoImplicit false

namespace Anansi
namespace Flg

/-- A `flag.Flag` over variables `σ`: its name, whether it needs no value, and `Set`, where `none`
is an error. -/
structure Flag (σ : Type) where
  name : Bytes
  bool : Bool := false
  set : σ → Bytes → Option σ

/-- Why a command line is turned down. -/
inductive Err
  /-- "bad flag syntax" -/
  | syntax_
  /-- "flag provided but not defined" -/
  | undefined
  /-- `ErrHelp` -/
  | help
  /-- "invalid value" or "invalid boolean value" -/
  | value
  /-- "flag needs an argument" -/
  | missing
deriving DecidableEq, Repr

/-- The first equals sign: what is before it, and what is after it if there is one. -/
def cut : Bytes → Bytes × Option Bytes
  | [] => ([], none)
  | b :: t => if b = 0x3D then ([], some t) else (b :: (cut t).1, (cut t).2)

/-- A step of the loop. -/
inductive Step (σ : Type)
  | more (s : σ) (args : List Bytes)
  | stop (args : List Bytes)
  | fail (e : Err)

variable {σ : Type}

/-- The flag, its value if any, and the arguments after it. -/
def setFlag (f : Flag σ) (s : σ) (value : Option Bytes) (args : List Bytes) : Step σ :=
  if f.bool then
    match f.set s (value.getD (ascii "true")) with
    | some s => .more s args
    | none => .fail .value
  else
    match value, args with
    | some v, args => match f.set s v with
      | some s => .more s args
      | none => .fail .value
    | none, v :: args => match f.set s v with
      | some s => .more s args
      | none => .fail .value
    | none, [] => .fail .missing

/-- A name with or without a value, after the dashes. -/
def named (fs : List (Flag σ)) (s : σ) (name : Bytes) (args : List Bytes) : Step σ :=
  match name with
  | [] => .fail .syntax_
  | b :: t =>
    if b = 0x2D ∨ b = 0x3D then .fail .syntax_
    else
      let n := b :: (cut t).1
      match fs.find? fun f => f.name = n with
      | some f => setFlag f s (cut t).2 args
      | none => if n = ascii "help" ∨ n = ascii "h" then .fail .help else .fail .undefined

/-- `FlagSet.parseOne`. -/
def parseOne (fs : List (Flag σ)) (s : σ) : List Bytes → Step σ
  | [] => .stop []
  | a :: args =>
    match a with
    | [] => .stop (a :: args)
    | [_] => .stop (a :: args)
    | b :: c :: t =>
      if b ≠ 0x2D then .stop (a :: args)
      else if c = 0x2D then
        if t = [] then .stop args else named fs s t args
      else named fs s (c :: t) args

/-- `FlagSet.Parse`, at most so many rounds. -/
def parseN (fs : List (Flag σ)) : Nat → σ → List Bytes → Except Err (σ × List Bytes)
  | 0, s, args => .ok (s, args)
  | n + 1, s, args =>
    match parseOne fs s args with
    | .more s args => parseN fs n s args
    | .stop args => .ok (s, args)
    | .fail e => .error e

/-- `FlagSet.Parse`: the variables and the arguments left; every round but the last takes an
argument (`parse_loop`). -/
def parse (fs : List (Flag σ)) (s : σ) (args : List Bytes) : Except Err (σ × List Bytes) :=
  parseN fs (args.length + 1) s args

/-- `strconv.ParseBool`. -/
def parseBool (v : Bytes) : Option Bool :=
  if v ∈ (["1", "t", "T", "true", "TRUE", "True"] : List String).map ascii then some true
  else if v ∈ (["0", "f", "F", "false", "FALSE", "False"] : List String).map ascii then some false
  else none

/-- `FlagSet.StringVar`, without setting the variable to its default. -/
def stringVar (name : Bytes) (put : σ → Bytes → σ) : Flag σ := ⟨name, false, fun s v => some (put s v)⟩

/-- `FlagSet.BoolVar`, without setting the variable to its default. -/
def boolVar (name : Bytes) (put : σ → Bool → σ) : Flag σ := ⟨name, true, fun s v => (parseBool v).map (put s)⟩

/-- `config.go:41-56` `AddFlags`: the flags, and the configuration after their definition, which sets
variables to the defaults given. -/
def addFlags (pre : Bytes) (cfg : Cfg.Config) : List (Flag Cfg.Config) × Cfg.Config :=
  let fs : List (Flag Cfg.Config) :=
    [stringVar (pre ++ ascii "logfile") fun c v => { c with logFileName := v },
     stringVar (pre ++ ascii "cpuprofile") fun c v => { c with cpuProfileName := v },
     stringVar (pre ++ ascii "memprofile") fun c v => { c with memProfileName := v },
     stringVar (pre ++ ascii "tracefile") fun c v => { c with traceFileName := v }]
  if pre ≠ [] then
    (fs ++ [boolVar (pre ++ ascii "timing") fun c b => { c with startTiming := b },
            boolVar (pre ++ ascii "timing.log") fun c b => { c with logTiming := b }],
     { cfg with startTiming := false, logTiming := false })
  else (fs, cfg)

/-- The flags of a platform, `platform.go:75`. -/
def platformFlags : List (Flag Cfg.Config) := (addFlags (ascii "platform.") {}).1

/-- `platform.go:35-92` `New` with the command line; the process ends on an error of it. -/
def newPlatform (o : Pnw.Calls) (parsed : Bool) (args : List Bytes) (opts : List Pnw.Opt) (w : Pnw.World) :
    Except Err (Option ((Pnw.Plat × Pnw.World) × Option Pnw.Err)) :=
  if o.notifyOk && !parsed && !Pnw.hasConfig opts then
    match parse platformFlags (addFlags (ascii "platform.") {}).2 args with
    | .error e => .error e
    | .ok r => .ok (Pnw.new o parsed r.1 opts w)
  else .ok (Pnw.new o parsed {} opts w)

/-- `cmd/palette/main.go:48-51`: the model and whether themes are shown. -/
def paletteFlags (order : List Bytes) : List (Flag (Pal.Flag × Bool)) :=
  [⟨ascii "model", false, fun s v => match s.1.set order v with
      | (f, none) => some (f, s.2)
      | (_, some _) => none⟩,
   boolVar (ascii "themes") fun s b => (s.1, b)]

/-- `cmd/palette/main.go:47-114` `main` with the command line. -/
def palette (order : List Bytes) (args : List Bytes) : Except Err Bytes :=
  match parse (paletteFlags order) (Pal.Flag.initial, false) args with
  | .error e => .error e
  | .ok r => .ok (Pal.page r.1.1 r.1.2)

/-- `cmd/decode/main.go:19-24`. -/
structure Modes where
  raw : Bool := false
  mouse : Bool := false
  alt : Bool := false
  strip : Bool := false
deriving DecidableEq, Repr

/-- `cmd/decode/main.go:19-24`. -/
def decodeFlags : List (Flag Modes) :=
  [boolVar (ascii "raw") fun m b => { m with raw := b }, boolVar (ascii "mouse") fun m b => { m with mouse := b },
   boolVar (ascii "alt") fun m b => { m with alt := b }, boolVar (ascii "strip") fun m b => { m with strip := b }]

/-- The value of digits after those of `n`. -/
def digits (n : Nat) : Bytes → Option Nat
  | [] => some n
  | b :: t => if 0x30 ≤ b.toNat ∧ b.toNat ≤ 0x39 then digits (n * 10 + (b.toNat - 0x30)) t else none

/-- `strconv.Atoi` after the sign. -/
def signed (neg : Bool) (t : Bytes) : Option Int :=
  if t = [] then none
  else (digits 0 t).bind fun n =>
    let i : Int := if neg then -n else n
    if -(2 ^ 63) ≤ i ∧ i < 2 ^ 63 then some i else none

/-- `strconv.Atoi`. -/
def atoi : Bytes → Option Int
  | [] => none
  | b :: t => if b = 0x2B then signed false t else if b = 0x2D then signed true t else signed false (b :: t)

/-- `cmd/lolwut/main.go:219-231` `parseArg`; `none` ends the process. -/
def parseArg (arg : Bytes) (dflt low : Int) : Option Int :=
  if arg = [] then some dflt
  else (atoi arg).map fun n => if n < low then low else n

/-- `cmd/lolwut/main.go:48-54`: whether it is interactive, and the three numbers; `flag.Arg` is empty
for arguments there are not.  `.ok none` is the end of the process because of a number. -/
def lolwut (args : List Bytes) : Except Err (Option (Bool × Int × Int × Int)) :=
  match parse [boolVar (ascii "i") fun (_ : Bool) b => b] false args with
  | .error e => .error e
  | .ok r => .ok ((parseArg ((r.2[0]?).getD []) 60 1).bind fun cols => (parseArg ((r.2[1]?).getD []) 8 1).bind fun row =>
      (parseArg ((r.2[2]?).getD []) 12 1).map fun col => (r.1, cols, row, col))

end Flg
end Anansi
