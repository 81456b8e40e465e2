import Verif.Model.Mode
import Verif.Model.Context
import Verif.Model.Differ
import Verif.Model.Output
/-
What a platform's terminal writes besides the frames: the modes it is made with
(`x/platform/platform.go:56-62`) and what its screen does when it is entered and exited
(`screen.go:196-221`).
-/
set_option autoImplicit false

namespace Anansi

/-- `ansi/funcs.go:408` `DECSTR`. -/
def DECSTR : Nat := csiId 0x70

/-- `ansi/funcs.go:413` `SoftReset`. -/
def softReset : Option Seq := (escSeq DECSTR).map (·.with [0x21])

/-- `ansi/sgr.go:50` `SGRReset`: the code is the number 0. -/
def sgrReset : Option Seq := (escSeq SGR).map (·.with [0])

/-- `ansi/modes.go:37, 38, 43, 48`: `ModeAlternateScreen`, `ModeMouseSgrExt`, `ModeMouseBtnEvent` and `ModeMouseAnyEvent`. -/
def modeAlternateScreen : BitVec 64 := modePrivate ||| 1049
def modeMouseSgrExt : BitVec 64 := modePrivate ||| 1006
def modeMouseBtnEvent : BitVec 64 := modePrivate ||| 1002
def modeMouseAnyEvent : BitVec 64 := modePrivate ||| 1003

namespace Sess

/-- `mode.go:38-42`: one round of `AddMode`.  `cut`: the pieces in which `Seq.AppendTo` appends bytes. -/
def modeCall (cut : Bytes → List Bytes) (m : BitVec 64) : Option ModeBuf.Op :=
  (modeSet m).bind fun s => s.append.bind fun sb => (modeReset m).bind fun r => r.append.map fun rb =>
    .pair (cut sb) (cut rb)

/-- `mode.go:55-60`: one round of `AddModeSeq`. -/
def seqCall (cut : Bytes → List Bytes) (s : Option Seq) : Option ModeBuf.Op :=
  s.bind fun s => s.append.map fun b => .seq (cut b)

/-- `x/platform/platform.go:56-62`: the calls of `AddMode` and `AddModeSeq` by `New`. -/
def calls (cut : Bytes → List Bytes) : List (Option ModeBuf.Op) :=
  [modeAlternateScreen, modeMouseSgrExt, modeMouseBtnEvent, modeMouseAnyEvent].map (modeCall cut) ++
    [softReset, sgrReset].map (seqCall cut)

/-- The terminal's `Mode` that `New` leaves; `none` is a panic. -/
def mode (grow : Nat → Nat → Nat) (cut : Bytes → List Bytes) : Option ModeBuf :=
  ((calls cut).mapM id).map fun l => ({} : ModeBuf).ops grow l

end Sess

namespace Differ

/-- `screen.go:196` `TermScreen.Enter` and `screen.go:214-221` `SizeToTerm`: with the terminal's size if it can be
had; the error is nil in any case. -/
def enter (d : Differ) (size : Option (Nat × Nat)) : Differ :=
  match size with
  | some s => (d.invalidate.resize s).1
  | none => d

/-- `screen.go:200-210` `TermScreen.Exit`, with `Term.Flush` into the output. -/
def exit (d : Differ) (out : Outp.Output) (y : Outp.Sys) : Except Fault (Differ × Outp.Output × Outp.FErr) :=
  d.reset.bind fun d =>
  let s := d.real.cur.mergeSGR 0
  match s.1.show_ with
  | none => .error .panic
  | some v =>
    match v.2.append with
    | none => .error .panic
    | some vb =>
      let b := sgrText s.2 ++ vb
      let d : Differ := { d with real := { d.real with cur := v.1 }, v := { d.v with buf := d.v.buf.write b } }
      if b.length > 0 then
        let f := out.flush d.v.buf.buf y
        .ok ({ d with v := { d.v with buf := d.v.buf.writeTo (d.v.buf.buf.length - f.2.1.length) } }, f.1, f.2.2)
      else .ok (d, out, .nil)

end Differ
end Anansi
