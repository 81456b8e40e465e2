import Verif.Model.Basic
/-
`x/platform/replay.go:256-320`: sections with a size prefix.

The file is a list of bytes with a position; all system calls succeed and write all they are
given.  Sizes are natural numbers here; they are put into 64 bits when written.
-/
set_option autoImplicit false

namespace Anansi
namespace Szd

/-- A file opened for reading and writing. -/
structure File where
  data : Bytes := []
  pos : Nat := 0
deriving DecidableEq, Repr

/-- A write at the position: a gap is filled with zeros; writing nothing changes nothing. -/
def File.write (f : File) (p : Bytes) : File :=
  if p = [] then f
  else
    { data := (f.data ++ List.replicate (f.pos - f.data.length) 0).take f.pos ++ p ++ f.data.drop (f.pos + p.length)
      pos := f.pos + p.length }

/-- `Seek` to an absolute position. -/
def File.seek (f : File) (n : Nat) : File := { f with pos := n }

/-- `replay.go:273-278` `sizedWriter`, with its file. -/
structure Writer where
  started : Bool := false
  off : Nat := 0
  size : Nat := 0
  ws : File
deriving DecidableEq, Repr

/-- `replay.go:280-295` `Write`. -/
def Writer.write (w : Writer) (p : Bytes) : Writer :=
  let w := if w.started then w else { w with ws := w.ws.seek (w.ws.pos + 8), off := w.ws.pos, started := true }
  { w with ws := w.ws.write p, size := w.size + p.length }

/-- `binary.BigEndian.PutUint64`. -/
def be64 (n : Nat) : Bytes := (List.range 8).map fun i => UInt8.ofNat (n / 256 ^ (7 - i) % 256)

/-- `binary.BigEndian.Uint64`, of eight bytes. -/
def unbe64 (b : Bytes) : Nat := b.foldl (fun n x => n * 256 + x.toNat) 0

/-- `replay.go:297-320` `Finish`. -/
def Writer.finish (w : Writer) : Writer :=
  if !w.started then w
  else
    let off := w.ws.pos
    let ws := ((w.ws.seek w.off).write (be64 (w.size % 2 ^ 64))).seek off
    { ws, off := w.off + w.size, size := 0, started := false }

/-- A section written in chunks. -/
def section_ (f : File) (chunks : List Bytes) : File :=
  ((chunks.foldl Writer.write { ws := f }).finish).ws

/-- A read of at most `n > 0` bytes; how many there are at once is up to the system (`k`), but
there is at least one unless at the end.  Returns the bytes, and the file. -/
def File.read (f : File) (n k : Nat) : Bytes × File :=
  let t := min (min n (max 1 k)) (f.data.length - f.pos)
  ((f.data.drop f.pos).take t, { f with pos := f.pos + t })

/-- `ioutil.ReadAll(io.LimitReader(r, n))`: reads until the limit or the end; the list tells
how much each read gets at once. -/
def readLimited : Nat → Nat → List Nat → File → Bytes × File
  | 0, _, _, f => ([], f)
  | _ + 1, 0, _, f => ([], f)
  | fuel + 1, n, ks, f =>
    let r := f.read n (ks.headD 0)
    if r.1 = [] then ([], f)
    else
      let q := readLimited fuel (n - r.1.length) ks.tail r.2
      (r.1 ++ q.1, q.2)

/-- `replay.go:256-263` `readSized`: `k` bytes come with the first read, and the list tells how
much the later ones get.  `none`: an error (the end of the file).  A size of 2^63 or more is
negative as `int64`, and nothing is read.  (Each read gets at least one byte, so as many reads
as there are bytes are enough.) -/
def readSized (f : File) (k : Nat) (ks : List Nat) : Option (Bytes × File) :=
  let r := f.read 8 k
  if r.1 = [] then none
  else
    let size := unbe64 (r.1 ++ List.replicate (8 - r.1.length) 0)
    some (readLimited f.data.length (if size < 2 ^ 63 then size else 0) ks r.2)

end Szd
end Anansi
