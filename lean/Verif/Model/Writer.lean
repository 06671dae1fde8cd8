import Verif.Model.Rle
import Verif.Model.Image
/-!
# Byte sinks: xcf/writer.go and the `byteio` sticky writer

`byteio.StickyBigEndianWriter` (third party, not in /repo) is modelled from its documentation: once
`Err` is set nothing more is written; every `WriteUintN` and every `Write` is one `Write` call of the
underlying writer, whose error is kept.

The destination is an `io.WriterAt`.  Whether the `k`-th `WriteAt` call succeeds, and how many bytes
a failing one manages to write, is decided by an oracle (`WEnv.sink`).  A call that fails has
written at most the bytes it was given.
Simplification: positions (`int64`) are natural numbers.
-/
namespace Limage

/-- one `WriteAt(data, off)` call; `failed = some n` if it returned an error after `n` bytes; `seq`
tells whether it was made by the main writer (not a pointer writer) -/
structure WCall where
  off : Nat
  data : Bytes
  failed : Option Nat
  seq : Bool
deriving DecidableEq, Repr

/-- What the encoder does not control: the results of the `WriteAt` calls, the random numbers drawn
by `Dissolve` layers, and the text parasite of a text layer of the given size (text.go:207-245;
`none` = panic). -/
structure WEnv where
  sink : Nat → Option Nat
  ρ : Nat → UInt16
  text : TextData → UInt32 → UInt32 → Option Bytes

/-- The main writer (xcf/writer.go:10-13): position of `writerAtWriter`, the sticky error (as the
number of the call that failed), the number of `WriteAt` calls so far and of random numbers drawn. -/
structure WS where
  pos : Nat
  err : Option Nat
  calls : Nat
  draws : Nat
deriving DecidableEq, Repr

/-- computations that write; the result holds the calls made, in order; `none` = panic -/
def W (α : Type) := WEnv → WS → Option (α × WS × List WCall)

/-- sequencing -/
def W.bind {α β : Type} (m : W α) (f : α → W β) : W β := fun env s =>
  match m env s with
  | none => none
  | some (a, s, l) =>
    match f a env s with
    | none => none
    | some (b, s, l') => some (b, s, l ++ l')

instance : Monad W where
  pure a := fun _ s => some (a, s, [])
  bind := W.bind

/-- a Go panic -/
def W.panic {α : Type} : W α := fun _ _ => none

/-- a value that may be missing: nil dereference -/
def W.get {α : Type} (o : Option α) : W α := fun _ s => o.map fun a => (a, s, [])

/-- `writerAtWriter.Write` at `pos` (xcf/writer.go:94-99): the number of bytes written, the error and
the call. -/
def writeCall (env : WEnv) (seq : Bool) (k pos : Nat) (p : Bytes) : Nat × Option Nat × WCall :=
  match env.sink k with
  | none => (p.length, none, ⟨pos, p, none, seq⟩)
  | some n => (min n p.length, some k, ⟨pos, p, some (min n p.length), seq⟩)

/-- xcf/writer.go:37-39 `Write` (and `byteio`'s `WriteUintN`): nothing once an error is set. -/
def write (p : Bytes) : W Unit := fun env s =>
  match s.err with
  | some _ => some ((), s, [])
  | none =>
    let (n, e, c) := writeCall env true s.calls s.pos p
    some ((), { s with pos := s.pos + n, err := e, calls := s.calls + 1 }, [c])

/-- several writes -/
def writeAll : List Bytes → W Unit
  | [] => pure ()
  | p :: ps => do
    write p
    writeAll ps

/-- `byteio` `WriteUint8` -/
def writeUint8 (x : UInt8) : W Unit := write (be 1 x.toNat)
/-- `byteio` `WriteUint32`, and `WriteInt32` of the `int32` with the same bits -/
def writeUint32 (x : UInt32) : W Unit := write (be 4 x.toNat)

/-- several numbers -/
def writeUint32s : List UInt32 → W Unit
  | [] => pure ()
  | x :: xs => do
    writeUint32 x
    writeUint32s xs

/-- xcf/writer.go:41-45 `WriteString`. -/
def writeString (s : GoString) : W Unit := do
  writeUint32 (UInt32.ofNat s.length + 1)
  write s
  writeUint8 0

/-- `uint32(e.pos)` -/
def currentPos : W UInt32 := fun _ s => some (UInt32.ofNat s.pos, s, [])

/-- xcf/writer.go:47-51 `pointerWriter`: position and sticky error of `bw`, and `toWrite`; `obw` is the
main writer. -/
structure PW where
  pos : Nat
  err : Option Nat
  toWrite : UInt32
deriving DecidableEq, Repr

/-- xcf/writer.go:53-62 `WritePointer`: the changed pointer writer. -/
def writePointer (p : PW) (ptr : UInt32) : W PW := fun env s =>
  if p.toWrite > 0 then
    match p.err with
    | some e => some ({ p with toWrite := p.toWrite - 1 }, { s with err := some e }, [])
    | none =>
      let (n, e, c) := writeCall env false s.calls p.pos (be 4 ptr.toNat)
      some (⟨p.pos + n, e, p.toWrite - 1⟩,
        { s with err := (match e with | some e => some e | none => s.err), calls := s.calls + 1 }, [c])
  else some (p, s, [])

/-- xcf/writer.go:64-79 `ReservePointers`. -/
def reservePointers (n : UInt32) : W PW := fun _ s =>
  some (⟨s.pos, none, n⟩, { s with pos := s.pos + n.toNat * 4 }, [])

/-- xcf/writer.go:81-87 `ReservePointerList`. -/
def reservePointerList (n : UInt32) : W PW := do
  let pw ← reservePointers n
  writeUint32 0
  return pw

/-- `At` of an image, drawing random numbers from the common source -/
def pixelAt (i : Img) (p : Pt) : W Color := fun env s =>
  match i.at env.ρ p s.draws with
  | none => none
  | some (c, n) => some (c, { s with draws := n }, [])

end Limage
