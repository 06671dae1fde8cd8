import Verif.Model.Reader
/-!
# Run-length encoding: xcf/rle.go
-/
namespace Limage

/-- xcf/rle.go:11-16 `rle`, without the reader. -/
structure Rle where
  repeatByte : Bool
  data : UInt8
  count : UInt16
deriving DecidableEq, Repr

/-- a new `rle` -/
def Rle.start : Rle := ⟨false, 0, 0⟩

/-- xcf/rle.go:29-43: the fields set by the opcode `m` -/
def rleHead (s : Rle) (m : UInt8) : M Rle :=
  if m < 127 then do
    let d ← readUint8
    return ⟨true, d, m.toUInt16 + 1⟩
  else if m = 127 then do
    let c ← readUint16
    let d ← readUint8
    return ⟨true, d, c⟩
  else if m = 128 then do
    let c ← readUint16
    return ⟨false, s.data, c⟩
  else return ⟨false, s.data, 256 - m.toUInt16⟩

/-- xcf/rle.go:22-52: reading the next opcode.  The result is the new state, and the error returned
from `Read` if any. -/
def rleOp (s : Rle) : M (Rle × Option Err) := do
  let m ← readUint8
  match ← getErr with
  | some e => return (s, some e)
  | none =>
    let s ← rleHead s m
    match ← getErr with
    | some e =>
      let e := if e = .eof then .unexpectedEOF else e
      putErr (some e)
      return (s, some e)
    | none => return (s, none)

/-- xcf/rle.go:60-66: copying of `c` bytes (`c` = number of bytes still to be produced by the
current opcode, at most the length of the buffer `p`) into `p`. -/
def rleCopy (s : Rle) (c : Nat) (p : Bytes) : M Bytes :=
  if s.repeatByte then pure (List.replicate c s.data)
  else readInto (p.take c)

/-- xcf/rle.go:18-78 `rle.Read`: `p` is the buffer.  Result: new contents of the buffer, new state,
returned error.  One unit of fuel per iteration. -/
def rleRead : Nat → Rle → Bytes → M (Bytes × Rle × Option Err)
  | 0, _, _ => M.hang
  | fuel + 1, s, p => do
    let e ← getErr
    if p.isEmpty || e.isSome then
      if s.count ≠ 0 && e.isNone then return (p, s, some .invalidRLE) else return (p, s, e)
    else
      let (s, e) ← if s.count = 0 then rleOp s else pure (s, none)
      match e with
      | some e => return (p, s, some e)
      | none =>
        let c := min s.count.toNat p.length
        let w ← rleCopy s c p
        let (rest, s, e) ← rleRead fuel { s with count := s.count - UInt16.ofNat c } (p.drop c)
        return (w ++ rest, s, e)

/-- enough fuel for `rleRead` (proved in `Verif.Props.Rle`): every iteration produces or consumes a
byte -/
def rleFuel (r : R) (p : Bytes) : Nat := p.length + r.data.length + 2

/-- `rle.Read` with enough fuel -/
def rleReadAll (s : Rle) (p : Bytes) : M (Bytes × Rle × Option Err) := fun r =>
  rleRead (rleFuel r p) s p r

/-! ### Writing.  The result is the list of `Write` calls. -/

/-- big-endian representation in `k` bytes (`byteio` `WriteUint8/16/32`) -/
def be : Nat → Nat → Bytes
  | 0, _ => []
  | k + 1, x => UInt8.ofNat (x / 256 ^ k) :: be k x

/-- xcf/rle.go:143-152 (and :128-129): the opcode for a run -/
def rleRun (run : Nat) (last : UInt8) : List Bytes :=
  if run < 128 then [be 1 (run - 1), [last]]
  else [be 1 127, be 2 (UInt16.ofNat run).toNat, [last]]

/-- xcf/rle.go:131-140: the opcode for a literal -/
def rleLit (data : Bytes) : List Bytes :=
  if data.length < 128 then [be 1 (255 - UInt8.ofNat (data.length - 1)).toNat, data]
  else [be 1 128, be 2 (UInt16.ofNat data.length).toNat, data]

/-- xcf/rle.go:80 `minRunLength` -/
def minRunLength : Nat := 3

/-- xcf/rle.go:113-153 `WriteRLEData`. -/
def writeRLEData (data : Bytes) (run : Nat) (last : UInt8) : List Bytes :=
  (match data with
   | [] => []
   | b0 :: _ =>
     if data.length ≤ minRunLength && data.all (· = b0) then rleRun data.length b0 else rleLit data) ++
  (if run > 0 then rleRun run last else [])

/-- Go slice expression `data[a:b]`; `none` = panic. -/
def slice (data : Bytes) (a b : Nat) : Option Bytes :=
  if a ≤ b ∧ b ≤ data.length then some ((data.take b).drop a) else none

/-- xcf/rle.go:91-104, the loop of `WriteRLE` over the remaining bytes; `n` is the index of the
first of them.  Result: writes, run, written, last. -/
def rleScan (data : Bytes) : Bytes → (n run written : Nat) → UInt8 →
    Option (List Bytes × Nat × Nat × UInt8)
  | [], _, run, written, last => some ([], run, written, last)
  | b :: rest, n, run, written, last =>
    if b = last then rleScan data rest (n + 1) (run + 1) written b
    else if run > minRunLength then do
      let lit ← slice data written (n - run)
      let (ws, x) ← rleScan data rest (n + 1) 1 n b
      return (writeRLEData lit run last ++ ws, x)
    else rleScan data rest (n + 1) 1 written b

/-- xcf/rle.go:82-111 `WriteRLE`. `none` = panic. -/
def writeRLE (data : Bytes) : Option (List Bytes) :=
  match data with
  | [] => some []
  | b0 :: _ => do
    let (ws, run, written, last) ← rleScan data data 0 0 0 b0
    let run := if run ≤ minRunLength && run < data.length then 0 else run
    let lit ← slice data written (data.length - run)
    return ws ++ writeRLEData lit run last

/-! ### Copying a channel without decompressing it -/

/-- `io.CopyN(buf, d, n)`: `Read` calls until `n` bytes were copied or one fails. -/
def copyN (n : Nat) : M Bytes := fun r =>
  match r.err with
  | some _ => .ok ([], r)
  | none =>
    let got := (r.data.drop r.pos).take (min n (r.limit - r.pos))
    .ok (got, { r with pos := r.pos + got.length, err := if got.length < n then some .eof else none })

/-- xcf/rle.go:163-186: what follows the opcode `c` in the copy, and the number of output bytes. -/
def copyOp (c : UInt8) : M (Bytes × Nat) :=
  if c < 127 then do
    let d ← readUint8
    return ([d], c.toNat + 1)
  else if c = 127 then do
    let p ← readUint16
    let d ← readUint8
    return (be 2 p.toNat ++ [d], p.toNat)
  else if c = 128 then do
    let p ← readUint16
    let d ← copyN p.toNat
    return (be 2 p.toNat ++ d, p.toNat)
  else do
    let d ← copyN (256 - c.toNat)
    return (d, 256 - c.toNat)

/-- xcf/rle.go:155-194 `readRLE`: `count` bytes of output expected.  Result: the bytes copied and
the error returned.  One unit of fuel per iteration. -/
def readRLE : Nat → Int → M (Bytes × Option Err)
  | 0, _ => M.hang
  | fuel + 1, count =>
    if count ≤ 0 then pure ([], if count < 0 then some .invalidRLE else none)
    else do
      let c ← readUint8
      let (out, n) ← copyOp c
      let (rest, e) ← readRLE fuel (count - n)
      return (c :: out ++ rest, e)

end Limage
