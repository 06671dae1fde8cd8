/-!
# Byte sources: xcf/reader.go, xcf/skip.go and the `byteio` sticky reader

`byteio.StickyBigEndianReader` (third party, not in /repo) is modelled from its documentation: once
`Err` is set every read returns zero and leaves the source alone; `ReadUintN` reads with
`io.ReadFull`; `Read` forwards one `Read` call and keeps its error.

The source is an `io.SectionReader` over an `io.ReaderAt` holding `data` (or a `memio.Buffer`, for
which `limit = data.length`).  Simplification: `ReadAt` never fails for other reasons than the end
of the data, and reports the end only when it returns fewer bytes than asked.  `Verif.Model.Failing`
has sources whose calls fail at any time, and C154 how they relate to these.
-/
namespace Limage

/-- byte strings (also Go's `string`) -/
abbrev Bytes := List UInt8

/-- Result of running code that can panic or loop forever. -/
inductive Outcome (α : Type) where
  | ok (a : α)
  | panic
  | hang
deriving DecidableEq, Repr

/-- continue with the result, if there is one -/
def Outcome.bind {α β : Type} (x : Outcome α) (f : α → Outcome β) : Outcome β :=
  match x with
  | .ok a => f a
  | .panic => .panic
  | .hang => .hang

instance : Monad Outcome where
  pure := .ok
  bind := Outcome.bind

/-- The errors the xcf package can return (xcf/*.go, "Errors" sections), and the two of package io. -/
inductive Err where
  | eof
  | unexpectedEOF
  | invalidString
  | stringTooLong
  | invalidFileTypeID
  | unsupportedVersion
  | invalidHeader
  | invalidProperties
  | invalidOpacity
  | invalidGuideLength
  | invalidUnit
  | invalidSampleLength
  | invalidGroup
  | unknownCompression
  | missingAlpha
  | needReaderAt
  | invalidBoolean
  | invalidLayerType
  | invalidItemPathLength
  | inconsistentData
  | invalidParasites
  | invalidRLE
  | unknownPathsVersion
  | unknownVectorVersion
  | unknownStrokeType
  | invalidFloatsNumber
  | inconsistentClosedState
deriving DecidableEq, Repr

/-- xcf/reader.go:11-14: the section reader (contents, limit, position) and the sticky error. -/
structure R where
  data : Bytes
  limit : Nat
  pos : Nat
  err : Option Err
deriving DecidableEq, Repr

/-- computations that read from the source; can panic or hang -/
def M (α : Type) := R → Outcome (α × R)

/-- sequencing -/
def M.bind {α β : Type} (m : M α) (f : α → M β) : M β := fun r =>
  match m r with
  | .ok (a, r) => f a r
  | .panic => .panic
  | .hang => .hang

instance : Monad M where
  pure a := fun r => .ok (a, r)
  bind := M.bind

/-- a Go panic -/
def M.panic {α : Type} : M α := fun _ => .panic
/-- a loop that ran out of fuel -/
def M.hang {α : Type} : M α := fun _ => .hang

/-- xcf/reader.go:26 `maxString`, 16 MiB; also the length of the section (reader.go:18). -/
def maxString : Nat := 16777216

/-- xcf/reader.go:16-24 `newReader`. -/
def newReader (data : Bytes) : R := ⟨data, maxString, 0, none⟩

/-- the sticky error -/
def getErr : M (Option Err) := fun r => .ok (r.err, r)
/-- assignment to `r.Err` -/
def putErr (e : Option Err) : M Unit := fun r => .ok ((), { r with err := e })
/-- xcf/reader.go:60-64 `SetError`. -/
def setError (e : Err) : M Unit := fun r => .ok ((), { r with err := r.err.or (some e) })

/-- One `Read(p)` call through the sticky reader: `p` is the buffer, the result its new contents.
`io.SectionReader.Read` (standard library): end of file at or beyond the limit, otherwise one
`ReadAt` of at most the bytes up to the limit. -/
def readInto (p : Bytes) : M Bytes := fun r =>
  match r.err with
  | some _ => .ok (p, r)
  | none =>
    if r.limit ≤ r.pos then .ok (p, { r with err := some .eof })
    else
      let m := min p.length (r.limit - r.pos)
      let got := (r.data.drop r.pos).take m
      .ok (got ++ p.drop got.length,
        { r with pos := r.pos + got.length, err := if got.length < m then some .eof else none })

/-- `io.ReadFull` of `n` bytes through the sticky reader, `[]` on failure. -/
def readFull (n : Nat) : M Bytes := fun r =>
  match r.err with
  | some _ => .ok ([], r)
  | none =>
    let got := (r.data.drop r.pos).take (min n (r.limit - r.pos))
    if got.length = n then .ok (got, { r with pos := r.pos + n })
    else .ok ([], { r with pos := r.pos + got.length,
                           err := some (if got.length = 0 then .eof else .unexpectedEOF) })

/-- big-endian value of a byte string -/
def fromBE (b : Bytes) : Nat := b.foldl (fun a x => a * 256 + x.toNat) 0

/-- `byteio` `ReadUint8`, `ReadUint16`, `ReadUint32`, `ReadUint64`: zero on failure. -/
def readUint8 : M UInt8 := do return UInt8.ofNat (fromBE (← readFull 1))
def readUint16 : M UInt16 := do return UInt16.ofNat (fromBE (← readFull 2))
def readUint32 : M UInt32 := do return UInt32.ofNat (fromBE (← readFull 4))
def readUint64 : M UInt64 := do return UInt64.ofNat (fromBE (← readFull 8))

/-- xcf/reader.go:56-58 `Goto`: `Seek(int64(n), io.SeekStart)`; a negative offset is an error that is
ignored, leaving the position. -/
def goto (n : UInt64) : M Unit := fun r =>
  .ok ((), if n.toNat < 2 ^ 63 then { r with pos := n.toNat } else r)

/-- xcf/skip.go:5-7 `Skip`: seeks forward, even when an error is set and beyond the end. -/
def skip (n : UInt32) : M Unit := fun r => .ok ((), { r with pos := r.pos + n.toNat })

/-- Go's `utf8.Valid` (standard library): the accepted second bytes per leading byte. -/
def utf8Valid : Bytes → Bool
  | [] => true
  | b0 :: s =>
    if b0 < 0x80 then utf8Valid s
    else if b0 < 0xc2 then false
    else if b0 < 0xe0 then
      match s with
      | b1 :: s => 0x80 ≤ b1 && b1 ≤ 0xbf && utf8Valid s
      | _ => false
    else if b0 < 0xf0 then
      match s with
      | b1 :: b2 :: s =>
        (if b0 = 0xe0 then 0xa0 else 0x80) ≤ b1 && b1 ≤ (if b0 = 0xed then 0x9f else 0xbf) &&
          0x80 ≤ b2 && b2 ≤ 0xbf && utf8Valid s
      | _ => false
    else if b0 < 0xf5 then
      match s with
      | b1 :: b2 :: b3 :: s =>
        (if b0 = 0xf0 then 0x90 else 0x80) ≤ b1 && b1 ≤ (if b0 = 0xf4 then 0x8f else 0xbf) &&
          0x80 ≤ b2 && b2 ≤ 0xbf && 0x80 ≤ b3 && b3 ≤ 0xbf && utf8Valid s
      | _ => false
    else false

/-- xcf/reader.go:28-54 `ReadString`. -/
def readString : M Bytes := do
  let length ← readUint32
  if length = 0 then return []
  else if length.toNat > maxString then
    setError .stringTooLong
    return []
  else
    let b ← readFull length.toNat
    if (← getErr).isSome then return []
    -- b[length-1] != 0 || !utf8.Valid(b[:length-1])
    if b.getLast? ≠ some 0 || !utf8Valid b.dropLast then
      setError .invalidString
      return []
    else return b.dropLast

/-! ### xcf/skip.go -/

/-- xcf/skip.go:9-11 -/
def skipBoolProperty : M Unit := skip 4
/-- xcf/skip.go:13-15 -/
def skipByte : M Unit := skip 1
/-- xcf/skip.go:17-19 -/
def skipUint32 : M Unit := skip 4
/-- xcf/skip.go:21-23 -/
def skipFloat32 : M Unit := skip 4
/-- xcf/skip.go:25-27 -/
def skipString : M Unit := do skip (← readUint32)
/-- xcf/skip.go:33-37 -/
def skipParasite : M Unit := do
  skipString
  skipUint32
  skip (← readUint32)

/-- `for i := uint32(0); i < n; i++ { m }` where `m` returns false to `return` from the function -/
def forN : Nat → M Bool → M Unit
  | 0, _ => pure ()
  | n + 1, m => do if ← m then forN n m else pure ()

/-- like `forN`, telling whether the loop ran to its end -/
def forN' : Nat → M Bool → M Bool
  | 0, _ => pure true
  | n + 1, m => do if ← m then forN' n m else pure false

/-- xcf/skip.go:39-67 `SkipPaths`. -/
def skipPaths : M Unit := do
  skipUint32
  let n ← readUint32
  forN n.toNat do
    skipString
    skipBoolProperty
    skipByte
    skipBoolProperty
    let np ← readUint32
    let v ← readUint32
    if v = 1 then
      skip (12 * np)
      return true
    else if v = 2 then
      skipUint32
      skip (12 * np)
      return true
    else if v = 3 then
      skipUint32
      skipUint32
      skip (12 * np)
      return true
    else
      setError .unknownPathsVersion
      return false

/-- xcf/skip.go:69-122 `SkipVectors`. -/
def skipVectors : M Unit := do
  if (← readUint32) ≠ 1 then
    setError .unknownVectorVersion
  else
    skipUint32
    let n ← readUint32
    forN n.toNat do
      skipString
      skipUint32
      skipBoolProperty
      skipBoolProperty
      let m ← readUint32
      let k ← readUint32
      forN m.toNat do
        skipParasite
        return true
      forN' k.toNat do
        if (← readUint32) ≠ 1 then
          setError .unknownStrokeType
          return false
        else
          skipBoolProperty
          let nf ← readUint32
          let np ← readUint32
          if 2 ≤ nf ∧ nf ≤ 6 then
            skip (np * (nf * 4 + 1))
            return true
          else
            setError .invalidFloatsNumber
            return false

/-- xcf/props.go:48-59 `ReadBoolProperty`. -/
def readBoolProperty : M Bool := do
  let x ← readUint32
  if x = 0 then return false
  else if x = 1 then return true
  else
    setError .invalidBoolean
    return false

end Limage
