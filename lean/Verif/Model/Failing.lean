import Verif.Model.XcfDecode
/-!
# Reading from a source that can fail: xcf/reader.go and everything that reads from it, again

`Verif.Model.Reader` has a source whose reads only fail at the end of the data.  Here every call can
fail: a file on a disk that is going bad, a connection that is closed and opened again.  The plan of
a source says for each of its calls whether it fails, after how many bytes and with which error.
The calls are counted; seeking cannot fail (`io.SectionReader.Seek` makes no calls).

Everything that reads is defined again, word for word, over this source; only the three operations
that call the source (`readInto`, `readFull`, `copyN`) differ.  The names are those of the original
in the namespace `Limage.Failing`.

Simplifications: several calls made by one `io.ReadFull` or `io.CopyN` count as one (the first that
fails ends the operation); a failure is one of the values of `Err` (nothing in /repo looks at an
error of the source except to compare it with `io.EOF`, which is among them).
-/
namespace Limage.Failing

/-- xcf/reader.go:11-14, as `Limage.R`, with the plan of the failures and the number of calls made -/
structure R where
  data : Bytes
  limit : Nat
  pos : Nat
  err : Option Err
  plan : Nat → Option (Nat × Err)
  calls : Nat

/-- computations that read from the source -/
def M (α : Type) := R → Outcome (α × R)

/-- sequencing -/
def M.bind {α β : Type} (m : M α) (f : α → M β) : M β := fun r =>
  match m r with
  | .ok (a, r) => f a r
  | .panic => .panic
  | .hang => .hang

instance : Monad M where
  pure a := fun r => .ok (a, r)
  bind := M.bind

/-- a Go panic -/
def M.panic {α : Type} : M α := fun _ => .panic
/-- a loop that ran out of fuel -/
def M.hang {α : Type} : M α := fun _ => .hang

/-- xcf/reader.go:16-24 `newReader`. -/
def newReader (plan : Nat → Option (Nat × Err)) (data : Bytes) : R := ⟨data, maxString, 0, none, plan, 0⟩

/-- One `Read(p)` call through the sticky reader, as `Limage.readInto`.  A failing call delivers at
most the planned number of bytes; its error is kept even when that is all that was asked for. -/
def readInto (p : Bytes) : M Bytes := fun r =>
  match r.err with
  | some _ => .ok (p, r)
  | none =>
    if r.limit ≤ r.pos then .ok (p, { r with err := some .eof })
    else
      let m := min p.length (r.limit - r.pos)
      match r.plan r.calls with
      | none =>
        let got := (r.data.drop r.pos).take m
        .ok (got ++ p.drop got.length,
          { r with pos := r.pos + got.length, err := if got.length < m then some .eof else none,
                   calls := r.calls + 1 })
      | some (k, e) =>
        let got := (r.data.drop r.pos).take (min k m)
        .ok (got ++ p.drop got.length,
          { r with pos := r.pos + got.length, err := some e, calls := r.calls + 1 })

/-- `io.ReadFull` of `n` bytes through the sticky reader, as `Limage.readFull`.  It ignores an error
that comes with the last of the bytes, and turns the end of file after some bytes into
`io.ErrUnexpectedEOF`. -/
def readFull (n : Nat) : M Bytes := fun r =>
  match r.err with
  | some _ => .ok ([], r)
  | none =>
    match r.plan r.calls with
    | none =>
      let got := (r.data.drop r.pos).take (min n (r.limit - r.pos))
      if got.length = n then .ok (got, { r with pos := r.pos + n, calls := r.calls + 1 })
      else .ok ([], { r with pos := r.pos + got.length, calls := r.calls + 1,
                             err := some (if got.length = 0 then .eof else .unexpectedEOF) })
    | some (k, e) =>
      let got := (r.data.drop r.pos).take (min (min k n) (r.limit - r.pos))
      if got.length = n then .ok (got, { r with pos := r.pos + n, calls := r.calls + 1 })
      else .ok ([], { r with pos := r.pos + got.length, calls := r.calls + 1,
                             err := some (if e = .eof ∧ got.length ≠ 0 then .unexpectedEOF else e) })

/-- `io.CopyN(buf, d, n)`, as `Limage.copyN`: the sticky reader keeps the error of a failing call.
Simplification: Go makes no call for `n = 0`; here one is counted, which may fail (what Go does is
what happens here for a plan that does not let it fail). -/
def copyN (n : Nat) : M Bytes := fun r =>
  match r.err with
  | some _ => .ok ([], r)
  | none =>
    match r.plan r.calls with
    | none =>
      let got := (r.data.drop r.pos).take (min n (r.limit - r.pos))
      .ok (got, { r with pos := r.pos + got.length, err := if got.length < n then some .eof else none,
                         calls := r.calls + 1 })
    | some (k, e) =>
      let got := (r.data.drop r.pos).take (min (min k n) (r.limit - r.pos))
      .ok (got, { r with pos := r.pos + got.length, err := some e, calls := r.calls + 1 })


/-! ### The functions of `Verif.Model.Reader` over this source -/

/-- the sticky error -/
def getErr : M (Option Err) := fun r => .ok (r.err, r)

/-- assignment to `r.Err` -/
def putErr (e : Option Err) : M Unit := fun r => .ok ((), { r with err := e })

/-- xcf/reader.go:60-64 `SetError`. -/
def setError (e : Err) : M Unit := fun r => .ok ((), { r with err := r.err.or (some e) })

/-- `byteio` `ReadUint8`, `ReadUint16`, `ReadUint32`, `ReadUint64`: zero on failure. -/
def readUint8 : M UInt8 := do return UInt8.ofNat (fromBE (← readFull 1))

def readUint16 : M UInt16 := do return UInt16.ofNat (fromBE (← readFull 2))

def readUint32 : M UInt32 := do return UInt32.ofNat (fromBE (← readFull 4))

def readUint64 : M UInt64 := do return UInt64.ofNat (fromBE (← readFull 8))

/-- xcf/reader.go:56-58 `Goto`: `Seek(int64(n), io.SeekStart)`; a negative offset is an error that is
ignored, leaving the position. -/
def goto (n : UInt64) : M Unit := fun r =>
  .ok ((), if n.toNat < 2 ^ 63 then { r with pos := n.toNat } else r)

/-- xcf/skip.go:5-7 `Skip`: seeks forward, even when an error is set and beyond the end. -/
def skip (n : UInt32) : M Unit := fun r => .ok ((), { r with pos := r.pos + n.toNat })

/-- xcf/reader.go:28-54 `ReadString`. -/
def readString : M Bytes := do
  let length ← readUint32
  if length = 0 then return []
  else if length.toNat > maxString then
    setError .stringTooLong
    return []
  else
    let b ← readFull length.toNat
    if (← getErr).isSome then return []
    -- b[length-1] != 0 || !utf8.Valid(b[:length-1])
    if b.getLast? ≠ some 0 || !utf8Valid b.dropLast then
      setError .invalidString
      return []
    else return b.dropLast

/-- xcf/skip.go:9-11 -/
def skipBoolProperty : M Unit := skip 4

/-- xcf/skip.go:13-15 -/
def skipByte : M Unit := skip 1

/-- xcf/skip.go:17-19 -/
def skipUint32 : M Unit := skip 4

/-- xcf/skip.go:21-23 -/
def skipFloat32 : M Unit := skip 4

/-- xcf/skip.go:25-27 -/
def skipString : M Unit := do skip (← readUint32)

/-- xcf/skip.go:33-37 -/
def skipParasite : M Unit := do
  skipString
  skipUint32
  skip (← readUint32)

/-- `for i := uint32(0); i < n; i++ { m }` where `m` returns false to `return` from the function -/
def forN : Nat → M Bool → M Unit
  | 0, _ => pure ()
  | n + 1, m => do if ← m then forN n m else pure ()

/-- like `forN`, telling whether the loop ran to its end -/
def forN' : Nat → M Bool → M Bool
  | 0, _ => pure true
  | n + 1, m => do if ← m then forN' n m else pure false

/-- xcf/skip.go:39-67 `SkipPaths`. -/
def skipPaths : M Unit := do
  skipUint32
  let n ← readUint32
  forN n.toNat do
    skipString
    skipBoolProperty
    skipByte
    skipBoolProperty
    let np ← readUint32
    let v ← readUint32
    if v = 1 then
      skip (12 * np)
      return true
    else if v = 2 then
      skipUint32
      skip (12 * np)
      return true
    else if v = 3 then
      skipUint32
      skipUint32
      skip (12 * np)
      return true
    else
      setError .unknownPathsVersion
      return false

/-- xcf/skip.go:69-122 `SkipVectors`. -/
def skipVectors : M Unit := do
  if (← readUint32) ≠ 1 then
    setError .unknownVectorVersion
  else
    skipUint32
    let n ← readUint32
    forN n.toNat do
      skipString
      skipUint32
      skipBoolProperty
      skipBoolProperty
      let m ← readUint32
      let k ← readUint32
      forN m.toNat do
        skipParasite
        return true
      forN' k.toNat do
        if (← readUint32) ≠ 1 then
          setError .unknownStrokeType
          return false
        else
          skipBoolProperty
          let nf ← readUint32
          let np ← readUint32
          if 2 ≤ nf ∧ nf ≤ 6 then
            skip (np * (nf * 4 + 1))
            return true
          else
            setError .invalidFloatsNumber
            return false

/-- xcf/props.go:48-59 `ReadBoolProperty`. -/
def readBoolProperty : M Bool := do
  let x ← readUint32
  if x = 0 then return false
  else if x = 1 then return true
  else
    setError .invalidBoolean
    return false


/-! ### The functions of `Verif.Model.Rle` over this source -/

/-- xcf/rle.go:29-43: the fields set by the opcode `m` -/
def rleHead (s : Rle) (m : UInt8) : M Rle :=
  if m < 127 then do
    let d ← readUint8
    return ⟨true, d, m.toUInt16 + 1⟩
  else if m = 127 then do
    let c ← readUint16
    let d ← readUint8
    return ⟨true, d, c⟩
  else if m = 128 then do
    let c ← readUint16
    return ⟨false, s.data, c⟩
  else return ⟨false, s.data, 256 - m.toUInt16⟩

/-- xcf/rle.go:22-52: reading the next opcode.  The result is the new state, and the error returned
from `Read` if any. -/
def rleOp (s : Rle) : M (Rle × Option Err) := do
  let m ← readUint8
  match ← getErr with
  | some e => return (s, some e)
  | none =>
    let s ← rleHead s m
    match ← getErr with
    | some e =>
      let e := if e = .eof then .unexpectedEOF else e
      putErr (some e)
      return (s, some e)
    | none => return (s, none)

/-- xcf/rle.go:60-66: copying of `c` bytes (`c` = number of bytes still to be produced by the
current opcode, at most the length of the buffer `p`) into `p`. -/
def rleCopy (s : Rle) (c : Nat) (p : Bytes) : M Bytes :=
  if s.repeatByte then pure (List.replicate c s.data)
  else readInto (p.take c)

/-- xcf/rle.go:18-78 `rle.Read`: `p` is the buffer.  Result: new contents of the buffer, new state,
returned error.  One unit of fuel per iteration. -/
def rleRead : Nat → Rle → Bytes → M (Bytes × Rle × Option Err)
  | 0, _, _ => M.hang
  | fuel + 1, s, p => do
    let e ← getErr
    if p.isEmpty || e.isSome then
      if s.count ≠ 0 && e.isNone then return (p, s, some .invalidRLE) else return (p, s, e)
    else
      let (s, e) ← if s.count = 0 then rleOp s else pure (s, none)
      match e with
      | some e => return (p, s, some e)
      | none =>
        let c := min s.count.toNat p.length
        let w ← rleCopy s c p
        let (rest, s, e) ← rleRead fuel { s with count := s.count - UInt16.ofNat c } (p.drop c)
        return (w ++ rest, s, e)

/-- enough fuel for `rleRead` (proved in `Verif.Props.Rle`): every iteration produces or consumes a
byte -/
def rleFuel (r : R) (p : Bytes) : Nat := p.length + r.data.length + 2

/-- `rle.Read` with enough fuel -/
def rleReadAll (s : Rle) (p : Bytes) : M (Bytes × Rle × Option Err) := fun r =>
  rleRead (rleFuel r p) s p r

/-- xcf/rle.go:163-186: what follows the opcode `c` in the copy, and the number of output bytes. -/
def copyOp (c : UInt8) : M (Bytes × Nat) :=
  if c < 127 then do
    let d ← readUint8
    return ([d], c.toNat + 1)
  else if c = 127 then do
    let p ← readUint16
    let d ← readUint8
    return (be 2 p.toNat ++ [d], p.toNat)
  else if c = 128 then do
    let p ← readUint16
    let d ← copyN p.toNat
    return (be 2 p.toNat ++ d, p.toNat)
  else do
    let d ← copyN (256 - c.toNat)
    return (d, 256 - c.toNat)

/-- xcf/rle.go:155-194 `readRLE`: `count` bytes of output expected.  Result: the bytes copied and
the error returned.  One unit of fuel per iteration. -/
def readRLE : Nat → Int → M (Bytes × Option Err)
  | 0, _ => M.hang
  | fuel + 1, count =>
    if count ≤ 0 then pure ([], if count < 0 then some .invalidRLE else none)
    else do
      let c ← readUint8
      let (out, n) ← copyOp c
      let (rest, e) ← readRLE fuel (count - n)
      return (c :: out ++ rest, e)


/-! ### The functions of `Verif.Model.XcfImage` over this source -/

/-- `make([]T, n)` with elements of `size` bytes -/
def allocate (n size : Nat) : M Unit := if n * size > maxAlloc then M.panic else pure ()

/-- xcf/image_decode.go:84-90 `readLayerPointer` (also layer_decode.go:37-44, channel.go:14-18,
decoder.go:311-315). -/
def readPtr (mode : UInt32) : M UInt64 := do
  if mode < 2 then
    let p ← readUint32
    return p.toUInt64
  else readUint64

/-- `n` pointers, xcf/image_decode.go:95-103 -/
def readPtrs (mode : UInt32) : Nat → M (List UInt64)
  | 0 => pure []
  | n + 1 => do
    let p ← readPtr mode
    let ps ← readPtrs mode n
    return p :: ps

/-- xcf/image_decode.go:92-106 `readTiles`. -/
def readTiles (c : Ctx) (width height : Nat) : M (List UInt64) := do
  let n := tileCount width * tileCount height
  allocate n 8
  readPtrs c.mode n

/-- The loops `for y := uint32(0); y < height; y += 64 { for x := … { d.Goto(tiles[0]); … } }`
(image_decode.go:156-159, 206-209).  With a counter that wraps: no tile to visit if the other
dimension is zero (forever, if it is the outer counter); otherwise the pointers run out and
`tiles[0]` panics. -/
def tileLoop {σ : Type} (width height : Nat) (tiles : List UInt64) (s : σ)
    (body : Tile → σ → M σ) : M σ :=
  if width = 0 then if height > 0xffffffc0 then M.hang else pure s
  else if height = 0 then pure s
  else if width > 0xffffffc0 ∨ height > 0xffffffc0 then M.panic
  else go (tileGrid width height) tiles s
where
  /-- the tiles with their pointers -/
  go : List Tile → List UInt64 → σ → M σ
    | [], _, s => pure s
    | _ :: _, [], _ => M.panic
    | t :: ts, p :: ps, s => do
      goto p
      let s ← body t s
      go ts ps s

/-- assignment of a possibly nil error with `SetError` -/
def setErr? (e : Option Err) : M Unit :=
  match e with
  | none => pure ()
  | some e => setError e

/-- one tile, image_decode.go:159-190; the reader of line 146-150 is either the plain one or an
`rle` kept for the whole image. -/
def eagerTile (c : Ctx) (bpp : Nat) (t : Tile) (s : EagerState) : M EagerState := do
  let n := t.w * t.h * bpp
  if c.compression = 0 then
    let got ← readInto (s.buf.take n)
    let buf := got ++ s.buf.drop n
    return ⟨s.rle, buf, storeTile bpp t buf s.px⟩
  else
    let (got, rle, e) ← rleReadAll s.rle (s.buf.take n)
    setErr? e
    let buf := got ++ s.buf.drop n
    return ⟨rle, buf, storeTile bpp t buf s.px⟩

/-- xcf/image_decode.go:108-194 `readAndDecompressImage`; `none` = nil image.  An unknown `kind` has
no pixel reader: the first pixel panics. -/
def readEager (c : Ctx) (kind bpp width height : Nat) (tiles : List UInt64) : M (Option EagerImg) :=
  if kind < 6 then do
    allocate (width * height) (pixelSize kind)
    let s ← tileLoop width height tiles ⟨Rle.start, List.replicate 16384 0, fun _ _ => List.replicate bpp 0⟩
      (eagerTile c bpp)
    return some ⟨kind, width, height, c.palette, s.px⟩
  else do
    let _ ← tileLoop width height tiles () (fun _ _ => M.panic)
    return none

/-- `readRLE` with enough fuel (proved in `Verif.Props.Compressed`) -/
def readRLEAll (count : Nat) : M (Bytes × Option Err) := fun r =>
  readRLE (count + r.data.length + 2) count r

/-- image_decode.go:222-236: the channels of one tile -/
def readChannels (n : Nat) : Nat → M (List Bytes)
  | 0 => pure []
  | k + 1 => do
    let (b, e) ← readRLEAll n
    setErr? e
    let bs ← readChannels n k
    return b :: bs

/-- xcf/image_decode.go:196-256 `readCompressedImage`. -/
def readLazy (c : Ctx) (kind bpp width height : Nat) (tiles : List UInt64) : M (Option LazyImg) := do
  allocate tiles.length 24
  let ts ← tileLoop width height tiles [] fun t ts => do
    let bs ← readChannels (t.w * t.h) bpp
    return ts ++ [bs]
  if kind < 6 then return some ⟨kind, width, height, c.palette, ts⟩ else return none

/-- xcf/image_decode.go:15-42, the part of `ReadImage` in front of the tiles: bytes per pixel and tile
pointers; `none` = an error was set and nil returned. -/
def readLevel (c : Ctx) (width height kind : UInt32) : M (Option (UInt32 × List UInt64)) := do
  let twidth ← readUint32
  let theight ← readUint32
  if twidth ≠ width ∨ theight ≠ height then
    setError .inconsistentData
    return none
  else
    let bpp ← readUint32
    if ¬ bppOk kind bpp then
      setError .inconsistentData
      return none
    else
      let lptr ← readPtr c.mode
      goto lptr
      let w ← readUint32
      let h ← readUint32
      if w ≠ width ∨ h ≠ height then
        setError .inconsistentData
        return none
      else
        let tiles ← readTiles c width.toNat height.toNat
        let z ← readUint32
        if z ≠ 0 then
          setError .inconsistentData
          return none
        else return some (bpp, tiles)

/-- xcf/image_decode.go:14-51 `ReadImage`; `none` = nil image. -/
def readImage (c : Ctx) (width height kind : UInt32) : M (Option DecImg) := do
  match ← readLevel c width height kind with
  | none => return none
  | some (bpp, tiles) =>
    if c.decompress || c.compression = 0 then
      let im ← readEager c kind.toNat bpp.toNat width.toNat height.toNat tiles
      return im.map .eager
    else
      let im ← readLazy c kind.toNat bpp.toNat width.toNat height.toNat tiles
      return im.map .lazy


/-! ### The functions of `Verif.Model.XcfDecode` over this source -/

/-- xcf/parasites.go:36-65 `ReadParasites`; the sum of lengths is a `uint32`. -/
def readParasites : Nat → UInt32 → List Parasite → M (List Parasite)
  | 0, _, _ => M.hang
  | f + 1, l, ps =>
    if l = 0 then pure ps
    else do
      let name ← readString
      let flags ← readUint32
      let pplength ← readUint32
      let read := 4 + UInt32.ofNat name.length + 1 + 4 + 4 + pplength
      if read > l then
        setError .invalidParasites
        return []
      else
        let data ← readInto (List.replicate pplength.toNat 0)
        readParasites f (l - read) (ps ++ [⟨name, flags, data⟩])

/-- with enough fuel -/
def readParasitesAll (l : UInt32) : M (List Parasite) := fun r =>
  readParasites (l.toNat + r.data.length + 2) l [] r

/-- xcf/decoder.go:174-204 `readHeader`. -/
def readHeader : M (Except Err UInt32) := do
  let header ← readInto (List.replicate 14 0)
  match ← getErr with
  | some e => return .error e
  | none =>
    if header.take 9 ≠ fileTypeID then return .error .invalidFileTypeID
    else
      match versions.find? fun v => v.1 = (header.drop 9).take 4 with
      | none => return .error .unsupportedVersion
      | some v =>
        if header.getD 13 0 ≠ 0 then return .error .invalidHeader
        else return .ok v.2

/-- the colour map, decoder.go:250-258 -/
def readPalette : Nat → M (List Color)
  | 0 => pure []
  | n + 1 => do
    let r ← readUint8
    let g ← readUint8
    let b ← readUint8
    let cs ← readPalette n
    return .lrgb r g b :: cs

/-- One property of the image, decoder.go:227-300.  `error` is a direct return of that error. -/
def imageProp (baseType typ plength : UInt32) (s : IProps) : M (Except Err IProps) :=
  if typ = 9 ∨ typ = 28 ∨ typ = 8 then do -- propLinked, propLockContent, propVisible
    let _ ← readBoolProperty
    return .ok s
  else if typ = 6 then do -- propOpacity
    let o ← readUint32
    if o > 255 then return .error .invalidOpacity else return .ok s
  else if typ = 21 then do -- propParasites
    let _ ← readParasitesAll plength
    return .ok s
  else if typ = 20 then do -- propTattoo
    let _ ← readUint32
    return .ok s
  else if typ = 1 then do -- propColorMap
    skip (if baseType ≠ 2 then plength else 0)
    let n ← readUint32
    let p ← readPalette n.toNat
    return .ok { s with palette := p }
  else if typ = 17 then do -- propCompression
    let c ← readUint8
    if c > 1 then return .error .unknownCompression else return .ok { s with compression := c }
  else if typ = 18 then do -- propGuides
    if plength / 5 * 5 ≠ plength then return .error .invalidGuideLength
    else
      forN (plength / 5).toNat do
        skipUint32
        skipBoolProperty
        return true
      return .ok s
  else if typ = 23 then do -- propPaths
    skipPaths
    return .ok s
  else if typ = 19 then do -- propResolution
    skipFloat32
    skipFloat32
    return .ok s
  else if typ = 39 then do -- propSamplePoints
    if plength &&& 1 = 1 then return .error .invalidSampleLength
    else
      forN (plength >>> 1).toNat do
        skipUint32
        skipUint32
        return true
      return .ok s
  else if typ = 22 then do -- propUnit
    let u ← readUint32
    if u > 4 then return .error .invalidUnit else return .ok s
  else if typ = 24 then do -- propUserUnit
    skipFloat32
    skipUint32
    skipString
    skipString
    skipString
    skipString
    skipString
    return .ok s
  else if typ = 25 then do -- propVectors
    skipVectors
    return .ok s
  else do
    skip plength
    return .ok s

/-- xcf/decoder.go:206-305 `readImageProperties`. -/
def imageProps (baseType : UInt32) : Nat → IProps → M (Except Err IProps)
  | 0, _ => M.hang
  | f + 1, s => do
    let typ ← readUint32
    let plength ← readUint32
    if typ = 0 then -- propEnd
      if plength ≠ 0 then return .error .invalidProperties else return .ok s
    else
      match ← imageProp baseType typ plength s with
      | .error e => return .error e
      | .ok s => imageProps baseType f s

/-- with enough fuel -/
def readImageProperties (baseType : UInt32) : M (Except Err IProps) := fun r =>
  imageProps baseType (r.data.length + 2) ⟨[], 0⟩ r

/-- xcf/decoder.go:307-325 `readLayerPointers`. -/
def layerPointers (mode : UInt32) : Nat → List UInt64 → M (List UInt64)
  | 0, _ => M.hang
  | f + 1, ps => do
    let p ← readPtr mode
    if p = 0 then return ps else layerPointers mode f (ps ++ [p])

/-- with enough fuel -/
def readLayerPointers (mode : UInt32) : M (List UInt64) := fun r =>
  layerPointers mode (r.data.length + 2) [] r

/-- `n` numbers, layer_decode.go:241-243 -/
def readUint32s : Nat → M (List UInt32)
  | 0 => pure []
  | n + 1 => do
    let x ← readUint32
    let xs ← readUint32s n
    return x :: xs

/-- xcf/layer_decode.go:234-244 `readItemPath`. -/
def readItemPath (plength : UInt32) : M (List UInt32) := do
  setErr? (if plength &&& 3 ≠ 0 then some .invalidItemPathLength else none)
  readUint32s (plength >>> 2).toNat

/-- One property of a layer, layer_decode.go:91-148. -/
def layerProp (c : Ctx) (typ plength : UInt32) (s : LProps) : M LProps :=
  if typ = 9 ∨ typ = 28 ∨ typ = 11 ∨ typ = 12 ∨ typ = 10 ∨ typ = 13 then do
    -- propLinked, propLockContent, propApplyMask, propEditMask, propLockAlpha, propShowMask
    skipBoolProperty
    return s
  else if typ = 6 then do -- propOpacity
    let o ← readUint32
    setErr? (if o > 255 then some .invalidOpacity else none)
    return { s with transparency := 255 - o.toUInt8 }
  else if typ = 21 then do -- propParasites
    let ps ← readParasitesAll plength
    return { s with parasites := ps }
  else if typ = 20 ∨ typ = 5 ∨ typ = 31 ∨ typ = 26 then do
    -- propTattoo, propFloatingSelection, propGroupItemFlags, propTextLayerFlags
    skipUint32
    return s
  else if typ = 8 then do -- propVisible
    let v ← readBoolProperty
    return { s with invisible := !v }
  else if typ = 2 then return s -- propActiveLayer
  else if typ = 29 then return { s with group := true } -- propGroupItem
  else if typ = 30 then do -- propItemPath
    let p ← readItemPath plength
    return { s with itemPath := p }
  else if typ = 7 then do -- propMode
    let m ← readUint32
    return { s with mode := if c.baseType ≠ 0 then (if m = 2 then Mode.behind else Mode.normal) else modeOf m }
  else if typ = 15 then do -- propOffsets
    let x ← readUint32
    let y ← readUint32
    return { s with off := ⟨s.off.x + toInt32 x, s.off.y + toInt32 y⟩ }
  else if typ = 33 then do -- propFloatOpacity
    let f ← readUint32
    return { s with transparency := 255 - c.env.floatOpacity f }
  else do
    skip plength
    return s

/-- xcf/layer_decode.go:75-153 `readProperties`. -/
def layerProps (c : Ctx) : Nat → LProps → M LProps
  | 0, _ => M.hang
  | f + 1, s => do
    let typ ← readUint32
    let plength ← readUint32
    if typ = 0 then do
      setErr? (if plength ≠ 0 then some .invalidProperties else none)
      return s
    else
      let s ← layerProp c typ plength s
      layerProps c f s

/-- with enough fuel -/
def readLayerProperties (c : Ctx) : M LProps := fun r => layerProps c (r.data.length + 2) LProps.start r

/-- xcf/channel.go:29-51 `skipProperties`. -/
def skipProperties : Nat → M Unit
  | 0 => M.hang
  | f + 1 => do
    let typ ← readUint32
    let plength ← readUint32
    if typ = 0 then setErr? (if plength ≠ 0 then some .invalidProperties else none)
    else if typ = 6 then
      let o ← readUint32
      setErr? (if o > 255 then some .invalidOpacity else none)
      skipProperties f
    else
      skip plength
      skipProperties f

/-- with enough fuel -/
def skipPropertiesAll : M Unit := fun r => skipProperties (r.data.length + 2) r

/-- xcf/channel.go:5-27 `ReadChannel`: `none` = nil; the type assertion of line 23 panics for a
compressed image. -/
def readChannel (c : Ctx) : M (Option GrayImg) := do
  let width ← readUint32
  let height ← readUint32
  skipString
  skipPropertiesAll
  let hptr ← readPtr c.mode
  goto hptr
  match ← readImage c width height 2 with
  | none => return none
  | some (.eager im) => return some im.gray
  | some (.lazy _) => M.panic

/-- xcf/layer_decode.go:246-262 `readMask`: the new image -/
def readMask (c : Ctx) (bounds : Rect) (im : Img) : M Img := do
  match ← readChannel c with
  | none => return im
  | some m =>
    if bounds.eq m.rect then return .masked im (some m)
    else
      setError .inconsistentData
      return im

/-- layer_decode.go:46-53: the image of a layer that is not a group; `none` = return now -/
def layerImage (c : Ctx) (group : Bool) (width height typ : UInt32) : M (Option Img) :=
  if group then return some .nil
  else do
    match ← readImage c width height typ with
    | none => return none
    | some d => return some (.leaf d.leaf)

/-- layer_decode.go:54-66: the text parasite; `none` = return now -/
def layerText (c : Ctx) (ps : List Parasite) (im : Img) : M (Option Img) :=
  match getParasite ps textParasiteName with
  | none => return some im
  | some t =>
    match c.env.parseText t.data with
    | .panic => M.panic
    | .hang => M.hang
    | .ok none => do
      setError .invalidLayerType
      return none
    | .ok (some d) => return some (.text im d)

/-- xcf/layer_decode.go:17-73 `ReadLayer`. -/
def readLayer (c : Ctx) : M DLayer := do
  let width ← readUint32
  let height ← readUint32
  let typ ← readUint32
  if typ >>> 1 ≠ c.baseType then
    setError .invalidLayerType
    return ⟨⟨[], ⟨0, 0, width.toNat, height.toNat⟩, 0, false, 0, .nil⟩, false, false, []⟩
  else
    let name ← readString
    let s ← readLayerProperties c
    let hptr ← readPtr c.mode
    let mptr ← readPtr c.mode
    goto hptr
    let bounds : Rect := (⟨0, 0, width.toNat, height.toNat⟩ : Rect).add s.off
    let mk (im : Img) : DLayer :=
      ⟨⟨name, bounds, s.mode, s.invisible, s.transparency, im⟩, typ &&& 1 = 1, s.group, s.itemPath⟩
    match ← layerImage c s.group width height typ with
    | none => return mk .nil
    | some im =>
      match ← layerText c s.parasites im with
      | none => return mk im
      | some im =>
        if mptr ≠ 0 then
          goto mptr
          let im ← readMask c bounds im
          return mk im
        else return mk im

/-- decoder.go:146-148 (and, with a different condition, :91-93): a number that is not used -/
def readPrecision (present : Bool) : M UInt32 := if present then readUint32 else pure 0

/-- xcf/decoder.go:131-156: header, sizes, properties, layer pointers -/
def readHead : M (Except Err Head) := do
  match ← readHeader with
  | .error e => return .error e
  | .ok mode =>
    let width ← readUint32
    let height ← readUint32
    let baseType ← readUint32
    let _ ← readPrecision (mode > 0)
    match ← readImageProperties baseType with
    | .error e => return .error e
    | .ok props =>
      let ptrs ← readLayerPointers mode
      match ← getErr with
      | some e => return .error e
      | none => return .ok ⟨mode, width, height, baseType, props, ptrs⟩

/-- xcf/decoder.go:75-108 `DecodeConfig`, with the error returned beside the configuration.
`other` is `color.NRGBAModel`. -/
def decodeConfigM : M (Config × Option Err) := do
  match ← readHeader with
  | .error e => return (⟨0, 0, none⟩, some e)
  | .ok mode =>
    let width ← readUint32
    let height ← readUint32
    let baseType ← readUint32
    let _ ← readPrecision (mode = 2)
    if baseType = 0 then
      let e ← getErr
      return (⟨width.toNat, height.toNat, some .other⟩, e)
    else if baseType = 1 then
      let e ← getErr
      return (⟨width.toNat, height.toNat, some .grayAlpha⟩, e)
    else if baseType = 2 then
      match ← readImageProperties 2 with
      | .error e => return (⟨width.toNat, height.toNat, none⟩, some e)
      | .ok p =>
        let e ← getErr
        return (⟨width.toNat, height.toNat, some (.alphaPalette p.palette)⟩, e)
    else
      let e ← getErr
      return (⟨width.toNat, height.toNat, none⟩, e)

/-! ### Whole files.  Every goroutine has a reader of its own over the same source. -/

/-- outcome of one goroutine of `readLayers` (decoder.go:340-360), as `Limage.layerAtPtr`; `plan` is
what happens to the calls of this goroutine -/
def layerAtPtr (c : Ctx) (data : Bytes) (plan : Nat → Option (Nat × Err)) (p : UInt64) :
    Outcome (DLayer × Option Err) :=
  match (do goto p; readLayer c : M DLayer) (newReader plan data) with
  | .ok (l, r) => .ok (l, r.err)
  | .panic => .panic
  | .hang => .hang

/-- xcf/decoder.go:327-366 `readLayers`, as `Limage.readLayers`; `plans i` belongs to the goroutine of
the layer with index `i`. -/
def readLayers (sch : Sched) (c : Ctx) (data : Bytes) (plans : Nat → Nat → Option (Nat × Err))
    (ptrs : List UInt64) : Outcome (List DLayer × Option Err) :=
  match gather (ptrs.mapIdx fun i p => layerAtPtr c data (plans i) p) with
  | .ok ls => .ok (ls.map (·.1), firstErr (ls.map (·.2)) (sch.layers ptrs.length))
  | .panic => .panic
  | .hang => .hang

/-- decoder.go:158-171, after the head, as `Limage.decodeLayers` -/
def decodeLayers (env : Env) (sch : Sched) (decompress : Bool) (data : Bytes)
    (plans : Nat → Nat → Option (Nat × Err)) (h : Head) : Outcome (Except Err (List Layer)) :=
  match readLayers sch (h.ctx env decompress) data plans h.ptrs with
  | .panic => .panic
  | .hang => .hang
  | .ok (_, some e) => .ok (.error e)
  | .ok (ls, none) =>
    match makeGroups (sizeRect h.width.toNat h.height.toNat) ls GState.start with
    | .error e => .ok (.error e)
    | .ok s =>
      match makeImage (sch.groups s.map.length) s with
      | none => .panic
      | some im => .ok (.ok im)

/-- xcf/decoder.go:128-172 `decodeImage`, as `Limage.decodeImage`; `head` is what happens to the calls
made in front of the layers. -/
def decodeImage (env : Env) (sch : Sched) (decompress : Bool) (data : Bytes)
    (head : Nat → Option (Nat × Err)) (plans : Nat → Nat → Option (Nat × Err)) :
    Outcome (Except Err (List Layer)) :=
  match readHead (newReader head data) with
  | .panic => .panic
  | .hang => .hang
  | .ok (.error e, _) => .ok (.error e)
  | .ok (.ok h, _) => decodeLayers env sch decompress data plans h

/-- `DecodeConfig` of a file, as `Limage.decodeConfig` -/
def decodeConfig (data : Bytes) (plan : Nat → Option (Nat × Err)) : Outcome (Config × Option Err) :=
  match decodeConfigM (newReader plan data) with
  | .ok (x, _) => .ok x
  | .panic => .panic
  | .hang => .hang

end Limage.Failing
