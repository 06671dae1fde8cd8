import Verif.Model.Rle
import Verif.Model.Image
import Verif.Model.Raster
/-!
# Pixel data of a layer: xcf/image_decode.go, xcf/compressed.go

Simplifications.
* `make` panics above 2^48 bytes (`maxAlloc` of the Go runtime on 64-bit Linux); running out of
  memory below that is not modelled.
* The loops that store the pixels of one tile (image_decode.go:176-190) are one update of the map
  from points to pixels; the pixel stores of the raster types are those proved correct in C21.
* `uint32` loop counters stepping by 64 wrap when the dimension exceeds 0xffffffc0; what happens
  then is stated directly in `tileLoop`.
* A nil palette and an empty one are not distinguished.
-/
namespace Limage

/-- What the decoder model does not define itself: `uint8(f*255)` for a float given by its bits
(layer_decode.go:139), and the text parser (`Verif.Model.Text`): `ok none` is an error. -/
structure Env where
  floatOpacity : UInt32 → UInt8
  parseText : Bytes → Outcome (Option TextData)

/-- xcf/decoder.go:64-72 `decoder`, without the reader and `precision`, which is never used. -/
structure Ctx where
  env : Env
  compression : UInt8
  decompress : Bool
  baseType : UInt32
  palette : List Color
  mode : UInt32

/-- bytes `make` can allocate -/
def maxAlloc : Nat := 2 ^ 48

/-- `make([]T, n)` with elements of `size` bytes -/
def allocate (n size : Nat) : M Unit := if n * size > maxAlloc then M.panic else pure ()

/-- xcf/image_decode.go:84-90 `readLayerPointer` (also layer_decode.go:37-44, channel.go:14-18,
decoder.go:311-315). -/
def readPtr (mode : UInt32) : M UInt64 := do
  if mode < 2 then
    let p ← readUint32
    return p.toUInt64
  else readUint64

/-- `n` pointers, xcf/image_decode.go:95-103 -/
def readPtrs (mode : UInt32) : Nat → M (List UInt64)
  | 0 => pure []
  | n + 1 => do
    let p ← readPtr mode
    let ps ← readPtrs mode n
    return p :: ps

/-- number of tiles along a dimension: `math.Ceil(float64(n)/64)`, exact for 32-bit `n` -/
def tileCount (n : Nat) : Nat := (n + 63) / 64

/-- xcf/image_decode.go:92-106 `readTiles`. -/
def readTiles (c : Ctx) (width height : Nat) : M (List UInt64) := do
  let n := tileCount width * tileCount height
  allocate n 8
  readPtrs c.mode n

/-- position and size of a tile -/
structure Tile where
  x : Nat
  y : Nat
  w : Nat
  h : Nat
deriving DecidableEq, Repr

/-- the tiles in the order of the loops (image_decode.go:156-169, 206-219) -/
def tileGrid (width height : Nat) : List Tile :=
  (List.range (tileCount height)).flatMap fun j =>
    (List.range (tileCount width)).map fun i =>
      ⟨64 * i, 64 * j, min (width - 64 * i) 64, min (height - 64 * j) 64⟩

/-- The loops `for y := uint32(0); y < height; y += 64 { for x := … { d.Goto(tiles[0]); … } }`
(image_decode.go:156-159, 206-209).  With a counter that wraps: no tile to visit if the other
dimension is zero (forever, if it is the outer counter); otherwise the pointers run out and
`tiles[0]` panics. -/
def tileLoop {σ : Type} (width height : Nat) (tiles : List UInt64) (s : σ)
    (body : Tile → σ → M σ) : M σ :=
  if width = 0 then if height > 0xffffffc0 then M.hang else pure s
  else if height = 0 then pure s
  else if width > 0xffffffc0 ∨ height > 0xffffffc0 then M.panic
  else go (tileGrid width height) tiles s
where
  /-- the tiles with their pointers -/
  go : List Tile → List UInt64 → σ → M σ
    | [], _, s => pure s
    | _ :: _, [], _ => M.panic
    | t :: ts, p :: ps, s => do
      goto p
      let s ← body t s
      go ts ps s

/-- assignment of a possibly nil error with `SetError` -/
def setErr? (e : Option Err) : M Unit :=
  match e with
  | none => pure ()
  | some e => setError e

/-- pixels, each as the bytes of its channels -/
abbrev Px := Nat → Nat → Bytes

/-- image_decode.go:176-190: storing the pixels of a tile; `buf` is `pixBuffer`. -/
def storeTile (bpp : Nat) (t : Tile) (buf : Bytes) (px : Px) : Px := fun x y =>
  if t.x ≤ x ∧ x < t.x + t.w ∧ t.y ≤ y ∧ y < t.y + t.h then
    (List.range bpp).map fun k => buf.getD (t.w * t.h * k + ((y - t.y) * t.w + (x - t.x))) 0
  else px x y

/-- state of the loop in `readAndDecompressImage` -/
structure EagerState where
  rle : Rle
  buf : Bytes
  px : Px

/-- one tile, image_decode.go:159-190; the reader of line 146-150 is either the plain one or an
`rle` kept for the whole image. -/
def eagerTile (c : Ctx) (bpp : Nat) (t : Tile) (s : EagerState) : M EagerState := do
  let n := t.w * t.h * bpp
  if c.compression = 0 then
    let got ← readInto (s.buf.take n)
    let buf := got ++ s.buf.drop n
    return ⟨s.rle, buf, storeTile bpp t buf s.px⟩
  else
    let (got, rle, e) ← rleReadAll s.rle (s.buf.take n)
    setErr? e
    let buf := got ++ s.buf.drop n
    return ⟨rle, buf, storeTile bpp t buf s.px⟩

/-- A decoded image: kind (layer type 0 to 5), size, palette, pixels. -/
structure EagerImg where
  kind : Nat
  width : Nat
  height : Nat
  palette : List Color
  px : Px

/-- bytes per pixel of the image allocated at image_decode.go:118-143 -/
def pixelSize (kind : Nat) : Nat :=
  match kind with
  | 0 => 3
  | 1 => 4
  | 2 => 1
  | 3 => 2
  | 4 => 1
  | _ => 2

/-- xcf/image_decode.go:108-194 `readAndDecompressImage`; `none` = nil image.  An unknown `kind` has
no pixel reader: the first pixel panics. -/
def readEager (c : Ctx) (kind bpp width height : Nat) (tiles : List UInt64) : M (Option EagerImg) :=
  if kind < 6 then do
    allocate (width * height) (pixelSize kind)
    let s ← tileLoop width height tiles ⟨Rle.start, List.replicate 16384 0, fun _ _ => List.replicate bpp 0⟩
      (eagerTile c bpp)
    return some ⟨kind, width, height, c.palette, s.px⟩
  else do
    let _ ← tileLoop width height tiles () (fun _ _ => M.panic)
    return none

/-! ### Compressed images -/

/-- `readRLE` with enough fuel (proved in `Verif.Props.Compressed`) -/
def readRLEAll (count : Nat) : M (Bytes × Option Err) := fun r =>
  readRLE (count + r.data.length + 2) count r

/-- image_decode.go:222-236: the channels of one tile -/
def readChannels (n : Nat) : Nat → M (List Bytes)
  | 0 => pure []
  | k + 1 => do
    let (b, e) ← readRLEAll n
    setErr? e
    let bs ← readChannels n k
    return b :: bs

/-- The `Compressed*` types (compressed.go:49-60 and following): kind, size, palette and the field
`tiles`; the cache fields are `Cache`. -/
structure LazyImg where
  kind : Nat
  width : Nat
  height : Nat
  palette : List Color
  tiles : List (List Bytes)

/-- xcf/image_decode.go:196-256 `readCompressedImage`. -/
def readLazy (c : Ctx) (kind bpp width height : Nat) (tiles : List UInt64) : M (Option LazyImg) := do
  allocate tiles.length 24
  let ts ← tileLoop width height tiles [] fun t ts => do
    let bs ← readChannels (t.w * t.h) bpp
    return ts ++ [bs]
  if kind < 6 then return some ⟨kind, width, height, c.palette, ts⟩ else return none

/-- fields `tile` and `decompressed` of `compressedImage` (compressed.go:14-19) -/
structure Cache where
  tile : Int
  dec : Bytes

/-- a new image: image_decode.go:200, zeroed array -/
def Cache.fresh : Cache := ⟨-1, List.replicate 16384 0⟩

/-- compressed.go:30-36: the loop over the channels; `n` is the index of the first of them, `s` the
state of the `rle`, `err` the sticky error of its reader.  Each channel is a `memio.Buffer` of its
own. `none` = slice bounds panic. -/
def decompressChannels : List Bytes → Nat → Rle → Option Err → Bytes → Outcome Bytes
  | [], _, _, _, dec => .ok dec
  | d :: ds, n, s, err, dec =>
    if 4096 * (n + 1) ≤ dec.length then
      match rleReadAll s ((dec.drop (4096 * n)).take 4096) ⟨d, d.length, 0, err⟩ with
      | .ok ((got, s, _), r) =>
        let err := if r.err = some .eof then none else r.err
        decompressChannels ds (n + 1) s err (dec.take (4096 * n) ++ got ++ dec.drop (4096 * (n + 1)))
      | .panic => .panic
      | .hang => .hang
    else .panic

/-- compressed.go:21-47 `decompressTile`: result is the index into `decompressed`; `x`, `y` are not
negative there (the callers check the bounds first). -/
def decompressTile (im : LazyImg) (st : Cache) (x y : Nat) : Outcome (Nat × Cache) :=
  let tile := (y / 64) * ((im.width + 63) / 64) + x / 64
  let p := if x < im.width / 64 * 64 then 64 * (y % 64) + x % 64 else (im.width % 64) * (y % 64) + x % 64
  if (tile : Int) = st.tile then .ok (p, st)
  else
    match im.tiles[tile]? with
    | none => .panic
    | some ds =>
      match decompressChannels ds 0 Rle.start none st.dec with
      | .ok dec => .ok (p, ⟨tile, dec⟩)
      | .panic => .panic
      | .hang => .hang

/-! ### `At` -/

/-- The colour of a pixel of an eagerly decoded image: rgb.go:29-31, `image.NRGBA`, `image.Gray`,
grayalpha.go:29-31, `image.Paletted`, indexedalpha.go:31-45.  `none` = panic. -/
def eagerColor (kind : Nat) (pal : List Color) (px : Bytes) : Option Color :=
  let b k := px.getD k 0
  match kind with
  | 0 => some (.lrgb (b 0) (b 1) (b 2))
  | 1 => some (.nrgba (b 0) (b 1) (b 2) (b 3))
  | 2 => some (.gray (b 0))
  | 3 => some (.grayAlpha (b 0) (b 1))
  | 4 => pal[(b 0).toNat]?
  | _ => IdxPix.toColor pal ⟨b 0, b 1⟩

/-- `At` of an eagerly decoded image: outside the bounds the zero pixel (for `image.Paletted` the
first palette entry, which is the one of the zero pixel). -/
def EagerImg.at (im : EagerImg) (p : Pt) : Option Color :=
  if 0 ≤ p.x ∧ p.x < im.width ∧ 0 ≤ p.y ∧ p.y < im.height then
    eagerColor im.kind im.palette (im.px p.x.toNat p.y.toNat)
  else eagerColor im.kind im.palette []

/-- The colour of a pixel of a compressed image (compressed.go:70-78, 101-110, 133-138, 162-168,
194-203, 230-238). -/
def lazyColor (kind : Nat) (pal : List Color) (px : Bytes) : Option Color :=
  let b k := px.getD k 0
  match kind with
  | 0 => some (.lrgb (b 0) (b 1) (b 2))
  | 1 => some (.nrgba (b 0) (b 1) (b 2) (b 3))
  | 2 => some (.gray (b 0))
  | 3 => some (.grayAlpha (b 0) (b 1))
  | 4 =>
    match pal[(b 0).toNat]? with
    | none => none
    | some v =>
      let q := v.rgba32
      some (.nrgba (q.r >>> 8).toUInt8 (q.g >>> 8).toUInt8 (q.b >>> 8).toUInt8 255)
  | _ =>
    match pal[(b 0).toNat]? with
    | none => none
    | some v =>
      let q := v.rgba32
      some (.nrgba (q.r >>> 8).toUInt8 (q.g >>> 8).toUInt8 (q.b >>> 8).toUInt8 (b 1))

/-- outside the bounds (compressed.go:66-68, 97-99, 129-131, 158-160, 186-192, 222-228) -/
def lazyOutside (kind : Nat) (pal : List Color) : Option Color :=
  match kind with
  | 0 => some (.lrgb 0 0 0)
  | 1 => some (.nrgba 0 0 0 0)
  | 2 => some (.gray 0)
  | 3 => some (.grayAlpha 0 0)
  | _ => if pal.isEmpty then none else some (.gray 0)

/-- `At` of a compressed image: colour and new cache.  `none` for the colour = the call panics (or
returns nil) after having updated the cache. -/
def LazyImg.at (im : LazyImg) (st : Cache) (p : Pt) : Outcome (Option Color × Cache) :=
  if im.kind ≥ 4 ∧ im.palette.isEmpty then .ok (none, st)
  else if 0 ≤ p.x ∧ p.x < im.width ∧ 0 ≤ p.y ∧ p.y < im.height then
    match decompressTile im st p.x.toNat p.y.toNat with
    | .ok (o, st) => .ok (lazyColor im.kind im.palette [st.dec.getD o 0, st.dec.getD (o + 4096) 0,
        st.dec.getD (o + 8192) 0, st.dec.getD (o + 12288) 0], st)
    | .panic => .panic
    | .hang => .hang
  else .ok (lazyOutside im.kind im.palette, st)

/-! ### ReadImage -/

/-- result of `ReadImage` -/
inductive DecImg where
  | eager (im : EagerImg)
  | lazy (im : LazyImg)

/-- xcf/image_decode.go:53-82 `validBPP`; false = error set. -/
def bppOk (kind bpp : UInt32) : Bool :=
  if kind = 2 ∨ kind = 4 then bpp = 1
  else if kind = 3 ∨ kind = 5 then bpp = 2
  else if kind = 0 then bpp = 3
  else if kind = 1 then bpp = 4
  else true

/-- xcf/image_decode.go:15-42, the part of `ReadImage` in front of the tiles: bytes per pixel and tile
pointers; `none` = an error was set and nil returned. -/
def readLevel (c : Ctx) (width height kind : UInt32) : M (Option (UInt32 × List UInt64)) := do
  let twidth ← readUint32
  let theight ← readUint32
  if twidth ≠ width ∨ theight ≠ height then
    setError .inconsistentData
    return none
  else
    let bpp ← readUint32
    if ¬ bppOk kind bpp then
      setError .inconsistentData
      return none
    else
      let lptr ← readPtr c.mode
      goto lptr
      let w ← readUint32
      let h ← readUint32
      if w ≠ width ∨ h ≠ height then
        setError .inconsistentData
        return none
      else
        let tiles ← readTiles c width.toNat height.toNat
        let z ← readUint32
        if z ≠ 0 then
          setError .inconsistentData
          return none
        else return some (bpp, tiles)

/-- xcf/image_decode.go:14-51 `ReadImage`; `none` = nil image. -/
def readImage (c : Ctx) (width height kind : UInt32) : M (Option DecImg) := do
  match ← readLevel c width height kind with
  | none => return none
  | some (bpp, tiles) =>
    if c.decompress || c.compression = 0 then
      let im ← readEager c kind.toNat bpp.toNat width.toNat height.toNat tiles
      return im.map .eager
    else
      let im ← readLazy c kind.toNat bpp.toNat width.toNat height.toNat tiles
      return im.map .lazy

/-- `ColorModel()` of the decoded images -/
def kindModel (kind : Nat) (pal : List Color) : ColorModel :=
  match kind with
  | 2 => .gray
  | 3 => .grayAlpha
  | 4 => .palette pal
  | 5 => .alphaPalette pal
  | _ => .other

/-- bounds of the decoded images -/
def sizeRect (w h : Nat) : Rect := ⟨0, 0, w, h⟩

/-- a decoded image as an image of limage; for a compressed image `At` is the answer of a fresh one
(C32: the cache does not change the answers) -/
def DecImg.leaf : DecImg → Leaf
  | .eager im => ⟨sizeRect im.width im.height, kindModel im.kind im.palette, im.at⟩
  | .lazy im => ⟨sizeRect im.width im.height, kindModel im.kind im.palette, fun p =>
      match im.at Cache.fresh p with
      | .ok (c, _) => c
      | _ => none⟩

end Limage
