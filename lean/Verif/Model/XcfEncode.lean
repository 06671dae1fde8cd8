import Verif.Model.Writer
/-!
# Encoding XCF files: xcf/encoder.go, xcf/layer_encode.go, xcf/image_encode.go, xcf/channel.go

Simplifications.
* A nil `limage.Image` used as the image of a layer (an empty slice that layer_encode.go:52 does not
  count as a group) is not distinguished from an empty group, nor a nil palette from an empty one
  (encoder.go:77).
* `append(groups, uint32(n))` (layer_encode.go:11) may share its array with the caller's slice; the
  part shared is never changed.
* The buffers `channelBuf` and `colourBuf` (encoder.go:24-25) are values of the functions filling
  them; a tile has at most 4096 points (`tilePoints_length`), so they are large enough.
-/
namespace Limage

/-- Go's conversion of an `int` to `uint32` or `int32` (as bits). -/
def u32 (x : Int) : UInt32 := UInt32.ofNat (x % 2 ^ 32).toNat

/-- xcf/encoder.go:16-26 `encoder`, without the writer and buffers.  `func` returns `colourBuf`
up to `channels` bytes. -/
structure Enc where
  palette : Option (List Color)
  func : Color → Bytes
  typ : UInt8
  channels : Nat

/-! ### Colours -/

/-- xcf/image_encode.go:70-76 `rgbAlphaToBuf`. -/
def rgbAlphaToBuf (c : Color) : Bytes :=
  let (r, g, b, a) := nrgbaModel c
  [r, g, b, a]

/-- xcf/image_encode.go:78-82 `grayAlphaToBuf`. -/
def grayAlphaToBuf (c : Color) : Bytes :=
  let (y, a) := grayAlphaModel c
  [y, a]

/-- xcf/image_encode.go:84-86 `grayToBuf`. -/
def grayToBuf (c : Color) : Bytes := [grayModel c]

/-- xcf/image_encode.go:88-93 `paletteAlphaToBuf`: the low bytes of the 16-bit values. -/
def paletteAlphaToBuf (p : List Color) (c : Color) : Bytes :=
  let q := c.rgba32
  let i := paletteIndex p (.lrgb q.r.toUInt8 q.g.toUInt8 q.b.toUInt8)
  [UInt8.ofNat i, q.a.toUInt8]

/-- xcf/encoder.go:50-72: the settings for a colour model. -/
def encFor : ColorModel → Enc
  | .gray | .gray16 | .grayAlpha => ⟨none, grayAlphaToBuf, 1, 2⟩
  | .palette p => ⟨some p, paletteAlphaToBuf p, 2, 2⟩
  | .alphaPalette p => ⟨some p, paletteAlphaToBuf p, 2, 2⟩
  | _ => ⟨none, rgbAlphaToBuf, 0, 4⟩

/-! ### Pixels -/

/-- number of iterations of `for v := a; v < b; v += 64` -/
def steps64 (a b : Int) : Nat := ((b - a + 63) / 64).toNat

/-- the tiles in the order of the loops, image_encode.go:45-46 -/
def tileOrigins (b : Rect) : List Pt :=
  (List.range (steps64 b.y0 b.y1)).flatMap fun (j : Nat) =>
    (List.range (steps64 b.x0 b.x1)).map fun (i : Nat) => ⟨b.x0 + 64 * i, b.y0 + 64 * j⟩

/-- the points of a tile in the order of the loops, image_encode.go:49-50 -/
def tilePoints (b : Rect) (o : Pt) : List Pt :=
  (List.range (min 64 (b.y1 - o.y)).toNat).flatMap fun (j : Nat) =>
    (List.range (min 64 (b.x1 - o.x)).toNat).map fun (i : Nat) => ⟨o.x + i, o.y + j⟩

/-- the colours of the points, image_encode.go:51 -/
def pixelsAt (i : Img) : List Pt → W (List Color)
  | [] => pure []
  | p :: ps => do
    let c ← pixelAt i p
    let cs ← pixelsAt i ps
    return c :: cs

/-- `e.WriteRLE(data)`, xcf/rle.go:82-111 -/
def encodeRLE (data : Bytes) : W Unit := do
  let ws ← W.get (writeRLE data)
  writeAll ws

/-- image_encode.go:63-65: the channels of a tile, the first of them number `n` -/
def writeChannels (px : List Bytes) : Nat → Nat → W Unit
  | 0, _ => pure ()
  | k + 1, n => do
    encodeRLE (px.map fun p => p.getD n 0)
    writeChannels px k (n + 1)

/-- image_encode.go:45-67: the tiles -/
def writeTiles (i : Img) (f : Color → Bytes) (ch : Nat) (b : Rect) : List Pt → PW → W Unit
  | [], _ => pure ()
  | o :: os, pw => do
    let cs ← pixelsAt i (tilePoints b o)
    let p ← currentPos
    let pw ← writePointer pw p
    writeChannels (cs.map f) ch 0
    writeTiles i f ch b os pw

/-- image_encode.go:30-39: number of tiles along a dimension, `n>>6` and one more if `n&63 > 0` -/
def tileNum (n : Int) : Int := n / 64 + (if n % 64 > 0 then 1 else 0)

/-- xcf/image_encode.go:10-68 `WriteImage`. -/
def writeImage (i : Img) (f : Color → Bytes) (ch : Nat) : W Unit := do
  let b ← W.get i.bounds
  writeUint32 (u32 b.dx)
  writeUint32 (u32 b.dy)
  writeUint32 (UInt32.ofNat ch)
  let p ← currentPos
  writeUint32 (p + 8)
  writeUint32 0
  writeUint32 (u32 b.dx)
  writeUint32 (u32 b.dy)
  let pw ← reservePointerList (u32 (tileNum b.dx * tileNum b.dy))
  writeTiles i f ch b (tileOrigins b) pw

/-- a mask as an image: `*image.Gray` -/
def GrayImg.img (m : GrayImg) : Img := .leaf ⟨m.rect, .gray, fun p => some (.gray (m.grayAt p))⟩

/-- xcf/channel.go:53-65 `WriteChannel`. -/
def writeChannel (m : GrayImg) : W Unit := do
  writeUint32 (u32 m.rect.dx)
  writeUint32 (u32 m.rect.dy)
  writeString []
  writeUint32 0
  writeUint32 0
  let p ← currentPos
  writeUint32 (p + 4)
  writeImage m.img grayToBuf 1

/-! ### Layers -/

/-- xcf/layer_encode.go:110-187 `modeID`. -/
def modeID (m : Mode) : UInt32 :=
  if m = Mode.normal then 0
  else if m = Mode.dissolve then 1
  else if m = Mode.behind then 2
  else if m = Mode.multiply then 3
  else if m = Mode.screen then 4
  else if m = Mode.overlay then 5
  else if m = Mode.difference then 6
  else if m = Mode.addition then 7
  else if m = Mode.subtract then 8
  else if m = Mode.darkenOnly then 9
  else if m = Mode.lightenOnly then 10
  else if m = Mode.hue then 11
  else if m = Mode.saturation then 12
  else if m = Mode.color then 13
  else if m = Mode.value then 14
  else if m = Mode.divide then 15
  else if m = Mode.dodge then 16
  else if m = Mode.burn then 17
  else if m = Mode.hardLight then 18
  else if m = Mode.softLight then 19
  else if m = Mode.grainExtract then 20
  else if m = Mode.grainMerge then 21
  else if m = Mode.luminosity then 22
  else if m = Mode.colorErase then 22
  else if m = Mode.chroma then 25
  else if m = Mode.lightness then 27
  else if m = Mode.vividLight then 48
  else if m = Mode.pinLight then 49
  else if m = Mode.linearLight then 50
  else if m = Mode.hardMix then 51
  else if m = Mode.exclusion then 52
  else if m = Mode.linearBurn then 53
  else if m = Mode.erase then 58
  else if m = Mode.merge then 59
  else if m = Mode.split then 60
  else if m = Mode.passThrough then 61
  else 0

/-- layer_encode.go:27-35: the image whose pixels are written and the mask -/
def layerContent : Img → Img × Option GrayImg
  | .masked i m => (i, m)
  | i => (i, none)

/-- layer_encode.go:37-41: the text -/
def layerTextData : Img → TextData
  | .text _ t => t
  | _ => []

/-- layer_encode.go:42-45: whether `group` is set -/
def isGroup : Img → Bool
  | .group _ => true
  | _ => false

/-- xcf/text.go:207-259 `WriteText`; the data itself is a parameter. -/
def writeText (t : TextData) (dx dy : UInt32) : W Unit := fun env s =>
  match env.text t dx dy with
  | none => none
  | some data => (do
      writeUint32 26 -- propTextLayerFlags
      writeUint32 4
      writeUint32 1
      writeUint32 21 -- propParasites
      writeUint32 (UInt32.ofNat (4 + 15 + 1 + 4 + 4 + data.length))
      writeString [103, 105, 109, 112, 45, 116, 101, 120, 116, 45, 108, 97, 121, 101, 114]
      writeUint32 0
      writeUint32 (UInt32.ofNat data.length)
      write data : W Unit) env s

/-- layer_encode.go:84-91: the item path -/
def writePath (groups : List UInt32) : W Unit :=
  if groups.length > 1 then do
    writeUint32 30
    writeUint32 (4 * UInt32.ofNat groups.length)
    writeUint32s groups
  else pure ()

/-- layer_encode.go:93-95 -/
def writeTextProp (t : TextData) (dx dy : UInt32) : W Unit :=
  if t.length > 0 then writeText t dx dy else pure ()

/-- layer_encode.go:97-100 -/
def writeGroupProp (group : Bool) : W Unit :=
  if group then do
    writeUint32 29
    writeUint32 0
  else pure ()

/-- xcf/layer_encode.go:57-108 `writeProperties`. -/
def writeProperties (e : Enc) (l : Layer) (ox oy : UInt32) (groups : List UInt32) : W Unit := do
  writeUint32 (u32 l.bounds.dx)
  writeUint32 (u32 l.bounds.dy)
  writeUint32 (e.typ.toUInt32 <<< 1 ||| 1)
  writeString l.name
  writeUint32 6
  writeUint32 4
  writeUint32 (255 - l.transparency.toUInt32)
  writeUint32 8
  writeUint32 4
  writeUint32 (if l.invisible then 0 else 1)
  writeUint32 15
  writeUint32 8
  writeUint32 ox
  writeUint32 oy
  writePath groups
  writeTextProp (layerTextData l.image) (u32 l.bounds.dx) (u32 l.bounds.dy)
  writeGroupProp (isGroup l.image)
  writeUint32 7
  writeUint32 4
  writeUint32 (modeID l.mode)
  writeUint32 0

/-- xcf/layer_encode.go:196-201: the mask and its pointer -/
def writeMask (m : Option GrayImg) (ptrs : PW) : W Unit :=
  match m with
  | some m => do
    let p ← currentPos
    let _ ← writePointer ptrs p
    writeChannel m
  | none => do
    let _ ← writePointer ptrs 0

/-- xcf/layer_encode.go:189-202 `writeLayer`. -/
def writeLayerData (e : Enc) (i : Img) (m : Option GrayImg) : W Unit := do
  let ptrs ← reservePointers 2
  let p ← currentPos
  let ptrs ← writePointer ptrs p
  writeImage i e.func e.channels
  writeMask m ptrs

/-- xcf/layer_encode.go:17-50, `WriteLayer` without the layers of a group -/
def writeOwn (e : Enc) (l : Layer) (ox oy : UInt32) (groups : List UInt32) (pw : PW) : W PW := do
  let p ← currentPos
  let pw ← writePointer pw p
  writeProperties e l ox oy groups
  writeUint32 0
  writeLayerData e (layerContent l.image).1 (layerContent l.image).2
  return pw

mutual
/-- layer_encode.go:52-54: the layers of a group -/
def writeSub (e : Enc) (i : Img) (ox oy : UInt32) (groups : List UInt32) (pw : PW) : W PW :=
  match i with
  | .group g => writeLayers e g 0 ox oy groups pw
  | .leaf _ => pure pw
  | .nil => pure pw
  | .text _ _ => pure pw
  | .masked _ _ => pure pw
termination_by structural i

/-- xcf/layer_encode.go:9-15 `WriteLayers` of the remaining layers, the first of them number `n`. -/
def writeLayers (e : Enc) (g : List Layer) (n : Nat) (ox oy : UInt32) (groups : List UInt32) (pw : PW) : W PW :=
  match g with
  | [] => pure pw
  | ⟨name, b, mode, inv, tr, im⟩ :: rest => do
    let pw ← writeOwn e ⟨name, b, mode, inv, tr, im⟩ (ox + u32 b.x0) (oy + u32 b.y0) (groups ++ [UInt32.ofNat n]) pw
    let pw ← writeSub e im (ox + u32 b.x0) (oy + u32 b.y0) (groups ++ [UInt32.ofNat n]) pw
    writeLayers e rest (n + 1) ox oy groups pw
termination_by structural g
end

mutual
/-- encoder.go:117-124: layers inside an image -/
def layerCountIn (i : Img) : UInt32 :=
  match i with
  | .group g => layerCount g
  | .leaf _ => 0
  | .nil => 0
  | .text _ _ => 0
  | .masked _ _ => 0
termination_by structural i

/-- xcf/encoder.go:114-127 `layerCount`. -/
def layerCount (g : List Layer) : UInt32 :=
  match g with
  | [] => 0
  | ⟨_, _, _, _, _, im⟩ :: rest => 1 + layerCountIn im + layerCount rest
termination_by structural g
end

/-! ### Files -/

/-- "gimp xcf v003" and a zero, encoder.go:129 -/
def xcfHeader : Bytes := [103, 105, 109, 112, 32, 120, 99, 102, 32, 118, 48, 48, 51, 0]

/-- the colours of a palette, encoder.go:82-88 -/
def writeColors : List Color → W Unit
  | [] => pure ()
  | c :: cs => do
    let (r, g, b) := rgbModel c
    writeUint8 r
    writeUint8 g
    writeUint8 b
    writeColors cs

/-- encoder.go:77-89: the colour map -/
def writeColorMap : Option (List Color) → W Unit
  | none => pure ()
  | some p => do
    writeUint32 1
    writeUint32 (3 * UInt32.ofNat p.length + 4)
    writeUint32 (UInt32.ofNat p.length)
    writeColors p

/-- encoder.go:98-109: the layers.  An image that is not a group becomes the image of a layer that is
otherwise zero (its bounds are empty). -/
def writeContent (e : Enc) : Img → W Unit
  | .group g => do
    let pw ← reservePointerList (layerCount g)
    writeUint32 0
    let _ ← writeLayers e g 0 0 0 [] pw
  | i => do
    let pw ← reservePointerList 1
    writeUint32 0
    let _ ← writeOwn e ⟨[], Rect.zero, 0, false, 0, i⟩ 0 0 [] pw

/-- xcf/encoder.go:29-112 `Encode`, after the switch that turns `*Image`, `Layer` and `*Layer` into an
`Image`. -/
def encode (i : Img) : W Unit := do
  write xcfHeader
  let b ← W.get i.bounds
  writeUint32 (u32 b.dx)
  writeUint32 (u32 b.dy)
  let cm ← W.get i.colorModel
  let e := encFor cm
  writeUint32 e.typ.toUInt32
  writeColorMap e.palette
  writeUint32 17
  writeUint32 1
  writeUint8 1
  writeUint32 0
  writeUint32 0
  writeContent e i

/-- the state before the first write, xcf/writer.go:15-23 -/
def WS.start : WS := ⟨0, none, 0, 0⟩

/-- A call of `Encode`: the `WriteAt` calls made and the error returned (the number of the call that
reported it); `none` = panic. -/
def runEncode (env : WEnv) (i : Img) : Option (List WCall × Option Nat) :=
  match encode i env WS.start with
  | none => none
  | some (_, s, l) => some (l, s.err)

end Limage
