import Verif.Model.Geom
import Verif.Model.Color
/-!
# Raster images: rgb.go, grayalpha.go, indexedalpha.go

The three files have the same structure and differ in the pixel type only, so the storage part is
modelled once, for an arbitrary pixel type `π` with a zero value.  Pixel arrays live in a heap (a
list of arrays) so that sub-images share them, as Go slices do.
-/
namespace Limage

/-- The fields common to `RGB`, `GrayAlpha` and `PalettedAlpha` (rgb.go:11-15, grayalpha.go:11-15,
indexedalpha.go:11-16).  The Go slice `Pix` is (array, start, length) here. -/
structure Raster where
  arr : Nat
  off : Nat
  len : Nat
  stride : Int
  rect : Rect
deriving DecidableEq, Repr, Inhabited

/-- all pixel arrays allocated so far -/
abbrev Heap (π : Type) := List (List π)

namespace Raster
variable {π : Type}

/-- `NewRGB`, `NewGrayAlpha`, `NewPalettedAlpha` (rgb.go:18-26, grayalpha.go:18-26,
indexedalpha.go:19-28); `none` = `make` with a negative length panics. -/
def new (z : π) (h : Heap π) (r : Rect) : Option (Heap π × Raster) :=
  let n := r.dx * r.dy
  if n < 0 then none
  else some (h ++ [List.replicate n.toNat z], ⟨h.length, 0, n.toNat, r.dx, r⟩)

/-- `PixOffset` (rgb.go:60-62, grayalpha.go:66-68, indexedalpha.go:80-82). -/
def pixOffset (m : Raster) (p : Pt) : Int := (p.y - m.rect.y0) * m.stride + p.x - m.rect.x0

/-- Index expression `m.Pix[o]`: position in the underlying array, `none` = out of range panic. -/
def index (m : Raster) (o : Int) : Option Nat :=
  if 0 ≤ o ∧ o < m.len then some (m.off + o.toNat) else none

/-- `RGBAt`, `GrayAlphaAt`, `IndexAlphaAt` (rgb.go:45-52, grayalpha.go:46-53, indexedalpha.go:60-67);
`none` = panic. -/
def get (z : π) (h : Heap π) (m : Raster) (p : Pt) : Option π :=
  if Rect.mem p m.rect then
    match m.index (m.pixOffset p) with
    | none => none
    | some i => (h[m.arr]?).bind (·[i]?)
  else some z

/-- `SetRGB`, `SetGrayAlpha`, `SetIndexAlpha` (rgb.go:80-86, grayalpha.go:81-87,
indexedalpha.go:99-105); `none` = panic. -/
def set (h : Heap π) (m : Raster) (p : Pt) (v : π) : Option (Heap π) :=
  if Rect.mem p m.rect then
    match m.index (m.pixOffset p) with
    | none => none
    | some i => some (h.modify m.arr (·.set i v))
  else some h

/-- `SubImage` (rgb.go:89-101, grayalpha.go:90-102, indexedalpha.go:108-121); the empty image
`&RGB{}` has a nil slice. `none` = slice bounds panic. -/
def sub (m : Raster) (r : Rect) : Option Raster :=
  let r := r.inter m.rect
  if r.empty then some ⟨m.arr, 0, 0, 0, Rect.zero⟩
  else
    let o := m.pixOffset ⟨r.x0, r.y0⟩
    if 0 ≤ o ∧ o ≤ m.len then some ⟨m.arr, m.off + o.toNat, m.len - o.toNat, m.stride, r⟩ else none

/-- the pixels the slice `Pix` ranges over -/
def pix (h : Heap π) (m : Raster) : List π := (((h[m.arr]?).getD []).drop m.off).take m.len

end Raster

/-! ### Pixel types -/

/-- `lcolor.RGB` (lcolor/rgb.go:6-8) -/
structure RGBPix where
  r : UInt8
  g : UInt8
  b : UInt8
deriving DecidableEq, Repr, Inhabited

/-- `lcolor.GrayAlpha` (lcolor/gray.go:6-8) -/
structure GrayPix where
  y : UInt8
  a : UInt8
deriving DecidableEq, Repr, Inhabited

/-- `lcolor.IndexedAlpha` (lcolor/indexed.go:28-30) -/
structure IdxPix where
  i : UInt8
  a : UInt8
deriving DecidableEq, Repr, Inhabited

/-- Pixel value stored by `RGB.Set` (rgb.go:66-77). -/
def RGBPix.ofColor (c : Color) : RGBPix :=
  let q := c.rgba32
  ⟨(q.r >>> 8).toUInt8, (q.g >>> 8).toUInt8, (q.b >>> 8).toUInt8⟩

/-- Colour returned by `RGB.At` (rgb.go:29-31). -/
def RGBPix.toColor (p : RGBPix) : Color := .lrgb p.r p.g p.b

/-- Pixel value stored by `GrayAlpha.Set` (grayalpha.go:72-78). -/
def GrayPix.ofColor (c : Color) : GrayPix := ⟨(grayAlphaModel c).1, (grayAlphaModel c).2⟩

/-- Colour returned by `GrayAlpha.At` (grayalpha.go:29-31). -/
def GrayPix.toColor (p : GrayPix) : Color := .grayAlpha p.y p.a

/-- Pixel value stored by `PalettedAlpha.Set` (indexedalpha.go:86-96). -/
def IdxPix.ofColor (pal : List Color) (c : Color) : IdxPix :=
  ⟨UInt8.ofNat (paletteIndex pal c), (c.rgba32.a >>> 8).toUInt8⟩

/-- Colour returned by `PalettedAlpha.At` for a pixel (indexedalpha.go:31-45): `none` for a nil
palette (Go returns a nil colour) or an index outside the palette (panic). -/
def IdxPix.toColor (pal : List Color) (p : IdxPix) : Option Color :=
  match pal[p.i.toNat]? with
  | none => none
  | some v =>
    let q := v.rgba32
    some (.nrgba (q.r >>> 8).toUInt8 (q.g >>> 8).toUInt8 (q.b >>> 8).toUInt8 p.a)

/-! ### Opaque -/

/-- `RGB.Opaque` (rgb.go:55-57). -/
def rgbOpaque (_ : List RGBPix) : Bool := true

/-- `GrayAlpha.Opaque` (grayalpha.go:56-64): loop over `Pix`. -/
def grayOpaque : List GrayPix → Bool
  | [] => true
  | c :: cs => if c.a ≠ 255 then false else grayOpaque cs

/-- `PalettedAlpha.Opaque` (indexedalpha.go:70-78): loop over `Pix`. -/
def idxOpaque : List IdxPix → Bool
  | [] => false
  | c :: cs => if c.a ≠ 255 then true else idxOpaque cs

/-! ### Programs using rasters -/

/-- A call made by a program that works with rasters of one pixel type: create an image, write a
pixel of image number `i`, or take a sub-image of image number `i` (`Set` with a colour is a write
of the converted pixel). -/
inductive ROp (π : Type) where
  | new (r : Rect)
  | set (i : Nat) (p : Pt) (v : π)
  | sub (i : Nat) (r : Rect)

/-- heap and images created so far -/
structure RState (π : Type) where
  heap : Heap π
  imgs : List Raster

/-- one call; `none` = panic (or a reference to an image that does not exist) -/
def RState.step {π} (z : π) (s : RState π) : ROp π → Option (RState π)
  | .new r => (Raster.new z s.heap r).map fun (h, m) => ⟨h, s.imgs ++ [m]⟩
  | .set i p v => (s.imgs[i]?).bind fun m => (Raster.set s.heap m p v).map fun h => { s with heap := h }
  | .sub i r => (s.imgs[i]?).bind fun m => (m.sub r).map fun m' => { s with imgs := s.imgs ++ [m'] }

/-- a whole program -/
def RState.run {π} (z : π) (s : RState π) : List (ROp π) → Option (RState π)
  | [] => some s
  | op :: ops => (s.step z op).bind fun s' => s'.run z ops

end Limage
