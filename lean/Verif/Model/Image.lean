import Verif.Model.Geom
import Verif.Model.Composite
/-!
# Layered images: image.go, layer.go, misc.go

Simplifications.
* An image that is not a group, text or masked image is known to limage only through its methods
  `ColorModel`, `Bounds` and `At`; it is modelled by those three (`Leaf`), with `At` a function of
  the point (no hidden state).  This includes the raster types of limage and the standard library,
  the compressed images of xcf (whose cache is modelled and shown to be invisible in
  `Verif.Model.XcfImage`) and a `Layer` used as the image of another layer.
* Pointer and value forms of `Image`, `Text`, `MaskedImage` are not distinguished (the code treats
  them alike everywhere).
* A nil `color.Color` result is not distinguished from a panic.  Its users panic, except a layer above it whose
  transparency is 0 (misc.go:52 returns the colour itself) or 255 (misc.go:54 does not look at it).
* Go strings are byte strings.
-/
namespace Limage

/-- Go's `string` -/
abbrev GoString := List UInt8

/-- The colour models the code distinguishes (encoder.go:55-80, image.go:50): comparisons with the
standard and lcolor model values, and type switches on `color.Palette` and `lcolor.AlphaPalette`.
`other` is any other model (`color.NRGBAModel`, `lcolor.RGBModel`, …). -/
inductive ColorModel where
  | gray
  | gray16
  | grayAlpha
  | alpha
  | palette (p : List Color)
  | alphaPalette (p : List Color)
  | other
deriving DecidableEq, Inhabited

/-- `_, ok := m.(color.Palette)` -/
def ColorModel.isPalette : ColorModel → Bool
  | .palette _ => true
  | _ => false

/-- an image known by its methods; `pixel` is `At`, `pixel p = none` = panic -/
structure Leaf where
  bounds : Rect
  model : ColorModel
  pixel : Pt → Option Color

/-- Standard library `*image.Gray`: bounds and pixel values. -/
structure GrayImg where
  rect : Rect
  pix : Pt → UInt8

/-- Standard library `(*image.Gray).GrayAt`: zero outside the bounds. -/
def GrayImg.grayAt (g : GrayImg) (p : Pt) : UInt8 := if Rect.mem p g.rect then g.pix p else 0

/-- misc.go:44-49 `TextDatum`; `none` = nil colour. -/
structure TextDatum where
  foreColor : Option Color
  backColor : Option Color
  size : UInt32
  letterSpacing : UInt32
  rise : UInt32
  bold : Bool
  italic : Bool
  underline : Bool
  strikethrough : Bool
  font : GoString
  data : GoString
deriving DecidableEq, Inhabited

/-- misc.go:30 `TextData`. -/
abbrev TextData := List TextDatum

/-- misc.go:33-41 `TextData.String`. -/
def TextData.string (t : TextData) : GoString := t.foldl (fun s d => s ++ d.data) []

/-- layer.go:9-16 `Layer`, for an arbitrary type of images. -/
structure LayerOf (α : Type) where
  name : GoString
  bounds : Rect
  mode : Mode
  invisible : Bool
  transparency : UInt8
  image : α

/-- Values of `image.Image` (image.go:11, misc.go:12-27): a group of layers (`limage.Image`), a text
image, a masked image, anything else, or a nil interface. -/
inductive Img where
  | leaf (l : Leaf)
  | nil
  | text (i : Img) (t : TextData)
  | masked (i : Img) (m : Option GrayImg)
  | group (g : List (LayerOf Img))

abbrev Layer := LayerOf Img

/-- image.go:24-32 `Image.Bounds`: every layer's `Bounds()` is its `LayerBounds` (layer.go:19-21). -/
def groupBounds (g : List Layer) : Rect := g.foldl (fun r l => r.union l.bounds) Rect.zero

/-- `Bounds()` of an image; text and masked images take the embedded image's (misc.go:13,25);
`none` = nil pointer panic. -/
def Img.bounds : Img → Option Rect
  | .leaf l => some l.bounds
  | .nil => none
  | .text i _ => i.bounds
  | .masked i _ => i.bounds
  | .group g => some (groupBounds g)

mutual
/-- `ColorModel()` of an image (image.go:15-21; `Layer`, text and masked images take the embedded
image's, layer.go:15, misc.go:13,25); `none` = nil pointer panic. -/
def Img.colorModel (i : Img) : Option ColorModel :=
  match i with
  | .leaf l => some l.model
  | .nil => none
  | .text i _ => i.colorModel
  | .masked i _ => i.colorModel
  | .group g => groupModel g
termination_by structural i

/-- image.go:15-21 `Image.ColorModel`. -/
def groupModel (g : List Layer) : Option ColorModel :=
  match g with
  | [] => some .alpha
  | ⟨_, _, _, _, _, im⟩ :: _ => im.colorModel
termination_by structural g
end

mutual
/-- `At(x, y)` of an image.  `ρ` is the sequence of values the random source will return
(`rand.Int31n(0xffff)`, composite.go:194) and `n` the number of values drawn so far; the result is
the colour and the new number.  `none` = panic.
misc.go:18-20 (masked), misc.go:24-27 (text: embedded). -/
def Img.at (ρ : Nat → UInt16) (i : Img) (p : Pt) (n : Nat) : Option (Color × Nat) :=
  match i with
  | .leaf l => (l.pixel p).map fun c => (c, n)
  | .nil => none
  | .text i _ => i.at ρ p n
  | .masked i m => do
    let (c, n) ← i.at ρ p n
    let m ← m
    return (transparency c (m.grayAt p), n)
  | .group g => layersAt ρ (groupModel g) g p n
termination_by structural i

/-- image.go:35-59, the loop of `Image.At`: layers are processed from the last to the first;
`cm` is `g.ColorModel()` of the whole group; layer.go:24-26 is `Layer.At`. -/
def layersAt (ρ : Nat → UInt16) (cm : Option ColorModel) (g : List Layer) (p : Pt) (n : Nat) :
    Option (Color × Nat) :=
  match g with
  | [] => some (.alpha 0, n)
  | ⟨_, b, mode, invisible, tr, im⟩ :: rest => do
    let (c, n) ← layersAt ρ cm rest p n
    if invisible then return (c, n)
    if ¬ Rect.mem p b then return (c, n)
    let cm ← cm
    let (t, n) ← im.at ρ ⟨p.x - b.x0, p.y - b.y0⟩ n
    let t := Limage.transparency t (255 - tr)
    if mode ≠ Mode.dissolve && cm.isPalette then
      let d := t.toNRGBA
      if d.a > 0x7fff then return (.nrgba64 { d with a := 0xffff }, n) else return (c, n)
    else if mode = Mode.dissolve then
      let c ← composite (ρ n) mode c t
      return (c, n + 1)
    else
      let c ← composite 0 mode c t
      return (c, n)
termination_by structural g
end

/-- layer.go:24-26 `Layer.At`. -/
def layerAt (ρ : Nat → UInt16) (l : Layer) (p : Pt) (n : Nat) : Option (Color × Nat) := do
  let (t, n) ← l.image.at ρ ⟨p.x - l.bounds.x0, p.y - l.bounds.y0⟩ n
  return (transparency t (255 - l.transparency), n)

/-- layer.go:36-40 `Layer.SubImageLayer`. -/
def subImageLayer (r : Rect) (l : Layer) : Layer := { l with bounds := r.inter l.bounds }

/-- image.go:63-71 `Image.SubImage`. -/
def groupSubImage (r : Rect) (g : List Layer) : List Layer := g.map (subImageLayer r)

end Limage
