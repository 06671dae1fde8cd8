/-!
# Colours

Model of the colour types the code uses: the standard library's `image/color` types that occur
in limage, the types of package `lcolor`, and an `other` constructor standing for every other
implementation of `color.Color` (known to the code only through its `RGBA` method).

HSL/HSV arithmetic is in this file too because `HSLA`/`HSVA` are colours.
-/
namespace Limage

/-- A non-alpha-premultiplied 64-bit colour: Go `image/color.NRGBA64` (standard library). -/
structure NRGBA64 where
  r : UInt16
  g : UInt16
  b : UInt16
  a : UInt16
deriving DecidableEq, Repr, Inhabited

/-- Alpha-premultiplied result of Go's `color.Color.RGBA()` (four `uint32`). -/
structure RGBA32 where
  r : UInt32
  g : UInt32
  b : UInt32
  a : UInt32
deriving DecidableEq, Repr, Inhabited

/-- Values of Go's `color.Color` interface, by dynamic type.
`lrgb` = `lcolor.RGB` (lcolor/rgb.go:6-8), `grayAlpha` = `lcolor.GrayAlpha` (lcolor/gray.go:6-8),
`hsla` = `lcolor.HSLA` (lcolor/hsl.go:10-12), `hsva` = `lcolor.HSVA` (lcolor/hsl.go:70-72); the
remaining ones are standard library types; `other` is any other implementation, which the code can
only observe through `RGBA()`. A nil interface is not a `Color` (it is represented by `none`
wherever it can occur). -/
inductive Color where
  | nrgba (r g b a : UInt8)
  | nrgba64 (c : NRGBA64)
  | rgba (r g b a : UInt8)
  | rgba64 (r g b a : UInt16)
  | alpha (a : UInt8)
  | gray (y : UInt8)
  | gray16 (y : UInt16)
  | lrgb (r g b : UInt8)
  | grayAlpha (y a : UInt8)
  | hsla (h s l a : UInt16)
  | hsva (h s v a : UInt16)
  | other (c : RGBA32)
deriving DecidableEq, Repr, Inhabited

/-- `d |= d << 8` on a `uint16` holding a byte (internal/nrgba.go:10-17, lcolor/*.go). -/
def widen16 (x : UInt8) : UInt16 := x.toUInt16 ||| (x.toUInt16 <<< 8)

/-- `y |= y << 8` on a `uint32` holding a byte. -/
def widen32 (x : UInt8) : UInt32 := x.toUInt32 ||| (x.toUInt32 <<< 8)

/-- Go `color.NRGBA64.RGBA` (standard library image/color/color.go):
`r := uint32(c.R); r *= uint32(c.A); r /= 0xffff`, alpha unchanged. -/
def NRGBA64.rgba (c : NRGBA64) : RGBA32 where
  r := c.r.toUInt32 * c.a.toUInt32 / 0xffff
  g := c.g.toUInt32 * c.a.toUInt32 / 0xffff
  b := c.b.toUInt32 * c.a.toUInt32 / 0xffff
  a := c.a.toUInt32

/-! ### internal/minmax.go -/

/-- internal/minmax.go:3-13 `Min`. -/
def goMin (n : List UInt16) : UInt16 :=
  n.foldl (fun m o => if o < m then o else m) 0xffff

/-- internal/minmax.go:15-25 `Max`. -/
def goMax (n : List UInt16) : UInt16 :=
  n.foldl (fun m o => if o > m then o else m) 0

/-- internal/minmax.go:27-29 `Mid` (unused by the rest of the code). -/
def goMid (n : List UInt16) : UInt16 := (goMin n + goMax n) >>> 1

/-! ### lcolor/hsl.go -/

/-- lcolor/hsl.go:10-12. -/
structure HSLA where
  h : UInt16
  s : UInt16
  l : UInt16
  a : UInt16
deriving DecidableEq, Repr, Inhabited

/-- lcolor/hsl.go:70-72. -/
structure HSVA where
  h : UInt16
  s : UInt16
  v : UInt16
  a : UInt16
deriving DecidableEq, Repr, Inhabited

/-- lcolor/hsl.go:145-188 `hcmaToColour`. The Go `switch h / 0xffff` has cases 0..5 and no default. -/
def hcmaToColour (hue c : UInt32) (m a : UInt16) : NRGBA64 :=
  let h : UInt32 := if hue ≠ 0xffff then hue * 6 else 0
  let x : UInt32 := h % 0x1fffe
  let x : UInt32 := if x ≥ 0xffff then 0x1fffe - x else x
  let x : UInt32 := x * c / 0xffff
  let (r, g, b) : UInt16 × UInt16 × UInt16 :=
    if h / 0xffff = 0 then (c.toUInt16, x.toUInt16, 0)
    else if h / 0xffff = 1 then (x.toUInt16, c.toUInt16, 0)
    else if h / 0xffff = 2 then (0, c.toUInt16, x.toUInt16)
    else if h / 0xffff = 3 then (0, x.toUInt16, c.toUInt16)
    else if h / 0xffff = 4 then (x.toUInt16, 0, c.toUInt16)
    else if h / 0xffff = 5 then (c.toUInt16, 0, x.toUInt16)
    else (0, 0, 0)
  ⟨r + m, g + m, b + m, a⟩

/-- lcolor/hsl.go:49-67 `HSLA.ToNRGBA`. -/
def HSLA.toNRGBA (h : HSLA) : NRGBA64 :=
  if h.s = 0 then ⟨h.l, h.l, h.l, h.a⟩
  else
    let c : UInt32 := h.l.toUInt32 <<< 1
    let c : UInt32 := if c < 0x7fff then 0x1fffe - c else c
    let c : UInt32 := c * h.s.toUInt32 / 0xffff
    hcmaToColour h.h.toUInt32 c (h.l - (c >>> 2).toUInt16) h.a

/-- lcolor/hsl.go:103-116 `HSVA.ToNRGBA`. -/
def HSVA.toNRGBA (h : HSVA) : NRGBA64 :=
  if h.s = 0 then ⟨h.v, h.v, h.v, h.a⟩
  else
    let c : UInt16 := (h.v.toUInt32 * h.s.toUInt32 / 0xffff).toUInt16
    hcmaToColour h.h.toUInt32 c.toUInt32 (h.v - c) h.a

/-! ### RGBA methods -/

/-- The `RGBA()` method of each colour type. Standard library: NRGBA, NRGBA64, RGBA, RGBA64, Alpha,
Gray, Gray16 (image/color/color.go). limage: lcolor/rgb.go:11-20, lcolor/gray.go:11-20,
lcolor/hsl.go:44-46 and 98-100. -/
def Color.rgba32 : Color → RGBA32
  | .nrgba r g b a =>
    { r := widen32 r * a.toUInt32 / 0xff
      g := widen32 g * a.toUInt32 / 0xff
      b := widen32 b * a.toUInt32 / 0xff
      a := widen32 a }
  | .nrgba64 c => c.rgba
  | .rgba r g b a => ⟨widen32 r, widen32 g, widen32 b, widen32 a⟩
  | .rgba64 r g b a => ⟨r.toUInt32, g.toUInt32, b.toUInt32, a.toUInt32⟩
  | .alpha a => ⟨widen32 a, widen32 a, widen32 a, widen32 a⟩
  | .gray y => ⟨widen32 y, widen32 y, widen32 y, 0xffff⟩
  | .gray16 y => ⟨y.toUInt32, y.toUInt32, y.toUInt32, 0xffff⟩
  | .lrgb r g b => ⟨widen32 r, widen32 g, widen32 b, 0xffff⟩
  | .grayAlpha y a =>
    let v := widen32 y * a.toUInt32 / 0xff
    ⟨v, v, v, widen32 a⟩
  | .hsla h s l a => (HSLA.mk h s l a).toNRGBA.rgba
  | .hsva h s v a => (HSVA.mk h s v a).toNRGBA.rgba
  | .other c => c

/-! ### Standard library colour models -/

/-- Go `color.NRGBA64Model.Convert` (standard library `nrgba64Model`). -/
def nrgba64Model (c : Color) : NRGBA64 :=
  match c with
  | .nrgba64 n => n
  | c =>
    let q := c.rgba32
    if q.a = 0xffff then ⟨q.r.toUInt16, q.g.toUInt16, q.b.toUInt16, 0xffff⟩
    else if q.a = 0 then ⟨0, 0, 0, 0⟩
    else
      ⟨(q.r * 0xffff / q.a).toUInt16, (q.g * 0xffff / q.a).toUInt16,
       (q.b * 0xffff / q.a).toUInt16, q.a.toUInt16⟩

/-- Go `color.NRGBAModel.Convert` (standard library `nrgbaModel`); result as (r,g,b,a) bytes. -/
def nrgbaModel (c : Color) : UInt8 × UInt8 × UInt8 × UInt8 :=
  match c with
  | .nrgba r g b a => (r, g, b, a)
  | c =>
    let q := c.rgba32
    if q.a = 0xffff then ((q.r >>> 8).toUInt8, (q.g >>> 8).toUInt8, (q.b >>> 8).toUInt8, 0xff)
    else if q.a = 0 then (0, 0, 0, 0)
    else
      (((q.r * 0xffff / q.a) >>> 8).toUInt8, ((q.g * 0xffff / q.a) >>> 8).toUInt8,
       ((q.b * 0xffff / q.a) >>> 8).toUInt8, (q.a >>> 8).toUInt8)

/-- Go `color.GrayModel.Convert` (standard library `grayModel`). -/
def grayModel (c : Color) : UInt8 :=
  match c with
  | .gray y => y
  | c =>
    let q := c.rgba32
    let y : UInt32 := 19595 * q.r + 38470 * q.g + 7471 * q.b + 0x8000 -- Go writes 1<<15
    (y >>> 24).toUInt8

/-! ### lcolor models -/

/-- lcolor/gray.go:32-39 `grayAlphaColourModel`; result as (Y, A). -/
def grayAlphaModel (c : Color) : UInt8 × UInt8 :=
  (grayModel c, (c.rgba32.a >>> 8).toUInt8)

/-- lcolor/rgb.go:35-43 `rgbColourModel`. -/
def rgbModel (c : Color) : UInt8 × UInt8 × UInt8 :=
  let q := c.rgba32
  ((q.r >>> 8).toUInt8, (q.g >>> 8).toUInt8, (q.b >>> 8).toUInt8)

/-- internal/nrgba.go:5-31 `ColourToNRGBA`: the type switch, then the `ToNRGBA` methods
(lcolor/rgb.go:24-33, lcolor/gray.go:23-30, lcolor/hsl.go:49-67 and 103-116), then the standard
conversion. Simplification: a third-party colour type with its own `ToNRGBA` method is not
modelled (`other` has none). -/
def Color.toNRGBA : Color → NRGBA64
  | .nrgba r g b a => ⟨widen16 r, widen16 g, widen16 b, widen16 a⟩
  | .nrgba64 c => c
  | .lrgb r g b => ⟨widen16 r, widen16 g, widen16 b, 0xffff⟩
  | .grayAlpha y a => ⟨widen16 y, widen16 y, widen16 y, widen16 a⟩
  | .hsla h s l a => (HSLA.mk h s l a).toNRGBA
  | .hsva h s v a => (HSVA.mk h s v a).toNRGBA
  | c => nrgba64Model c

/-! ### RGB to HSL / HSV -/

/-- lcolor/hsl.go:118-143 `colourToHue`; `c` is non-zero at both call sites (hsl.go:27-30, 86-89).
The Go `switch mx` tests `cl.R`, `cl.G`, `cl.B` in order. -/
def colourToHue (cl : NRGBA64) (mx : UInt16) (c : UInt32) : UInt16 :=
  let h : UInt32 :=
    if mx = cl.r then
      if cl.g ≥ cl.b then 0x00000 + 0xffff * (cl.g - cl.b).toUInt32 / c
      else 0x5fffa - 0xffff * (cl.b - cl.g).toUInt32 / c
    else if mx = cl.g then
      if cl.b ≥ cl.r then 0x1fffe + 0xffff * (cl.b - cl.r).toUInt32 / c
      else 0x1fffe - 0xffff * (cl.r - cl.b).toUInt32 / c
    else if mx = cl.b then
      if cl.r ≥ cl.g then 0x3fffc + 0xffff * (cl.r - cl.g).toUInt32 / c
      else 0x3fffc - 0xffff * (cl.g - cl.r).toUInt32 / c
    else 0
  (h / 6).toUInt16

/-- lcolor/hsl.go:15-41 `RGBToHSL`, after `ColourToNRGBA`. `none` = division by zero. -/
def rgbToHSL (cl : NRGBA64) : Option HSLA :=
  let mn : UInt32 := (goMin [cl.r, cl.g, cl.b]).toUInt32
  let mx : UInt32 := (goMax [cl.r, cl.g, cl.b]).toUInt32
  let l := mx + mn
  let c := mx - mn
  if c = 0 then some { h := 0, s := 0, l := (l >>> 1).toUInt16, a := cl.a }
  else
    let d := if l ≤ 0xffff then l else 0x1fffe - l
    if d = 0 then none
    else some { h := colourToHue cl mx.toUInt16 c, s := (0xffff * c / d).toUInt16,
                l := (l >>> 1).toUInt16, a := cl.a }

/-- lcolor/hsl.go:75-95 `RGBToHSV`, after `ColourToNRGBA`. `none` = division by zero. -/
def rgbToHSV (cl : NRGBA64) : Option HSVA :=
  let mn := goMin [cl.r, cl.g, cl.b]
  let mx := goMax [cl.r, cl.g, cl.b]
  let c : UInt32 := (mx - mn).toUInt32
  if c = 0 then some { h := 0, s := 0, v := mx, a := cl.a }
  else if mx.toUInt32 = 0 then none
  else some { h := colourToHue cl mx c, s := (0xffff * c / mx.toUInt32).toUInt16, v := mx, a := cl.a }

/-! ### Opacity -/

/-- misc.go:51-64 `transparency`. -/
def transparency (ac : Color) (ao : UInt8) : Color :=
  if ao = 0xff then ac
  else if ao = 0 then .nrgba64 ⟨0, 0, 0, 0⟩
  else
    let c := ac.toNRGBA
    let o : UInt32 := ao.toUInt32
    let o : UInt32 := o ||| (o <<< 8)
    .nrgba64 { c with a := (o * c.a.toUInt32 / 0xffff).toUInt16 }

/-! ### Palettes -/

/-- Go standard library `sqDiff` (image/color/color.go). -/
def sqDiff (x y : UInt32) : UInt32 := ((x - y) * (x - y)) >>> 2

/-- Distance used by Go's `color.Palette.Index` (standard library). -/
def colorDist (c v : Color) : UInt32 :=
  let p := c.rgba32
  let q := v.rgba32
  sqDiff p.r q.r + sqDiff p.g q.g + sqDiff p.b q.b + sqDiff p.a q.a

/-- Loop of Go's `color.Palette.Index`: `i` is the index of the head of the remaining palette,
`ret`/`best` the best so far; returns early on distance 0. -/
def paletteIndexFrom (c : Color) : List Color → (i ret : Nat) → (best : UInt32) → Nat
  | [], _, ret, _ => ret
  | v :: vs, i, ret, best =>
    let sum := colorDist c v
    if sum < best then
      if sum = 0 then i else paletteIndexFrom c vs (i + 1) i sum
    else paletteIndexFrom c vs (i + 1) ret best

/-- lcolor/indexed.go:23-25 `AlphaPalette.Index` = standard library `color.Palette.Index`. -/
def paletteIndex (p : List Color) (c : Color) : Nat := paletteIndexFrom c p 0 0 0xffffffff

/-- lcolor/indexed.go:10-20 `AlphaPalette.Convert`; `none` when the palette is empty (Go: nil colour,
method call panics). -/
def alphaPaletteConvert (p : List Color) (c : Color) : Option NRGBA64 :=
  match p[paletteIndex p c]? with
  | none => none
  | some v =>
    let q := v.rgba32
    some ⟨q.r.toUInt16, q.g.toUInt16, q.b.toUInt16, c.rgba32.a.toUInt16⟩

end Limage
