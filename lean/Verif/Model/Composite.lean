import Verif.Model.Color
/-!
# Layer composition: composite.go

`Composite` is a `uint32` in Go (composite.go:12); every value is allowed.
-/
namespace Limage

/-- composite.go:12. -/
abbrev Mode := UInt32

namespace Mode
/-! composite.go:15-58: the constants, numbered by `iota`. -/
def normal : Mode := 0
def dissolve : Mode := 1
def behind : Mode := 2
def multiply : Mode := 3
def screen : Mode := 4
def overlay : Mode := 5
def difference : Mode := 6
def addition : Mode := 7
def subtract : Mode := 8
def darkenOnly : Mode := 9
def lightenOnly : Mode := 10
def hue : Mode := 11
def saturation : Mode := 12
def color : Mode := 13
def value : Mode := 14
def divide : Mode := 15
def dodge : Mode := 16
def burn : Mode := 17
def hardLight : Mode := 18
def softLight : Mode := 19
def grainExtract : Mode := 20
def grainMerge : Mode := 21
def luminosity : Mode := 22
def plus : Mode := 23
def destinationIn : Mode := 24
def destinationOut : Mode := 25
def sourceAtop : Mode := 26
def destinationAtop : Mode := 27
def colorErase : Mode := 28
def chroma : Mode := 29
def lightness : Mode := 30
def vividLight : Mode := 31
def pinLight : Mode := 32
def linearLight : Mode := 33
def hardMix : Mode := 34
def exclusion : Mode := 35
def linearBurn : Mode := 36
def luminance : Mode := 37
def erase : Mode := 38
def merge : Mode := 39
def split : Mode := 40
def passThrough : Mode := 41
end Mode

/-- composite.go:60-89 `compositeNames`. -/
def compositeNames : List String :=
  ["Normal", "Dissolve", "Behind", "Multiply", "Screen", "Overlay", "Difference", "Addition",
   "Subtract", "Darken Only", "Lighten Only", "Hue", "Saturation", "Color", "Value", "Divide",
   "Dodge", "Burn", "Hard Light", "Soft Light", "Grain Extract", "Grain Merge", "Luminosity",
   "Plus", "Destination In", "Destination Out", "Source Atop", "Destination Atop"]

/-- composite.go:92-98 `Composite.String`; `none` would be an index panic. -/
def compositeString (c : Mode) : Option String :=
  if c.toNat < compositeNames.length then compositeNames[c.toNat]? else compositeNames[0]?

/-- composite.go:363-369 `clamp`. -/
def clamp (n : UInt32) : UInt16 := if n > 0xffff then 0xffff else n.toUInt16

/-- composite.go:371-379 `blend`; `none` = integer divide by zero panic. -/
def blend (aa1 ax1 aa2 ax2 : UInt16) : Option UInt16 :=
  let a1 := aa1.toUInt32
  let x1 := ax1.toUInt32
  let a2 := aa2.toUInt32
  let x2 := ax2.toUInt32
  let d := 0xffff - (0xffff - a1) * (0xffff - a2) / 0xffff
  if d = 0 then none
  else
    let k := 0xffff * a2 / d
    some ((0xffff - k) * x1 / 0xffff + k * x2 / 0xffff).toUInt16

/-- composite.go:180-191 `compositeNormal`. -/
def compositeNormal (bottom top : NRGBA64) : Option NRGBA64 :=
  if bottom.a = 0 ∧ top.a = 0 then some ⟨0, 0, 0, 0⟩
  else do
    let r ← blend bottom.a bottom.r top.a top.r
    let g ← blend bottom.a bottom.g top.a top.g
    let b ← blend bottom.a bottom.b top.a top.b
    return ⟨r, g, b,
      (0xffff - (0xffff - bottom.a.toUInt32) * (0xffff - top.a.toUInt32) / 0xffff).toUInt16⟩

/-- composite.go:193-201 `compositeDissolve`. `draw` is the value of `rand.Int31n(0xffff)`,
i.e. some value below 0xffff. -/
def compositeDissolve (draw : UInt16) (bottom top : NRGBA64) : NRGBA64 :=
  if draw < bottom.a then { top with a := 0xffff } else bottom

/-- composite.go:203-205. -/
def compositeMultiply (x y : UInt16) : UInt16 := (x.toUInt32 * y.toUInt32 / 0xffff).toUInt16

/-- composite.go:207-209 (`0xffff-x` is uint16 arithmetic there). -/
def compositeScreen (x y : UInt16) : UInt16 :=
  (0xffff - (0xffff - x).toUInt32 * (0xffff - y).toUInt32 / 0xffff).toUInt16

/-- composite.go:211-217. -/
def compositeOverlay (ax ay : UInt16) : UInt16 :=
  let x := ax.toUInt32
  let y := ay.toUInt32
  let t := 0xffff - y
  ((0xffff - y) * (x * x / 0xffff) / 0xffff + y * (0xffff - (t * t / 0xffff)) / 0xffff).toUInt16

/-- composite.go:219-225. -/
def compositeDifference (x y : UInt16) : UInt16 := if x > y then x - y else y - x

/-- composite.go:227-229. -/
def compositeAddition (x y : UInt16) : UInt16 := clamp (x.toUInt32 + y.toUInt32)

/-- composite.go:231-237. -/
def compositeSubtract (x y : UInt16) : UInt16 := if y > x then 0 else x - y

/-- composite.go:239-241. -/
def compositeDarkenOnly (x y : UInt16) : UInt16 := goMin [x, y]

/-- composite.go:243-245. -/
def compositeLightenOnly (x y : UInt16) : UInt16 := goMax [x, y]

/-- composite.go:247-257; the divisor is `y`, non-zero in that branch. -/
def compositeDivide (x y : UInt16) : UInt16 :=
  if y = 0 then (if x = 0 then 0 else 0xffff)
  else clamp (0xffff * x.toUInt32 / y.toUInt32)

/-- composite.go:259-269; the divisor is `0xffff - y`, non-zero in that branch. -/
def compositeDodge (x y : UInt16) : UInt16 :=
  if y = 0xffff then (if x = 0 then 0 else 0xffff)
  else clamp (0xffff * x.toUInt32 / (0xffff - y.toUInt32))

/-- composite.go:271-281; the divisor is `y`, non-zero in that branch. -/
def compositeBurn (x y : UInt16) : UInt16 :=
  if y = 0 then (if x = 0xffff then 0 else 0xffff)
  else clamp (0xffff - 0xffff * (0xffff - x.toUInt32) / y.toUInt32)

/-- composite.go:283-289. In Go `<<` binds tighter than `-`. -/
def compositeHardLight (x y : UInt16) : UInt16 :=
  let y2 : UInt32 := y.toUInt32 <<< 1
  if y < 0x7fff then (x.toUInt32 * y2 / 0xffff).toUInt16
  else (0xffff - (0xffff - x.toUInt32) * (0x1fffe - y2) / 0xffff).toUInt16

/-- composite.go:291-293. -/
def compositeSoftLight (x y : UInt16) : UInt16 := compositeOverlay x y

/-- composite.go:295-304. -/
def compositeGrainExtract (ax ay : UInt16) : UInt16 :=
  let x := ax.toUInt32
  let y := ay.toUInt32
  if x + 0x7fff < y then 0 else clamp (x - y + 0x7fff)

/-- composite.go:306-308. -/
def compositeGrainMerge (x y : UInt16) : UInt16 := clamp (x.toUInt32 + y.toUInt32 + 0x7fff)

/-- composite.go:310-322 `compositeHue` (its locals named `br, bg, bb` are the top's). -/
def compositeHue (bottom top : NRGBA64) : Option Color :=
  let q := top.rgba
  if q.r = q.g ∧ q.r = q.b then some (.nrgba64 bottom)
  else do
    let a ← rgbToHSV bottom
    let b ← rgbToHSV top
    return .hsva b.h a.s a.v a.a

/-- composite.go:324-329 `compositeSaturation`. -/
def compositeSaturation (bottom top : NRGBA64) : Option Color := do
  let a ← rgbToHSV bottom
  let b ← rgbToHSV top
  return .hsva a.h b.s a.v a.a

/-- composite.go:331-337 `compositeColor`. -/
def compositeColor (bottom top : NRGBA64) : Option Color := do
  let a ← rgbToHSL bottom
  let b ← rgbToHSL top
  return .hsla b.h b.s a.l b.a

/-- composite.go:339-345 `compositeValue`. -/
def compositeValue (bottom top : NRGBA64) : Option Color := do
  let a ← rgbToHSV bottom
  let b ← rgbToHSV top
  return .hsva a.h a.s b.v a.a

/-- composite.go:347-349 `compositePlus`. -/
def compositePlus (bottom top : NRGBA64) : Option NRGBA64 := compositeNormal bottom top
/-- composite.go:351-353 `compositeDstIn`. -/
def compositeDstIn (bottom top : NRGBA64) : Option NRGBA64 := compositeNormal bottom top
/-- composite.go:355-357 `compositeDstOut`. -/
def compositeDstOut (bottom top : NRGBA64) : Option NRGBA64 := compositeNormal bottom top
/-- composite.go:359-361 `compositeAtop`. -/
def compositeAtop (bottom top : NRGBA64) : Option NRGBA64 := compositeNormal bottom top

/-- composite.go:107-137: the mode's per-channel function `f`, if it has one. -/
def channelFunc (c : Mode) : Option (UInt16 → UInt16 → UInt16) :=
  if c = Mode.multiply then some compositeMultiply
  else if c = Mode.screen then some compositeScreen
  else if c = Mode.overlay then some compositeOverlay
  else if c = Mode.difference then some compositeDifference
  else if c = Mode.addition then some compositeAddition
  else if c = Mode.subtract then some compositeSubtract
  else if c = Mode.darkenOnly then some compositeDarkenOnly
  else if c = Mode.lightenOnly then some compositeLightenOnly
  else if c = Mode.divide then some compositeDivide
  else if c = Mode.dodge then some compositeDodge
  else if c = Mode.burn then some compositeBurn
  else if c = Mode.hardLight then some compositeHardLight
  else if c = Mode.softLight then some compositeSoftLight
  else if c = Mode.grainExtract then some compositeGrainExtract
  else if c = Mode.grainMerge then some compositeGrainMerge
  else none

/-- composite.go:166-177: the common tail for per-channel modes. -/
def compositeChannels (f : UInt16 → UInt16 → UInt16) (bottom top : NRGBA64) : Option Color :=
  if bottom.a = 0 then some (.nrgba 0 0 0 0)
  else do
    let ma := goMin [bottom.a, top.a]
    let r ← blend bottom.a bottom.r ma (f bottom.r top.r)
    let g ← blend bottom.a bottom.g ma (f bottom.r top.g)
    let b ← blend bottom.a bottom.b ma (f bottom.r top.b)
    return .nrgba64 ⟨r, g, b, bottom.a⟩

/-- composite.go:101-178 `Composite.Composite`. `draw` is the outcome of the random source, used
only by Dissolve. `none` = the Go code panics. -/
def composite (draw : UInt16) (c : Mode) (b t : Color) : Option Color :=
  let bottom := b.toNRGBA
  let top := t.toNRGBA
  match channelFunc c with
  | some f => compositeChannels f bottom top
  | none =>
    if c = Mode.behind then some (.nrgba64 bottom)
    else if c = Mode.dissolve then some (.nrgba64 (compositeDissolve draw bottom top))
    else if c = Mode.hue then compositeHue bottom top
    else if c = Mode.saturation then compositeSaturation bottom top
    else if c = Mode.color then compositeColor bottom top
    else if c = Mode.value then compositeValue bottom top
    else if c = Mode.luminosity then compositeColor top bottom
    else if c = Mode.plus then (compositePlus bottom top).map .nrgba64
    else if c = Mode.destinationIn then (compositeDstIn bottom top).map .nrgba64
    else if c = Mode.destinationOut then (compositeDstOut bottom top).map .nrgba64
    else if c = Mode.sourceAtop then (compositeAtop bottom top).map .nrgba64
    else if c = Mode.destinationAtop then (compositeAtop top bottom).map .nrgba64
    else (compositeNormal bottom top).map .nrgba64

end Limage
