import Verif.Spec.Ora
/-!
# What is assumed of PNG files

`png.Encode` and `image.Decode` of the standard library (image/png/writer.go: `Encode`, `writeIDATs`; image/png/reader.go: `readImagePass`).  Not
described: images that have a `ColorIndexAt` method, interlaced files and other files that `png.Encode` does not write.
-/
namespace Limage.Spec

/-- Formats of PNG files: grey, true colour without alpha (`tc`) and with alpha (`tca`), with 8 or 16 bits per channel. -/
inductive PngKind where
  | g8
  | g16
  | tc8
  | tca8
  | tc16
  | tca16
deriving DecidableEq

/-- no alpha is stored -/
def PngKind.drops : PngKind → Bool
  | .tc8 | .tc16 => true
  | _ => false

/-- a grey format -/
def PngKind.grey : PngKind → Bool
  | .g8 | .g16 => true
  | _ => false

/-- the model of an image that is read from such a file (`image.Gray`, `image.Gray16`, `image.RGBA`, …) -/
def PngKind.model : PngKind → ColorModel
  | .g8 => .gray
  | .g16 => .gray16
  | _ => .other

/-- `color.Gray16Model.Convert` -/
def gray16Model (c : Color) : UInt16 :=
  match c with
  | .gray16 y => y
  | c =>
    let q := c.rgba32
    ((19595 * q.r + 38470 * q.g + 7471 * q.b + 0x8000) >>> 16).toUInt16

/-- the colour that is read where the given one was written -/
def PngKind.back (k : PngKind) (c : Color) : Color :=
  match k with
  | .g8 => .gray (grayModel c)
  | .g16 => .gray16 (gray16Model c)
  | .tc8 => .rgba (c.rgba32.r >>> 8).toUInt8 (c.rgba32.g >>> 8).toUInt8 (c.rgba32.b >>> 8).toUInt8 255
  | .tca8 => .nrgba (nrgbaModel c).1 (nrgbaModel c).2.1 (nrgbaModel c).2.2.1 (nrgbaModel c).2.2.2
  | .tc16 => .rgba64 c.rgba32.r.toUInt16 c.rgba32.g.toUInt16 c.rgba32.b.toUInt16 0xffff
  | .tca16 => .nrgba64 (nrgba64Model c)

/-- the formats that are used for images with a colour model -/
def pngKinds : ColorModel → List PngKind
  | .gray => [.g8]
  | .gray16 => [.g16]
  | .alpha => [.tc8, .tca8]
  | .grayAlpha => [.tc16, .tca16]
  | .alphaPalette _ => [.tc16, .tca16]
  | .other => [.tc8, .tca8, .tc16, .tca16]
  | .palette _ => []

/-- If `png.Encode` writes an image, then in the format `kind` of it, which fits its colour model, and this is what `image.Decode` reads of it.  `ρ`: the
random source. -/
def PngPixels (env : OraEnv) (ρ : Nat → UInt16) (kind : Img → PngKind) : Prop :=
  ∀ i d L b cm, env.png (.full (.image i)) = .ok d → env.decodeImage d = some L → i.bounds = some b → i.colorModel = some cm →
    cm.isPalette = false → kind i ∈ pngKinds cm ∧ L.model = (kind i).model ∧
      ∀ q, Rect.mem q L.bounds = true → ∃ n n' c, i.at ρ ⟨b.x0 + q.x, b.y0 + q.y⟩ n = some (c, n') ∧ L.pixel q = some ((kind i).back c)

/-- all pixels of an image are opaque -/
def AllOpaque (i : Img) : Prop :=
  ∀ b, i.bounds = some b → ∀ ρ q n c n', Rect.mem q b = true → i.at ρ q n = some (c, n') → c.rgba32.a = 0xffff

/-- the alpha of an image is only dropped (because its `Opaque` method says so, or because it has none and all pixels are) if there is nothing to drop -/
def TellsOpaque (kind : Img → PngKind) (i : Img) : Prop := (kind i).drops = true → AllOpaque i

/-- pixels of images with a grey model are opaque and grey -/
def GreyAsSaid (i : Img) : Prop :=
  ∀ b cm, i.bounds = some b → i.colorModel = some cm → cm = .gray ∨ cm = .gray16 → ∀ ρ q n c n', Rect.mem q b = true → i.at ρ q n = some (c, n') →
    c.rgba32.r = c.rgba32.g ∧ c.rgba32.g = c.rgba32.b ∧ c.rgba32.a = 0xffff

/-- all pixels of an image are colours as `color.Color` requires -/
def ProperColours (i : Img) : Prop :=
  ∀ b, i.bounds = some b → ∀ ρ q n c n', Rect.mem q b = true → i.at ρ q n = some (c, n') →
    c.rgba32.r ≤ c.rgba32.a ∧ c.rgba32.g ≤ c.rgba32.a ∧ c.rgba32.b ≤ c.rgba32.a ∧ c.rgba32.a ≤ 0xffff

/-- no channel differs by more than 512/65535 -/
def Nearby (p q : RGBA32) : Prop :=
  (p.r.toNat ≤ q.r.toNat + 512 ∧ q.r.toNat ≤ p.r.toNat + 512) ∧ (p.g.toNat ≤ q.g.toNat + 512 ∧ q.g.toNat ≤ p.g.toNat + 512) ∧
  (p.b.toNat ≤ q.b.toNat + 512 ∧ q.b.toNat ≤ p.b.toNat + 512) ∧ (p.a.toNat ≤ q.a.toNat + 512 ∧ q.a.toNat ≤ p.a.toNat + 512)

/-- `L` shows what `i` shows, from its corner on, up to 512/65535 in each channel; opaque colours with 8 bits per channel cannot be told apart. -/
def Shows (ρ : Nat → UInt16) (i : Img) (L : Leaf) : Prop :=
  ∃ b, i.bounds = some b ∧ L.bounds = ⟨0, 0, b.dx, b.dy⟩ ∧ ∀ q, Rect.mem q L.bounds = true → ∃ n n' c c',
    i.at ρ ⟨b.x0 + q.x, b.y0 + q.y⟩ n = some (c, n') ∧ L.pixel q = some c' ∧ Nearby c.rgba32 c'.rgba32 ∧
    (c.rgba32.a = 0xffff → c.rgba32.r.toNat % 257 = 0 → c.rgba32.g.toNat % 257 = 0 → c.rgba32.b.toNat % 257 = 0 → c'.toNRGBA = c.toNRGBA)

/-- An image that is stored without a change: it is at the origin, its pixels are always the same, and the format keeps them. -/
def Unchanged (kind : Img → PngKind) (i : Img) : Prop :=
  ∃ b cm, i.bounds = some b ∧ b.x0 = 0 ∧ b.y0 = 0 ∧ i.colorModel = some cm ∧ cm.isPalette = false ∧
    ∀ q, Rect.mem q b = true → ∃ c, (∀ ρ n, i.at ρ q n = some (c, n)) ∧ ((kind i).back c).toNRGBA = c.toNRGBA

mutual
/-- an image of a layer, all of which is stored without a change -/
def Lossless (kind : Img → PngKind) (i : Img) : Prop :=
  match i with
  | .group g => LosslessAll kind g
  | .leaf L => Unchanged kind (.leaf L)
  | .nil => False
  | .text i t => Unchanged kind (.text i t)
  | .masked i m => Unchanged kind (.masked i m)
termination_by structural i
/-- layers that are stored without a change: opaque, with a mode that exists in OpenRaster -/
def LosslessAll (kind : Img → PngKind) (g : List Layer) : Prop :=
  match g with
  | [] => True
  | ⟨_, _, mode, _, tr, i⟩ :: ls => (mode ∈ svgModes ∧ tr = 0) ∧ Lossless kind i ∧ LosslessAll kind ls
termination_by structural g
end

end Limage.Spec
