import Verif.Spec.XcfFile
import Verif.Spec.XcfProps
/-!
# What should come back from an XCF file
-/
namespace Limage.Spec

/-- the colour that the bytes of a pixel stand for: RGB and alpha, grey and alpha, or index and alpha -/
def colorOf (F : Fmt) (bs : Bytes) : Option Color :=
  match F.typ, bs with
  | 0, [r, g, b, a] => some (.nrgba r g b a)
  | 1, [y, a] => some (.grayAlpha y a)
  | 2, [i, a] => ((F.palette.getD [])[i.toNat]?).map fun c => .nrgba c.1 c.2.1 c.2.2 a
  | _, _ => none

/-- the colour model of the images in a file -/
def modelOf (F : Fmt) : ColorModel :=
  match F.typ with
  | 0 => .other
  | 1 => .grayAlpha
  | _ => .alphaPalette ((F.palette.getD []).map fun c => .lrgb c.1 c.2.1 c.2.2)

/-- `L` shows what the image `i` shows, moved to the origin, each pixel in the representation of the file; outside its bounds it
has some colour (unless it is indexed and the palette is empty) -/
def PixelsBack (F : Fmt) (i : Img) (L : Leaf) : Prop :=
  ∃ b, i.bounds = some b ∧ L.bounds = ⟨0, 0, b.dx, b.dy⟩ ∧ L.model = modelOf F ∧
    ((F.typ = 2 → F.palette.getD [] ≠ []) → ∀ p, ¬ Rect.mem p L.bounds → (L.pixel p).isSome) ∧
    ∀ p, Rect.mem p L.bounds → ∃ n n' c, i.at F.ρ ⟨b.x0 + p.x, b.y0 + p.y⟩ n = some (c, n') ∧ L.pixel p = colorOf F (F.conv c)

/-- `m'` is the mask `m`, moved to the origin -/
def MaskBack (m m' : GrayImg) : Prop :=
  m'.rect = ⟨0, 0, m.rect.dx, m.rect.dy⟩ ∧ ∀ p, Rect.mem p m'.rect → m'.grayAt p = m.grayAt ⟨m.rect.x0 + p.x, m.rect.y0 + p.y⟩

/-- `j` is what should be read back for the image of the layer `l`, which is not a group.  `Parses d t`: the data `d`
of a text layer mean the text `t`. -/
def ImgBack (F : Fmt) (Parses : Bytes → TextData → Prop) (l : Layer) (j : Img) : Prop :=
  ∃ L, PixelsBack F (pixelsOf l.image) L ∧
    (textOf l = none ∧ maskOf l.image = none ∧ j = .leaf L ∨
     (∃ t d t', textOf l = some t ∧ F.text t l.bounds.dx l.bounds.dy = some d ∧ Parses d t' ∧ j = .text (.leaf L) t') ∨
     ∃ m m', textOf l = none ∧ maskOf l.image = some m ∧ MaskBack m m' ∧ j = .masked (.leaf L) (some m'))

mutual
/-- the image of a layer `l` is a group again, or is related to the one it was by `P` -/
def SameImg (P : Layer → Img → Prop) (M : Mode → Mode) (l : Layer) (i j : Img) : Prop :=
  match i with
  | .group g => ∃ g', j = .group g' ∧ SameTree P M g g'
  | .leaf _ => P l j
  | .nil => P l j
  | .text _ _ => P l j
  | .masked _ _ => P l j
termination_by structural i

/-- The same tree of layers: order, nesting, names, bounds, visibility, opacity; modes are changed by `M`, images that are
not groups are related by `P`. -/
def SameTree (P : Layer → Img → Prop) (M : Mode → Mode) (g g' : List Layer) : Prop :=
  match g, g' with
  | [], [] => True
  | ⟨name, b, mode, inv, tr, im⟩ :: rest, l' :: rest' =>
    (l'.name = name ∧ l'.bounds = b ∧ l'.mode = M mode ∧ l'.invisible = inv ∧ l'.transparency = tr ∧
      SameImg P M ⟨name, b, mode, inv, tr, im⟩ im l'.image) ∧ SameTree P M rest rest'
  | _, _ => False
termination_by structural g
end

/-- A layer that can be stored: its name is UTF-8, it is not empty and lies on the canvas; if it is not a group, it has the
size of its image; its text data can be parsed; a mask has its size, and it is then at the origin; numbers of layers
in paths stay below 0xd800. -/
structure Storable (F : Fmt) (Parses : Bytes → TextData → Prop) (W H : Int) (r : Placed) : Prop where
  name : Utf8 r.layer.name
  x : 0 ≤ r.ox ∧ 0 < r.layer.bounds.dx ∧ r.ox + r.layer.bounds.dx ≤ W
  y : 0 ≤ r.oy ∧ 0 < r.layer.bounds.dy ∧ r.oy + r.layer.bounds.dy ≤ H
  size : isGroupLayer r.layer = false → ∀ b, (pixelsOf r.layer.image).bounds = some b → b.dx = r.layer.bounds.dx ∧ b.dy = r.layer.bounds.dy
  text : ∀ t d, textOf r.layer = some t → F.text t r.layer.bounds.dx r.layer.bounds.dy = some d → ∃ t', Parses d t'
  mask : ∀ m, maskOf r.layer.image = some m → r.ox = 0 ∧ r.oy = 0 ∧ m.rect.dx = r.layer.bounds.dx ∧ m.rect.dy = r.layer.bounds.dy
  path : ∀ n ∈ r.path, n < 0xd800

end Limage.Spec
