import Verif.Spec.RoundTrip
/-!
# XCF files of all versions, as documented (GIMP's xcf.txt)

`FileIn D V C …`: the contents `D` are a file of version `V` that holds the given layers.  Nothing is said about the order of
properties, about properties without a meaning for the picture, or about where in the file things are.
-/
namespace Limage.Spec

/-- A version of the format: its four characters; whether a precision follows the base type; whether offsets have 64 bits. -/
structure Version where
  tag : Bytes
  precision : Bool
  wide : Bool

/-- all versions up to 13: "file", "v001", ..., "v013" -/
def allVersions : List Version :=
  [⟨[102, 105, 108, 101], false, false⟩, ⟨[118, 48, 48, 49], false, false⟩, ⟨[118, 48, 48, 50], false, false⟩,
   ⟨[118, 48, 48, 51], false, false⟩, ⟨[118, 48, 48, 52], true, false⟩, ⟨[118, 48, 48, 53], true, false⟩,
   ⟨[118, 48, 48, 54], true, false⟩, ⟨[118, 48, 48, 55], true, false⟩, ⟨[118, 48, 48, 56], true, false⟩,
   ⟨[118, 48, 48, 57], true, false⟩, ⟨[118, 48, 49, 48], true, false⟩, ⟨[118, 48, 49, 49], true, true⟩,
   ⟨[118, 48, 49, 50], true, true⟩, ⟨[118, 48, 49, 51], true, true⟩]

/-- "gimp xcf ", the version and a zero -/
def Version.magic (V : Version) : Bytes := [103, 105, 109, 112, 32, 120, 99, 102, 32] ++ V.tag ++ [0]

/-- an offset -/
def Version.off (V : Version) (n : Nat) : Bytes := be (if V.wide then 8 else 4) n

/-- How the colours and texts of a picture are represented in a file with one byte per channel. -/
structure Coding where
  /-- 0 RGB, 1 grey, 2 indexed -/
  typ : Nat
  /-- colour map -/
  palette : List (UInt8 × UInt8 × UInt8)
  /-- whether tiles are compressed -/
  rle : Bool
  /-- bytes of a colour, with or without alpha -/
  conv : Bool → Color → Bytes
  /-- text described by the data of a text layer -/
  parses : Bytes → TextData → Prop
  /-- opacity given as a 32-bit floating point number -/
  opacity : UInt32 → UInt8
  /-- values of the random source -/
  ρ : Nat → UInt16

/-- bytes of a pixel -/
def bppOf (typ : Nat) (alpha : Bool) : Nat := (if typ = 0 then 3 else 1) + if alpha then 1 else 0

/-- a coding with a known base type -/
structure Coding.Ok (C : Coding) : Prop where
  typ : C.typ < 3
  conv : ∀ α c, (C.conv α c).length = bppOf C.typ α
  palette : C.palette ≠ [] → C.typ = 2

/-- the colour the bytes of a pixel stand for -/
def Coding.color (C : Coding) (bs : Bytes) : Option Color :=
  match C.typ, bs with
  | 0, [r, g, b] => some (.lrgb r g b)
  | 0, [r, g, b, a] => some (.nrgba r g b a)
  | 1, [y] => some (.gray y)
  | 1, [y, a] => some (.grayAlpha y a)
  | 2, [i] => (C.palette[i.toNat]?).map fun c => .lrgb c.1 c.2.1 c.2.2
  | 2, [i, a] => (C.palette[i.toNat]?).map fun c => .nrgba c.1 c.2.1 c.2.2 a
  | _, _ => none

/-- the colour model of an image with or without alpha -/
def Coding.model (C : Coding) (alpha : Bool) : ColorModel :=
  match C.typ, alpha with
  | 0, _ => .other
  | 1, true => .grayAlpha
  | 1, false => .gray
  | _, true => .alphaPalette (C.palette.map fun c => .lrgb c.1 c.2.1 c.2.2)
  | _, false => .palette (C.palette.map fun c => .lrgb c.1 c.2.1 c.2.2)

/-- a string: the empty string may be stored as the length 0 alone -/
def IsText (s bs : Bytes) : Prop := bs = text s ∨ bs = str s

/-- a list of properties with the property that ends it -/
def propList (ps : List (Nat × Bytes)) : Bytes := (ps.flatMap fun p => prop p.1 p.2) ++ num 0 ++ num 0

/-! ### Pixels -/

/-- the pixels `px` at `t`: compressed, channel after channel; uncompressed, pixel after pixel -/
def TileIn (D : Bytes) (rle : Bool) (t bpp : Nat) (px : List Bytes) : Prop :=
  if rle then TileAt D t bpp px else HasAt D t px.flatten

/-- pixels at `p`: hierarchy (with offsets of smaller copies of the image, which are not used), level, tiles -/
def PixelsIn (D : Bytes) (V : Version) (rle : Bool) (p : Nat) (b : Rect) (bpp : Nat) (Shows : Pt → Bytes → Prop) : Prop :=
  ∃ (level : Nat) (tiles more : List Nat),
    HasAt D p (int b.dx ++ int b.dy ++ num bpp ++ V.off level ++ more.flatMap V.off ++ V.off 0) ∧
    HasAt D level (int b.dx ++ int b.dy ++ tiles.flatMap V.off ++ V.off 0) ∧
    List.Forall₂ (fun t ij => ∃ px, TileIn D rle t bpp px ∧ List.Forall₂ Shows (pointsOf b ij.1 ij.2) px)
      tiles (tileList (tilesAlong b.dx) (tilesAlong b.dy))

/-- a mask at `p`: size, name, properties (none has a meaning for the picture), pixels -/
def MaskIn (D : Bytes) (V : Version) (rle : Bool) (p : Nat) (m : GrayImg) : Prop :=
  ∃ (name nm : Bytes) (ps : List (Nat × Bytes)) (h : Nat), IsText name nm ∧
    (∀ p ∈ ps, p.1 ≠ 0 ∧ p.1 < 2 ^ 32 ∧ (p.1 = 6 → ∃ n ≤ 255, p.2 = num n)) ∧
    HasAt D p (int m.rect.dx ++ int m.rect.dy ++ nm ++ propList ps ++ V.off h) ∧
    PixelsIn D V rle h m.rect 1 fun q bs => bs = [m.grayAt q]

/-! ### Layers -/

/-- The modes by their numbers: up to 22 those of old files, of which those after 27 are the new ones. -/
def gimpModes : List Mode :=
  [.normal, .dissolve, .behind, .multiply, .screen, .overlay, .difference, .addition, .subtract, .darkenOnly, .lightenOnly, .hue,
   .saturation, .color, .value, .divide, .dodge, .burn, .hardLight, .softLight, .grainExtract, .grainMerge, .colorErase,
   .overlay, .hue, .chroma, .color, .lightness, .normal, .behind, .multiply, .screen, .difference, .addition, .subtract, .darkenOnly,
   .lightenOnly, .hue, .saturation, .color, .value, .divide, .dodge, .burn, .hardLight, .softLight, .grainExtract, .grainMerge,
   .vividLight, .pinLight, .linearLight, .hardMix, .exclusion, .linearBurn, .darkenOnly, .lightenOnly, .luminance, .colorErase,
   .erase, .merge, .split, .passThrough]

/-- the numbers of the properties with a meaning for layers -/
def layerPropNumbers : List Nat := [0, 2, 5, 6, 7, 8, 9, 10, 11, 12, 13, 15, 20, 21, 26, 28, 29, 30, 31, 33]

/-- `LayerProp C r pars t body`: `body` is a payload of property `t` of the layer `r`, which has the parasites `pars` -/
inductive LayerProp (C : Coding) (r : Placed) (pars : List (Bytes × Nat × Bytes)) : Nat → Bytes → Prop
  | opacity : LayerProp C r pars 6 (num (255 - r.layer.transparency.toNat))
  | floatOpacity (n : Nat) : (C.opacity (UInt32.ofNat n)).toNat = 255 - r.layer.transparency.toNat → LayerProp C r pars 33 (num n)
  | visible : LayerProp C r pars 8 (num (if r.layer.invisible then 0 else 1))
  | offsets : LayerProp C r pars 15 (int r.ox ++ int r.oy)
  | mode (n : Nat) : gimpModes[n]? = some r.layer.mode → LayerProp C r pars 7 (num n)
  | path : 1 < r.path.length → LayerProp C r pars 30 (r.path.flatMap num)
  | group : isGroupLayer r.layer = true → LayerProp C r pars 29 []
  | parasites : LayerProp C r pars 21 (pars.flatMap fun p => parasite p.1 p.2.1 p.2.2)
  | flag (t n : Nat) : t ∈ [9, 10, 11, 12, 13, 28] → n ≤ 1 → LayerProp C r pars t (num n)
  | number (t n : Nat) : t ∈ [5, 20, 26, 31] → LayerProp C r pars t (num n)
  | active : LayerProp C r pars 2 []
  | other (t : Nat) (b : Bytes) : t ∉ layerPropNumbers → t < 2 ^ 32 → LayerProp C r pars t b

/-- the data of the text layer among parasites -/
def textData (pars : List (Bytes × Nat × Bytes)) : Option Bytes := (pars.find? fun p => p.1 = textName).map fun p => p.2.2

/-- `ps` are the properties of the layer `r`, in any order.  What is not said about a layer is: fully opaque, visible, at the origin,
Normal, not in a group, not a group, no text. -/
structure LayerProps (C : Coding) (r : Placed) (ps : List (Nat × Bytes)) : Prop where
  once : (ps.map (·.1)).Nodup
  parasites : ∃ pars : List (Bytes × Nat × Bytes), (∀ p ∈ ps, LayerProp C r pars p.1 p.2) ∧ (∀ p ∈ pars, Utf8 p.1 ∧ p.1 ≠ []) ∧
    (21 ∉ ps.map (·.1) → pars = []) ∧
    (textOf r.layer = none ∧ textData pars = none ∨ ∃ t d, textOf r.layer = some t ∧ textData pars = some d ∧ C.parses d t)
  opacity : 6 ∈ ps.map (·.1) ∨ 33 ∈ ps.map (·.1) ∨ r.layer.transparency = 0
  visible : 8 ∈ ps.map (·.1) ∨ r.layer.invisible = false
  offsets : 15 ∈ ps.map (·.1) ∨ r.ox = 0 ∧ r.oy = 0
  mode : 7 ∈ ps.map (·.1) ∨ r.layer.mode = Mode.normal
  path : 30 ∈ ps.map (·.1) ∨ r.path.length ≤ 1
  group : 29 ∈ ps.map (·.1) ∨ isGroupLayer r.layer = false

/-- `bs` are the bytes of a colour the image shows at `q` -/
def Coding.Shown (C : Coding) (alpha : Bool) (i : Img) (q : Pt) (bs : Bytes) : Prop :=
  ∃ n n' c, i.at C.ρ q n = some (c, n') ∧ bs = C.conv alpha c

/-- A layer at `p`, with or without alpha.  What the pixels of a group are does not matter. -/
def LayerIn (D : Bytes) (V : Version) (C : Coding) (alpha : Layer → Bool) (p : Nat) (r : Placed) : Prop :=
  ∃ (nm : Bytes) (ps : List (Nat × Bytes)) (h m : Nat), IsText r.layer.name nm ∧ LayerProps C r ps ∧
    HasAt D p (int r.layer.bounds.dx ++ int r.layer.bounds.dy ++ num (2 * C.typ + if alpha r.layer then 1 else 0) ++ nm ++
      propList ps ++ V.off h ++ V.off m) ∧
    (if isGroupLayer r.layer then h ≤ D.length ∧ m = 0
     else (∃ b, (pixelsOf r.layer.image).bounds = some b ∧
        PixelsIn D V C.rle h b (bppOf C.typ (alpha r.layer)) (C.Shown (alpha r.layer) (pixelsOf r.layer.image))) ∧
      match maskOf r.layer.image with
      | none => m = 0
      | some k => MaskIn D V C.rle m k)

/-! ### Files -/

/-- The properties of an image, in any order.  `Ok t body`: further conditions on them. -/
structure ImageProps (C : Coding) (Ok : UInt32 → Bytes → Prop) (ps : List (Nat × Bytes)) : Prop where
  wellFormed : ∀ p ∈ ps, p.1 ≠ 0 ∧ p.1 < 2 ^ 32 ∧ Payload (UInt32.ofNat p.1) p.2 ∧ Ok (UInt32.ofNat p.1) p.2
  colors : ∀ p ∈ ps, p.1 = 1 → p.2 = num C.palette.length ++ C.palette.flatMap fun c => [c.1, c.2.1, c.2.2]
  palette : 1 ∈ ps.map (·.1) ∨ C.palette = []
  compression : ∀ p ∈ ps, p.1 = 17 → p.2 = [if C.rle then 1 else 0]
  compressed : 17 ∈ ps.map (·.1) ∨ C.rle = false

/-- A file of version `V` with a canvas of the size of `b` and the layers `ls`: those without alpha are the lowest.
After the offsets of the layers follow those of channels (`rest`). -/
def FileIn (D : Bytes) (V : Version) (C : Coding) (Ok : UInt32 → Bytes → Prop) (alpha : Layer → Bool) (b : Rect) (ls : List Placed) : Prop :=
  (∀ r ∈ ls.dropLast, alpha r.layer = true) ∧
  ∃ (prec : Nat) (ps : List (Nat × Bytes)) (ptrs rest : List Nat), ImageProps C Ok ps ∧
    HasAt D 0 (V.magic ++ int b.dx ++ int b.dy ++ num C.typ ++ (if V.precision then num prec else []) ++ propList ps ++
      ptrs.flatMap V.off ++ V.off 0 ++ rest.flatMap V.off ++ V.off 0) ∧
    List.Forall₂ (LayerIn D V C alpha) ptrs ls

/-! ### What should be read -/

/-- `L` shows what the image `i` shows, moved to the origin, each pixel in the representation of the file -/
def Coding.PixelsRead (C : Coding) (alpha : Bool) (i : Img) (L : Leaf) : Prop :=
  ∃ b, i.bounds = some b ∧ L.bounds = ⟨0, 0, b.dx, b.dy⟩ ∧ L.model = C.model alpha ∧
    ∀ p, Rect.mem p L.bounds → ∃ n n' c, i.at C.ρ ⟨b.x0 + p.x, b.y0 + p.y⟩ n = some (c, n') ∧ L.pixel p = C.color (C.conv alpha c)

/-- `j` is what should be read for the image of the layer `l`, which is not a group -/
def Coding.ImgRead (C : Coding) (alpha : Layer → Bool) (l : Layer) (j : Img) : Prop :=
  ∃ L, C.PixelsRead (alpha l) (pixelsOf l.image) L ∧
    (textOf l = none ∧ maskOf l.image = none ∧ j = .leaf L ∨
     (∃ t, textOf l = some t ∧ j = .text (.leaf L) t) ∨
     ∃ m m', textOf l = none ∧ maskOf l.image = some m ∧ MaskBack m m' ∧ j = .masked (.leaf L) (some m'))

/-- A layer that fits: its name is UTF-8, it is not empty and lies on the canvas; if it is not a group, it has the size of its image;
a mask has its size, and it is then at the origin; numbers of layers in paths stay below 0xd800. -/
structure Fits (W H : Int) (r : Placed) : Prop where
  name : Utf8 r.layer.name
  x : 0 ≤ r.ox ∧ 0 < r.layer.bounds.dx ∧ r.ox + r.layer.bounds.dx ≤ W
  y : 0 ≤ r.oy ∧ 0 < r.layer.bounds.dy ∧ r.oy + r.layer.bounds.dy ≤ H
  size : isGroupLayer r.layer = false → ∀ b, (pixelsOf r.layer.image).bounds = some b → b.dx = r.layer.bounds.dx ∧ b.dy = r.layer.bounds.dy
  mask : ∀ m, maskOf r.layer.image = some m → r.ox = 0 ∧ r.oy = 0 ∧ m.rect.dx = r.layer.bounds.dx ∧ m.rect.dy = r.layer.bounds.dy
  path : ∀ n ∈ r.path, n < 0xd800

end Limage.Spec
