import Verif.Spec.Write
import Verif.Spec.Rle
import Verif.Spec.XcfProps
import Mathlib.Data.List.Forall2
/-!
# The structure of an XCF file (version 3), as documented (GIMP's xcf.txt)

`FileAt D F i`: the contents `D` hold the image `i`.  Every structure is found at the offset stored for it.
All numbers have 32 bits; an offset in a file of at most 4 GiB is stored as it is.
-/
namespace Limage.Spec

/-- a number -/
def num (n : Nat) : Bytes := be 4 n

/-- a signed number, in two's complement -/
def int (x : Int) : Bytes := num (x % 2 ^ 32).toNat

/-- a string with its closing zero -/
def text (s : Bytes) : Bytes := num (s.length + 1) ++ s ++ [0]

/-- a property: number, length and payload -/
def prop (t : Nat) (body : Bytes) : Bytes := num t ++ num body.length ++ body

/-- how pixels, modes and texts are represented -/
structure Fmt where
  /-- 0 RGB, 1 grey, 2 indexed -/
  typ : Nat
  /-- bytes per pixel -/
  bpp : Nat
  /-- bytes of a colour -/
  conv : Color → Bytes
  /-- colour map -/
  palette : Option (List (UInt8 × UInt8 × UInt8))
  /-- number of a layer mode -/
  mode : Mode → Nat
  /-- data of a text layer of the given size -/
  text : TextData → Int → Int → Option Bytes
  /-- values of the random source -/
  ρ : Nat → UInt16

/-! ### Pixels -/

/-- the tiles of an image in the order of their pointers: column and row -/
def tileList (w h : Nat) : List (Nat × Nat) :=
  (List.range h).flatMap fun j => (List.range w).map fun i => (i, j)

/-- the points of tile `(i, j)`, row by row -/
def pointsOf (b : Rect) (i j : Nat) : List Pt :=
  (List.range (min 64 (b.dy - 64 * j)).toNat).flatMap fun (y : Nat) =>
    (List.range (min 64 (b.dx - 64 * i)).toNat).map fun (x : Nat) => ⟨b.x0 + 64 * i + x, b.y0 + 64 * j + y⟩

/-- the pixels `px` (each given as its bytes) at `t`: channel after channel, compressed -/
def TileAt (D : Bytes) (t bpp : Nat) (px : List Bytes) : Prop :=
  ∃ codes : List Bytes, codes.length = bpp ∧ HasAt D t codes.flatten ∧
    ∀ k, k < bpp → Encodes (codes.getD k []) (px.map fun p => p.getD k 0)

/-- pixels at `p`: hierarchy, level, tiles.  `Shows q bs`: `bs` are the bytes for point `q`. -/
def PixelsAt (D : Bytes) (p : Nat) (b : Rect) (bpp : Nat) (Shows : Pt → Bytes → Prop) : Prop :=
  ∃ (level : Nat) (tiles : List Nat),
    HasAt D p (int b.dx ++ int b.dy ++ num bpp ++ num level ++ num 0) ∧
    HasAt D level (int b.dx ++ int b.dy ++ tiles.flatMap num ++ num 0) ∧
    List.Forall₂ (fun t ij => ∃ px, TileAt D t bpp px ∧ List.Forall₂ Shows (pointsOf b ij.1 ij.2) px)
      tiles (tileList (tilesAlong b.dx) (tilesAlong b.dy))

/-- a mask at `p` -/
def MaskAt (D : Bytes) (p : Nat) (m : GrayImg) : Prop :=
  ∃ h : Nat, HasAt D p (int m.rect.dx ++ int m.rect.dy ++ text [] ++ num 0 ++ num 0 ++ num h) ∧
    PixelsAt D h m.rect 1 fun q bs => bs = [m.grayAt q]

/-- a mask pointer: zero if there is no mask -/
def OptMaskAt (D : Bytes) (p : Nat) : Option GrayImg → Prop
  | none => p = 0
  | some m => MaskAt D p m

/-! ### Layers -/

/-- a layer with its position in the picture and its place in the tree -/
structure Placed where
  layer : Layer
  ox : Int
  oy : Int
  path : List Nat

/-- whether a layer is a group -/
def isGroupLayer (l : Layer) : Bool :=
  match l.image with
  | .group _ => true
  | _ => false

/-- the text of a layer, if it is a text layer that has one -/
def textOf (l : Layer) : Option TextData :=
  match l.image with
  | .text _ t => if t = [] then none else some t
  | _ => none

/-- the properties of a text layer with data `d` -/
def textProps (d : Bytes) : Bytes :=
  prop 26 (num 1) ++ prop 21 (text textName ++ num 0 ++ num d.length ++ d)

/-- the properties that depend on the kind of layer -/
def kindProps (path : List Nat) (t : Option Bytes) (group : Bool) : Bytes :=
  (if 1 < path.length then prop 30 (path.flatMap num) else []) ++
  (match t with | none => [] | some d => textProps d) ++ if group then prop 29 [] else []

/-- a layer up to its pointers; `t` is its text data -/
def layerHead (F : Fmt) (r : Placed) (t : Option Bytes) : Bytes :=
  int r.layer.bounds.dx ++ int r.layer.bounds.dy ++ num (2 * F.typ + 1) ++ text r.layer.name ++
  prop 6 (num (255 - r.layer.transparency.toNat)) ++
  prop 8 (num (if r.layer.invisible then 0 else 1)) ++
  prop 15 (int r.ox ++ int r.oy) ++
  kindProps r.path t (isGroupLayer r.layer) ++
  prop 7 (num (F.mode r.layer.mode)) ++
  num 0 ++ num 0

/-- `bs` are the bytes of a colour the image shows at `q` -/
def Sampled (F : Fmt) (i : Img) (q : Pt) (bs : Bytes) : Prop :=
  ∃ n n' c, i.at F.ρ q n = some (c, n') ∧ bs = F.conv c

/-- a layer at `p` -/
def LayerAt (D : Bytes) (F : Fmt) (p : Nat) (r : Placed) : Prop :=
  ∃ (t : Option Bytes) (h m : Nat),
    (textOf r.layer = none ∧ t = none ∨
      ∃ td, textOf r.layer = some td ∧ t.isSome ∧ t = F.text td r.layer.bounds.dx r.layer.bounds.dy) ∧
    HasAt D p (layerHead F r t ++ num h ++ num m) ∧
    (∃ b, (pixelsOf r.layer.image).bounds = some b ∧ PixelsAt D h b F.bpp (Sampled F (pixelsOf r.layer.image))) ∧
    OptMaskAt D m (maskOf r.layer.image)

mutual
/-- the layers inside an image -/
def placedIn (i : Img) (ox oy : Int) (path : List Nat) : List Placed :=
  match i with
  | .group g => placed g 0 ox oy path
  | .leaf _ => []
  | .nil => []
  | .text _ _ => []
  | .masked _ _ => []
termination_by structural i

/-- all layers, each group in front of its layers; `n` is the number of the first of them in the group at
`path`, which is at `(ox, oy)` -/
def placed (g : List Layer) (n : Nat) (ox oy : Int) (path : List Nat) : List Placed :=
  match g with
  | [] => []
  | ⟨name, b, mode, inv, tr, im⟩ :: rest =>
    ⟨⟨name, b, mode, inv, tr, im⟩, ox + b.x0, oy + b.y0, path ++ [n]⟩ ::
      (placedIn im (ox + b.x0) (oy + b.y0) (path ++ [n]) ++ placed rest (n + 1) ox oy path)
termination_by structural g
end

/-! ### Files -/

/-- "gimp xcf v003" and a zero -/
def fileMagic : Bytes := [103, 105, 109, 112, 32, 120, 99, 102, 32, 118, 48, 48, 51, 0]

/-- the colour map -/
def colorMap : Option (List (UInt8 × UInt8 × UInt8)) → Bytes
  | none => []
  | some p => prop 1 (num p.length ++ p.flatMap fun c => [c.1, c.2.1, c.2.2])

/-- the start of a file, up to the layer pointers -/
def fileHead (F : Fmt) (b : Rect) : Bytes :=
  fileMagic ++ int b.dx ++ int b.dy ++ num F.typ ++ colorMap F.palette ++ prop 17 [1] ++ num 0 ++ num 0

/-- the layers of an image; an image that is not a group is the image of a single layer -/
def layersOf : Img → List Placed
  | .group g => placed g 0 0 0 []
  | i => [⟨⟨[], Rect.zero, 0, false, 0, i⟩, 0, 0, []⟩]

/-- the text layers of the image can be described (exactly those of a single run with a colour, C55) -/
def TextsFit (env : WEnv) (i : Img) : Prop :=
  ∀ r ∈ layersOf i, ∀ t, textOf r.layer = some t → ∀ dx dy, (env.text t dx dy).isSome

/-- a file with the given layers -/
def LayersAt (D : Bytes) (F : Fmt) (b : Rect) (ls : List Placed) : Prop :=
  ∃ ptrs : List Nat, HasAt D 0 (fileHead F b ++ ptrs.flatMap num ++ num 0 ++ num 0) ∧
    List.Forall₂ (LayerAt D F) ptrs ls

/-- a file with the image `i` -/
def FileAt (D : Bytes) (F : Fmt) (i : Img) : Prop :=
  ∃ b, i.bounds = some b ∧ LayersAt D F b (layersOf i)

end Limage.Spec
