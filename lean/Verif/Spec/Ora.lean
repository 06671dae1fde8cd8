import Verif.Model.Ora
import Verif.Spec.Markup
/-!
# Specification of OpenRaster files
-/
namespace Limage.Spec

/-- an element that the decoder of a stack knows -/
def Known (name : Bytes) : Prop := name = lit "stack" ∨ name = lit "layer"

/-- The second list of nodes is the first, in a stack, with foreign things put in: text, comments and elements with other
names (with whatever in them), anything in layers, and foreign things in stacks. -/
inductive Foreign : List Node → List Node → Prop
  | nil : Foreign [] []
  | stack {attrs a b xs ys} : Foreign a b → Foreign xs ys → Foreign (.elem (lit "stack") attrs a :: xs) (.elem (lit "stack") attrs b :: ys)
  | layer {attrs a b xs ys} : Foreign xs ys → Foreign (.elem (lit "layer") attrs a :: xs) (.elem (lit "layer") attrs b :: ys)
  | element {name attrs ns xs ys} : ¬Known name → Foreign xs ys → Foreign xs (.elem name attrs ns :: ys)
  | text {s xs ys} : Foreign xs ys → Foreign xs (.text s :: ys)
  | other {xs ys} : Foreign xs ys → Foreign xs (.other :: ys)

/-- not a stack -/
def Before (x : Node) : Prop := ∀ attrs ns, x ≠ .elem (lit "stack") attrs ns

/-- not an element -/
def Prolog (x : Node) : Prop := ∀ name attrs ns, x ≠ .elem name attrs ns

/-- the tokens of a document: a prolog, an image with a first stack, and anything -/
def document (prolog : List Node) (attrs : List (Bytes × Bytes)) (before : List Node) (sattrs : List (Bytes × Bytes)) (stack : List Node)
    (rest : List XmlTok) : List XmlTok :=
  tokensAll prolog ++ .start (lit "image") attrs :: tokensAll before ++ .start (lit "stack") sattrs :: tokensAll stack ++ .stop :: rest

/-- the directory of an archive tells how much there is in an entry -/
def Honest (f : ZipEntry) : Prop := ∀ d, f.data = some d → f.size = d.length

/-- a right mimetype entry -/
def RightMime (f : ZipEntry) : Prop := f.data = some (lit "image/openraster")

/-! ### Writing -/

/-- a text of characters that are allowed in XML -/
def XmlText (s : Bytes) : Prop :=
  ∃ cs : List Char, s = cs.flatMap String.utf8EncodeChar ∧ ∀ c ∈ cs, let n := c.val.toNat
    n = 9 ∨ n = 10 ∨ n = 13 ∨ 32 ≤ n ∧ n ≠ 0xfffe ∧ n ≠ 0xffff

mutual
/-- a tree of elements with plain names -/
def Node.Plain (x : Node) : Prop :=
  match x with
  | .elem name attrs ns => Word name ∧ (∀ a ∈ attrs, Word a.1) ∧ AllPlain ns
  | _ => False
termination_by structural x
/-- trees of elements with plain names -/
def AllPlain (xs : List Node) : Prop :=
  match xs with
  | [] => True
  | x :: xs => x.Plain ∧ AllPlain xs
termination_by structural xs
end

mutual
/-- only the elements -/
def Node.strip (x : Node) : List Node :=
  match x with
  | .elem name attrs ns => [.elem name attrs (stripAll ns)]
  | _ => []
termination_by structural x
/-- only the elements -/
def stripAll (xs : List Node) : List Node :=
  match xs with
  | [] => []
  | x :: xs => x.strip ++ stripAll xs
termination_by structural xs
end

mutual
/-- with the values of attributes as they are read back -/
def Node.cleaned (x : Node) : Node :=
  match x with
  | .elem name attrs ns => .elem name (attrs.map fun a => (a.1, xmlBack a.2)) (cleanedAll ns)
  | .text s => .text s
  | .other => .other
termination_by structural x
/-- with the values of attributes as they are read back -/
def cleanedAll (xs : List Node) : List Node :=
  match xs with
  | [] => []
  | x :: xs => x.cleaned :: cleanedAll xs
termination_by structural xs
end

/-- What is assumed of the libraries: XML with plain names is read as it was written, up to things between the elements; only images that are not
empty are written as PNG, and a PNG that was written has the size of the image; opacities are numbers. -/
structure OraLib (env : OraEnv) : Prop where
  xml : ∀ x : Node, x.Plain → ∃ ns, env.xmlRead (env.xmlWrite x.tokens) = (tokensAll ns, true) ∧ stripAll ns = [x.cleaned]
  png : ∀ p d, env.png p = .ok d → ∃ b, p.bounds env = some b ∧ 0 < b.dx ∧ 0 < b.dy ∧
    (b.dx < 2 ^ 31 → b.dy < 2 ^ 31 → ∃ i, env.decodeImage d = some i ∧ i.bounds = ⟨0, 0, b.dx, b.dy⟩)
  format : ∀ t, Number (env.formatOpacity t)

mutual
/-- the images in a tree of layers that are not groups, in order -/
def leaves (i : Img) : List Img :=
  match i with
  | .group g => leavesAll g
  | .leaf l => [.leaf l]
  | .nil => [.nil]
  | .text i t => [.text i t]
  | .masked i m => [.masked i m]
termination_by structural i
/-- the images in layers that are not groups, in order -/
def leavesAll (g : List Layer) : List Img :=
  match g with
  | [] => []
  | ⟨_, _, _, _, _, i⟩ :: ls => leaves i ++ leavesAll ls
termination_by structural g
end

/-- the sources of the layers in a document, in order -/
def sources (ts : List XmlTok) : List Bytes :=
  ts.filterMap fun
    | .start name attrs => if name = lit "layer" then lastOf (fun a => if a.1 = lit "src" then some a.2 else none) attrs else none
    | _ => none

/-- the modes there are in OpenRaster -/
def svgModes : List Mode :=
  [Mode.normal, Mode.multiply, Mode.screen, Mode.overlay, Mode.darkenOnly, Mode.lightenOnly, Mode.dodge, Mode.burn, Mode.hardLight, Mode.softLight,
    Mode.difference, Mode.color, Mode.luminosity, Mode.hue, Mode.saturation, Mode.plus, Mode.destinationIn, Mode.destinationOut, Mode.sourceAtop,
    Mode.destinationAtop]

/-- not a group -/
def NotGroup (i : Img) : Prop := ∀ g, i ≠ .group g

/-- what is read of an image that has been written -/
def Stored (env : OraEnv) (i : Img) (l : Leaf) : Prop := ∃ d, env.png (.full (.image i)) = .ok d ∧ env.decodeImage d = some l

/-- the corner of a layer, with no negative coordinates -/
def corner (b : Rect) : Pt := ⟨max b.x0 0, max b.y0 0⟩

/-- where a layer is put, in a stack at `o` -/
def oraPlaced (limits o : Pt) (b : Rect) (size : Rect) : Rect :=
  ((size.add (corner b)).inter ⟨0, 0, limits.x + o.x, limits.y + o.y⟩).sub o

/-- The second list is what is read of the first: names are cleaned, modes are kept if there is a name for them, layers are opaque, and hidden if they
are invisible and opaque; layers are moved and cut off. -/
inductive Back (env : OraEnv) (limits : Pt) : Pt → List Layer → List Layer → Prop
  | nil {o} : Back env limits o [] []
  | single {o l ls ls' i} : NotGroup l.image → Stored env l.image i → Back env limits o ls ls' →
      Back env limits o (l :: ls) (⟨xmlBack l.name, oraPlaced limits o l.bounds i.bounds, if l.mode ∈ svgModes then l.mode else Mode.normal,
        l.invisible && l.transparency == 0, 0, .leaf i⟩ :: ls')
  | group {o l ls ls' g g'} : l.image = .group g → Back env limits ⟨o.x + (corner l.bounds).x, o.y + (corner l.bounds).y⟩ g g' → Back env limits o ls ls' →
      Back env limits o (l :: ls) (⟨xmlBack l.name, oraPlaced limits o l.bounds (groupBounds g'), if l.mode ∈ svgModes then l.mode else Mode.normal,
        l.invisible && l.transparency == 0, 0, .group g'⟩ :: ls')

mutual
/-- no layer is at 2^63 or further -/
def Near (i : Img) : Prop :=
  match i with
  | .group g => NearAll g
  | _ => True
termination_by structural i
/-- no layer is at 2^63 or further -/
def NearAll (g : List Layer) : Prop :=
  match g with
  | [] => True
  | ⟨_, b, _, _, _, i⟩ :: ls => (b.x0 < 2 ^ 63 ∧ b.y0 < 2 ^ 63) ∧ Near i ∧ NearAll ls
termination_by structural g
end

/-- of a size that can be read -/
def Readably (i : Img) : Prop := ∀ b, i.bounds = some b → b.dx < 2 ^ 31 ∧ b.dy < 2 ^ 31

/-- the same tree of layers, with corresponding layers related by `P` -/
inductive Alike (P : Layer → Layer → Prop) : List Layer → List Layer → Prop
  | nil : Alike P [] []
  | single {l l' ls ls'} : NotGroup l.image → NotGroup l'.image → P l l' → Alike P ls ls' → Alike P (l :: ls) (l' :: ls')
  | group {l l' ls ls' g g'} : l.image = .group g → l'.image = .group g' → Alike P g g' → P l l' → Alike P ls ls' → Alike P (l :: ls) (l' :: ls')

mutual
/-- The image of a layer with the given bounds: it has the size of the layer, or the layer is at the origin, has the bounds of the group, and the
layers in the group are as they should be. -/
def Fit (limits : Pt) (b : Rect) (i : Img) : Prop :=
  match i with
  | .group g => b.x0 = 0 ∧ b.y0 = 0 ∧ b = groupBounds g ∧ FitAll limits g
  | .leaf l => l.bounds.dx = b.dx ∧ l.bounds.dy = b.dy
  | .nil => False
  | .text i _ => ∃ c, i.bounds = some c ∧ c.dx = b.dx ∧ c.dy = b.dy
  | .masked i _ => ∃ c, i.bounds = some c ∧ c.dx = b.dx ∧ c.dy = b.dy
termination_by structural i
/-- layers on a canvas, which have the size of their images, in groups at the origin -/
def FitAll (limits : Pt) (g : List Layer) : Prop :=
  match g with
  | [] => True
  | ⟨_, b, _, _, _, i⟩ :: ls => (0 ≤ b.x0 ∧ 0 ≤ b.y0 ∧ b.x1 ≤ limits.x ∧ b.y1 ≤ limits.y) ∧ Fit limits b i ∧ FitAll limits ls
termination_by structural g
end

/-- `q` is `e`, rounded: not past an integer, and not away from zero by more than one part in 2^53 -/
structure Rounded (q e : Rat) : Prop where
  below : ∀ k : Int, (k : Rat) ≤ e → (k : Rat) ≤ q
  above : ∀ k : Int, e ≤ (k : Rat) → q ≤ (k : Rat)
  near : (0 ≤ e → (q - e) * 2 ^ 53 ≤ e) ∧ (e ≤ 0 → (e - q) * 2 ^ 53 ≤ -e)

/-- division of floating point numbers: `256 * x / side` is rounded; numbers up to 2^53 are exact -/
def Divides (env : OraEnv) : Prop :=
  ∀ x side : Int, -2 ^ 53 ≤ x → x ≤ 2 ^ 53 → 0 < side → side ≤ 2 ^ 53 → Rounded (env.quotient x side) (256 * (x : Rat) / (side : Rat))

/-- The coordinates of an image are smaller than 2^44. -/
def Small (m : OraInput) : Prop :=
  ∀ b, m.bounds = some b → (-2 ^ 44 < b.x0 ∧ b.x0 < 2 ^ 44) ∧ (-2 ^ 44 < b.y0 ∧ b.y0 < 2 ^ 44) ∧ (-2 ^ 44 < b.x1 ∧ b.x1 < 2 ^ 44) ∧ (-2 ^ 44 < b.y1 ∧ b.y1 < 2 ^ 44)

/-- The PNG library writes every image that is not empty and smaller than 2^32, and of which all points can be looked at. -/
def PngWrites (env : OraEnv) : Prop :=
  ∀ p b, p.bounds env = some b → 0 < b.dx → 0 < b.dy → b.dx < 2 ^ 32 → b.dy < 2 ^ 32 →
    (∀ ρ q n, Rect.mem q b = true → p.at env ρ q n ≠ none) → ∃ d, env.png p = .ok d

end Limage.Spec
