import Verif.Model.XcfEncode
/-!
# Files as the result of `WriteAt` calls, and the images whose files are considered
-/
namespace Limage.Spec

/-- the call writes byte `x` -/
def Covers (c : WCall) (x : Nat) : Bool := c.off ≤ x && x < c.off + c.data.length

/-- how many of the calls write byte `x` -/
def writesTo (l : List WCall) (x : Nat) : Nat := l.countP (Covers · x)

/-- the calls write each of the first `size` bytes once and no other byte -/
def ExactlyOnce (l : List WCall) (size : Nat) : Prop := ∀ x, writesTo l x = if x < size then 1 else 0

/-- contents of a file after `WriteAt(b, off)`; bytes between the old end and `off` become zero -/
def putAt (D : Bytes) (off : Nat) (b : Bytes) : Bytes :=
  D.take off ++ List.replicate (off - D.length) 0 ++ b ++ D.drop (off + b.length)

/-- contents after all the calls, if they succeed -/
def store (D : Bytes) (l : List WCall) : Bytes := l.foldl (fun D c => putAt D c.off c.data) D

/-- the bytes `b` are in the file at offset `p` -/
def HasAt (D : Bytes) (p : Nat) (b : Bytes) : Prop := (D.drop p).take b.length = b

/-- number of tiles of 64 by 64 points needed for `n` points -/
def tilesAlong (n : Int) : Nat := ((n + 63) / 64).toNat

/-- a well-formed rectangle that needs fewer than 2^32 tiles -/
def SizeOk (b : Rect) : Prop := b.x0 ≤ b.x1 ∧ b.y0 ≤ b.y1 ∧ tilesAlong b.dx * tilesAlong b.dy < 2 ^ 32

/-- the image with the pixels of a layer -/
def pixelsOf : Img → Img
  | .masked i _ => i
  | i => i

/-- the mask of a layer -/
def maskOf : Img → Option GrayImg
  | .masked _ m => m
  | _ => none

/-- sizes of the pixel images of a layer -/
def LayerSizeOk (i : Img) : Prop :=
  (∀ b, (pixelsOf i).bounds = some b → SizeOk b) ∧ ∀ m, maskOf i = some m → SizeOk m.rect

mutual
/-- `P` holds for the image of every layer inside an image -/
def EveryIn (P : Img → Prop) (i : Img) : Prop :=
  match i with
  | .group g => EveryLayer P g
  | .leaf _ => True
  | .nil => True
  | .text _ _ => True
  | .masked _ _ => True
termination_by structural i

/-- `P` holds for the image of every layer, at any depth -/
def EveryLayer (P : Img → Prop) (g : List Layer) : Prop :=
  match g with
  | [] => True
  | ⟨_, _, _, _, _, im⟩ :: rest => P im ∧ EveryIn P im ∧ EveryLayer P rest
termination_by structural g
end

mutual
/-- number of layers inside an image -/
def totalIn (i : Img) : Nat :=
  match i with
  | .group g => total g
  | .leaf _ => 0
  | .nil => 0
  | .text _ _ => 0
  | .masked _ _ => 0
termination_by structural i

/-- number of layers at any depth -/
def total (g : List Layer) : Nat :=
  match g with
  | [] => 0
  | ⟨_, _, _, _, _, im⟩ :: rest => 1 + totalIn im + total rest
termination_by structural g
end

/-- an image to be encoded: fewer than 2^32 layers, all pixel images of a representable size -/
def Encodable : Img → Prop
  | .group g => EveryLayer LayerSizeOk g ∧ total g < 2 ^ 32
  | i => LayerSizeOk i

mutual
/-- an image without missing parts: no layer lacks an image or a mask, and every pixel can be read -/
def Whole (i : Img) : Prop :=
  match i with
  | .leaf l => ∀ p, (l.pixel p).isSome
  | .nil => False
  | .text i _ => Whole i
  | .masked i m => Whole i ∧ m.isSome
  | .group g => WholeLayers g
termination_by structural i

/-- layers without missing parts -/
def WholeLayers (g : List Layer) : Prop :=
  match g with
  | [] => True
  | ⟨_, _, _, _, _, im⟩ :: rest => Whole im ∧ WholeLayers rest
termination_by structural g
end

end Limage.Spec
