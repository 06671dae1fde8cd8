import Verif.Spec.XcfFile
/-!
# An upper bound for the size of an XCF file
-/
namespace Limage.Spec

/-- bytes for the pixels of an image: a tile and its pointer need at most 4 bytes and 4130 bytes per channel (4096 pixels, 1 in 132
lost by the compression) -/
def pixelBytes (bpp : Nat) : Option Rect → Nat
  | none => 0
  | some b => 32 + tilesAlong b.dx * tilesAlong b.dy * (4 + 4130 * bpp)

/-- bytes for a mask -/
def maskBytes : Option GrayImg → Nat
  | none => 0
  | some m => 25 + pixelBytes 1 (some m.rect)

/-- bytes for the text of a layer -/
def textBytes (F : Fmt) (l : Layer) : Nat :=
  match textOf l with
  | none => 0
  | some t => ((F.text t l.bounds.dx l.bounds.dy).getD []).length

/-- bytes for a layer and its pointer -/
def layerBytes (F : Fmt) (r : Placed) : Nat :=
  160 + r.layer.name.length + 4 * r.path.length + textBytes F r.layer +
    pixelBytes F.bpp (pixelsOf r.layer.image).bounds + maskBytes (maskOf r.layer.image)

/-- bytes for a file -/
def fileBytes (F : Fmt) (i : Img) : Nat :=
  80 + 3 * (F.palette.getD []).length + ((layersOf i).map (layerBytes F)).sum

end Limage.Spec
