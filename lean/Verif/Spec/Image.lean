import Verif.Spec.Raster
import Verif.Model.Image
/-! # Specification vocabulary for layered images -/
namespace Limage.Spec

/-- the layer is visible and covers the point -/
def shows (p : Pt) (l : Layer) : Prop := l.invisible = false ∧ inRect l.bounds p

/-- every point of `r` is in `s` -/
def inside (r s : Rect) : Prop := ∀ p, inRect r p → inRect s p

/-- the same rectangle, or both without points (Go's `Rectangle.Eq`) -/
def sameRect (r s : Rect) : Prop := r = s ∨ ((∀ p, ¬ inRect r p) ∧ ∀ p, ¬ inRect s p)

/-- opacity of a layer, 0 to 255 -/
def opacity (l : Layer) : Nat := 255 - l.transparency.toNat

/-- the layer moved by `d` -/
def move (l : Layer) (d : Pt) : Layer :=
  { l with bounds := ⟨l.bounds.x0 + d.x, l.bounds.y0 + d.y, l.bounds.x1 + d.x, l.bounds.y1 + d.y⟩ }

/-- colours drawn one over the other, the first in the list on top, starting from transparent -/
def paint : List (Mode × Color) → Option Color
  | [] => some (.alpha 0)
  | (m, t) :: rest => (paint rest).bind fun c => composite 0 m c t

end Limage.Spec
