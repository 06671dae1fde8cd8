/-!
# Points and rectangles

Go standard library `image.Point` and `image.Rectangle` (image/geom.go). Simplification: Go `int`
is modelled by unbounded `Int`; coordinates near 2^63 are out of scope.
-/
namespace Limage

/-- `image.Point` -/
structure Pt where
  x : Int
  y : Int
deriving DecidableEq, Repr, Inhabited

/-- `image.Rectangle` -/
structure Rect where
  x0 : Int
  y0 : Int
  x1 : Int
  y1 : Int
deriving DecidableEq, Repr, Inhabited

namespace Rect

/-- the zero rectangle `image.ZR` -/
def zero : Rect := ⟨0, 0, 0, 0⟩

/-- `Rectangle.Dx` -/
def dx (r : Rect) : Int := r.x1 - r.x0
/-- `Rectangle.Dy` -/
def dy (r : Rect) : Int := r.y1 - r.y0

/-- `Rectangle.Empty` -/
def empty (r : Rect) : Bool := r.x0 ≥ r.x1 || r.y0 ≥ r.y1

/-- `Point.In` -/
def mem (p : Pt) (r : Rect) : Bool :=
  r.x0 ≤ p.x && p.x < r.x1 && r.y0 ≤ p.y && p.y < r.y1

/-- `Rectangle.Intersect`: empty results are the zero rectangle. -/
def inter (r s : Rect) : Rect :=
  let t : Rect := ⟨max r.x0 s.x0, max r.y0 s.y0, min r.x1 s.x1, min r.y1 s.y1⟩
  if t.empty then zero else t

/-- `Rectangle.Union`: empty rectangles are ignored. -/
def union (r s : Rect) : Rect :=
  if r.empty then s
  else if s.empty then r
  else ⟨min r.x0 s.x0, min r.y0 s.y0, max r.x1 s.x1, max r.y1 s.y1⟩

/-- `Rectangle.Add` -/
def add (r : Rect) (p : Pt) : Rect := ⟨r.x0 + p.x, r.y0 + p.y, r.x1 + p.x, r.y1 + p.y⟩

/-- `Rectangle.Sub` -/
def sub (r : Rect) (p : Pt) : Rect := ⟨r.x0 - p.x, r.y0 - p.y, r.x1 - p.x, r.y1 - p.y⟩

/-- `Rectangle.Min` -/
def min' (r : Rect) : Pt := ⟨r.x0, r.y0⟩

end Rect
end Limage
