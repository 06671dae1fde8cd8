import Verif.Model.Raster
/-!
# Specification of rasters: maps from points to pixels

An image is a view of a canvas through a region (a set of points).  A canvas is a function from
points to pixels.  No offsets, strides or arrays.  Only the syntax of programs (`ROp`) and the
coordinates of rectangles are taken from the model.
-/
namespace Limage.Spec

/-- the points of a rectangle -/
def inRect (r : Rect) (p : Pt) : Prop := r.x0 ≤ p.x ∧ p.x < r.x1 ∧ r.y0 ≤ p.y ∧ p.y < r.y1

structure View where
  canvas : Nat
  region : Pt → Prop

structure SState (π : Type) where
  nCanvas : Nat
  canvas : Nat → Pt → π
  views : List View

open Classical in
/-- effect of one call -/
noncomputable def SState.step {π} (z : π) (s : SState π) : ROp π → SState π
  | .new r => ⟨s.nCanvas + 1, fun c p => if c = s.nCanvas then z else s.canvas c p,
      s.views ++ [⟨s.nCanvas, inRect r⟩]⟩
  | .set i p v =>
    match s.views[i]? with
    | none => s
    | some w => { s with canvas := fun c q =>
        if c = w.canvas ∧ q = p ∧ w.region p then v else s.canvas c q }
  | .sub i r =>
    match s.views[i]? with
    | none => s
    | some w => { s with views := s.views ++ [⟨w.canvas, fun p => inRect r p ∧ w.region p⟩] }

noncomputable def SState.run {π} (z : π) (s : SState π) : List (ROp π) → SState π
  | [] => s
  | op :: ops => (s.step z op).run z ops

def SState.init {π} (z : π) : SState π := ⟨0, fun _ _ => z, []⟩

open Classical in
/-- what a view shows at a point -/
noncomputable def View.at {π} (z : π) (s : SState π) (w : View) (p : Pt) : π :=
  if w.region p then s.canvas w.canvas p else z

/-- A program is well-formed from `n` existing images on: it only refers to images it has created,
and only creates images of non-negative size (`make` panics otherwise). -/
def WF {π} : Nat → List (ROp π) → Prop
  | _, [] => True
  | n, .new r :: ops => 0 ≤ (r.x1 - r.x0) * (r.y1 - r.y0) ∧ WF (n + 1) ops
  | n, .set i _ _ :: ops => i < n ∧ WF n ops
  | n, .sub i _ :: ops => i < n ∧ WF (n + 1) ops

end Limage.Spec
namespace Limage.Spec

/-- value of the last write at `p` in a list of writes (oldest first), the zero pixel if none -/
def lastWrite {π} (z : π) (p : Pt) (ws : List (Pt × π)) : π :=
  match ws.reverse.find? (fun w => decide (w.1 = p)) with
  | some w => w.2
  | none => z

end Limage.Spec
