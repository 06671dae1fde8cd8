import Verif.Props.Flatten
import Verif.Props.Inside
/-! C151: painting a pixel of a layer changes one pixel of the picture. -/
namespace Limage
namespace Spec

/-- where a point of an image is in the picture that has the image at a spot -/
def Spot.point : Spot → Pt → Pt
  | .here, q => q
  | .text _ P, q => P.point q
  | .masked _ P, q => P.point q
  | .layer _ l _ P, q => ⟨(P.point q).x + l.bounds.x0, (P.point q).y + l.bounds.y0⟩

/-- two images have the same bounds and colour model and show the same at all points but `q` -/
def DifferOnlyAt (q : Pt) (i j : Img) : Prop :=
  i.bounds = j.bounds ∧ i.colorModel = j.colorModel ∧ ∀ ρ p n, p ≠ q → i.at ρ p n = j.at ρ p n

end Spec

open Spec

theorem layersAt_differ (ρ : Nat → UInt16) (cm : Option ColorModel) (above : List Layer) (l : Layer) (below : List Layer) (i j : Img) (p : Pt)
    (h : ∀ n, i.at ρ ⟨p.x - l.bounds.x0, p.y - l.bounds.y0⟩ n = j.at ρ ⟨p.x - l.bounds.x0, p.y - l.bounds.y0⟩ n) (n : Nat) :
    layersAt ρ cm (above ++ { l with image := i } :: below) p n = layersAt ρ cm (above ++ { l with image := j } :: below) p n := by
  induction above generalizing n with
  | nil =>
    rw [List.nil_append, List.nil_append, layersAt_cons, layersAt_cons]
    refine congrArg _ (funext fun x => ?_)
    obtain ⟨c, n⟩ := x
    dsimp only
    simp only [drawLayer, layerAt, h]
  | cons a g ih => rw [List.cons_append, List.cons_append, layersAt_cons, layersAt_cons, ih]

/-- Whatever is done to one point of an image shows at one point of a picture that has the image. -/
theorem C151_point (P : Spot) (q : Pt) (i j : Img) (h : DifferOnlyAt q i j) : DifferOnlyAt (P.point q) (P.fill i) (P.fill j) := by
  induction P with
  | here => exact h
  | text t P ih =>
    obtain ⟨h1, h2, h3⟩ := ih
    refine ⟨?_, ?_, fun ρ p n hp => ?_⟩
    · simpa only [Spot.fill, Img.bounds] using h1
    · simpa only [Spot.fill, Img.colorModel] using h2
    · rw [Spot.fill, Spot.fill, at_text, at_text, h3 ρ p n hp]
  | masked m P ih =>
    obtain ⟨h1, h2, h3⟩ := ih
    refine ⟨?_, ?_, fun ρ p n hp => ?_⟩
    · simpa only [Spot.fill, Img.bounds] using h1
    · simpa only [Spot.fill, Img.colorModel] using h2
    · rw [Spot.fill, Spot.fill, Img.at, Img.at, h3 ρ p n hp]
  | layer above l below P ih =>
    obtain ⟨h1, h2, h3⟩ := ih
    have hm : groupModel (above ++ { l with image := P.fill i } :: below) = groupModel (above ++ { l with image := P.fill j } :: below) := by
      cases above with
      | nil => rw [List.nil_append, List.nil_append, groupModel_cons, groupModel_cons]; exact h2
      | cons a g => rw [List.cons_append, List.cons_append, groupModel_cons, groupModel_cons]
    refine ⟨?_, ?_, fun ρ p n hp => ?_⟩
    · simp only [Spot.fill, Img.bounds, groupBounds, List.foldl_append, List.foldl_cons]
    · rw [Spot.fill, Spot.fill, Img.colorModel, Img.colorModel, hm]
    · rw [Spot.fill, Spot.fill, at_group, at_group, hm]
      refine layersAt_differ ρ _ above l below _ _ p (fun n => h3 ρ _ n fun e => hp ?_) n
      obtain ⟨x, y⟩ := p
      rw [Spot.point, ← e]
      dsimp only
      rw [Int.sub_add_cancel, Int.sub_add_cancel]

/-- an image that differs from another in one point -/
example : DifferOnlyAt ⟨1, 0⟩ (.leaf ⟨⟨0, 0, 2, 2⟩, .other, fun _ => some (.gray 1)⟩) (.leaf ⟨⟨0, 0, 2, 2⟩, .other, fun p => some (.gray (if p = ⟨1, 0⟩ then 2 else 1))⟩) := by
  refine ⟨rfl, rfl, fun ρ p n hp => ?_⟩
  rw [Img.at, Img.at]
  dsimp only
  rw [if_neg hp]

/-- After `Set` (or `SetRGB` and so on) at a point of an image of one of the raster types, however it and others that share its
pixels were made, a picture that has any of these images shows the same at all points but the one that is painted. -/
theorem C151_painted {π : Type} (z : π) (toColor : π → Option Color) (cm : ColorModel) (ops : List (ROp π)) (i : Nat) (q : Pt) (v : π)
    (hw : WF 0 (ops ++ [.set i q v])) :
    ∃ s s', RState.run z ⟨[], []⟩ ops = some s ∧ RState.run z ⟨[], []⟩ (ops ++ [.set i q v]) = some s' ∧ s'.imgs = s.imgs ∧
      ∀ (k : Nat) (m : Raster), s.imgs[k]? = some m → ∀ P : Spot,
        DifferOnlyAt (P.point q) (P.fill (.leaf (m.leaf z toColor cm s.heap))) (P.fill (.leaf (m.leaf z toColor cm s'.heap))) := by
  obtain ⟨s, e1, h1, h2⟩ := C21_raster_is_map z ops ((wf_append 0 ops _).1 hw).1
  obtain ⟨s', e1', h1', h2'⟩ := C21_raster_is_map z _ hw
  have himgs : s'.imgs = s.imgs := by
    rw [run_append, e1, Option.bind_some, RState.run] at e1'
    obtain ⟨x, hx, e⟩ := Option.bind_eq_some_iff.1 e1'
    injection e with e
    subst e
    rw [RState.step] at hx
    obtain ⟨m, hm, hx⟩ := Option.bind_eq_some_iff.1 hx
    obtain ⟨h, hh, hx⟩ := Option.map_eq_some_iff.1 hx
    rw [← hx]
  refine ⟨s, s', e1, e1', himgs, fun k m hm P => C151_point P q _ _ ⟨rfl, rfl, fun ρ p n hp => ?_⟩⟩
  have hsame : Raster.get z s.heap m p = Raster.get z s'.heap m p := by
    obtain ⟨w, hw1, hw2⟩ := h2 k m hm
    obtain ⟨w', hw1', hw2'⟩ := h2' k m (by rw [himgs]; exact hm)
    rw [hw2, hw2']
    have happ : ∀ (t : SState π), t.run z (ops ++ [.set i q v]) = (t.run z ops).step z (.set i q v) := by
      clear * -
      induction ops with
      | nil => intro t; rfl
      | cons o ops ih => intro t; exact ih _
    rw [happ] at hw1' ⊢
    generalize (SState.init z).run z ops = t at *
    rw [SState.step] at hw1' ⊢
    cases hv : t.views[i]? with
    | none =>
      rw [hv] at hw1'
      dsimp only at hw1' ⊢
      rw [hw1] at hw1'
      injection hw1' with e
      rw [e]
    | some u =>
      rw [hv] at hw1'
      dsimp only at hw1' ⊢
      rw [hw1] at hw1'
      injection hw1' with e
      rw [← e]
      unfold View.at
      dsimp only
      rw [if_neg (fun h => hp h.2.1) (c := w.canvas = u.canvas ∧ p = q ∧ u.region q)]
  show ((Raster.get z s.heap m p).bind toColor).map (fun c => (c, n)) = ((Raster.get z s'.heap m p).bind toColor).map (fun c => (c, n))
  rw [hsame]

/-- painting the point (2, 2) of a sub-image, in a layer at (10, 20): the image it was cut from is painted as well, and the picture
changes at (12, 22) -/
example (a : Layer) (v : RGBPix) : ∃ s s' : RState RGBPix,
    RState.run ⟨0, 0, 0⟩ ⟨[], []⟩ [.new ⟨0, 0, 4, 4⟩, .sub 0 ⟨1, 1, 3, 3⟩] = some s ∧ s'.imgs = s.imgs ∧ s.imgs.length = 2 ∧
      ∀ m, s.imgs[0]? = some m → DifferOnlyAt ⟨12, 22⟩
        (.group [a, ⟨[], ⟨10, 20, 14, 24⟩, Mode.normal, false, 0, .leaf (m.leaf ⟨0, 0, 0⟩ (fun x => some x.toColor) .other s.heap)⟩])
        (.group [a, ⟨[], ⟨10, 20, 14, 24⟩, Mode.normal, false, 0, .leaf (m.leaf ⟨0, 0, 0⟩ (fun x => some x.toColor) .other s'.heap)⟩]) := by
  obtain ⟨s, s', e, e', hi, h⟩ := C151_painted (⟨0, 0, 0⟩ : RGBPix) (fun x => some x.toColor) .other
    [.new ⟨0, 0, 4, 4⟩, .sub 0 ⟨1, 1, 3, 3⟩] 1 ⟨2, 2⟩ v ⟨by decide, by decide, by decide, trivial⟩
  have hl : s.imgs.length = 2 := by
    have : RState.run (⟨0, 0, 0⟩ : RGBPix) ⟨[], []⟩ [.new ⟨0, 0, 4, 4⟩, .sub 0 ⟨1, 1, 3, 3⟩] =
      some ⟨[List.replicate 16 ⟨0, 0, 0⟩], [⟨0, 0, 16, 4, ⟨0, 0, 4, 4⟩⟩, ⟨0, 5, 11, 4, ⟨1, 1, 3, 3⟩⟩]⟩ := by rfl
    rw [this] at e
    injection e with e
    rw [← e]; rfl
  exact ⟨s, s', e, hi, hl, fun m hm => h 0 m hm (.layer [a] ⟨[], ⟨10, 20, 14, 24⟩, Mode.normal, false, 0, .nil⟩ [] .here)⟩

end Limage
