import Verif.Model.Image
import Verif.Proofs.Raster
/-!
# C101, C102: rearranging layers
-/
namespace Limage
namespace Spec

/-- a layer moved by `d` -/
def moved (d : Pt) (l : Layer) : Layer := { l with bounds := ⟨l.bounds.x0 + d.x, l.bounds.y0 + d.y, l.bounds.x1 + d.x, l.bounds.y1 + d.y⟩ }

/-- no point is in both layers -/
def Apart (a b : Layer) : Prop := ∀ p, ¬(inRect a.bounds p ∧ inRect b.bounds p)

/-- The second list is the first with layers that do not overlap exchanged, any number of times. -/
inductive Exchanged : List Layer → List Layer → Prop
  | refl (g) : Exchanged g g
  | swap {g a b x y} : Exchanged g (a ++ x :: y :: b) → Apart x y → Exchanged g (a ++ y :: x :: b)

end Spec
open Spec

/-! ### C101 -/

theorem groupModel_moved (d : Pt) : ∀ g : List Layer, groupModel (g.map (moved d)) = groupModel g
  | [] => rfl
  | ⟨_, _, _, _, _, _⟩ :: _ => rfl

theorem mem_moved (p d : Pt) (b : Rect) :
    Rect.mem ⟨p.x + d.x, p.y + d.y⟩ ⟨b.x0 + d.x, b.y0 + d.y, b.x1 + d.x, b.y1 + d.y⟩ = Rect.mem p b := by
  rw [Bool.eq_iff_iff, mem_iff, mem_iff]
  unfold inRect
  dsimp only
  omega

theorem layersAt_moved (ρ : Nat → UInt16) (cm : Option ColorModel) (d p : Pt) (n : Nat) : ∀ g : List Layer,
    layersAt ρ cm (g.map (moved d)) ⟨p.x + d.x, p.y + d.y⟩ n = layersAt ρ cm g p n
  | [] => rfl
  | ⟨name, b, mode, inv, tr, im⟩ :: rest => by
    rw [List.map_cons]
    show layersAt ρ cm (⟨name, ⟨b.x0 + d.x, b.y0 + d.y, b.x1 + d.x, b.y1 + d.y⟩, mode, inv, tr, im⟩ :: rest.map (moved d)) _ n = _
    conv => lhs; unfold layersAt
    conv => rhs; unfold layersAt
    rw [layersAt_moved ρ cm d p n rest, mem_moved]
    dsimp only
    rw [Int.add_sub_add_right, Int.add_sub_add_right]

/-- C101: a picture all of whose layers are moved shows, at each point, what the picture shows at the point moved back, with the same random numbers, and its
color model is the same. -/
theorem C101_moved (g : List Layer) (d : Pt) :
    (∀ ρ p n, (Img.group (g.map (moved d))).at ρ ⟨p.x + d.x, p.y + d.y⟩ n = (Img.group g).at ρ p n) ∧
    (Img.group (g.map (moved d))).colorModel = (Img.group g).colorModel := by
  refine ⟨fun ρ p n => ?_, ?_⟩
  · rw [Img.at, Img.at, groupModel_moved, layersAt_moved]
  · rw [Img.colorModel, Img.colorModel, groupModel_moved]

/-- a layer moved to the right: the point moves with it -/
example (ρ : Nat → UInt16) : (Img.group (([⟨[], ⟨0, 0, 2, 2⟩, Mode.normal, false, 0, .leaf ⟨⟨0, 0, 2, 2⟩, .other, fun p => some (.gray (if p.x = 0 then 1 else 2))⟩⟩] :
      List Layer).map (moved ⟨10, 0⟩))).at ρ ⟨11, 1⟩ 0 =
    (Img.group [⟨[], ⟨0, 0, 2, 2⟩, Mode.normal, false, 0, .leaf ⟨⟨0, 0, 2, 2⟩, .other, fun p => some (.gray (if p.x = 0 then 1 else 2))⟩⟩]).at ρ ⟨1, 1⟩ 0 :=
  (C101_moved _ ⟨10, 0⟩).1 ρ ⟨1, 1⟩ 0

theorem union_moved (d : Pt) (r s : Rect) :
    Rect.union ⟨r.x0 + d.x, r.y0 + d.y, r.x1 + d.x, r.y1 + d.y⟩ ⟨s.x0 + d.x, s.y0 + d.y, s.x1 + d.x, s.y1 + d.y⟩ =
      ⟨(r.union s).x0 + d.x, (r.union s).y0 + d.y, (r.union s).x1 + d.x, (r.union s).y1 + d.y⟩ := by
  have he : ∀ r : Rect, Rect.empty ⟨r.x0 + d.x, r.y0 + d.y, r.x1 + d.x, r.y1 + d.y⟩ = r.empty := by
    intro r
    rw [Bool.eq_iff_iff, empty_iff, empty_iff]
    dsimp only
    omega
  unfold Rect.union
  rw [he, he]
  split
  · rfl
  split
  · rfl
  dsimp only
  congr 1 <;> omega

/-- C101, bounds: those of a picture that is not empty move with its layers. -/
theorem C101_bounds (g : List Layer) (d : Pt) :
    (∀ p, inRect (groupBounds (g.map (moved d))) ⟨p.x + d.x, p.y + d.y⟩ ↔ inRect (groupBounds g) p) ∧
    ((groupBounds g).empty = false → groupBounds (g.map (moved d)) =
      ⟨(groupBounds g).x0 + d.x, (groupBounds g).y0 + d.y, (groupBounds g).x1 + d.x, (groupBounds g).y1 + d.y⟩) := by
  have he : ∀ r : Rect, Rect.empty ⟨r.x0 + d.x, r.y0 + d.y, r.x1 + d.x, r.y1 + d.y⟩ = r.empty := by
    intro r
    rw [Bool.eq_iff_iff, empty_iff, empty_iff]
    dsimp only
    omega
  have key : ∀ (g : List Layer) (r r' : Rect), (r' = ⟨r.x0 + d.x, r.y0 + d.y, r.x1 + d.x, r.y1 + d.y⟩ ∨ r.empty = true ∧ r'.empty = true) →
      ((g.map (moved d)).foldl (fun r l => r.union l.bounds) r' =
        ⟨(g.foldl (fun r l => r.union l.bounds) r).x0 + d.x, (g.foldl (fun r l => r.union l.bounds) r).y0 + d.y,
          (g.foldl (fun r l => r.union l.bounds) r).x1 + d.x, (g.foldl (fun r l => r.union l.bounds) r).y1 + d.y⟩ ∨
        (g.foldl (fun r l => r.union l.bounds) r).empty = true ∧ ((g.map (moved d)).foldl (fun r l => r.union l.bounds) r').empty = true) := by
    intro g
    induction g with
    | nil => exact fun _ _ h => h
    | cons l g ih =>
      intro r r' h
      rw [List.map_cons, List.foldl_cons, List.foldl_cons]
      refine ih _ _ ?_
      show r'.union ⟨l.bounds.x0 + d.x, l.bounds.y0 + d.y, l.bounds.x1 + d.x, l.bounds.y1 + d.y⟩ = _ ∨ _
      rcases h with rfl | ⟨h1, h2⟩
      · exact .inl (union_moved d r l.bounds)
      · left
        unfold Rect.union
        rw [if_pos h1, if_pos h2]
  have h := key g Rect.zero Rect.zero (.inr ⟨rfl, rfl⟩)
  refine ⟨fun p => ?_, fun hne => ?_⟩
  · rcases h with h | ⟨h1, h2⟩
    · rw [show groupBounds (g.map (moved d)) = _ from h, ← mem_iff, ← mem_iff]
      exact Bool.eq_iff_iff.1 (mem_moved p d (groupBounds g))
    · exact ⟨fun h => absurd h (not_inRect_of_empty h2 _), fun h => absurd h (not_inRect_of_empty h1 _)⟩
  · rcases h with h | ⟨h1, h2⟩
    · exact h
    · rw [show (groupBounds g).empty = true from h1] at hne
      cases hne

/-- a layer of one pixel at the given place -/
def pixelBeside (x : Int) (c : Color) (cm : ColorModel) : Layer := ⟨[], ⟨x, 0, x + 1, 1⟩, Mode.normal, false, 0, .leaf ⟨⟨0, 0, 1, 1⟩, cm, fun _ => some c⟩⟩

theorem pixelBeside_apart {x y : Int} (h : x ≠ y) (c c' : Color) (cm cm' : ColorModel) : Apart (pixelBeside x c cm) (pixelBeside y c' cm') := by
  rintro p ⟨⟨h1, h2, -⟩, h3, h4, -⟩
  dsimp only [pixelBeside] at h1 h2 h3 h4
  omega

/-- and moved -/
example : (groupBounds [pixelBeside 0 (.gray 0) .gray, pixelBeside 1 (.gray 1) .gray]).empty = false := by decide

/-- two layers moved to the left and down -/
example : groupBounds (([⟨[], ⟨1, 1, 3, 4⟩, Mode.normal, false, 0, .nil⟩, ⟨[], ⟨-2, 0, 0, 2⟩, Mode.normal, true, 0, .nil⟩] : List Layer).map (moved ⟨-7, 5⟩)) =
    ⟨-9, 5, -4, 9⟩ := by decide

/-! ### C102 -/

theorem layersAt_skip (ρ : Nat → UInt16) (cm : Option ColorModel) (l : Layer) (g : List Layer) (p : Pt) (n : Nat) (h : ¬ inRect l.bounds p) :
    layersAt ρ cm (l :: g) p n = layersAt ρ cm g p n := by
  obtain ⟨name, b, mode, inv, tr, im⟩ := l
  rw [← mem_iff, Bool.not_eq_true] at h
  dsimp only at h
  rw [layersAt]
  simp only [h, Bool.false_eq_true, not_false_eq_true, if_true, ite_self]
  cases layersAt ρ cm g p n <;> rfl

theorem layersAt_below (ρ : Nat → UInt16) (cm : Option ColorModel) (p : Pt) (n : Nat) {x y : List Layer} (h : layersAt ρ cm x p n = layersAt ρ cm y p n) :
    ∀ a : List Layer, layersAt ρ cm (a ++ x) p n = layersAt ρ cm (a ++ y) p n
  | [] => h
  | ⟨name, b, mode, inv, tr, im⟩ :: a => by
    rw [List.cons_append, List.cons_append]
    conv => lhs; unfold layersAt
    conv => rhs; unfold layersAt
    rw [layersAt_below ρ cm p n h a]

/-- exchanging two layers, the color model aside -/
theorem layersAt_exchanged (ρ : Nat → UInt16) (cm : Option ColorModel) (p : Pt) (n : Nat) {g g' : List Layer} (h : Exchanged g g') :
    layersAt ρ cm g' p n = layersAt ρ cm g p n := by
  induction h with
  | refl => rfl
  | @swap a b x y _ hxy ih =>
    rw [← ih]
    refine layersAt_below ρ cm p n ?_ a
    by_cases hx : inRect x.bounds p
    · have hy : ¬ inRect y.bounds p := fun hy => hxy p ⟨hx, hy⟩
      rw [layersAt_skip ρ cm y (x :: b) p n hy]
      refine layersAt_below ρ cm p n ?_ [x]
      exact (layersAt_skip ρ cm y b p n hy).symm
    · rw [layersAt_skip ρ cm x (y :: b) p n hx]
      refine layersAt_below ρ cm p n ?_ [y]
      exact layersAt_skip ρ cm x b p n hx

theorem layersAt_kind (ρ : Nat → UInt16) (p : Pt) (n : Nat) {cm cm' : Option ColorModel} (h : cm.map ColorModel.isPalette = cm'.map ColorModel.isPalette) :
    ∀ g : List Layer, layersAt ρ cm g p n = layersAt ρ cm' g p n
  | [] => by rw [layersAt, layersAt]
  | ⟨name, b, mode, inv, tr, im⟩ :: g => by
    conv => lhs; unfold layersAt
    conv => rhs; unfold layersAt
    rw [layersAt_kind ρ p n h g]
    cases cm with
    | none =>
      cases cm' with
      | none => rfl
      | some c' => cases h
    | some c =>
      cases cm' with
      | none => cases h
      | some c' =>
        have h' : c.isPalette = c'.isPalette := Option.some.inj h
        show (Option.bind (layersAt ρ (some c') g p n) fun r => _) = _
        refine congrArg _ (funext fun r => ?_)
        simp only [Option.bind_eq_bind, Option.bind_some, h']

/-- C102: the order of layers that do not overlap does not matter, if the layer that is first, of which the picture takes its color model, has a palette before
and after or neither.

Missing for the full statement: pictures only one of whose first layers has a palette; see `C102_palette_refuted`. -/
theorem C102_exchanged_partial (g g' : List Layer) (h : Exchanged g g') (hm : (groupModel g).map ColorModel.isPalette = (groupModel g').map ColorModel.isPalette)
    (ρ : Nat → UInt16) (p : Pt) (n : Nat) : (Img.group g').at ρ p n = (Img.group g).at ρ p n := by
  rw [Img.at, Img.at, layersAt_exchanged ρ _ p n h, layersAt_kind ρ p n hm.symm]

/-- three layers side by side, in another order -/
example (ρ : Nat → UInt16) (p : Pt) (n : Nat) :
    (Img.group [pixelBeside 1 (.gray 1) .gray, pixelBeside 2 (.gray 2) .other, pixelBeside 0 (.gray 0) .gray]).at ρ p n =
      (Img.group [pixelBeside 0 (.gray 0) .gray, pixelBeside 1 (.gray 1) .gray, pixelBeside 2 (.gray 2) .other]).at ρ p n := by
  have h1 : Exchanged [pixelBeside 0 (.gray 0) .gray, pixelBeside 1 (.gray 1) .gray, pixelBeside 2 (.gray 2) .other]
      [pixelBeside 1 (.gray 1) .gray, pixelBeside 0 (.gray 0) .gray, pixelBeside 2 (.gray 2) .other] :=
    Exchanged.swap (a := []) (b := [pixelBeside 2 (.gray 2) .other]) (x := pixelBeside 0 (.gray 0) .gray) (y := pixelBeside 1 (.gray 1) .gray) (.refl _)
      (pixelBeside_apart (by decide) _ _ _ _)
  have h2 := Exchanged.swap (a := [pixelBeside 1 (.gray 1) .gray]) (b := []) (x := pixelBeside 0 (.gray 0) .gray) (y := pixelBeside 2 (.gray 2) .other) h1
      (pixelBeside_apart (by decide) _ _ _ _)
  exact C102_exchanged_partial _ _ h2 rfl ρ p n

/-- C102, where the first layer stays first -/
theorem C102_first (l : Layer) (g g' : List Layer) (h : Exchanged g g') (ρ : Nat → UInt16) (p : Pt) (n : Nat) :
    (Img.group (l :: g')).at ρ p n = (Img.group (l :: g)).at ρ p n := by
  rw [Img.at, Img.at]
  exact layersAt_below ρ _ p n (layersAt_exchanged ρ _ p n h) [l]

/-- two such layers below one with a palette -/
example : Exchanged [pixelBeside 0 (.gray 0) (.palette []), pixelBeside 1 (.gray 1) .gray] [pixelBeside 1 (.gray 1) .gray, pixelBeside 0 (.gray 0) (.palette [])] :=
  Exchanged.swap (a := []) (b := []) (.refl _) (pixelBeside_apart (by decide) _ _ _ _)

/-- the alpha of a colour -/
def alphaOf (c : Option (Color × Nat)) : Option UInt16 := c.map fun r => r.1.toNRGBA.a

/-- C102, false if only one of the layers has a palette: with it in front, a translucent pixel beside it is not shown, and behind it, it is. -/
theorem C102_palette_refuted : ∃ (x y : Layer) (p : Pt), Apart x y ∧ x.mode = Mode.normal ∧ y.mode = Mode.normal ∧
    alphaOf (Img.at (fun _ => 0) (.group [x, y]) p 0) = some 0 ∧ alphaOf (Img.at (fun _ => 0) (.group [y, x]) p 0) = some (100 * 257) :=
  ⟨pixelBeside 0 (.nrgba 0 0 0 255) (.palette []), pixelBeside 1 (.nrgba 255 0 0 100) .other, ⟨1, 0⟩, pixelBeside_apart (by decide) _ _ _ _, rfl, rfl,
    by decide +kernel, by decide +kernel⟩

end Limage
