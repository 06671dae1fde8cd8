import Verif.Props.Draws
/-! # Mirrored, turned and enlarged pictures (C161) -/
namespace Limage

/-! ## Specification -/

namespace Spec

/-- A way to rearrange the points of pictures.  Images in layers have coordinates of their own, so that there may be several kinds of
coordinates: `rect k` is what becomes of rectangles in coordinates of kind `k`, `point k` the point that is shown after it, and
`inner k b` the kind of the coordinates in a layer with the bounds `b`. -/
structure Rearrangement (κ : Type) where
  rect : κ → Rect → Rect
  point : κ → Pt → Pt
  inner : κ → Rect → κ

/-- the mirror image in a frame of width `w`: left and right exchanged -/
def mirror : Rearrangement Int where
  rect w b := ⟨w - b.x1, b.y0, w - b.x0, b.y1⟩
  point w p := ⟨w - 1 - p.x, p.y⟩
  inner _ b := b.x1 - b.x0

/-- lines become columns -/
def transpose : Rearrangement Unit where
  rect _ b := ⟨b.y0, b.x0, b.y1, b.x1⟩
  point _ p := ⟨p.y, p.x⟩
  inner _ _ := ()

/-- every point becomes a square of `k` by `k` points -/
def enlarge (k : Nat) : Rearrangement Unit where
  rect _ b := ⟨k * b.x0, k * b.y0, k * b.x1, k * b.y1⟩
  point _ p := ⟨p.x / k, p.y / k⟩
  inner _ _ := ()

mutual
/-- the image with everything in it rearranged -/
def rearranged {κ : Type} (T : Rearrangement κ) (k : κ) (i : Img) : Img :=
  match i with
  | .leaf l => .leaf ⟨T.rect k l.bounds, l.model, fun p => l.pixel (T.point k p)⟩
  | .nil => .nil
  | .text i t => .text (rearranged T k i) t
  | .masked i m => .masked (rearranged T k i) (m.map fun m => ⟨T.rect k m.rect, fun p => m.pix (T.point k p)⟩)
  | .group g => .group (rearrangedAll T k g)
termination_by structural i
/-- the same for layers -/
def rearrangedAll {κ : Type} (T : Rearrangement κ) (k : κ) (g : List Layer) : List Layer :=
  match g with
  | [] => []
  | ⟨name, b, mode, invisible, tr, i⟩ :: ls =>
    ⟨name, T.rect k b, mode, invisible, tr, rearranged T (T.inner k b) i⟩ :: rearrangedAll T k ls
termination_by structural g
end

end Spec
open Spec

/-! ## Proof -/

/-- what has to hold of a rearrangement -/
structure Sane {κ : Type} (T : Rearrangement κ) : Prop where
  mem : ∀ k b p, inRect (T.rect k b) p ↔ inRect b (T.point k p)
  sub : ∀ k b p, T.point (T.inner k b) ⟨p.x - (T.rect k b).x0, p.y - (T.rect k b).y0⟩ =
    ⟨(T.point k p).x - b.x0, (T.point k p).y - b.y0⟩
  empty : ∀ k b, (T.rect k b).empty = b.empty
  union : ∀ k a b, T.rect k (a.union b) = (T.rect k a).union (T.rect k b)

theorem union_rearranged {f : Rect → Rect} (he : ∀ b, (f b).empty = b.empty)
    (h : ∀ a b : Rect, f ⟨min a.x0 b.x0, min a.y0 b.y0, max a.x1 b.x1, max a.y1 b.y1⟩ =
      ⟨min (f a).x0 (f b).x0, min (f a).y0 (f b).y0, max (f a).x1 (f b).x1, max (f a).y1 (f b).y1⟩) (a b : Rect) :
    f (a.union b) = (f a).union (f b) := by
  unfold Rect.union
  rw [he, he]
  split
  · rfl
  · split
    · rfl
    · exact h a b

theorem mirror_sane : Sane mirror := by
  constructor
  · intro w b p
    simp only [mirror, inRect]
    omega
  · intro w b p
    simp only [mirror]
    congr 1
    omega
  · intro w b
    rw [Bool.eq_iff_iff, empty_iff, empty_iff]
    simp only [mirror]
    omega
  · intro w
    refine union_rearranged (fun b => ?_) fun a b => ?_
    · rw [Bool.eq_iff_iff, empty_iff, empty_iff]
      simp only [mirror]
      omega
    · simp only [mirror, Rect.mk.injEq]
      refine ⟨?_, trivial, ?_, trivial⟩ <;> omega

theorem transpose_sane : Sane transpose := by
  constructor
  · intro w b p
    simp only [transpose, inRect]
    omega
  · intro w b p
    simp only [transpose]
  · intro w b
    rw [Bool.eq_iff_iff, empty_iff, empty_iff]
    simp only [transpose]
    omega
  · intro w
    refine union_rearranged (fun b => ?_) fun a b => ?_
    · rw [Bool.eq_iff_iff, empty_iff, empty_iff]
      simp only [transpose]
      omega
    · simp only [transpose]

theorem enlarge_sane {k : Nat} (hk : 0 < k) : Sane (enlarge k) := by
  have hk' : (0 : Int) < k := by omega
  have he : ∀ w b, ((enlarge k).rect w b).empty = b.empty := by
    intro w b
    rw [Bool.eq_iff_iff, empty_iff, empty_iff]
    simp only [enlarge]
    rw [Int.mul_lt_mul_left hk', Int.mul_lt_mul_left hk']
  have hmin : ∀ a b : Int, k * min a b = min (k * a) (k * b) := fun a b => by
    rcases Int.le_total a b with h | h
    · rw [Int.min_eq_left h, Int.min_eq_left (Int.mul_le_mul_of_nonneg_left h (by omega))]
    · rw [Int.min_eq_right h, Int.min_eq_right (Int.mul_le_mul_of_nonneg_left h (by omega))]
  have hmax : ∀ a b : Int, k * max a b = max (k * a) (k * b) := fun a b => by
    rcases Int.le_total a b with h | h
    · rw [Int.max_eq_right h, Int.max_eq_right (Int.mul_le_mul_of_nonneg_left h (by omega))]
    · rw [Int.max_eq_left h, Int.max_eq_left (Int.mul_le_mul_of_nonneg_left h (by omega))]
  refine ⟨?_, ?_, he, fun w => union_rearranged (he w) fun a b => ?_⟩
  · intro w b p
    simp only [enlarge, inRect]
    rw [Int.le_ediv_iff_mul_le hk', Int.le_ediv_iff_mul_le hk', Int.ediv_lt_iff_lt_mul hk', Int.ediv_lt_iff_lt_mul hk']
    rw [Int.mul_comm b.x0, Int.mul_comm b.x1, Int.mul_comm b.y0, Int.mul_comm b.y1]
  · intro w b p
    simp only [enlarge, Pt.mk.injEq]
    constructor
    · rw [Int.sub_eq_add_neg, ← Int.mul_neg, Int.add_mul_ediv_left _ _ (by omega), ← Int.sub_eq_add_neg]
    · rw [Int.sub_eq_add_neg, ← Int.mul_neg, Int.add_mul_ediv_left _ _ (by omega), ← Int.sub_eq_add_neg]
  · simp only [enlarge, hmin, hmax]

mutual
theorem rearranged_model {κ : Type} (T : Rearrangement κ) (k : κ) (i : Img) : (rearranged T k i).colorModel = i.colorModel := by
  match i with
  | .leaf l => rw [rearranged, Img.colorModel, Img.colorModel]
  | .nil => rw [rearranged]
  | .text i t => rw [rearranged, Img.colorModel, Img.colorModel]; exact rearranged_model T k i
  | .masked i m => rw [rearranged, Img.colorModel, Img.colorModel]; exact rearranged_model T k i
  | .group g => rw [rearranged, Img.colorModel, Img.colorModel]; exact rearrangedAll_model T k g
termination_by structural i
theorem rearrangedAll_model {κ : Type} (T : Rearrangement κ) (k : κ) (g : List Layer) : groupModel (rearrangedAll T k g) = groupModel g := by
  match g with
  | [] => rw [rearrangedAll]
  | ⟨name, b, mode, invisible, tr, i⟩ :: ls =>
    rw [rearrangedAll, groupModel, groupModel]
    exact rearranged_model T (T.inner k b) i
termination_by structural g
end

theorem rearranged_mask {κ : Type} {T : Rearrangement κ} (hT : Sane T) (k : κ) (m : GrayImg) (p : Pt) :
    GrayImg.grayAt ⟨T.rect k m.rect, fun p => m.pix (T.point k p)⟩ p = m.grayAt (T.point k p) := by
  unfold GrayImg.grayAt
  dsimp only
  by_cases h : inRect m.rect (T.point k p)
  · rw [if_pos ((mem_iff _ _).2 ((hT.mem k _ p).2 h)), if_pos ((mem_iff _ _).2 h)]
  · rw [if_neg fun e => h ((hT.mem k _ p).1 ((mem_iff _ _).1 e)), if_neg fun e => h ((mem_iff _ _).1 e)]

mutual
theorem rearranged_at {κ : Type} {T : Rearrangement κ} (hT : Sane T) (ρ : Nat → UInt16) (k : κ) (i : Img) (p : Pt) (n : Nat) :
    (rearranged T k i).at ρ p n = i.at ρ (T.point k p) n := by
  match i with
  | .leaf l => rw [rearranged, Img.at, Img.at]
  | .nil => rw [rearranged, Img.at, Img.at]
  | .text i t => rw [rearranged, Img.at, Img.at]; exact rearranged_at hT ρ k i p n
  | .masked i m =>
    rw [rearranged, Img.at, Img.at, rearranged_at hT ρ k i p n]
    cases m with
    | none => rfl
    | some m =>
      refine congrArg _ (funext fun x => ?_)
      dsimp only [Option.map_some]
      have := rearranged_mask hT k m p
      show some (transparency x.1 (GrayImg.grayAt ⟨T.rect k m.rect, fun p => m.pix (T.point k p)⟩ p), x.2) = _
      rw [this]
      rfl
  | .group g =>
    rw [rearranged, Img.at, Img.at, rearrangedAll_model]
    exact rearrangedAll_at hT ρ k (groupModel g) g p n
termination_by structural i
theorem rearrangedAll_at {κ : Type} {T : Rearrangement κ} (hT : Sane T) (ρ : Nat → UInt16) (k : κ) (cm : Option ColorModel) (g : List Layer)
    (p : Pt) (n : Nat) : layersAt ρ cm (rearrangedAll T k g) p n = layersAt ρ cm g (T.point k p) n := by
  match g with
  | [] => rw [rearrangedAll, layersAt, layersAt]
  | ⟨name, b, mode, invisible, tr, i⟩ :: ls =>
    rw [rearrangedAll, layersAt_cons, layersAt_cons, rearrangedAll_at hT ρ k cm ls p n]
    refine congrArg _ (funext fun x => ?_)
    obtain ⟨c, n⟩ := x
    dsimp only
    have h1 : layerAt ρ ⟨name, T.rect k b, mode, invisible, tr, rearranged T (T.inner k b) i⟩ p n =
        layerAt ρ ⟨name, b, mode, invisible, tr, i⟩ (T.point k p) n := by
      unfold layerAt
      dsimp only
      rw [rearranged_at hT ρ (T.inner k b) i, hT.sub]
    have h2 : Rect.mem p (T.rect k b) = Rect.mem (T.point k p) b := by
      have := hT.mem k b p
      rw [← mem_iff, ← mem_iff] at this
      exact Bool.eq_iff_iff.2 this
    unfold drawLayer
    rw [h1]
    dsimp only
    rw [h2]
termination_by structural g
end

theorem rearrangedAll_union {κ : Type} {T : Rearrangement κ} (hT : Sane T) (k : κ) : ∀ (g : List Layer) (r r' : Rect),
    (r' = T.rect k r ∨ r.empty = true ∧ r'.empty = true) →
    ((rearrangedAll T k g).foldl (fun r l => r.union l.bounds) r' = T.rect k (g.foldl (fun r l => r.union l.bounds) r) ∨
      (g.foldl (fun r l => r.union l.bounds) r).empty = true ∧ ((rearrangedAll T k g).foldl (fun r l => r.union l.bounds) r').empty = true) := by
  intro g
  induction g with
  | nil => intro r r' h; rw [rearrangedAll]; exact h
  | cons l g ih =>
    intro r r' h
    obtain ⟨name, b, mode, invisible, tr, i⟩ := l
    rw [rearrangedAll, List.foldl_cons, List.foldl_cons]
    refine ih _ _ ?_
    dsimp only
    rcases h with h | ⟨h1, h2⟩
    · left
      rw [h, hT.union]
    · left
      unfold Rect.union
      rw [if_pos h1, if_pos h2]

/-- the bounds hold the rearranged points -/
theorem rearranged_bounds {κ : Type} {T : Rearrangement κ} (hT : Sane T) (k : κ) : ∀ (i : Img) (b : Rect), i.bounds = some b →
    ∃ b', (rearranged T k i).bounds = some b' ∧ ∀ p, inRect b' p ↔ inRect b (T.point k p)
  | .leaf l, b, h => by
    rw [Img.bounds] at h
    cases h
    rw [rearranged]
    exact ⟨_, rfl, hT.mem k _⟩
  | .nil, b, h => by cases h
  | .text i t, b, h => by
    rw [rearranged]
    exact rearranged_bounds hT k i b h
  | .masked i m, b, h => by
    rw [rearranged]
    exact rearranged_bounds hT k i b h
  | .group g, b, h => by
    rw [Img.bounds] at h
    cases h
    rw [rearranged]
    refine ⟨_, rfl, fun p => ?_⟩
    unfold groupBounds
    rcases rearrangedAll_union hT k g Rect.zero Rect.zero (.inr ⟨by decide, by decide⟩) with h | ⟨h1, h2⟩
    · rw [h]; exact hT.mem k _ p
    · rw [empty_iff] at h1 h2
      unfold inRect
      constructor
      · intro h; exact absurd ⟨by omega, by omega⟩ h2
      · intro h; exact absurd ⟨by omega, by omega⟩ h1

/-! ## C161 -/

/-- **C161.**  If everything in a picture is mirrored, the picture is mirrored: at each point it shows what was shown at the mirrored point, with the same
random numbers; its color model is the same, and its bounds hold the mirrored points. -/
theorem C161_mirrored (ρ : Nat → UInt16) (w : Int) (i : Img) (p : Pt) (n : Nat) :
    (rearranged mirror w i).at ρ p n = i.at ρ ⟨w - 1 - p.x, p.y⟩ n ∧ (rearranged mirror w i).colorModel = i.colorModel ∧
    ∀ b, i.bounds = some b → ∃ b', (rearranged mirror w i).bounds = some b' ∧ (inRect b' p ↔ inRect b ⟨w - 1 - p.x, p.y⟩) :=
  ⟨rearranged_at mirror_sane ρ w i p n, rearranged_model mirror w i, fun b h => by
    obtain ⟨b', h1, h2⟩ := rearranged_bounds mirror_sane w i b h
    exact ⟨b', h1, h2 p⟩⟩

/-- **C161.**  If lines and columns are exchanged in everything in a picture, they are in the picture. -/
theorem C161_transposed (ρ : Nat → UInt16) (i : Img) (p : Pt) (n : Nat) :
    (rearranged transpose () i).at ρ p n = i.at ρ ⟨p.y, p.x⟩ n ∧ (rearranged transpose () i).colorModel = i.colorModel ∧
    ∀ b, i.bounds = some b → ∃ b', (rearranged transpose () i).bounds = some b' ∧ (inRect b' p ↔ inRect b ⟨p.y, p.x⟩) :=
  ⟨rearranged_at transpose_sane ρ () i p n, rearranged_model transpose () i, fun b h => by
    obtain ⟨b', h1, h2⟩ := rearranged_bounds transpose_sane () i b h
    exact ⟨b', h1, h2 p⟩⟩

/-- **C161.**  If everything in a picture is enlarged, the picture is enlarged: it shows squares of `k` by `k` points. -/
theorem C161_enlarged (ρ : Nat → UInt16) (k : Nat) (hk : 0 < k) (i : Img) (p : Pt) (n : Nat) :
    (rearranged (enlarge k) () i).at ρ p n = i.at ρ ⟨p.x / k, p.y / k⟩ n ∧ (rearranged (enlarge k) () i).colorModel = i.colorModel ∧
    ∀ b, i.bounds = some b → ∃ b', (rearranged (enlarge k) () i).bounds = some b' ∧ (inRect b' p ↔ inRect b ⟨p.x / k, p.y / k⟩) :=
  ⟨rearranged_at (enlarge_sane hk) ρ () i p n, rearranged_model (enlarge k) () i, fun b h => by
    obtain ⟨b', h1, h2⟩ := rearranged_bounds (enlarge_sane hk) () i b h
    exact ⟨b', h1, h2 p⟩⟩

/-- a group with a masked image in it, on another image -/
def lopsided : Img := .group
  [⟨[], ⟨1, 0, 3, 2⟩, Mode.multiply, false, 100, .group
    [⟨[], ⟨0, 0, 1, 2⟩, Mode.normal, false, 0, .masked (.leaf ⟨⟨0, 0, 1, 2⟩, .other, fun p => some (.nrgba (UInt8.ofNat p.y.toNat) 8 7 255)⟩)
      (some ⟨⟨0, 0, 1, 1⟩, fun _ => 200⟩)⟩]⟩,
   ⟨[], ⟨0, 0, 4, 2⟩, Mode.normal, false, 0, .leaf ⟨⟨0, 0, 4, 2⟩, .other, fun p => some (.nrgba (UInt8.ofNat p.x.toNat) 2 3 255)⟩⟩]

-- points and rectangles of the mirrored picture; turning by a right angle is mirroring and transposing
example : (match rearranged mirror 4 lopsided with | .group g => g.map (·.bounds) | _ => []) = [⟨1, 0, 3, 2⟩, ⟨0, 0, 4, 2⟩] ∧
    (match rearranged (enlarge 3) () lopsided with | .group g => g.map (·.bounds) | _ => []) = [⟨3, 0, 9, 6⟩, ⟨0, 0, 12, 6⟩] := by
  decide
example (ρ : Nat → UInt16) (n : Nat) : (rearranged mirror 4 lopsided).at ρ ⟨2, 0⟩ n = lopsided.at ρ ⟨1, 0⟩ n ∧
    (rearranged transpose () (rearranged mirror 4 lopsided)).at ρ ⟨0, 2⟩ n = lopsided.at ρ ⟨1, 0⟩ n ∧
    (rearranged (enlarge 3) () lopsided).at ρ ⟨5, 2⟩ n = lopsided.at ρ ⟨1, 0⟩ n := by
  refine ⟨(C161_mirrored ρ 4 lopsided ⟨2, 0⟩ n).1, ?_, (C161_enlarged ρ 3 (by decide) lopsided ⟨5, 2⟩ n).1⟩
  rw [(C161_transposed ρ _ ⟨0, 2⟩ n).1]
  exact (C161_mirrored ρ 4 lopsided ⟨2, 0⟩ n).1
-- the two points differ
example : ((lopsided.at (fun _ => 0) ⟨1, 0⟩ 0).map fun x => x.1.toNRGBA) ≠ (lopsided.at (fun _ => 0) ⟨2, 0⟩ 0).map fun x => x.1.toNRGBA := by
  decide +kernel

end Limage
