import Verif.Props.Draws
import Verif.Props.Looks
/-! C148: modes with the same name do the same.  C149: any part of a picture can be flattened. -/
namespace Limage
namespace Spec

/-- somewhere within a picture: the picture itself, the image of a text layer, of a masked layer, or of a layer with others above
and below it -/
inductive Spot where
  | here
  | text (t : TextData) (P : Spot)
  | masked (m : Option GrayImg) (P : Spot)
  | layer (above : List Layer) (l : Layer) (below : List Layer) (P : Spot)

/-- the picture with an image put at a place within it -/
def Spot.fill : Spot → Img → Img
  | .here, i => i
  | .text t P, i => .text (P.fill i) t
  | .masked m P, i => .masked (P.fill i) m
  | .layer above l below P, i => .group (above ++ { l with image := P.fill i } :: below)

/-- no layer in mode Dissolve is seen anywhere in an image, so that its colours are not up to chance -/
def NeverDissolves (i : Img) : Prop := ∀ p, Img.dissolves i p = 0

/-- `j` is a plain image, not made of layers, that has the bounds, the colour model and the pixels of `i`: what copying `i` pixel by
pixel gives -/
def FlatCopy (i j : Img) : Prop :=
  ∃ l : Leaf, j = .leaf l ∧ i.bounds = some l.bounds ∧ i.colorModel = some l.model ∧
    ∀ ρ p n, (i.at ρ p n).map (·.1) = l.pixel p

/-- nothing that can be asked of the images tells them apart -/
def Indistinguishable (i j : Img) : Prop :=
  i.bounds = j.bounds ∧ i.colorModel = j.colorModel ∧ ∀ ρ p n, i.at ρ p n = j.at ρ p n

end Spec

open Spec

/-! ## C148 -/

theorem names_apart : ∀ m ∈ (List.range 28).map UInt32.ofNat, ∀ m' ∈ (List.range 28).map UInt32.ofNat,
    compositeString m = compositeString m' → m = m' := by decide +kernel

theorem small_mode (m : Mode) (h : m.toNat < 28) : m ∈ (List.range 28).map UInt32.ofNat :=
  List.mem_map.2 ⟨m.toNat, List.mem_range.2 h, by simp⟩

theorem large_normal (draw : UInt16) (m : Mode) (h : 28 ≤ m.toNat) (b t : Color) :
    composite draw m b t = composite draw Mode.normal b t := by
  refine C12_undefined_is_normal draw m (fun hm => ?_) b t
  have : ∀ m ∈ ownArithmetic, m.toNat < 28 := by decide
  exact absurd (this m hm) (by omega)

theorem named_normal (m : Mode) (h : m.toNat < 28) (hs : compositeString m = some "Normal") : m = Mode.normal :=
  names_apart m (small_mode m h) Mode.normal (small_mode _ (by decide)) (hs.trans (by decide +kernel))

theorem C148_names (draw : UInt16) (m m' : Mode) (h : compositeString m = compositeString m') (b t : Color) :
    composite draw m b t = composite draw m' b t := by
  have large : ∀ k : Mode, 28 ≤ k.toNat → compositeString k = some "Normal" := fun k hk => by
    obtain ⟨s, h1, _, h2⟩ := C12_string_total k
    rw [h1, h2 hk]
  rcases Nat.lt_or_ge m.toNat 28 with hm | hm <;> rcases Nat.lt_or_ge m'.toNat 28 with hm' | hm'
  · rw [names_apart m (small_mode m hm) m' (small_mode m' hm') h]
  · rw [named_normal m hm (h.trans (large m' hm')), large_normal draw m' hm']
  · rw [named_normal m' hm' (h.symm.trans (large m hm)), large_normal draw m hm]
  · rw [large_normal draw m hm, large_normal draw m' hm']

example : compositeString 99 = compositeString 0 ∧ compositeString 3 ≠ compositeString 4 := by decide +kernel

/-! ## C149 -/

theorem layersAt_swap (ρ : Nat → UInt16) (cm : Option ColorModel) (above : List Layer) (l : Layer) (below : List Layer) (i j : Img)
    (h : ∀ p n, i.at ρ p n = j.at ρ p n) (p : Pt) (n : Nat) :
    layersAt ρ cm (above ++ { l with image := i } :: below) p n = layersAt ρ cm (above ++ { l with image := j } :: below) p n := by
  induction above generalizing n with
  | nil =>
    rw [List.nil_append, List.nil_append, layersAt_cons, layersAt_cons]
    refine congrArg _ (funext fun x => ?_)
    obtain ⟨c, n⟩ := x
    dsimp only
    simp only [drawLayer, layerAt, h]
  | cons a g ih => rw [List.cons_append, List.cons_append, layersAt_cons, layersAt_cons, ih]

theorem fill_same (P : Spot) (i j : Img) (h : Indistinguishable i j) : Indistinguishable (P.fill i) (P.fill j) := by
  induction P with
  | here => exact h
  | text t P ih =>
    obtain ⟨h1, h2, h3⟩ := ih
    refine ⟨?_, ?_, fun ρ p n => ?_⟩
    · simpa only [Spot.fill, Img.bounds] using h1
    · simpa only [Spot.fill, Img.colorModel] using h2
    · rw [Spot.fill, Spot.fill, at_text, at_text, h3]
  | masked m P ih =>
    obtain ⟨h1, h2, h3⟩ := ih
    refine ⟨?_, ?_, fun ρ p n => ?_⟩
    · simpa only [Spot.fill, Img.bounds] using h1
    · simpa only [Spot.fill, Img.colorModel] using h2
    · rw [Spot.fill, Spot.fill, Img.at, Img.at, h3]
  | layer above l below P ih =>
    obtain ⟨h1, h2, h3⟩ := ih
    have hm : groupModel (above ++ { l with image := P.fill i } :: below) = groupModel (above ++ { l with image := P.fill j } :: below) := by
      cases above with
      | nil => rw [List.nil_append, List.nil_append, groupModel_cons, groupModel_cons]; exact h2
      | cons a g => rw [List.cons_append, List.cons_append, groupModel_cons, groupModel_cons]
    refine ⟨?_, ?_, fun ρ p n => ?_⟩
    · simp only [Spot.fill, Img.bounds, groupBounds, List.foldl_append, List.foldl_cons]
    · rw [Spot.fill, Spot.fill, Img.colorModel, Img.colorModel, hm]
    · rw [Spot.fill, Spot.fill, at_group, at_group, hm]
      exact layersAt_swap ρ _ above l below _ _ (fun p n => h3 ρ p n) p n

theorem C149_flatten (P : Spot) (i j : Img) (hd : NeverDissolves i) (h : FlatCopy i j) :
    Indistinguishable (P.fill i) (P.fill j) := by
  refine fill_same P i j ?_
  obtain ⟨l, rfl, hb, hm, hp⟩ := h
  refine ⟨by rw [hb, Img.bounds], by rw [hm, Img.colorModel], fun ρ p n => ?_⟩
  rw [Img.at, ← hp ρ p n]
  rcases C96_steady i p (hd p) with h | ⟨c, h⟩
  · rw [h]; rfl
  · rw [h]; rfl

/-- Every image without Dissolve layers, and without missing images, has a flat copy. -/
theorem C149_exists (i : Img) (hd : NeverDissolves i) (hb : i.bounds ≠ none) (hm : i.colorModel ≠ none) : ∃ j, FlatCopy i j := by
  obtain ⟨b, hb⟩ := Option.ne_none_iff_exists'.1 hb
  obtain ⟨m, hm⟩ := Option.ne_none_iff_exists'.1 hm
  refine ⟨_, ⟨b, m, fun p => (i.at (fun _ => 0) p 0).map (·.1)⟩, rfl, hb, hm, fun ρ p n => ?_⟩
  dsimp only
  rcases C96_steady i p (hd p) with h | ⟨c, h⟩
  · rw [h, h]
  · rw [h, h]; rfl

/-- Consequently, a part of a picture can be exchanged for any other that looks the same. -/
theorem C149_exchange (P : Spot) (i j k : Img) (hi : NeverDissolves i) (hj : NeverDissolves j) (h : FlatCopy i k) (h' : FlatCopy j k) :
    Indistinguishable (P.fill i) (P.fill j) := by
  obtain ⟨h1, h2, h3⟩ := C149_flatten P i k hi h
  obtain ⟨h1', h2', h3'⟩ := C149_flatten P j k hj h'
  exact ⟨h1.trans h1'.symm, h2.trans h2'.symm, fun ρ p n => (h3 ρ p n).trans (h3' ρ p n).symm⟩

/-- a group of a half transparent red layer over a blue one -/
def flattened : Img := .group [
  ⟨[], ⟨0, 0, 4, 4⟩, Mode.normal, false, 127, .leaf ⟨⟨0, 0, 4, 4⟩, .other, fun _ => some (.nrgba64 ⟨0xffff, 0, 0, 0xffff⟩)⟩⟩,
  ⟨[], ⟨0, 0, 2, 2⟩, Mode.normal, false, 0, .leaf ⟨⟨0, 0, 2, 2⟩, .other, fun _ => some (.nrgba64 ⟨0, 0, 0xffff, 0xffff⟩)⟩⟩]

theorem flattened_never : NeverDissolves flattened := by
  intro p
  simp [flattened, Img.dissolves, dissolvesAll, Mode.normal, Mode.dissolve]

/-- the group of the example has a flat copy, and in a masked group below any layer it can be exchanged for it -/
example (m : GrayImg) (a l : Layer) : ∃ j, FlatCopy flattened j ∧
    Indistinguishable ((Spot.masked (some m) (.layer [a] l [] .here)).fill flattened)
      ((Spot.masked (some m) (.layer [a] l [] .here)).fill j) := by
  obtain ⟨j, hj⟩ := C149_exists flattened flattened_never (by simp [flattened, Img.bounds])
    (by simp [flattened, Img.colorModel, groupModel])
  exact ⟨j, hj, C149_flatten _ _ _ flattened_never hj⟩

end Limage
