import Verif.Props.Coverage
/-!
# C129: the coverage of a picture grows with the coverage of its parts, and depends on nothing else
-/
namespace Limage

namespace Spec

/-- the colour covers at least as much -/
def CoversMore (c c' : Color) : Prop := c.toNRGBA.a ≤ c'.toNRGBA.a

mutual
/-- the same tree of images, whose parts in the second cover at least as much: pixels have at least the alpha (and any colour), masks let through at least
as much, layers are at most as transparent; places, modes and visibility are the same, and indexed images are where they were -/
def Fainter (i j : Img) : Prop :=
  match i with
  | .leaf L => ∃ L', j = .leaf L' ∧ L.model.isPalette = L'.model.isPalette ∧ ∀ p c, L.pixel p = some c → ∃ c', L'.pixel p = some c' ∧ CoversMore c c'
  | .nil => j = .nil
  | .text i _ => ∃ j' t, j = .text j' t ∧ Fainter i j'
  | .masked i m => ∃ j' m', j = .masked j' m' ∧ Fainter i j' ∧ ∀ k, m = some k → ∃ k', m' = some k' ∧ ∀ p, k.grayAt p ≤ k'.grayAt p
  | .group g => ∃ g', j = .group g' ∧ FainterLayers g g'
termination_by structural i

/-- the same for layers -/
def FainterLayers (g g' : List Layer) : Prop :=
  match g with
  | [] => g' = []
  | ⟨_, b, mode, invisible, tr, im⟩ :: rest =>
    ∃ l' rest', g' = l' :: rest' ∧ l'.bounds = b ∧ l'.mode = mode ∧ l'.invisible = invisible ∧ l'.transparency ≤ tr ∧
      Fainter im l'.image ∧ FainterLayers rest rest'
termination_by structural g
end

end Spec
open Spec

theorem unit_mono {x y : UInt16} (h : x ≤ y) : unit x ≤ unit y := by
  rw [UInt16.le_iff_toNat_le] at h
  unfold unit
  gcongr

theorem unit_range (x : UInt16) : 0 ≤ unit x ∧ unit x ≤ 1 := by
  unfold unit
  refine ⟨by positivity, ?_⟩
  rw [div_le_one (by norm_num)]
  exact_mod_cast u16_le x

theorem normal_mono (d : UInt16) {b b' t t' : Color} (hb : CoversMore b b') (ht : CoversMore t t') :
    ∃ c c', composite d Mode.normal b t = some c ∧ composite d Mode.normal b' t' = some c' ∧ CoversMore c c' := by
  obtain ⟨c, hc, ha⟩ := C02_alpha_union d b t
  obtain ⟨c', hc', ha'⟩ := C02_alpha_union d b' t'
  refine ⟨_, _, hc, hc', ?_⟩
  show c.a ≤ c'.a
  rw [UInt16.le_iff_toNat_le]
  have : (c.a.toNat : ℤ) ≤ c'.a.toNat := by
    rw [ha, ha']
    unfold up
    refine Int.ceil_le_ceil ?_
    have h1 := unit_mono hb
    have h2 := unit_mono ht
    have h3 := unit_range b'.toNRGBA.a
    have h4 := unit_range t.toNRGBA.a
    unfold union
    nlinarith
  omega

/-- in every mode, with the same random number, the coverage grows with both coverages and does not depend on anything else -/
theorem composite_mono (d : UInt16) (m : Mode) {b b' t t' : Color} (hb : CoversMore b b') (ht : CoversMore t t') :
    ∃ c c', composite d m b t = some c ∧ composite d m b' t' = some c' ∧ CoversMore c c' := by
  have keep : (∀ b t, ∃ c, composite d m b t = some c ∧ c.toNRGBA.a = b.toNRGBA.a) →
      ∃ c c', composite d m b t = some c ∧ composite d m b' t' = some c' ∧ CoversMore c c' := by
    intro h
    obtain ⟨c, hc, ha⟩ := h b t
    obtain ⟨c', hc', ha'⟩ := h b' t'
    exact ⟨c, c', hc, hc', by unfold CoversMore; rw [ha, ha']; exact hb⟩
  by_cases hs : m ∈ separable
  · exact keep fun b t => C05_keeps_alpha d m hs b t
  by_cases ho : m ∈ ownArithmetic
  · have all : ∀ m ∈ ownArithmetic, m ∉ separable → m = Mode.dissolve ∨ m = Mode.behind ∨ m = Mode.hue ∨ m = Mode.saturation ∨ m = Mode.value ∨
        m = Mode.luminosity ∨ m = Mode.destinationAtop ∨ m = Mode.color := by decide
    rcases all m ho hs with rfl | rfl | rfl | rfl | rfl | rfl | rfl | rfl
    · have e : ∀ b t, composite d Mode.dissolve b t = some (.nrgba64 (compositeDissolve d b.toNRGBA t.toNRGBA)) := fun _ _ => rfl
      refine ⟨_, _, e b t, e b' t', ?_⟩
      show (compositeDissolve d _ _).a ≤ (compositeDissolve d _ _).a
      have full : ∀ x : UInt16, x ≤ 0xffff := fun x => by rw [UInt16.le_iff_toNat_le]; exact u16_le x
      unfold compositeDissolve
      by_cases h1 : d < b.toNRGBA.a
      · rw [if_pos h1, if_pos (UInt16.lt_of_lt_of_le h1 hb)]
        exact full _
      · rw [if_neg h1]
        split
        · exact full _
        · exact hb
    · have e : ∀ b t, composite d Mode.behind b t = some (.nrgba64 b.toNRGBA) := fun _ _ => rfl
      exact ⟨_, _, e b t, e b' t', hb⟩
    · exact keep fun b t => (C14_alpha d b t).1
    · exact keep fun b t => (C14_alpha d b t).2.1
    · exact keep fun b t => (C14_alpha d b t).2.2.1
    · exact keep fun b t => (C14_alpha d b t).2.2.2.2
    · obtain ⟨c, c', h1, h2, h3⟩ := normal_mono d ht hb
      rw [(C11_as_normal_partial d b t).2.2.2.2, (C11_as_normal_partial d b' t').2.2.2.2]
      exact ⟨c, c', h1, h2, h3⟩
    · obtain ⟨c, hc, ha⟩ := (C14_alpha d b t).2.2.2.1
      obtain ⟨c', hc', ha'⟩ := (C14_alpha d b' t').2.2.2.1
      exact ⟨c, c', hc, hc', by unfold CoversMore; rw [ha, ha']; exact ht⟩
  · rw [C12_undefined_is_normal d m ho, C12_undefined_is_normal d m ho]
    exact normal_mono d hb ht

theorem transparency_mono {c c' : Color} (h : CoversMore c c') {o o' : UInt8} (ho : o ≤ o') : CoversMore (transparency c o) (transparency c' o') := by
  unfold CoversMore at *
  rw [UInt16.le_iff_toNat_le, transparency_alpha, transparency_alpha]
  rw [UInt16.le_iff_toNat_le] at h
  rw [UInt8.le_iff_toNat_le] at ho
  exact Nat.div_le_div_right (Nat.mul_le_mul ho h)

theorem fainter_model : ∀ (i j : Img), Fainter i j → i.colorModel.map ColorModel.isPalette = j.colorModel.map ColorModel.isPalette
  | .leaf L, j, h => by
    rw [Fainter] at h
    obtain ⟨L', rfl, hm, -⟩ := h
    rw [Img.colorModel, Img.colorModel, Option.map_some, Option.map_some, hm]
  | .nil, j, h => by rw [Fainter] at h; rw [h]
  | .text i t, j, h => by
    rw [Fainter] at h
    obtain ⟨j', t', rfl, h⟩ := h
    rw [Img.colorModel, Img.colorModel]
    exact fainter_model i j' h
  | .masked i m, j, h => by
    rw [Fainter] at h
    obtain ⟨j', m', rfl, h, -⟩ := h
    rw [Img.colorModel, Img.colorModel]
    exact fainter_model i j' h
  | .group [], j, h => by
    rw [Fainter] at h
    obtain ⟨g', rfl, h⟩ := h
    rw [FainterLayers] at h
    rw [h]
  | .group (⟨nm, b, mode, inv, tr, im⟩ :: rest), j, h => by
    rw [Fainter] at h
    obtain ⟨g', rfl, h⟩ := h
    rw [FainterLayers] at h
    obtain ⟨l', rest', rfl, -, -, -, -, h, -⟩ := h
    rw [Img.colorModel, Img.colorModel, groupModel_cons, groupModel_cons]
    exact fainter_model im l'.image h

/-- a result that is no less covered, with as many random numbers drawn -/
def Spec.FainterResult (x y : Option (Color × Nat)) : Prop := ∀ c n, x = some (c, n) → ∃ c', y = some (c', n) ∧ CoversMore c c'

theorem draw_mono (ρ : Nat → UInt16) {cm cm' : Option ColorModel} (hcm : cm.map ColorModel.isPalette = cm'.map ColorModel.isPalette) {l l' : Layer}
    (hb : l'.bounds = l.bounds) (hm : l'.mode = l.mode) (hi : l'.invisible = l.invisible) (ht : l'.transparency ≤ l.transparency)
    (him : ∀ p n, FainterResult (l.image.at ρ p n) (l'.image.at ρ p n)) (p : Pt) {c c' : Color} (hc : CoversMore c c') (n : Nat) :
    FainterResult (drawLayer ρ cm l p c n) (drawLayer ρ cm' l' p c' n) := by
  have hss : shows p l' ↔ shows p l := by unfold shows; rw [hb, hi]
  by_cases hs : shows p l
  · rw [drawLayer_shows _ _ hs, drawLayer_shows _ _ (hss.2 hs)]
    intro r k hr
    cases cm with
    | none => cases hr
    | some m =>
    rw [Option.bind_some] at hr
    obtain ⟨⟨t, k1⟩, h1, hr⟩ := Option.bind_eq_some_iff.1 hr
    obtain ⟨⟨u, k2⟩, h2, h3⟩ := Option.bind_eq_some_iff.1 h1
    cases h3
    obtain ⟨u', h4, h5⟩ := him _ _ _ _ h2
    have h6 : CoversMore (transparency u (255 - l.transparency)) (transparency u' (255 - l'.transparency)) := by
      refine transparency_mono h5 ?_
      rw [UInt8.le_iff_toNat_le] at *
      rw [UInt8.toNat_sub_of_le _ _ (by rw [UInt8.le_iff_toNat_le]; exact u8_le _), UInt8.toNat_sub_of_le _ _ (by rw [UInt8.le_iff_toNat_le]; exact u8_le _)]
      omega
    have h7 : layerAt ρ l' p n = some (transparency u' (255 - l'.transparency), k1) := by
      unfold layerAt
      rw [hb, h4]
      rfl
    rw [h7]
    cases cm' with
    | none => cases hcm
    | some m' =>
      rw [Option.map_some, Option.map_some, Option.some.injEq] at hcm
      rw [Option.bind_some, Option.bind_some, hm]
      dsimp only at hr ⊢
      rw [← hcm]
      generalize transparency u (255 - l.transparency) = t at *
      generalize transparency u' (255 - l'.transparency) = t' at *
      by_cases hp : (decide (l.mode ≠ Mode.dissolve) && m.isPalette) = true
      · rw [if_pos hp] at hr ⊢
        have full : ∀ x : UInt16, x ≤ 0xffff := fun x => by rw [UInt16.le_iff_toNat_le]; exact u16_le x
        by_cases ha : t.toNRGBA.a > 0x7fff
        · rw [if_pos ha] at hr
          cases hr
          rw [if_pos (UInt16.lt_of_lt_of_le ha h6)]
          exact ⟨_, rfl, full _⟩
        · rw [if_neg ha] at hr
          cases hr
          split
          · exact ⟨_, rfl, full _⟩
          · exact ⟨_, rfl, hc⟩
      · rw [if_neg hp] at hr ⊢
        by_cases hd : l.mode = Mode.dissolve
        · rw [if_pos hd] at hr ⊢
          obtain ⟨x, x', e1, e2, e3⟩ := composite_mono (ρ k1) l.mode hc h6
          rw [e1] at hr
          cases hr
          exact ⟨x', by rw [e2]; rfl, e3⟩
        · rw [if_neg hd] at hr ⊢
          obtain ⟨x, x', e1, e2, e3⟩ := composite_mono 0 l.mode hc h6
          rw [e1] at hr
          cases hr
          exact ⟨x', by rw [e2]; rfl, e3⟩
  · rw [drawLayer_hidden _ _ hs, drawLayer_hidden _ _ (fun h => hs (hss.1 h))]
    intro r k hr
    cases hr
    exact ⟨_, rfl, hc⟩

mutual
theorem at_mono (ρ : Nat → UInt16) (i : Img) (j : Img) (h : Fainter i j) (p : Pt) (n : Nat) : FainterResult (i.at ρ p n) (j.at ρ p n) := by
  match i with
  | .leaf L =>
    rw [Fainter] at h
    obtain ⟨L', rfl, -, h⟩ := h
    intro c k hc
    rw [Img.at] at hc ⊢
    obtain ⟨x, hx, hc⟩ := Option.map_eq_some_iff.1 hc
    cases hc
    obtain ⟨c', h1, h2⟩ := h p c hx
    exact ⟨c', by rw [h1]; rfl, h2⟩
  | .nil => intro c k hc; rw [Img.at] at hc; cases hc
  | .text i t =>
    rw [Fainter] at h
    obtain ⟨j', t', rfl, h⟩ := h
    rw [Img.at, Img.at]
    exact at_mono ρ i j' h p n
  | .masked i m =>
    rw [Fainter] at h
    obtain ⟨j', m', rfl, h, hm⟩ := h
    intro c k hc
    rw [Img.at] at hc ⊢
    obtain ⟨⟨x, k1⟩, h1, hc⟩ := Option.bind_eq_some_iff.1 hc
    obtain ⟨a, rfl, hc⟩ := Option.bind_eq_some_iff.1 hc
    cases hc
    obtain ⟨a', rfl, ha⟩ := hm a rfl
    obtain ⟨x', h2, h3⟩ := at_mono ρ i j' h p n _ _ h1
    exact ⟨_, by rw [h2]; rfl, transparency_mono h3 (ha p)⟩
  | .group g =>
    have hcm := fainter_model _ _ h
    rw [Fainter] at h
    obtain ⟨g', rfl, h⟩ := h
    rw [Img.colorModel, Img.colorModel] at hcm
    rw [at_group, at_group]
    exact layersAt_mono ρ g g' h _ _ hcm p n
termination_by structural i

theorem layersAt_mono (ρ : Nat → UInt16) (g : List Layer) (g' : List Layer) (h : FainterLayers g g') (cm cm' : Option ColorModel)
    (hcm : cm.map ColorModel.isPalette = cm'.map ColorModel.isPalette) (p : Pt) (n : Nat) :
    FainterResult (layersAt ρ cm g p n) (layersAt ρ cm' g' p n) := by
  match g with
  | [] =>
    rw [FainterLayers] at h
    rw [h, layersAt_nil, layersAt_nil]
    intro c k hc
    cases hc
    exact ⟨_, rfl, UInt16.le_refl _⟩
  | ⟨nm, b, mode, inv, tr, im⟩ :: rest =>
    rw [FainterLayers] at h
    obtain ⟨l', rest', rfl, hb, hm, hi, ht, hf, h⟩ := h
    rw [layersAt_cons, layersAt_cons]
    intro c k hc
    obtain ⟨⟨x, k1⟩, h1, hc⟩ := Option.bind_eq_some_iff.1 hc
    obtain ⟨x', h2, h3⟩ := layersAt_mono ρ rest rest' h cm cm' hcm p n _ _ h1
    rw [h2, Option.bind_some]
    exact draw_mono ρ (l := ⟨nm, b, mode, inv, tr, im⟩) hcm hb hm hi ht (fun q m => at_mono ρ im l'.image hf q m) p h3 k1 c k hc
termination_by structural g
end

/-- **C129**: if the parts of a picture - pixels, masks, opacities of layers at any depth - cover at least as much, every pixel does, in all modes, whatever
the colours; as many random numbers are drawn. -/
theorem C129_grows (ρ : Nat → UInt16) (i j : Img) (h : Fainter i j) (p : Pt) (n : Nat) (c : Color) (k : Nat) (hc : i.at ρ p n = some (c, k)) :
    ∃ c', j.at ρ p n = some (c', k) ∧ c.toNRGBA.a ≤ c'.toNRGBA.a := at_mono ρ i j h p n c k hc

-- a faint layer and a less faint one with a more opaque colour
example : Fainter (.group [⟨[], ⟨0, 0, 4, 4⟩, Mode.multiply, false, 200, plainLeaf (.nrgba 1 2 3 40) .other⟩])
    (.group [⟨[], ⟨0, 0, 4, 4⟩, Mode.multiply, false, 9, plainLeaf (.gray 77) .other⟩]) := by
  rw [Fainter]
  refine ⟨_, rfl, ?_⟩
  rw [FainterLayers]
  refine ⟨_, _, rfl, rfl, rfl, rfl, by decide, ?_, by rw [FainterLayers]⟩
  show Fainter (.leaf _) (.leaf _)
  rw [Fainter]
  exact ⟨_, rfl, rfl, fun p c hc => by cases hc; exact ⟨_, rfl, by unfold CoversMore; decide⟩⟩

/-- **C129**: the coverage of a pixel depends on nothing but the coverage of the parts of the picture. -/
theorem C129_only (ρ : Nat → UInt16) (i j : Img) (h : Fainter i j) (h' : Fainter j i) (p : Pt) (n : Nat) (c : Color) (k : Nat)
    (hc : i.at ρ p n = some (c, k)) : ∃ c', j.at ρ p n = some (c', k) ∧ c'.toNRGBA.a = c.toNRGBA.a := by
  obtain ⟨c', h1, h2⟩ := at_mono ρ i j h p n c k hc
  obtain ⟨c'', h3, h4⟩ := at_mono ρ j i h' p n c' k h1
  rw [hc] at h3
  cases h3
  exact ⟨c', h1, UInt16.le_antisymm h4 h2⟩

-- pictures with the same coverage and other colours
example : Fainter (.group [⟨[], ⟨0, 0, 4, 4⟩, Mode.color, false, 9, plainLeaf (.lrgb 1 2 3) .other⟩])
      (.group [⟨[], ⟨0, 0, 4, 4⟩, Mode.color, false, 9, plainLeaf (.gray 77) .other⟩]) ∧
    Fainter (.group [⟨[], ⟨0, 0, 4, 4⟩, Mode.color, false, 9, plainLeaf (.gray 77) .other⟩])
      (.group [⟨[], ⟨0, 0, 4, 4⟩, Mode.color, false, 9, plainLeaf (.lrgb 1 2 3) .other⟩]) := by
  have key : ∀ a b : Color, CoversMore a b → Fainter (.group [⟨[], ⟨0, 0, 4, 4⟩, Mode.color, false, 9, plainLeaf a .other⟩])
      (.group [⟨[], ⟨0, 0, 4, 4⟩, Mode.color, false, 9, plainLeaf b .other⟩]) := by
    intro a b h
    rw [Fainter]
    refine ⟨_, rfl, ?_⟩
    rw [FainterLayers]
    refine ⟨_, _, rfl, rfl, rfl, rfl, UInt8.le_refl _, ?_, by rw [FainterLayers]⟩
    show Fainter (.leaf _) (.leaf _)
    rw [Fainter]
    exact ⟨_, rfl, rfl, fun p c hc => by cases hc; exact ⟨b, rfl, h⟩⟩
  exact ⟨key _ _ (by unfold CoversMore; decide), key _ _ (by unfold CoversMore; decide)⟩

mutual
theorem fainter_refl (i : Img) : Fainter i i := by
  match i with
  | .leaf L => rw [Fainter]; exact ⟨L, rfl, rfl, fun p c h => ⟨c, h, UInt16.le_refl _⟩⟩
  | .nil => rw [Fainter]
  | .text i t => rw [Fainter]; exact ⟨i, t, rfl, fainter_refl i⟩
  | .masked i m => rw [Fainter]; exact ⟨i, m, rfl, fainter_refl i, fun k h => ⟨k, h, fun _ => UInt8.le_refl _⟩⟩
  | .group g => rw [Fainter]; exact ⟨g, rfl, fainterLayers_refl g⟩
termination_by structural i

theorem fainterLayers_refl (g : List Layer) : FainterLayers g g := by
  match g with
  | [] => rw [FainterLayers]
  | ⟨nm, b, mode, inv, tr, im⟩ :: rest =>
    rw [FainterLayers]
    exact ⟨_, _, rfl, rfl, rfl, rfl, UInt8.le_refl _, fainter_refl im, fainterLayers_refl rest⟩
termination_by structural g
end

theorem fainterLayers_append : ∀ (u : List Layer) {g g' : List Layer}, FainterLayers g g' → FainterLayers (u ++ g) (u ++ g')
  | [], _, _, h => h
  | ⟨nm, b, mode, inv, tr, im⟩ :: u, g, g', h => by
    rw [List.cons_append, List.cons_append, FainterLayers]
    exact ⟨_, _, rfl, rfl, rfl, rfl, UInt8.le_refl _, fainter_refl im, fainterLayers_append u h⟩

/-- **C129**: raising the opacity of one layer, in any mode and under any layers, lowers the coverage of no pixel. -/
theorem C129_opacity (ρ : Nat → UInt16) (upper lower : List Layer) (l : Layer) (tr : UInt8) (ht : tr ≤ l.transparency) (p : Pt) (n : Nat) (c : Color) (k : Nat)
    (hc : (Img.group (upper ++ l :: lower)).at ρ p n = some (c, k)) :
    ∃ c', (Img.group (upper ++ { l with transparency := tr } :: lower)).at ρ p n = some (c', k) ∧ c.toNRGBA.a ≤ c'.toNRGBA.a := by
  refine C129_grows ρ _ _ ?_ p n c k hc
  rw [Fainter]
  refine ⟨_, rfl, fainterLayers_append upper ?_⟩
  obtain ⟨nm, b, mode, inv, t, im⟩ := l
  rw [FainterLayers]
  exact ⟨_, _, rfl, rfl, rfl, rfl, ht, fainter_refl im, fainterLayers_refl lower⟩

-- a Dissolve, a Normal and a Difference layer over a faint one, which becomes less faint
example : ∃ c k, (Img.group (mixedStack ++ ⟨[], ⟨0, 0, 4, 4⟩, Mode.normal, false, 191, plainLeaf (.lrgb 1 2 3) .other⟩ :: [])).at (fun _ => 3) ⟨1, 1⟩ 0 = some (c, k) :=
  ⟨_, _, by cbv⟩

end Limage
