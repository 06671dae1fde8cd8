import Verif.Props.Grouping
import Verif.Props.Color
/-!
# C104: where a layer is fully transparent it does not show
-/
namespace Limage

namespace Spec

/-- the modes in which fully transparent pixels of a layer change what is below (Dissolve, Saturation, Color, Value, Luminosity) -/
def sensitive : List UInt32 := [1, 12, 13, 14, 22]

/-- the same layer, hidden -/
def hidden (l : Layer) : Layer := { l with invisible := true }

end Spec
open Spec

/-- a fully transparent colour on top leaves what is below -/
theorem clear_top (d : UInt16) (m : Mode) (hm : m ∉ sensitive) (b t : Color) (ht : t.toNRGBA.a = 0) :
    ∃ c, composite d m b t = some c ∧ Looks c b := by
  by_cases hs : m ∈ separable
  · by_cases hb : b.toNRGBA.a = 0
    · exact ⟨_, C05_transparent_bottom d m hs b t hb, .inr ⟨by decide, hb⟩⟩
    · exact ⟨_, C05_transparent_top d m hs b t ht hb, .inl rfl⟩
  by_cases ho : m ∈ ownArithmetic
  · have all : ∀ m ∈ ownArithmetic, m ∉ separable → m ∉ sensitive → m = Mode.behind ∨ m = Mode.hue ∨ m = Mode.destinationAtop := by decide
    rcases all m ho hs hm with rfl | rfl | rfl
    · exact ⟨_, rfl, .inl rfl⟩
    · refine ⟨.nrgba64 b.toNRGBA, ?_, .inl rfl⟩
      show compositeHue _ _ = _
      have z : ∀ x : UInt32, x.toNat = 0 → x = 0 := fun x h => UInt32.toNat_inj.1 (by simpa using h)
      have h0 : t.toNRGBA.a.toNat = 0 := by rw [ht]; rfl
      unfold compositeHue
      dsimp only
      rw [if_pos]
      have hr : t.toNRGBA.rgba.r = 0 := z _ (by rw [NRGBA64.rgba_r, h0, Nat.mul_zero, Nat.zero_div])
      have hg : t.toNRGBA.rgba.g = 0 := z _ (by rw [NRGBA64.rgba_g, h0, Nat.mul_zero, Nat.zero_div])
      have hb : t.toNRGBA.rgba.b = 0 := z _ (by rw [NRGBA64.rgba_b, h0, Nat.mul_zero, Nat.zero_div])
      rw [hr, hg, hb]
      exact ⟨rfl, rfl⟩
    · obtain ⟨c, hc, h⟩ := normal_clear d b ht
      rw [composite_normal] at hc
      exact ⟨c, hc, looks_symm h⟩
  · rw [C12_undefined_is_normal d m ho]
    by_cases hb : b.toNRGBA.a = 0
    · exact ⟨_, C01_both_transparent d b t ht hb, .inr ⟨rfl, hb⟩⟩
    · exact ⟨_, C01_transparent_top d b t ht hb, .inl rfl⟩

/-- **C104**: at a point where the pixel of a layer is fully transparent the picture looks as if the layer were hidden: any layers
above (none in mode Color showing there) and below, pictures with and without a palette, layers in every mode that is not `sensitive`. -/
theorem C104_pixel_partial (ρ : Nat → UInt16) (upper lower : List Layer) (l : Layer) (p : Pt) (n : Nat)
    (hm : l.mode ∉ sensitive) (hpix : ∀ n, ∃ t, layerAt ρ l p n = some (t, n) ∧ t.toNRGBA.a = 0)
    (hup : ∀ u ∈ upper, shows p u → u.mode ≠ Mode.color) (cm : ColorModel) (hcm : groupModel (upper ++ l :: lower) = some cm) :
    SameOutcome (Img.at ρ (.group (upper ++ l :: lower)) p n) (Img.at ρ (.group (upper ++ hidden l :: lower)) p n) := by
  have hcm' : groupModel (upper ++ hidden l :: lower) = some cm := by
    rw [← hcm]
    exact groupModel_append upper (by rw [groupModel_cons, groupModel_cons]; rfl)
  rw [at_group, at_group, hcm, hcm']
  refine layersAt_looks ρ _ _ _ p n ?_ upper hup
  rw [layersAt_cons, layersAt_cons]
  cases layersAt ρ (some cm) lower p n with
  | none => trivial
  | some x =>
  obtain ⟨c, k⟩ := x
  rw [Option.bind_some, Option.bind_some]
  dsimp only
  rw [drawLayer_hidden (l := hidden l) _ _ (fun h => by cases h.1)]
  by_cases hs : shows p l
  · obtain ⟨t, ht, ha⟩ := hpix k
    have hd : l.mode ≠ Mode.dissolve := fun e => hm (by rw [e]; decide)
    rw [drawLayer_shows _ _ hs, Option.bind_some, ht, Option.bind_some]
    dsimp only
    split
    · rw [if_neg (by rw [ha]; decide)]
      exact SameOutcome.refl _
    · obtain ⟨c', hc, hl⟩ := clear_top 0 l.mode hm c t ha
      rw [hc]
      exact ⟨rfl, hl⟩
  · rw [drawLayer_hidden _ _ hs]
    exact SameOutcome.refl _

/-- a layer of opacity zero -/
def clearLayer (m : Mode) : Layer := ⟨[], ⟨0, 0, 4, 4⟩, m, false, 255, plainLeaf (.lrgb 9 8 7) .other⟩

-- a transparent pixel of a layer in mode Hue
example : Mode.hue ∉ sensitive ∧ ∀ n, ∃ t, layerAt (fun _ => 5) (clearLayer Mode.hue) ⟨1, 1⟩ n = some (t, n) ∧ t.toNRGBA.a = 0 :=
  ⟨by decide, fun n => ⟨_, rfl, by decide⟩⟩

/-- **C104**: a layer of opacity zero is as good as a hidden one (wherever its image returns a colour without drawing random numbers). -/
theorem C104_layer_partial (ρ : Nat → UInt16) (upper lower : List Layer) (l : Layer) (p : Pt) (n : Nat)
    (ht : l.transparency = 255) (hm : l.mode ∉ sensitive)
    (hret : ∀ n, ∃ t, l.image.at ρ ⟨p.x - l.bounds.x0, p.y - l.bounds.y0⟩ n = some (t, n))
    (hup : ∀ u ∈ upper, shows p u → u.mode ≠ Mode.color) (cm : ColorModel) (hcm : groupModel (upper ++ l :: lower) = some cm) :
    SameOutcome (Img.at ρ (.group (upper ++ l :: lower)) p n) (Img.at ρ (.group (upper ++ hidden l :: lower)) p n) := by
  refine C104_pixel_partial ρ upper lower l p n hm ?_ hup cm hcm
  intro n
  obtain ⟨t, h⟩ := hret n
  refine ⟨.nrgba64 ⟨0, 0, 0, 0⟩, ?_, rfl⟩
  unfold layerAt
  rw [h, ht]
  show some (transparency t 0, n) = _
  rw [(C20_opacity t 0).2.1 rfl]

-- such a layer in mode Hue among others
example : (clearLayer Mode.hue).mode ∉ sensitive ∧
    (∀ n, ∃ t, (clearLayer Mode.hue).image.at (fun _ => 5) ⟨1, 1⟩ n = some (t, n)) ∧
    (∀ u ∈ mixedStack, shows ⟨1, 1⟩ u → u.mode ≠ Mode.color) ∧ groupModel (mixedStack ++ clearLayer Mode.hue :: faintLayer) = some .other := by
  refine ⟨by decide, fun n => ⟨.lrgb 9 8 7, ?_⟩, ?_, rfl⟩
  · simp only [clearLayer, plainLeaf]
    rw [Img.at]
    rfl
  · intro u hu _
    simp only [mixedStack, List.mem_cons, List.not_mem_nil, or_false] at hu
    rcases hu with rfl | rfl | rfl <;> decide

/-- C104 is false for each of the five modes: over an opaque layer, a layer of opacity zero changes the picture. -/
theorem C104_refuted : ∀ m ∈ sensitive, ¬SameOutcome
    (Img.at (fun _ => 0) (.group ([] ++ clearLayer m :: [pixelLayer (.nrgba 40 200 10 255) .other Mode.normal])) ⟨0, 0⟩ 0)
    (Img.at (fun _ => 0) (.group ([] ++ hidden (clearLayer m) :: [pixelLayer (.nrgba 40 200 10 255) .other Mode.normal])) ⟨0, 0⟩ 0) := by
  intro m hm h
  have h2 : ∀ m ∈ sensitive, redAlpha (Img.at (fun _ => 0)
      (.group ([] ++ hidden (clearLayer m) :: [pixelLayer (.nrgba 40 200 10 255) .other Mode.normal])) ⟨0, 0⟩ 0) = some (10280, 65535) := by
    decide +kernel
  have h1 : ∀ m ∈ sensitive, ((redAlpha (Img.at (fun _ => 0)
      (.group ([] ++ clearLayer m :: [pixelLayer (.nrgba 40 200 10 255) .other Mode.normal])) ⟨0, 0⟩ 0)).map Prod.fst).any (· ≠ 10280) := by
    decide +kernel
  have h1 := h1 m hm
  have h2 := h2 m hm
  match hx : Img.at (fun _ => 0) (.group ([] ++ clearLayer m :: [pixelLayer (.nrgba 40 200 10 255) .other Mode.normal])) ⟨0, 0⟩ 0,
    hy : Img.at (fun _ => 0) (.group ([] ++ hidden (clearLayer m) :: [pixelLayer (.nrgba 40 200 10 255) .other Mode.normal])) ⟨0, 0⟩ 0, h with
  | some (c, n), some (c', n'), h =>
    rw [hx] at h1
    rw [hy] at h2
    have h1 : c.toNRGBA.r ≠ 10280 := of_decide_eq_true h1
    have h2 : some (c'.toNRGBA.r, c'.toNRGBA.a) = some ((10280 : UInt16), (65535 : UInt16)) := h2
    injection h2 with h2
    injection h2 with hr ha
    rcases h.2 with e | e
    · exact h1 (by rw [e, hr])
    · exact absurd (ha.symm.trans e.2) (by decide)
  | none, none, _ =>
    rw [hx] at h1
    cases h1

/-- C104 is false under layers in mode Color: a layer of opacity zero in mode Normal makes what is below it transparent black where that is fully
transparent, of which such a layer takes the lightness. -/
theorem C104_color_refuted : ¬SameOutcome
    (Img.at (fun _ => 0) (.group ([pixelLayer (.nrgba 255 0 0 255) .other Mode.color] ++ clearLayer Mode.normal :: [pixelLayer (.gray 128) .other Mode.value])) ⟨0, 0⟩ 0)
    (Img.at (fun _ => 0) (.group ([pixelLayer (.nrgba 255 0 0 255) .other Mode.color] ++ hidden (clearLayer Mode.normal) :: [pixelLayer (.gray 128) .other Mode.value])) ⟨0, 0⟩ 0) := by
  intro h
  have := sameOutcome_red (r := 49149) (a := 65535) (r' := 33087) (a' := 65535) (by decide +kernel) (by decide +kernel) (by decide) h
  revert this
  decide

end Limage
