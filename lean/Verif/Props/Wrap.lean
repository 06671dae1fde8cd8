import Verif.Props.Clear
/-!
# C126: putting a single layer into a group that takes over its mode and opacity
-/
namespace Limage

namespace Spec

/-- Dissolve, Saturation, Value and Luminosity -/
def unveiling : List UInt32 := [1, 12, 14, 22]

/-- the layer in a group of its own: the group has the place, the mode, the opacity and the visibility of the layer, which is
opaque, visible and in mode Normal inside -/
def wrapped (l : Layer) : Layer :=
  { l with image := .group [⟨l.name, ⟨0, 0, l.bounds.dx, l.bounds.dy⟩, Mode.normal, false, 0, l.image⟩] }

end Spec
open Spec

/-- colours that look the same on top, not both fully transparent: the same result -/
theorem composite_top_eq (d : UInt16) (m : Mode) (b : Color) {t t' : Color} (h : t.toNRGBA = t'.toNRGBA) :
    composite d m b t = composite d m b t' := by
  unfold composite
  rw [h]

theorem transparency_looks {t t' : Color} (h : Looks t t') (o : UInt8) : Looks (transparency t o) (transparency t' o) := by
  unfold transparency
  by_cases h1 : o = 0xff
  · rw [if_pos h1, if_pos h1]; exact h
  · rw [if_neg h1, if_neg h1]
    by_cases h2 : o = 0
    · rw [if_pos h2, if_pos h2]; exact .inl rfl
    · rw [if_neg h2, if_neg h2]
      rcases h with h | ⟨h3, h4⟩
      · exact .inl (by rw [h])
      · refine .inr ⟨?_, ?_⟩
        · show ((o.toUInt32 ||| o.toUInt32 <<< 8) * t.toNRGBA.a.toUInt32 / 0xffff).toUInt16 = 0
          rw [h3]; simp
        · show ((o.toUInt32 ||| o.toUInt32 <<< 8) * t'.toNRGBA.a.toUInt32 / 0xffff).toUInt16 = 0
          rw [h4]; simp

/-- what the group shows is what the image of the layer shows -/
theorem wrapped_image (ρ : Nat → UInt16) (l : Layer) (ci : ColorModel) (hci : l.image.colorModel = some ci) (hnp : ci.isPalette = false)
    (p : Pt) (hs : shows p l) (n : Nat) :
    SameOutcome (l.image.at ρ ⟨p.x - l.bounds.x0, p.y - l.bounds.y0⟩ n)
      ((wrapped l).image.at ρ ⟨p.x - l.bounds.x0, p.y - l.bounds.y0⟩ n) := by
  have hin : shows ⟨p.x - l.bounds.x0, p.y - l.bounds.y0⟩
      ⟨l.name, ⟨0, 0, l.bounds.dx, l.bounds.dy⟩, Mode.normal, false, 0, l.image⟩ := by
    obtain ⟨-, h1, h2, h3, h4⟩ := hs
    refine ⟨rfl, ?_⟩
    simp only [inRect, Rect.dx, Rect.dy] at *
    omega
  show SameOutcome _ (Img.at ρ (.group [_]) _ n)
  rw [at_group, layersAt_cons, layersAt_nil, Option.bind_some, groupModel_cons]
  dsimp only
  rw [hci, drawLayer_shows _ _ hin, Option.bind_some]
  have hat : layerAt ρ ⟨l.name, ⟨0, 0, l.bounds.dx, l.bounds.dy⟩, Mode.normal, false, 0, l.image⟩ ⟨p.x - l.bounds.x0, p.y - l.bounds.y0⟩ n =
      l.image.at ρ ⟨p.x - l.bounds.x0, p.y - l.bounds.y0⟩ n := by
    unfold layerAt
    dsimp only
    rw [Int.sub_zero, Int.sub_zero]
    cases l.image.at ρ ⟨p.x - l.bounds.x0, p.y - l.bounds.y0⟩ n with
    | none => rfl
    | some x => rfl
  rw [hat]
  cases l.image.at ρ ⟨p.x - l.bounds.x0, p.y - l.bounds.y0⟩ n with
  | none => trivial
  | some x =>
  obtain ⟨t, k⟩ := x
  rw [Option.bind_some]
  dsimp only
  rw [hnp, Bool.and_false, if_neg (by decide), if_neg (by decide)]
  obtain ⟨c, h1, h2⟩ := normal_clear 0 (b := .alpha 0) t (by decide)
  rw [h1]
  exact ⟨rfl, h2⟩

theorem wrapped_at (ρ : Nat → UInt16) (l : Layer) (ci : ColorModel) (hci : l.image.colorModel = some ci) (hnp : ci.isPalette = false)
    (p : Pt) (hs : shows p l) (n : Nat) : SameOutcome (layerAt ρ l p n) (layerAt ρ (wrapped l) p n) := by
  have h := wrapped_image ρ l ci hci hnp p hs n
  unfold layerAt
  show SameOutcome _ (((wrapped l).image.at ρ ⟨p.x - l.bounds.x0, p.y - l.bounds.y0⟩ n).bind _)
  show SameOutcome ((l.image.at ρ ⟨p.x - l.bounds.x0, p.y - l.bounds.y0⟩ n).bind _) _
  generalize l.image.at ρ ⟨p.x - l.bounds.x0, p.y - l.bounds.y0⟩ n = x at *
  generalize (wrapped l).image.at ρ ⟨p.x - l.bounds.x0, p.y - l.bounds.y0⟩ n = y at *
  match x, y, h with
  | none, none, _ => trivial
  | some (t, k), some (t', k'), ⟨hk, h⟩ => exact ⟨hk, transparency_looks h _⟩

theorem wrapped_model (l : Layer) : (wrapped l).image.colorModel = l.image.colorModel := by
  show (Img.group [_]).colorModel = _
  rw [Img.colorModel, groupModel_cons]

theorem wrapped_models (upper lower : List Layer) (l : Layer) : groupModel (upper ++ wrapped l :: lower) = groupModel (upper ++ l :: lower) :=
  groupModel_append upper (by rw [groupModel_cons, groupModel_cons, wrapped_model])

/-- in the other modes the colour of a fully transparent pixel on top does not matter -/
theorem clear_top_same (d : UInt16) (m : Mode) (hm : m ∉ sensitive) (b : Color) {t t' : Color} (ht : t.toNRGBA.a = 0) (ht' : t'.toNRGBA.a = 0) :
    composite d m b t = composite d m b t' := by
  by_cases hs : m ∈ separable
  · by_cases hb : b.toNRGBA.a = 0
    · rw [C05_transparent_bottom d m hs b t hb, C05_transparent_bottom d m hs b t' hb]
    · rw [C05_transparent_top d m hs b t ht hb, C05_transparent_top d m hs b t' ht' hb]
  by_cases ho : m ∈ ownArithmetic
  · have all : ∀ m ∈ ownArithmetic, m ∉ separable → m ∉ sensitive → m = Mode.behind ∨ m = Mode.hue ∨ m = Mode.destinationAtop := by decide
    have z : ∀ x : UInt32, x.toNat = 0 → x = 0 := fun x h => UInt32.toNat_inj.1 (by simpa using h)
    have hue : ∀ t : Color, t.toNRGBA.a = 0 → compositeHue b.toNRGBA t.toNRGBA = some (.nrgba64 b.toNRGBA) := by
      intro t ht
      have h0 : t.toNRGBA.a.toNat = 0 := by rw [ht]; rfl
      unfold compositeHue
      dsimp only
      rw [if_pos]
      have hr : t.toNRGBA.rgba.r = 0 := z _ (by rw [NRGBA64.rgba_r, h0, Nat.mul_zero, Nat.zero_div])
      have hg : t.toNRGBA.rgba.g = 0 := z _ (by rw [NRGBA64.rgba_g, h0, Nat.mul_zero, Nat.zero_div])
      have hb : t.toNRGBA.rgba.b = 0 := z _ (by rw [NRGBA64.rgba_b, h0, Nat.mul_zero, Nat.zero_div])
      rw [hr, hg, hb]
      exact ⟨rfl, rfl⟩
    have atop : ∀ t : Color, t.toNRGBA.a = 0 →
        composite d Mode.destinationAtop b t = if b.toNRGBA.a = 0 then some (.nrgba64 ⟨0, 0, 0, 0⟩) else some (.nrgba64 b.toNRGBA) := by
      intro t ht
      have e : composite d Mode.destinationAtop b t = composite d Mode.normal t b := (C11_as_normal_partial d b t).2.2.2.2
      rw [e]
      by_cases hb : b.toNRGBA.a = 0
      · rw [if_pos hb]; exact C01_both_transparent d t b hb ht
      · rw [if_neg hb]
        obtain ⟨c, hc, h⟩ := normal_clear d b ht
        rw [hc]
        rw [composite_normal] at hc
        obtain ⟨x, -, hx⟩ := Option.map_eq_some_iff.1 hc
        subst hx
        rcases h with h | ⟨h, -⟩
        · rw [h]; rfl
        · exact absurd h hb
    rcases all m ho hs hm with rfl | rfl | rfl
    · have e : ∀ t, composite d Mode.behind b t = some (.nrgba64 b.toNRGBA) := fun _ => rfl
      rw [e, e]
    · have e : ∀ t, composite d Mode.hue b t = compositeHue b.toNRGBA t.toNRGBA := fun _ => rfl
      rw [e, e, hue t ht, hue t' ht']
    · rw [atop t ht, atop t' ht']
  · rw [C12_undefined_is_normal d m ho, C12_undefined_is_normal d m ho]
    by_cases hb : b.toNRGBA.a = 0
    · rw [C01_both_transparent d b t ht hb, C01_both_transparent d b t' ht' hb]
    · rw [C01_transparent_top d b t ht hb, C01_transparent_top d b t' ht' hb]

/-- one layer drawn, and its group drawn instead -/
theorem drawLayer_wrapped (ρ : Nat → UInt16) (cm : Option ColorModel) (l : Layer) (ci : ColorModel) (hci : l.image.colorModel = some ci)
    (hnp : ci.isPalette = false) (p : Pt) (c : Color) (n : Nat)
    (hm : l.mode ∉ sensitive ∨ ∀ t k, layerAt ρ l p n = some (t, k) → t.toNRGBA.a ≠ 0) :
    drawLayer ρ cm (wrapped l) p c n = drawLayer ρ cm l p c n := by
  by_cases hs : shows p l
  · have hs' : shows p (wrapped l) := hs
    have h := wrapped_at ρ l ci hci hnp p hs n
    rw [drawLayer_shows _ _ hs, drawLayer_shows _ _ hs']
    show (cm.bind fun cm => (layerAt ρ (wrapped l) p n).bind fun (t, n) =>
      if l.mode ≠ Mode.dissolve && cm.isPalette then
        if t.toNRGBA.a > 0x7fff then some (.nrgba64 { t.toNRGBA with a := 0xffff }, n) else some (c, n)
      else if l.mode = Mode.dissolve then (composite (ρ n) l.mode c t).map fun c => (c, n + 1)
      else (composite 0 l.mode c t).map fun c => (c, n)) = _
    cases cm with
    | none => rfl
    | some cm =>
    rw [Option.bind_some, Option.bind_some]
    generalize layerAt ρ l p n = x at *
    generalize layerAt ρ (wrapped l) p n = y at *
    match x, y, h with
    | none, none, _ => rfl
    | some (t, k), some (t', k'), ⟨hk, h⟩ =>
      subst hk
      rw [Option.bind_some, Option.bind_some]
      dsimp only
      rcases h with h | ⟨h1, h2⟩
      · rw [h]
        have e := fun d => composite_top_eq d l.mode c h
        rw [e, e]
      · have hm := hm.resolve_right fun hne => hne t k rfl h1
        have e := fun d => clear_top_same d l.mode hm c h2 h1
        rw [h1, h2, e, e]
        rfl
  · have hs' : ¬shows p (wrapped l) := hs
    rw [drawLayer_hidden _ _ hs, drawLayer_hidden _ _ hs']

theorem layersAt_same (ρ : Nat → UInt16) (cm : Option ColorModel) (h h' : List Layer) (p : Pt) (n : Nat)
    (hl : layersAt ρ cm h' p n = layersAt ρ cm h p n) : ∀ g : List Layer, layersAt ρ cm (g ++ h') p n = layersAt ρ cm (g ++ h) p n
  | [] => hl
  | l :: g => by
    rw [List.cons_append, List.cons_append, layersAt_cons, layersAt_cons, layersAt_same ρ cm h h' p n hl g]

/-- Full statement: putting one layer (whose image is not indexed) into a group of its own that takes over its mode, opacity, place and visibility
changes no pixel.  What is missing are points where the layer's pixel is fully transparent, if its mode is one of the `sensitive` ones
(`C126_refuted`, `C126_color_refuted`). -/
theorem C126_partial (ρ : Nat → UInt16) (upper lower : List Layer) (l : Layer) (ci : ColorModel) (hci : l.image.colorModel = some ci)
    (hnp : ci.isPalette = false) (p : Pt) (n : Nat)
    (hm : l.mode ∉ sensitive ∨ ∀ k t k', layerAt ρ l p k = some (t, k') → t.toNRGBA.a ≠ 0) :
    Img.at ρ (.group (upper ++ wrapped l :: lower)) p n = Img.at ρ (.group (upper ++ l :: lower)) p n := by
  rw [at_group, at_group, wrapped_models]
  refine layersAt_same ρ _ _ _ p n ?_ upper
  rw [layersAt_cons, layersAt_cons]
  cases layersAt ρ (groupModel (upper ++ l :: lower)) lower p n with
  | none => rfl
  | some x => exact drawLayer_wrapped ρ _ l ci hci hnp p x.1 x.2 (hm.imp_right fun h => h x.2)

theorem sameOutcome_reds {x y : Option (Color × Nat)} {a : UInt16} (hx : (redAlpha x).map Prod.snd = some a) (ha : a ≠ 0)
    (h : SameOutcome x y) : (redAlpha x).map Prod.fst = (redAlpha y).map Prod.fst := by
  match x, y, h with
  | some (c, n), some (c', n'), h =>
    have hx : some c.toNRGBA.a = some a := hx
    cases hx
    show some c.toNRGBA.r = some c'.toNRGBA.r
    rcases h.2 with h | h
    · rw [h]
    · exact absurd h.1 ha
  | none, none, _ => rfl

-- a half transparent layer in mode Value, and any in mode Hue
example : (pixelLayer (.nrgba 1 2 3 128) .other Mode.value).image.colorModel = some .other ∧ Mode.hue ∉ sensitive ∧
    ∀ k t k', layerAt (fun _ => 5) (pixelLayer (.nrgba 1 2 3 128) .other Mode.value) ⟨0, 0⟩ k = some (t, k') → t.toNRGBA.a ≠ 0 := by
  refine ⟨rfl, by decide, ?_⟩
  · intro k t k' h
    have h : some (Color.nrgba 1 2 3 128, k) = some (t, k') := by rw [← h]; unfold layerAt pixelLayer; dsimp only; rw [Img.at]; rfl
    cases h
    decide

/-- C126 is false for each of the four modes where the layer's pixel is fully transparent and not black. -/
theorem C126_refuted : ∀ m ∈ unveiling, ¬SameOutcome
    (Img.at (fun _ => 0) (.group ([] ++ pixelLayer (.nrgba64 ⟨65535, 700, 80, 0⟩) .other m :: [pixelLayer (.nrgba 40 200 10 255) .other Mode.normal])) ⟨0, 0⟩ 0)
    (Img.at (fun _ => 0) (.group ([] ++ wrapped (pixelLayer (.nrgba64 ⟨65535, 700, 80, 0⟩) .other m) :: [pixelLayer (.nrgba 40 200 10 255) .other Mode.normal])) ⟨0, 0⟩ 0) := by
  intro m hm h
  have h1 : ∀ m ∈ unveiling, (redAlpha (Img.at (fun _ => 0)
      (.group ([] ++ pixelLayer (.nrgba64 ⟨65535, 700, 80, 0⟩) .other m :: [pixelLayer (.nrgba 40 200 10 255) .other Mode.normal])) ⟨0, 0⟩ 0)).map Prod.snd =
        some 65535 := by
    decide +kernel
  have h2 : ∀ m ∈ unveiling, (redAlpha (Img.at (fun _ => 0)
      (.group ([] ++ pixelLayer (.nrgba64 ⟨65535, 700, 80, 0⟩) .other m :: [pixelLayer (.nrgba 40 200 10 255) .other Mode.normal])) ⟨0, 0⟩ 0)).map Prod.fst ≠
      (redAlpha (Img.at (fun _ => 0)
        (.group ([] ++ wrapped (pixelLayer (.nrgba64 ⟨65535, 700, 80, 0⟩) .other m) :: [pixelLayer (.nrgba 40 200 10 255) .other Mode.normal])) ⟨0, 0⟩ 0)).map Prod.fst := by
    decide +kernel
  exact h2 m hm (sameOutcome_reds (h1 m hm) (by decide) h)

/-- C126 is false for layers in mode Color under another such layer: where the layer's pixel is fully transparent so is the result, but of another
colour, of which the layer above takes the lightness. -/
theorem C126_color_refuted : ¬SameOutcome
    (Img.at (fun _ => 0) (.group ([pixelLayer (.nrgba 255 0 0 255) .other Mode.color] ++
      pixelLayer (.nrgba64 ⟨65535, 700, 80, 0⟩) .other Mode.color :: [pixelLayer (.gray 128) .other Mode.value])) ⟨0, 0⟩ 0)
    (Img.at (fun _ => 0) (.group ([pixelLayer (.nrgba 255 0 0 255) .other Mode.color] ++
      wrapped (pixelLayer (.nrgba64 ⟨65535, 700, 80, 0⟩) .other Mode.color) :: [pixelLayer (.gray 128) .other Mode.value])) ⟨0, 0⟩ 0) := by
  intro h
  have := sameOutcome_red (r := 33247) (a := 65535) (r' := 33087) (a' := 65535) (by decide +kernel) (by decide +kernel) (by decide) h
  revert this
  decide

end Limage
