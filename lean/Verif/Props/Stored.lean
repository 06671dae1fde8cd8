import Verif.Props.Ideal
import Verif.Props.Looks
import Verif.Props.PixelClose
/-!
# C109: how much a picture of Normal layers changes when it is saved and loaded

C86 is about pictures with colours that the file represents exactly.  Here colours are arbitrary; what a file with 8 bits per channel loses
is compared with the picture in exact arithmetic (`Spec.ideal` of C108).
-/
namespace Limage.Spec

mutual
/-- the images of layers start at the origin and are as large as their layers -/
def Rooted (b : Rect) (i : Img) : Prop :=
  match i with
  | .leaf L => L.bounds = ⟨0, 0, b.dx, b.dy⟩
  | .nil => False
  | .text i _ => ∃ L, i = .leaf L ∧ L.bounds = ⟨0, 0, b.dx, b.dy⟩
  | .masked i m => (∃ L, i = .leaf L ∧ L.bounds = ⟨0, 0, b.dx, b.dy⟩) ∧ ∃ m', m = some m' ∧ m'.rect.x0 = 0 ∧ m'.rect.y0 = 0
  | .group g => RootedLayers g
termination_by structural i

/-- the same for all layers of a group -/
def RootedLayers (g : List Layer) : Prop :=
  match g with
  | [] => True
  | ⟨_, b, _, _, _, im⟩ :: rest => Rooted b im ∧ RootedLayers rest
termination_by structural g
end

/-- how far the picture that is read is from exact arithmetic on the one that was written: intensities -/
def storedIntensity (parts levels : Nat) : ℚ := ((parts * (513 + 514 * levels) : Nat) : ℚ)

/-- the same for the coverage -/
def storedCoverage (parts : Nat) : ℚ := ((514 * parts : Nat) : ℚ)

/-- files with RGB pixels -/
def rgbFile (cm : ColorModel) : Prop := cm = .alpha ∨ cm = .other

end Limage.Spec

namespace Limage
open Spec

theorem nrgba_premul (r g b a : UInt8) : Premul (Color.nrgba r g b a).rgba32 := by
  have ch : ∀ x : UInt8, (widen32 x * a.toUInt32 / 0xff).toNat ≤ (widen32 a).toNat := by
    intro x
    have hx := u8_le x
    have ha := u8_le a
    have hw := widen32_nat x
    have hp : x.toNat * a.toNat ≤ 255 * a.toNat := Nat.mul_le_mul_right _ hx
    have hm : (widen32 x * a.toUInt32).toNat = 257 * (x.toNat * a.toNat) := by
      rw [mul32 _ _ (by rw [hw, UInt8.toNat_toUInt32, Nat.mul_assoc]; omega), hw, UInt8.toNat_toUInt32, Nat.mul_assoc]
    rw [UInt32.toNat_div, hm, widen32_nat, show (0xff : UInt32).toNat = 255 from rfl]
    omega
  refine ⟨ch r, ch g, ch b, ?_⟩
  show (widen32 a).toNat ≤ _
  rw [widen32_nat]
  have := u8_le a
  omega

/-- a pixel of an RGB file -/
theorem stored_pixel (wenv : WEnv) {cm : ColorModel} (hcm : rgbFile cm) {c c' : Color} (hv : Premul c.rgba32)
    (h : colorOf (fmtOf wenv cm) ((fmtOf wenv cm).conv c) = some c') : NearLight 513 512 (nrgbaLight c'.toNRGBA) (lightOf c.rgba32) := by
  have hp : cm ≠ .palette [] ∧ cm ≠ .alphaPalette [] := by rcases hcm with rfl | rfl <;> exact ⟨by simp, by simp⟩
  have hn : Nearby c.rgba32 c'.rgba32 := by
    have := pixel_near wenv cm hp c c' h
    rcases hcm with rfl | rfl <;> exact this hv
  have hv' : Premul c'.rgba32 := by
    have : ∃ r g b a, c' = .nrgba r g b a := by
      rcases hcm with rfl | rfl
      all_goals
        have h : some (Color.nrgba (nrgbaModel c).1 (nrgbaModel c).2.1 (nrgbaModel c).2.2.1 (nrgbaModel c).2.2.2) = some c' := h
        exact ⟨_, _, _, _, (Option.some.inj h).symm⟩
    obtain ⟨r, g, b, a, rfl⟩ := this
    exact nrgba_premul r g b a
  obtain ⟨h1, h2, h3, h4⟩ := hn
  have ch : ∀ {m n : Nat}, m ≤ n + 512 ∧ n ≤ m + 512 → |(n : ℚ) / 65535 - (m : ℚ) / 65535| ≤ 512 / 65535 := by
    intro m n h
    have a1 : (m : ℚ) ≤ n + 512 := by exact_mod_cast h.1
    have a2 : (n : ℚ) ≤ m + 512 := by exact_mod_cast h.2
    rw [← sub_div, abs_le]
    constructor
    · rw [← neg_div, div_le_div_iff_of_pos_right (by norm_num)]; linarith
    · rw [div_le_div_iff_of_pos_right (by norm_num)]; linarith
  obtain ⟨l1, l2, l3, l4⟩ := light_close c' hv'
  have tri : ∀ {u v w : ℚ}, |u - v| ≤ 1 / 65535 → |v - w| ≤ 512 / 65535 → |u - w| ≤ 513 / 65535 := by
    intro u v w a b
    rw [show u - w = (u - v) + (v - w) by ring]
    refine (abs_add_le _ _).trans ?_
    linarith
  exact ⟨tri l1 (ch h1), tri l2 (ch h2), tri l3 (ch h3), by rw [l4]; exact ch h4⟩

/-- the image of a layer that is not a group -/
theorem stored_leaf (wenv : WEnv) {cm : ColorModel} (hcm : rgbFile cm) {P : Bytes → TextData → Prop} {l : Layer} {j : Img}
    (hng : ∀ g, l.image ≠ .group g) (hR : Rooted l.bounds l.image) (hS : Smooth l.image) (h : ImgBack (fmtOf wenv cm) P l j) (ρ : Nat → UInt16)
    (p : Pt) (hmem : Rect.mem p ⟨0, 0, l.bounds.dx, l.bounds.dy⟩ = true) (n : Nat) :
    ∃ c, j.at ρ p n = some (c, n) ∧
      NearLight (storedIntensity (parts l.image) (levels l.image)) (storedCoverage (parts l.image)) (nrgbaLight c.toNRGBA) (ideal l.image p) := by
  have hp : cm ≠ .palette [] ∧ cm ≠ .alphaPalette [] := by rcases hcm with rfl | rfl <;> exact ⟨by simp, by simp⟩
  have key : ∀ L L' : Leaf, L.bounds = ⟨0, 0, l.bounds.dx, l.bounds.dy⟩ → Smooth (.leaf L) → PixelsBack (fmtOf wenv cm) (.leaf L) L' →
      ∃ c', L'.pixel p = some c' ∧ NearLight 513 512 (nrgbaLight c'.toNRGBA) (ideal (.leaf L) p) := by
    rintro L L' e1 hs ⟨b, f1, f2, -, -, f5⟩
    have f1 : some L.bounds = some b := f1
    cases f1
    have hdx : (⟨0, 0, L.bounds.dx, L.bounds.dy⟩ : Rect) = L.bounds := by
      rw [e1]
      show (⟨0, 0, l.bounds.dx - 0, l.bounds.dy - 0⟩ : Rect) = _
      rw [Int.sub_zero, Int.sub_zero]
    rw [hdx] at f2
    have hm : Rect.mem p L.bounds = true := by rw [e1]; exact hmem
    obtain ⟨k, k', c, g1, g2⟩ := f5 p (by rw [f2]; exact hm)
    have hq : (⟨L.bounds.x0 + p.x, L.bounds.y0 + p.y⟩ : Pt) = p := by
      rw [e1]
      show (⟨0 + p.x, 0 + p.y⟩ : Pt) = p
      rw [Int.zero_add, Int.zero_add]
    rw [Smooth] at hs
    obtain ⟨c0, hc0, hv⟩ := hs p
    rw [hq, show (Img.leaf L).at (fmtOf wenv cm).ρ p k = (L.pixel p).map fun c => (c, k) by rw [Img.at], hc0] at g1
    have g1 : c0 = c := congrArg Prod.fst (Option.some.inj g1)
    subst g1
    obtain ⟨c', hc'⟩ := colorOf_some wenv cm hp c0
    refine ⟨c', by rw [g2, hc'], ?_⟩
    rw [ideal, hc0]
    exact stored_pixel wenv hcm hv hc'
  have at_leaf : ∀ L : Leaf, (Img.leaf L).at ρ p n = (L.pixel p).map fun c => (c, n) := fun L => by rw [Img.at]
  have one : ∀ {x y : Light}, NearLight 513 512 x y → NearLight (storedIntensity 1 0) (storedCoverage 1) x y := fun h =>
    h.mono (by simp [storedIntensity]) (by norm_num [storedCoverage])
  cases hi : l.image with
  | group g => exact absurd hi (hng g)
  | nil => rw [hi] at hR; exact hR.elim
  | leaf L =>
    rw [hi] at hR hS
    rw [Rooted] at hR
    rcases h.cases with ⟨L', hL, -, rfl⟩ | ⟨L', t, hL, ⟨t', ht⟩, rfl⟩ | ⟨L', m, m', hL, hm, -, rfl⟩
    · rw [hi] at hL
      obtain ⟨c', k1, k2⟩ := key L L' hR hS hL
      refine ⟨c', by rw [at_leaf, k1]; rfl, ?_⟩
      rw [parts, levels]
      exact one k2
    · rw [textOf, hi] at ht; cases ht
    · rw [hi] at hm; cases hm
  | text i t =>
    rw [hi] at hR hS
    rw [Rooted] at hR
    rw [Smooth] at hS
    obtain ⟨L, rfl, hR⟩ := hR
    have hpx : ∀ L', PixelsBack (fmtOf wenv cm) (pixelsOf l.image) L' → PixelsBack (fmtOf wenv cm) (.leaf L) L' := by
      rintro L' ⟨b, f1, f2, f3, f4, f5⟩
      rw [hi] at f1 f5
      have hb : (pixelsOf (.text (.leaf L) t)).bounds = (Img.leaf L).bounds := by unfold pixelsOf; rfl
      have ha : ∀ σ q k, (pixelsOf (.text (.leaf L) t)).at σ q k = (Img.leaf L).at σ q k := fun σ q k => at_text _ _ _ _ _
      rw [hb] at f1
      refine ⟨b, f1, f2, f3, f4, fun q hq => ?_⟩
      obtain ⟨k, k', c, g1, g2⟩ := f5 q hq
      rw [ha] at g1
      exact ⟨k, k', c, g1, g2⟩
    rw [parts, levels, parts, levels, ideal]
    rcases h.cases with ⟨L', hL, -, rfl⟩ | ⟨L', t, hL, -, rfl⟩ | ⟨L', m, m', hL, hm, -, rfl⟩
    · obtain ⟨c', k1, k2⟩ := key L L' hR hS (hpx L' hL)
      exact ⟨c', by rw [at_leaf, k1]; rfl, one k2⟩
    · obtain ⟨c', k1, k2⟩ := key L L' hR hS (hpx L' hL)
      exact ⟨c', by rw [at_text, at_leaf, k1]; rfl, one k2⟩
    · rw [hi] at hm; cases hm
  | masked i mo =>
    rw [hi] at hR hS
    rw [Rooted] at hR
    obtain ⟨⟨L, rfl, hR⟩, m0, rfl, o1, o2⟩ := hR
    rw [Smooth] at hS
    rcases h.cases with ⟨L', hL, hm, rfl⟩ | ⟨L', t, hL, ⟨t', ht⟩, rfl⟩ | ⟨L', m, m', hL, hm, ⟨hr, hgr⟩, rfl⟩
    · rw [hi] at hm; cases hm
    · rw [textOf, hi] at ht; cases ht
    · rw [hi] at hm hL
      have hm : some m0 = some m := hm
      cases hm
      have hrect : m'.rect = m0.rect := by
        rw [hr]
        obtain ⟨⟨x0, y0, x1, y1⟩, px⟩ := m0
        dsimp only at o1 o2 ⊢
        subst o1 o2
        show (⟨0, 0, x1 - 0, y1 - 0⟩ : Rect) = _
        rw [Int.sub_zero, Int.sub_zero]
      have hg : m'.grayAt p = m0.grayAt p := by
        by_cases hp : Rect.mem p m'.rect = true
        · rw [hgr p hp, o1, o2, Int.zero_add, Int.zero_add]
        · unfold GrayImg.grayAt
          rw [if_neg hp, if_neg (by rw [← hrect]; exact hp)]
      obtain ⟨c', k1, k2⟩ := key L L' hR hS hL
      refine ⟨transparency c' (m0.grayAt p), by rw [Img.at, at_leaf, k1, ← hg]; rfl, ?_⟩
      have := (dim_near c' (m0.grayAt p) k2).mono (e' := storedIntensity 2 0) (k' := storedCoverage 2) (by norm_num [storedIntensity])
        (by norm_num [storedCoverage])
      rw [parts, levels, parts, levels, ideal]
      by_cases hm : inRect m0.rect p
      · rw [if_pos hm]
        rw [GrayImg.grayAt, if_pos ((mem_iff ..).2 hm)] at this ⊢
        exact this
      · rw [if_neg hm]
        rw [GrayImg.grayAt, if_neg (fun h => hm ((mem_iff ..).1 h))] at this ⊢
        have hd : dim (((0 : UInt8).toNat : ℚ) / 255) (ideal (.leaf L) p) = dark := by simp [dim, dark]
        rw [hd] at this
        exact this

mutual
theorem stored_img (wenv : WEnv) {cm : ColorModel} (hcm : rgbFile cm) {P : Bytes → TextData → Prop} (l : Layer) (i j : Img)
    (hl : l.image = i) (hR : Rooted l.bounds i) (hS : Smooth i) (h : SameImg (ImgBack (fmtOf wenv cm) P) id l i j) (ρ : Nat → UInt16) (p : Pt)
    (hmem : Rect.mem p ⟨0, 0, l.bounds.dx, l.bounds.dy⟩ = true) (n : Nat) :
    ∃ c, j.at ρ p n = some (c, n) ∧
      NearLight (storedIntensity (parts i) (levels i)) (storedCoverage (parts i)) (nrgbaLight c.toNRGBA) (ideal i p) := by
  match i with
  | .group g =>
    unfold SameImg at h
    obtain ⟨g', rfl, h2⟩ := h
    unfold Rooted at hR
    unfold Smooth at hS
    unfold Img.at parts levels ideal
    rcases again_model (Spec.SameTree.like h2) with k2 | ⟨-, k2⟩ <;> rw [k2]
    · exact stored_layers wenv hcm g g' hR hS.2 h2 ρ p _ (notPalette_modelOf _) n
    · exact stored_layers wenv hcm g g' hR hS.2 h2 ρ p _ rfl n
  | .leaf L =>
    unfold SameImg at h
    have := stored_leaf wenv hcm (by rw [hl]; intro g hg; cases hg) (by rw [hl]; exact hR) (by rw [hl]; exact hS) h ρ p hmem n
    rw [hl] at this
    exact this
  | .nil => exact hR.elim
  | .text _ _ =>
    unfold SameImg at h
    have := stored_leaf wenv hcm (by rw [hl]; intro g hg; cases hg) (by rw [hl]; exact hR) (by rw [hl]; exact hS) h ρ p hmem n
    rw [hl] at this
    exact this
  | .masked _ _ =>
    unfold SameImg at h
    have := stored_leaf wenv hcm (by rw [hl]; intro g hg; cases hg) (by rw [hl]; exact hR) (by rw [hl]; exact hS) h ρ p hmem n
    rw [hl] at this
    exact this
termination_by structural i

theorem stored_layers (wenv : WEnv) {cm : ColorModel} (hcm : rgbFile cm) {P : Bytes → TextData → Prop} (g g' : List Layer)
    (hR : RootedLayers g) (hS : SmoothLayers g) (h : SameTree (ImgBack (fmtOf wenv cm) P) id g g') (ρ : Nat → UInt16) (p : Pt) (m : ColorModel)
    (hm : m.isPalette = false) (n : Nat) :
    ∃ c, layersAt ρ (some m) g' p n = some (c, n) ∧
      NearLight (storedIntensity (partsOf g) (levelsOf g)) (storedCoverage (partsOf g)) (nrgbaLight c.toNRGBA) (idealLayers g p) := by
  match g, g' with
  | [], [] =>
    refine ⟨.alpha 0, by rw [layersAt_nil], ?_⟩
    have e : (Color.alpha 0).toNRGBA = ⟨0, 0, 0, 0⟩ := by decide
    rw [e]
    unfold idealLayers
    simp [NearLight, dark, nrgbaLight, shine, storedIntensity, storedCoverage, partsOf]
  | [], _ :: _ => exact h.elim
  | ⟨nm, b, mode, inv, tr, im⟩ :: rest, [] => exact h.elim
  | ⟨nm, b, mode, inv, tr, im⟩ :: rest, ⟨nm', b', mode', inv', tr', im'⟩ :: rest' =>
    unfold SameTree at h
    obtain ⟨⟨-, h2, h3, h4, h5, h6⟩, h7⟩ := h
    dsimp only at h2 h3 h4 h5 h6
    unfold RootedLayers at hR
    unfold SmoothLayers at hS
    obtain ⟨rfl, hi, hr⟩ := hS
    have h3 : mode' = Mode.normal := h3
    subst h2 h3 h4 h5
    obtain ⟨c, hc, hl⟩ := stored_layers wenv hcm rest rest' hR.2 hr h7 ρ p m hm n
    rw [show partsOf (⟨nm, b', Mode.normal, inv', tr', im⟩ :: rest) = parts im + 1 + partsOf rest by rw [partsOf],
      show levelsOf (⟨nm, b', Mode.normal, inv', tr', im⟩ :: rest) = max (levels im + 1) (levelsOf rest) by rw [levelsOf],
      layersAt_cons, hc, Option.bind_some]
    unfold idealLayers
    by_cases hs : inv' = false ∧ inRect b' p
    · rw [if_pos hs]
      have hin := (mem_iff p b').2 hs.2
      obtain ⟨t, ht, hlt⟩ := stored_img wenv hcm ⟨nm, b', Mode.normal, inv', tr', im⟩ im im' rfl hR.1 hi h6 ρ ⟨p.x - b'.x0, p.y - b'.y0⟩ (by
        unfold Rect.mem at hin ⊢
        unfold Rect.dx Rect.dy
        simp only [Bool.and_eq_true, decide_eq_true_eq] at hin ⊢
        omega) n
      have hlt := dim_near t (255 - tr') hlt
      have e255 : (((255 - tr' : UInt8)).toNat : ℚ) / 255 = 1 - (tr'.toNat : ℚ) / 255 := by
        have := u8_le tr'
        have e : (255 - tr' : UInt8).toNat = 255 - tr'.toNat := by
          rw [UInt8.toNat_sub_of_le _ _ (by rw [UInt8.le_iff_toNat_le]; simpa using this)]
          rfl
        rw [e, Nat.cast_sub this]
        ring
      rw [e255] at hlt
      obtain ⟨c', hc', hl'⟩ := over_near 0 c (transparency t (255 - tr')) (idealLayers_possible rest hr p) hl hlt
      refine ⟨c', ?_, hl'.mono ?_ ?_⟩
      · dsimp only
        rw [drawLayer_shows _ _ (show shows p ⟨nm', b', Mode.normal, inv', tr', im'⟩ from hs), Option.bind_some]
        have e : layerAt ρ ⟨nm', b', Mode.normal, inv', tr', im'⟩ p n = some (transparency t (255 - tr'), n) := by
          unfold layerAt
          rw [ht]; rfl
        rw [e, Option.bind_some]
        dsimp only
        rw [if_neg (by rw [hm, Bool.and_false]; decide), if_neg (by decide), hc']
        rfl
      · unfold storedIntensity storedCoverage
        have : partsOf rest * (513 + 514 * levelsOf rest) + (parts im * (513 + 514 * levels im) + 1 + (514 * parts im + 1) + 3) ≤
            (parts im + 1 + partsOf rest) * (513 + 514 * max (levels im + 1) (levelsOf rest)) := by
          have m1 := le_max_left (levels im + 1) (levelsOf rest)
          have m2 := le_max_right (levels im + 1) (levelsOf rest)
          generalize max (levels im + 1) (levelsOf rest) = M at *
          have e1 : partsOf rest * (513 + 514 * levelsOf rest) ≤ partsOf rest * (513 + 514 * M) := Nat.mul_le_mul_left _ (by omega)
          have e2 : parts im * (513 + 514 * levels im) + 514 * parts im ≤ parts im * (513 + 514 * M) := by
            have : parts im * (513 + 514 * levels im) + 514 * parts im = parts im * (513 + 514 * (levels im + 1)) := by ring
            rw [this]
            exact Nat.mul_le_mul_left _ (by omega)
          have e3 : (parts im + 1 + partsOf rest) * (513 + 514 * M) = parts im * (513 + 514 * M) + (513 + 514 * M) + partsOf rest * (513 + 514 * M) := by ring
          omega
        exact_mod_cast this
      · unfold storedCoverage
        have : 514 * partsOf rest + (514 * parts im + 1 + 1) ≤ 514 * (parts im + 1 + partsOf rest) := by omega
        exact_mod_cast this
    · rw [if_neg hs]
      refine ⟨c, ?_, hl.mono ?_ ?_⟩
      · dsimp only
        rw [drawLayer_hidden _ _ (show ¬shows p ⟨nm', b', Mode.normal, inv', tr', im'⟩ from hs)]
      · unfold storedIntensity
        have : partsOf rest * (513 + 514 * levelsOf rest) ≤ (parts im + 1 + partsOf rest) * (513 + 514 * max (levels im + 1) (levelsOf rest)) :=
          Nat.mul_le_mul (by omega) (by have := le_max_right (levels im + 1) (levelsOf rest); omega)
        exact_mod_cast this
      · unfold storedCoverage
        have : 514 * partsOf rest ≤ 514 * (parts im + 1 + partsOf rest) := by omega
        exact_mod_cast this
termination_by structural g
end

mutual
theorem smooth_placedIn (i : Img) (h : Smooth i) (ox oy : Int) (path : List Nat) : ∀ r ∈ placedIn i ox oy path, r.layer.mode = Mode.normal := by
  match i with
  | .group g =>
    unfold Smooth at h
    unfold placedIn
    exact smooth_placed g h.2 0 ox oy path
  | .leaf _ => unfold placedIn; intro r hr; cases hr
  | .nil => unfold placedIn; intro r hr; cases hr
  | .text _ _ => unfold placedIn; intro r hr; cases hr
  | .masked _ _ => unfold placedIn; intro r hr; cases hr
termination_by structural i

theorem smooth_placed (g : List Layer) (h : SmoothLayers g) (n : Nat) (ox oy : Int) (path : List Nat) :
    ∀ r ∈ placed g n ox oy path, r.layer.mode = Mode.normal := by
  match g with
  | [] => unfold placed; intro r hr; cases hr
  | ⟨_, b, mode, _, _, im⟩ :: rest =>
    unfold SmoothLayers at h
    unfold placed
    intro r hr
    rw [List.mem_cons, List.mem_append] at hr
    rcases hr with rfl | hr | hr
    · exact h.1
    · exact smooth_placedIn im h.2.1 _ _ _ r hr
    · exact smooth_placed rest h.2.2 _ _ _ _ r hr
termination_by structural g
end

theorem smooth_modes (g : List Layer) (h : SmoothLayers g) : ∀ l ∈ g, l.mode = Mode.normal := by
  induction g with
  | nil => intro l hl; cases hl
  | cons l g ih =>
    rw [SmoothLayers] at h
    intro l' hl
    rcases List.mem_cons.1 hl with rfl | hl
    · exact h.1
    · exact ih h.2.2 l' hl

/-- **C109** (the part that holds): a picture of Normal layers with any proper colours, images that start at the origin and RGB pixels in the file shows
after saving and loading at every point the same light, up to 518 + 516 per level of groups for each image, mask and layer, in units of 1/65535 (8 bits
per channel are 257 units), and the coverage up to 516 for each.
Full statement: all pictures that can be saved and loaded.  `C42_gray_refuted`, `C42_indexed_refuted` and `C109_refuted` show that the conditions on
the file and on the origin matter. -/
theorem C109_stored_partial (wenv : WEnv) (env : Env) (sch : Sched) (hv : sch.Valid) (decompress : Bool) (g : List Layer)
    (hi : Encodable (.group g)) (l : List WCall) (h : runEncode wenv (.group g) = some (l, none)) (D : Bytes)
    (size : Nat) (hsz : ExactlyOnce l size) (hmax : size ≤ maxString)
    (cm : ColorModel) (hcm : (Img.group g).colorModel = some cm) (hrgb : rgbFile cm)
    (hd : decompress = true ∨ ∀ r ∈ placed g 0 0 0 [], maskOf r.layer.image = none)
    (hx : (groupBounds g).dx ≤ 2 ^ 31) (hy : (groupBounds g).dy ≤ 2 ^ 31)
    (hs : ∀ r ∈ placed g 0 0 0 [], Storable (fmtOf wenv cm) (parsesTo env) (groupBounds g).dx (groupBounds g).dy r)
    (hS : Smooth (.group g)) (hR : RootedLayers g) :
    ∃ g', decodeImage env sch decompress (store D l) = .ok (.ok g') ∧
      ∀ (ρ : Nat → UInt16) (p : Pt) (n : Nat), ∃ c c', (Img.group g).at ρ p n = some (c, n) ∧ (Img.group g').at ρ p n = some (c', n) ∧
        NearLight ((partsOf g * (518 + 516 * levelsOf g) + 2 : Nat) : ℚ) ((516 * partsOf g : Nat) : ℚ) (lightOf c.rgba32) (lightOf c'.rgba32) := by
  have hSl : SmoothLayers g := by rw [Smooth] at hS; exact hS.2
  have htyp : (fmtOf wenv cm).typ = 0 := by rcases hrgb with rfl | rfl <;> rfl
  obtain ⟨g', h1, h2⟩ := C37_tree_partial wenv env sch hv decompress g hi l h D size hsz hmax cm hcm hd hx hy hs
    (fun r hr => by rw [smooth_placed g hSl 0 0 0 [] r hr, htyp]; decide)
    (fun m hm => by
      have hm := List.mem_of_getLast? hm
      obtain ⟨l, hl, rfl⟩ := List.mem_map.1 hm
      exact .inl (smooth_modes g hSl l hl))
  refine ⟨g', h1, fun ρ p n => ?_⟩
  obtain ⟨c, hc, hl⟩ := C108_picture ρ g hS p n
  have back : ∃ c', (Img.group g').at ρ p n = some (c', n) ∧
      NearLight (storedIntensity (partsOf g) (levelsOf g)) (storedCoverage (partsOf g)) (nrgbaLight c'.toNRGBA) (idealLayers g p) := by
    unfold Img.at
    rcases again_model (Spec.SameTree.like h2) with k2 | ⟨-, k2⟩ <;> rw [k2]
    · exact stored_layers wenv hrgb g g' hR hSl h2 ρ p _ (notPalette_modelOf _) n
    · exact stored_layers wenv hrgb g g' hR hSl h2 ρ p _ rfl n
  obtain ⟨c', hc', hl'⟩ := back
  have hl' := rgba_near (C97_picture ρ g' p n c' n hc') hl'
  refine ⟨c, c', hc, hc', ?_⟩
  have tri : ∀ {u v w e1 e2 : ℚ}, |u - w| ≤ e1 / 65535 → |v - w| ≤ e2 / 65535 → ∀ e3, e1 + e2 = e3 → |u - v| ≤ e3 / 65535 := by
    rintro u v w e1 e2 h1 h2 _ rfl
    rw [show (e1 + e2) / 65535 = e1 / 65535 + e2 / 65535 by ring, show u - v = (u - w) + (w - v) by ring]
    rw [abs_sub_comm v w] at h2
    exact (abs_add_le _ _).trans (add_le_add h1 h2)
  have e1 : intensityError (partsOf g) (levelsOf g) + 1 + (storedIntensity (partsOf g) (levelsOf g) + 1) =
      ((partsOf g * (518 + 516 * levelsOf g) + 2 : Nat) : ℚ) := by
    unfold intensityError storedIntensity
    push_cast
    ring
  have e2 : coverageError (partsOf g) + storedCoverage (partsOf g) = ((516 * partsOf g : Nat) : ℚ) := by
    unfold coverageError storedCoverage
    push_cast
    ring
  exact ⟨tri hl.1 hl'.1 _ e1, tri hl.2.1 hl'.2.1 _ e1, tri hl.2.2.1 hl'.2.2.1 _ e1, tri hl.2.2.2 hl'.2.2.2 _ e2⟩

/-- the conditions on the picture hold for one with a group and a hidden layer (see the example of C37 for the others), with a colour of 16 bits
per channel, which the file cannot hold -/
def deepLayers : List Layer :=
  [⟨[], ⟨0, 0, 2, 2⟩, Mode.normal, false, 100, .group [⟨[], ⟨1, 0, 2, 2⟩, Mode.normal, false, 51,
      .leaf ⟨⟨0, 0, 1, 2⟩, .other, fun _ => some (.rgba64 0x1234 0x2345 0x3456 0x8765)⟩⟩]⟩,
    ⟨[], ⟨0, 0, 2, 2⟩, Mode.normal, true, 0, .leaf ⟨⟨0, 0, 2, 2⟩, .other, fun _ => some (.gray 255)⟩⟩]

example : Smooth (.group deepLayers) ∧ RootedLayers deepLayers ∧ rgbFile .other ∧ groupModel deepLayers = some .other := by
  have h1 : Premul (Color.rgba64 0x1234 0x2345 0x3456 0x8765).rgba32 := by simp only [Premul]; decide
  have h2 : Premul (Color.gray 255).rgba32 := by simp only [Premul]; decide
  refine ⟨?_, ?_, .inr rfl, rfl⟩
  · simp [Smooth, SmoothLayers, deepLayers, groupModel, Img.colorModel, ColorModel.isPalette, h1, h2]
  · simp [RootedLayers, Rooted, deepLayers, Rect.dx, Rect.dy]

/-- C109 is false in general: with an image that does not start at the origin, a picture that shows nothing at a point is opaque there after saving and
loading. -/
theorem C109_refuted (wenv : WEnv) (hw : Works wenv) : ∃ (g : List Layer) (l : List WCall), runEncode wenv (.group g) = some (l, none) ∧
    ∀ (env : Env) (sch : Sched), sch.Valid → ∀ (decompress : Bool) (D : Bytes), ∃ g', decodeImage env sch decompress (store D l) = .ok (.ok g') ∧
      ∀ ρ n, ∃ c c', (Img.group g).at ρ ⟨0, 0⟩ n = some (c, n) ∧ (Img.group g').at ρ ⟨0, 0⟩ n = some (c', n) ∧
        (lightOf c.rgba32).a = 0 ∧ (lightOf c'.rgba32).a = 1 := by
  obtain ⟨g, l, h1, h2, h3⟩ := C86_origin_refuted wenv hw
  refine ⟨g, l, h2, fun env sch hv decompress D => ?_⟩
  obtain ⟨g', h4, h5⟩ := h3 env sch hv decompress D
  refine ⟨g', h4, fun ρ n => ⟨_, _, h1 ρ n, h5 ρ n, ?_, ?_⟩⟩
  · rw [show (Color.nrgba64 ⟨0, 0, 0, 0⟩).rgba32 = ⟨0, 0, 0, 0⟩ by decide]
    simp [lightOf]
  · rw [show (Color.nrgba64 ⟨0x0909, 0x0808, 0x0707, 0xffff⟩).rgba32 = ⟨0x0909, 0x0808, 0x0707, 0xffff⟩ by decide]
    simp [lightOf]

end Limage
