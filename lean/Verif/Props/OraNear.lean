import Verif.Props.Stored
import Verif.Props.OraPixels
/-!
# C110: how much a picture of Normal layers changes when it is saved and loaded as OpenRaster
-/
namespace Limage.Spec

/-- An image that can be stored as PNG without more than rounding: it starts at the origin, has no palette, and its `Opaque` method and its colour model
tell the truth. -/
def Roundable (kind : Img → PngKind) (i : Img) : Prop :=
  (∃ b cm, i.bounds = some b ∧ b.x0 = 0 ∧ b.y0 = 0 ∧ i.colorModel = some cm ∧ cm.isPalette = false) ∧ TellsOpaque kind i ∧ GreyAsSaid i

mutual
/-- all layers in the image are opaque, and the images in it can be stored -/
def Solid (kind : Img → PngKind) (i : Img) : Prop :=
  match i with
  | .group g => SolidAll kind g
  | .leaf L => Roundable kind (.leaf L)
  | .nil => False
  | .text i t => Roundable kind (.text i t)
  | .masked i m => Roundable kind (.masked i m)
termination_by structural i

/-- the same for layers -/
def SolidAll (kind : Img → PngKind) (g : List Layer) : Prop :=
  match g with
  | [] => True
  | ⟨_, _, _, _, tr, i⟩ :: ls => tr = 0 ∧ Solid kind i ∧ SolidAll kind ls
termination_by structural g
end

/-- how far the picture that is read is from exact arithmetic on the one that was written: intensities -/
def oraIntensity (parts levels : Nat) : ℚ := ((parts * (519 + 514 * levels) : Nat) : ℚ)

end Limage.Spec

namespace Limage
open Spec

theorem smooth_proper (ρ : Nat → UInt16) (i : Img) (h : Smooth i) (p : Pt) (n : Nat) (c : Color) (n' : Nat) (hc : i.at ρ p n = some (c, n')) :
    Premul c.rgba32 := by
  match i with
  | .leaf L =>
    rw [Smooth] at h
    obtain ⟨c0, h0, hv⟩ := h p
    rw [Img.at, h0] at hc
    cases hc
    exact hv
  | .nil => rw [Smooth] at h; exact h.elim
  | .text i t =>
    rw [Smooth] at h
    rw [Img.at] at hc
    exact smooth_proper ρ i h p n c n' hc
  | .masked i none => rw [Smooth] at h; exact h.elim
  | .masked i (some m) =>
    rw [Smooth] at h
    obtain ⟨c0, h0, -⟩ := at_near ρ i h p n
    have := smooth_proper ρ i h p n c0 n h0
    rw [Img.at, h0] at hc
    cases hc
    exact C97_transparency c0 _ this
  | .group g => exact C97_picture ρ g p n c n' hc

theorem png_premul (k : PngKind) (c : Color) (hv : Premul c.rgba32) : Premul (k.back c).rgba32 := by
  obtain ⟨hr, hg, hb, ha⟩ := hv
  have w : ∀ x : UInt8, (widen32 x).toNat ≤ 65535 := fun x => by rw [widen32_nat]; have := u8_le x; omega
  have n16 : ∀ x : UInt16, x.toUInt32.toNat ≤ 65535 := fun x => by rw [UInt16.toNat_toUInt32]; exact u16_le x
  cases k with
  | g8 => exact ⟨w _, w _, w _, Nat.le_refl _⟩
  | g16 => exact ⟨n16 _, n16 _, n16 _, Nat.le_refl _⟩
  | tc8 => exact ⟨w _, w _, w _, Nat.le_refl 65535⟩
  | tca8 => exact nrgba_premul _ _ _ _
  | tc16 => exact ⟨n16 _, n16 _, n16 _, Nat.le_refl 65535⟩
  | tca16 => exact NRGBA64.premul _

/-- what is read of a layer -/
def RoundedLayer (ρ : Nat → UInt16) (l l' : Layer) : Prop :=
  (l'.bounds = l.bounds ∧ l.mode = Mode.normal ∧ l'.mode = Mode.normal ∧ l'.invisible = l.invisible ∧ l'.transparency = l.transparency) ∧
  (NotGroup l.image → Smooth l.image ∧ ∃ L, l'.image = .leaf L ∧ L.model.isPalette = false ∧
    ∀ p, Rect.mem p ⟨0, 0, l.bounds.dx, l.bounds.dy⟩ = true → ∃ n n' c c', l.image.at ρ p n = some (c, n') ∧ L.pixel p = some c' ∧ Premul c'.rgba32 ∧
      Nearby c.rgba32 c'.rgba32)

theorem rounded_pixel {ρ : Nat → UInt16} {l l' : Layer} (hng : NotGroup l.image) (h : RoundedLayer ρ l l') (σ : Nat → UInt16) (p : Pt)
    (hp : Rect.mem p ⟨0, 0, l.bounds.dx, l.bounds.dy⟩ = true) (k : Nat) : ∃ c', l'.image.at σ p k = some (c', k) ∧
      NearLight (intensityError (parts l.image) (levels l.image) + 514) (coverageError (parts l.image) + 512) (nrgbaLight c'.toNRGBA) (ideal l.image p) := by
  obtain ⟨hS, L, h1, -, h2⟩ := h.2 hng
  obtain ⟨n, n', c, c', h3, h4, hv', hn⟩ := h2 p hp
  refine ⟨c', by rw [h1, Img.at, h4]; rfl, ?_⟩
  obtain ⟨c0, h5, hl⟩ := at_near ρ l.image hS p n
  have hv := smooth_proper ρ l.image hS p n c n' h3
  rw [h3] at h5
  cases h5
  have hl := rgba_near hv hl
  obtain ⟨n1, n2, n3, n4⟩ := hn
  obtain ⟨l1, l2, l3, l4⟩ := light_close c' hv'
  have ch : ∀ {m n : Nat}, m ≤ n + 512 ∧ n ≤ m + 512 → |(n : ℚ) / 65535 - (m : ℚ) / 65535| ≤ 512 / 65535 := by
    intro m n h
    have a1 : (m : ℚ) ≤ n + 512 := by exact_mod_cast h.1
    have a2 : (n : ℚ) ≤ m + 512 := by exact_mod_cast h.2
    rw [← sub_div, abs_le]
    constructor
    · rw [← neg_div, div_le_div_iff_of_pos_right (by norm_num)]; linarith
    · rw [div_le_div_iff_of_pos_right (by norm_num)]; linarith
  have tri : ∀ {t u v w e : ℚ}, |t - u| ≤ 1 / 65535 → |u - v| ≤ 512 / 65535 → |v - w| ≤ (e + 1) / 65535 → |t - w| ≤ (e + 514) / 65535 := by
    intro t u v w e a b c
    rw [show t - w = (t - u) + (u - v) + (v - w) by ring]
    refine ((abs_add_le _ _).trans (add_le_add (abs_add_le _ _) le_rfl)).trans ?_
    linarith
  refine ⟨tri l1 (ch n1) hl.1, tri l2 (ch n2) hl.2.1, tri l3 (ch n3) hl.2.2.1, ?_⟩
  rw [l4]
  have h1 : |(lightOf c'.rgba32).a - (lightOf c.rgba32).a| ≤ 512 / 65535 := ch n4
  have h2 := hl.2.2.2
  rw [show (lightOf c'.rgba32).a - (ideal l.image p).a = ((lightOf c'.rgba32).a - (lightOf c.rgba32).a) + ((lightOf c.rgba32).a - (ideal l.image p).a) by ring]
  refine (abs_add_le _ _).trans ?_
  linarith

theorem rounded_model {ρ : Nat → UInt16} {g g' : List Layer} (h : Alike (RoundedLayer ρ) g g') : ∃ m, groupModel g' = some m ∧ m.isPalette = false := by
  induction h with
  | nil => exact ⟨.alpha, by rw [groupModel], rfl⟩
  | @single l l' ls ls' h1 h2 h3 _ _ =>
    obtain ⟨-, L, e1, e2, -⟩ := h3.2 h1
    rw [groupModel_cons, e1, Img.colorModel]
    exact ⟨_, rfl, e2⟩
  | @group l l' ls ls' g g' h1 h2 _ _ _ ih1 _ =>
    rw [groupModel_cons, h2, Img.colorModel]
    exact ih1

/-- one layer over what was drawn of the others -/
theorem rounded_layer {σ : Nat → UInt16} {m : ColorModel} (hm : m.isPalette = false) {l l' : Layer} {ls : List Layer} (hS : SmoothLayers ls) {c : Color} {p : Pt} {n : Nat}
    {A e k : ℚ} (hA : NearLight e A (nrgbaLight c.toNRGBA) (idealLayers ls p)) (hb : l'.bounds = l.bounds) (hmo : l'.mode = Mode.normal)
    (hinv : l'.invisible = l.invisible) (htr : l'.transparency = l.transparency) {e' k' : ℚ}
    (hat : Rect.mem p l.bounds = true → ∃ t, l'.image.at σ ⟨p.x - l.bounds.x0, p.y - l.bounds.y0⟩ n = some (t, n) ∧
      NearLight e' k' (nrgbaLight t.toNRGBA) (ideal l.image ⟨p.x - l.bounds.x0, p.y - l.bounds.y0⟩))
    (h1 : e + (e' + 1 + (k' + 1) + 3) ≤ k) (h2 : e ≤ k) {K : ℚ} (h3 : A + (k' + 1 + 1) ≤ K) (h4 : A ≤ K) :
    ∃ c', drawLayer σ (some m) l' p c n = some (c', n) ∧ NearLight k K (nrgbaLight c'.toNRGBA) (idealLayers (l :: ls) p) := by
  obtain ⟨nm, b, mode, inv, tr, im⟩ := l
  obtain ⟨nm', b', mode', inv', tr', im'⟩ := l'
  dsimp only at *
  subst hb hmo hinv htr
  unfold idealLayers
  by_cases hs : inv' = false ∧ inRect b' p
  · rw [if_pos hs]
    obtain ⟨t, ht, hlt⟩ := hat ((mem_iff p b').2 hs.2)
    have hlt := dim_near t (255 - tr') hlt
    have e255 : (((255 - tr' : UInt8)).toNat : ℚ) / 255 = 1 - (tr'.toNat : ℚ) / 255 := by
      have := u8_le tr'
      have e : (255 - tr' : UInt8).toNat = 255 - tr'.toNat := by
        rw [UInt8.toNat_sub_of_le _ _ (by rw [UInt8.le_iff_toNat_le]; simpa using this)]
        rfl
      rw [e, Nat.cast_sub this]
      ring
    rw [e255] at hlt
    obtain ⟨c', hc', hl'⟩ := over_near 0 c (transparency t (255 - tr')) (idealLayers_possible ls hS p) hA hlt
    refine ⟨c', ?_, hl'.mono h1 h3⟩
    rw [drawLayer_shows _ _ (show shows p ⟨nm', b', Mode.normal, inv', tr', im'⟩ from hs), Option.bind_some]
    have e : layerAt σ ⟨nm', b', Mode.normal, inv', tr', im'⟩ p n = some (transparency t (255 - tr'), n) := by
      unfold layerAt
      rw [ht]; rfl
    rw [e, Option.bind_some]
    dsimp only
    rw [if_neg (by rw [hm, Bool.and_false]; decide), if_neg (by decide), hc']
    rfl
  · rw [if_neg hs]
    exact ⟨c, by rw [drawLayer_hidden _ _ (show ¬shows p ⟨nm', b', Mode.normal, inv', tr', im'⟩ from hs)], hA.mono h2 h4⟩

theorem rounded_at {ρ : Nat → UInt16} {g g' : List Layer} (h : Alike (RoundedLayer ρ) g g') (hS : SmoothLayers g) (σ : Nat → UInt16) (m : ColorModel)
    (hm : m.isPalette = false) (p : Pt) (n : Nat) : ∃ c, layersAt σ (some m) g' p n = some (c, n) ∧
      NearLight (oraIntensity (partsOf g) (levelsOf g)) (storedCoverage (partsOf g)) (nrgbaLight c.toNRGBA) (idealLayers g p) := by
  have hin : ∀ (p : Pt) (b : Rect), Rect.mem p b = true → Rect.mem ⟨p.x - b.x0, p.y - b.y0⟩ ⟨0, 0, b.dx, b.dy⟩ = true := by
    intro p b hp
    unfold Rect.mem Rect.dx Rect.dy at *
    simp only [Bool.and_eq_true, decide_eq_true_eq] at hp ⊢
    omega
  induction h generalizing m p with
  | nil =>
    refine ⟨.alpha 0, by rw [layersAt_nil], ?_⟩
    have e : (Color.alpha 0).toNRGBA = ⟨0, 0, 0, 0⟩ := by decide
    rw [e]
    unfold idealLayers
    simp [NearLight, dark, nrgbaLight, shine, oraIntensity, storedCoverage, partsOf]
  | @single l l' ls ls' h1 h2 h3 _ ih =>
    rw [SmoothLayers] at hS
    obtain ⟨c, hc, hA⟩ := ih hS.2.2 m hm p
    rw [layersAt_cons, hc, Option.bind_some, partsOf, levelsOf]
    obtain ⟨⟨b1, -, b3, b4, b5⟩, -⟩ := id h3
    refine rounded_layer hm hS.2.2 hA b1 b3 b4 b5 (fun hp => rounded_pixel h1 h3 σ _ (hin p _ hp) n) ?_ ?_ ?_ ?_
    · unfold oraIntensity intensityError coverageError
      have : partsOf ls * (519 + 514 * levelsOf ls) + (parts l.image * (5 + 2 * levels l.image) + 514 + 1 + (2 * parts l.image + 512 + 1) + 3) ≤
          (parts l.image + 1 + partsOf ls) * (519 + 514 * max (levels l.image + 1) (levelsOf ls)) := by
        have m1 := le_max_left (levels l.image + 1) (levelsOf ls)
        have m2 := le_max_right (levels l.image + 1) (levelsOf ls)
        generalize max (levels l.image + 1) (levelsOf ls) = M at *
        have e1 : partsOf ls * (519 + 514 * levelsOf ls) ≤ partsOf ls * (519 + 514 * M) := Nat.mul_le_mul_left _ (by omega)
        have e2 : parts l.image * (5 + 2 * levels l.image) + 2 * parts l.image ≤ parts l.image * (519 + 514 * M) := by
          have : parts l.image * (5 + 2 * levels l.image) + 2 * parts l.image = parts l.image * (7 + 2 * levels l.image) := by ring
          rw [this]
          exact Nat.mul_le_mul_left _ (by omega)
        have e3 : (parts l.image + 1 + partsOf ls) * (519 + 514 * M) = parts l.image * (519 + 514 * M) + (519 + 514 * M) + partsOf ls * (519 + 514 * M) := by ring
        omega
      exact_mod_cast this
    · unfold oraIntensity
      have : partsOf ls * (519 + 514 * levelsOf ls) ≤ (parts l.image + 1 + partsOf ls) * (519 + 514 * max (levels l.image + 1) (levelsOf ls)) :=
        Nat.mul_le_mul (by omega) (by have := le_max_right (levels l.image + 1) (levelsOf ls); omega)
      exact_mod_cast this
    · unfold storedCoverage coverageError
      have : 514 * partsOf ls + (2 * parts l.image + 512 + 1 + 1) ≤ 514 * (parts l.image + 1 + partsOf ls) := by omega
      exact_mod_cast this
    · unfold storedCoverage
      have : 514 * partsOf ls ≤ 514 * (parts l.image + 1 + partsOf ls) := by omega
      exact_mod_cast this
  | @group l l' ls ls' g g' h1 h2 h4 h3 _ ih1 ih2 =>
    rw [SmoothLayers] at hS
    obtain ⟨c, hc, hA⟩ := ih2 hS.2.2 m hm p
    obtain ⟨⟨b1, -, b3, b4, b5⟩, -⟩ := id h3
    have hSg : SmoothLayers g := by
      have := hS.2.1
      rw [h1, Smooth] at this
      exact this.2
    rw [layersAt_cons, hc, Option.bind_some, partsOf, levelsOf]
    have hpa : parts l.image = partsOf g := by rw [h1, parts]
    have hle : levels l.image = levelsOf g := by rw [h1, levels]
    have hid : ∀ q, ideal l.image q = idealLayers g q := fun q => by rw [h1, ideal]
    rw [hpa, hle]
    obtain ⟨m', hm1, hm2⟩ := rounded_model h4
    refine rounded_layer hm hS.2.2 hA b1 b3 b4 b5 (fun hp => by
      obtain ⟨t, ht, hlt⟩ := ih1 hSg m' hm2 ⟨p.x - l.bounds.x0, p.y - l.bounds.y0⟩
      exact ⟨t, by rw [h2, Img.at, hm1]; exact ht, by rw [hid]; exact hlt⟩) ?_ ?_ ?_ ?_
    · unfold oraIntensity storedCoverage
      have : partsOf ls * (519 + 514 * levelsOf ls) + (partsOf g * (519 + 514 * levelsOf g) + 1 + (514 * partsOf g + 1) + 3) ≤
          (partsOf g + 1 + partsOf ls) * (519 + 514 * max (levelsOf g + 1) (levelsOf ls)) := by
        have m1 := le_max_left (levelsOf g + 1) (levelsOf ls)
        have m2 := le_max_right (levelsOf g + 1) (levelsOf ls)
        generalize max (levelsOf g + 1) (levelsOf ls) = M at *
        have e1 : partsOf ls * (519 + 514 * levelsOf ls) ≤ partsOf ls * (519 + 514 * M) := Nat.mul_le_mul_left _ (by omega)
        have e2 : partsOf g * (519 + 514 * levelsOf g) + 514 * partsOf g ≤ partsOf g * (519 + 514 * M) := by
          have : partsOf g * (519 + 514 * levelsOf g) + 514 * partsOf g = partsOf g * (519 + 514 * (levelsOf g + 1)) := by ring
          rw [this]
          exact Nat.mul_le_mul_left _ (by omega)
        have e3 : (partsOf g + 1 + partsOf ls) * (519 + 514 * M) = partsOf g * (519 + 514 * M) + (519 + 514 * M) + partsOf ls * (519 + 514 * M) := by ring
        omega
      exact_mod_cast this
    · unfold oraIntensity
      have : partsOf ls * (519 + 514 * levelsOf ls) ≤ (partsOf g + 1 + partsOf ls) * (519 + 514 * max (levelsOf g + 1) (levelsOf ls)) :=
        Nat.mul_le_mul (by omega) (by have := le_max_right (levelsOf g + 1) (levelsOf ls); omega)
      exact_mod_cast this
    · unfold storedCoverage
      have : 514 * partsOf ls + (514 * partsOf g + 1 + 1) ≤ 514 * (partsOf g + 1 + partsOf ls) := by omega
      exact_mod_cast this
    · unfold storedCoverage
      have : 514 * partsOf ls ≤ 514 * (partsOf g + 1 + partsOf ls) := by omega
      exact_mod_cast this

theorem solidAll_cons (kind : Img → PngKind) (l : Layer) (ls : List Layer) :
    SolidAll kind (l :: ls) = (l.transparency = 0 ∧ Solid kind l.image ∧ SolidAll kind ls) := by rw [SolidAll]

theorem solid_single {kind : Img → PngKind} {i : Img} (h : NotGroup i) (hi : Solid kind i) : Roundable kind i := by
  cases i with
  | group g => exact absurd rfl (h g)
  | nil => exact hi.elim
  | leaf L => exact hi
  | text i t => exact hi
  | masked i m => exact hi

theorem solid_rounded {env : OraEnv} (hlib : OraLib env) {ρ : Nat → UInt16} {kind : Img → PngKind} (hp : PngPixels env ρ kind) {g g' : List Layer}
    (h : Alike (fun l l' => SamePlace env l l' ∧ (l.transparency = 0 → l'.transparency = l.transparency ∧ l'.invisible = l.invisible) ∧
      (l.mode ∈ svgModes → l'.mode = l.mode)) g g') (hl : SolidAll kind g) (hS : SmoothLayers g) (hr : ∀ i ∈ leavesAll g, Readably i) :
    Alike (RoundedLayer ρ) g g' := by
  have hnormal : Mode.normal ∈ svgModes := by decide
  induction h with
  | nil => exact .nil
  | @single l l' ls ls' h1 h2 h3 _ ih =>
    rw [leavesAll_cons, leaves_single h1] at hr
    rw [solidAll_cons] at hl
    rw [SmoothLayers] at hS
    obtain ⟨k2, k3, k4⟩ := hl
    obtain ⟨s1, s2, s3⟩ := hS
    have s1 : l.mode = Mode.normal := s1
    have s2 : Smooth l.image := s2
    obtain ⟨⟨p1, p2⟩, p3, p4⟩ := h3
    refine .single h1 h2 ⟨⟨p1, s1, by rw [p4 (by rw [s1]; exact hnormal), s1], (p3 k2).2, (p3 k2).1⟩, fun _ => ⟨s2, ?_⟩⟩
      (ih k4 s3 fun x hx => hr x (List.mem_append_right _ hx))
    obtain ⟨L, q1, ⟨d, hd, hL⟩, q2⟩ := p2 h1
    obtain ⟨⟨b, cm, u1, u2, u3, u4, u5⟩, ho, hgr⟩ := solid_single h1 k3
    obtain ⟨k1, v1, v2⟩ := hp l.image d L b cm hd hL u1 u4 u5
    refine ⟨L, q1, by rw [v1]; cases kind l.image <;> rfl, fun p hmem => ?_⟩
    obtain ⟨n, n', c, f1, f2⟩ := v2 p (by rw [q2]; exact hmem)
    rw [u2, u3, Int.zero_add, Int.zero_add] at f1
    have hv := smooth_proper ρ l.image s2 _ _ _ _ f1
    have hrr := hr l.image (by simp) b u1
    obtain ⟨b', x1, -, -, x2⟩ := hlib.png _ _ hd
    have x1 : l.image.bounds = some b' := x1
    rw [u1] at x1
    cases x1
    obtain ⟨L', x3, x4⟩ := x2 hrr.1 hrr.2
    rw [hL] at x3
    cases x3
    have hb : Rect.mem p b = true := by
      rw [← q2, x4] at hmem
      unfold Rect.mem Rect.dx Rect.dy at *
      simp only [Bool.and_eq_true, decide_eq_true_eq] at hmem ⊢
      omega
    have hgrey : (kind l.image).grey = true → c.rgba32.r = c.rgba32.g ∧ c.rgba32.g = c.rgba32.b ∧ c.rgba32.a = 0xffff := by
      intro hk
      refine hgr b cm u1 u4 ?_ ρ _ n c n' hb f1
      generalize kind l.image = k at *
      cases cm <;> cases k <;> simp [pngKinds, PngKind.grey] at k1 hk ⊢
    exact ⟨n, n', c, _, f1, f2, png_premul _ c hv, back_near _ c hv (fun hk => ho hk b u1 ρ _ n c n' hb f1) hgrey⟩
  | @group l l' ls ls' g g' h1 h2 h4 h3 _ ih1 ih2 =>
    rw [solidAll_cons] at hl
    rw [SmoothLayers] at hS
    obtain ⟨k2, k3, k4⟩ := hl
    obtain ⟨s1, s2, s3⟩ := hS
    have s1 : l.mode = Mode.normal := s1
    have s2 : Smooth l.image := s2
    obtain ⟨⟨p1, p2⟩, p3, p4⟩ := h3
    rw [h1, Solid] at k3
    rw [h1, Smooth] at s2
    rw [leavesAll_cons, h1, leaves] at hr
    exact .group h1 h2 (ih1 k3 s2.2 fun x hx => hr x (List.mem_append_left _ hx))
      ⟨⟨p1, s1, by rw [p4 (by rw [s1]; exact hnormal), s1], (p3 k2).2, (p3 k2).1⟩, fun hng => absurd h1 (hng _)⟩
      (ih2 k4 s3 fun x hx => hr x (List.mem_append_right _ hx))

/-- **C110** (the part that holds): a picture on its canvas of opaque Normal layers, which have the sizes of their images and are in groups at the origin,
and whose images start at the origin, have any proper colours and tell the truth about their opacity, shows after saving and loading as OpenRaster at every
point the same light, up to 524 + 516 per level of groups for each image, mask and layer, in units of 1/65535, and the coverage up to 516 for each.
Full statement: every picture of Normal layers that can be saved; false for translucent layers (`C110_refuted`), for images that do not start at the origin
(`C88_origin_refuted`) and for groups that do not (`C61_refuted`). -/
theorem C110_stored_partial {env : OraEnv} (hl : OraLib env) {ρ : Nat → UInt16} {kind : Img → PngKind} (hp : PngPixels env ρ kind) (fails : Nat → Bool)
    (c : Bool) (m : OraInput) (g : List Layer) (hg : m.top = .group g) (b : Rect) (hb : m.bounds = some b) (hm : IntSize m) (hf : FitAll ⟨b.dx, b.dy⟩ g)
    (hr : ∀ i ∈ leavesAll g, Readably i) (hk : SolidAll kind g) (hS : Smooth (.group g)) (es : List ZipEntry)
    (h : oraEncode env fails c m = .ok ⟨none, some es⟩) :
    ∃ g', oraDecode env es = .ok g' ∧ ∀ (σ : Nat → UInt16) (p : Pt) (n : Nat), ∃ c c', (Img.group g).at σ p n = some (c, n) ∧
      (Img.group g').at σ p n = some (c', n) ∧
        NearLight ((partsOf g * (524 + 516 * levelsOf g) + 2 : Nat) : ℚ) ((516 * partsOf g : Nat) : ℚ) (lightOf c.rgba32) (lightOf c'.rgba32) := by
  obtain ⟨g', h1, h2⟩ := C61_partial hl fails c m g hg b hb hm hf hr es h
  obtain ⟨_, les, _, _, -, hh, -, -, -⟩ := oraEntries_ok (encode_entries h)
  rw [hg, leaves] at hh
  have hn : NearAll g := fitAll_near (hm b hb).1.2 (hm b hb).2.2 g hf (fun x hx => by
    obtain ⟨d, hd⟩ := holds_png env _ _ _ hh x hx
    obtain ⟨c, h1, h2, h3, -⟩ := hl.png _ _ hd
    exact ⟨c, h1, h2, h3⟩)
  obtain ⟨g₂, h3, h4⟩ := C60_partial hl fails c m g hg hm hn hr es h
  rw [h1] at h3
  cases h3
  have hSl : SmoothLayers g := by rw [Smooth] at hS; exact hS.2
  have hR := solid_rounded hl hp ((h2.and h4).imp fun l l' ⟨a, _, b, c⟩ => ⟨a, b, c⟩) hk hSl hr
  obtain ⟨cm, hcm, hnp⟩ := rounded_model hR
  refine ⟨g', h1, fun σ p n => ?_⟩
  obtain ⟨c, hc, hl⟩ := C108_picture σ g hS p n
  obtain ⟨c', hc', hl'⟩ := rounded_at hR hSl σ cm hnp p n
  have hc' : (Img.group g').at σ p n = some (c', n) := by rw [Img.at, hcm]; exact hc'
  have hl' := rgba_near (C97_picture σ g' p n c' n hc') hl'
  refine ⟨c, c', hc, hc', ?_⟩
  have tri : ∀ {u v w e1 e2 : ℚ}, |u - w| ≤ e1 / 65535 → |v - w| ≤ e2 / 65535 → ∀ e3, e1 + e2 = e3 → |u - v| ≤ e3 / 65535 := by
    rintro u v w e1 e2 h1 h2 _ rfl
    rw [show (e1 + e2) / 65535 = e1 / 65535 + e2 / 65535 by ring, show u - v = (u - w) + (w - v) by ring]
    rw [abs_sub_comm v w] at h2
    exact (abs_add_le _ _).trans (add_le_add h1 h2)
  have e1 : intensityError (partsOf g) (levelsOf g) + 1 + (oraIntensity (partsOf g) (levelsOf g) + 1) =
      ((partsOf g * (524 + 516 * levelsOf g) + 2 : Nat) : ℚ) := by
    unfold intensityError oraIntensity
    push_cast
    ring
  have e2 : coverageError (partsOf g) + storedCoverage (partsOf g) = ((516 * partsOf g : Nat) : ℚ) := by
    unfold coverageError storedCoverage
    push_cast
    ring
  exact ⟨tri hl.1 hl'.1 _ e1, tri hl.2.1 hl'.2.1 _ e1, tri hl.2.2.1 hl'.2.2.1 _ e1, tri hl.2.2.2 hl'.2.2.2 _ e2⟩

/-- a translucent image on a group with a hidden layer -/
def normalTree : List Layer :=
  [⟨[], ⟨1, 1, 3, 2⟩, Mode.normal, false, 0, .leaf (plain 2 1 (.nrgba64 ⟨1, 2, 30000, 40000⟩))⟩,
    ⟨[], ⟨0, 0, 3, 2⟩, Mode.normal, false, 0, .group [⟨[], ⟨0, 0, 3, 2⟩, Mode.normal, true, 0, .leaf (plain 3 2 (.lrgb 7 8 9))⟩,
      ⟨[], ⟨0, 0, 3, 2⟩, Mode.normal, false, 0, .leaf (plain 3 2 (.rgba 70 8 9 255))⟩]⟩]

/-- it is read with at most rounding -/
example : ∃ es g', oraEncode (pixEnv fun _ => false) (fun _ => false) false (.image (.group normalTree)) = .ok ⟨none, some es⟩ ∧
    oraDecode (pixEnv fun _ => false) es = .ok g' ∧ ∀ σ p n, ∃ c c', (Img.group normalTree).at σ p n = some (c, n) ∧
      (Img.group g').at σ p n = some (c', n) ∧ NearLight 10894 3612 (lightOf c.rgba32) (lightOf c'.rgba32) := by
  obtain ⟨es, h⟩ : ∃ es, oraEncode (pixEnv fun _ => false) (fun _ => false) false (.image (.group normalTree)) = .ok ⟨none, some es⟩ := ⟨_, rfl⟩
  have hu : ∀ (w h : Int) (c : Color), Roundable (fun i => if (fun _ => false) i then .tc16 else .tca16) (.leaf (plain w h c)) :=
    fun w h c => ⟨⟨_, _, rfl, rfl, rfl, rfl, rfl⟩, (fun hd => by cases hd), fun b cm _ hcm hg => by
      cases hcm
      rcases hg with hg | hg <;> cases hg⟩
  have p1 : Premul (Color.nrgba64 ⟨1, 2, 30000, 40000⟩).rgba32 := by simp only [Premul]; decide
  have p2 : Premul (Color.lrgb 7 8 9).rgba32 := by simp only [Premul]; decide
  have p3 : Premul (Color.rgba 70 8 9 255).rgba32 := by simp only [Premul]; decide
  obtain ⟨g', h1, h2⟩ := C110_stored_partial (pixEnv_lib _) (pixEnv_pixels _) _ _ _ _ rfl ⟨0, 0, 3, 2⟩ rfl (fun b hb => by cases hb; decide)
    (by
      unfold normalTree
      simp only [FitAll, Fit]
      refine ⟨by decide, ⟨rfl, rfl⟩, by decide, ⟨trivial, trivial, rfl, by decide, ⟨rfl, rfl⟩, by decide, ⟨rfl, rfl⟩, trivial⟩, trivial⟩)
    (by
      intro i hi
      simp only [normalTree, leavesAll, leaves, List.append_nil, List.cons_append, List.nil_append, List.mem_cons, List.not_mem_nil, or_false] at hi
      rcases hi with rfl | rfl | rfl <;> exact plain_readably _ _ _ (by decide) (by decide))
    (by
      unfold normalTree
      simp only [Solid, SolidAll]
      exact ⟨trivial, hu _ _ _, trivial, ⟨trivial, hu _ _ _, trivial, hu _ _ _, trivial⟩, trivial⟩)
    (by simp [Smooth, SmoothLayers, normalTree, groupModel, Img.colorModel, ColorModel.isPalette, plain, p1, p2, p3]) es h
  refine ⟨es, g', h, h1, fun σ p n => ?_⟩
  obtain ⟨c, c', e1, e2, e3⟩ := h2 σ p n
  refine ⟨c, c', e1, e2, e3.mono ?_ ?_⟩
  · norm_num [partsOf, parts, levelsOf, levels, normalTree]
  · norm_num [partsOf, parts, normalTree]

/-- C110 is false for layers that are not opaque: a layer that does not show at all is read as opaque. -/
theorem C110_refuted {env : OraEnv} (hl : OraLib env) {ρ : Nat → UInt16} {kind : Img → PngKind} (hp : PngPixels env ρ kind) (fails : Nat → Bool)
    (c : Bool) (es : List ZipEntry)
    (h : oraEncode env fails c (.image (.group [⟨[], ⟨0, 0, 1, 1⟩, Mode.normal, false, 255, .leaf (plain 1 1 (.nrgba 9 8 7 255))⟩])) = .ok ⟨none, some es⟩) :
    ∃ g', oraDecode env es = .ok g' ∧ ∀ (σ : Nat → UInt16) (n : Nat), ∃ x x',
      (Img.group [⟨[], ⟨0, 0, 1, 1⟩, Mode.normal, false, 255, .leaf (plain 1 1 (.nrgba 9 8 7 255))⟩]).at σ ⟨0, 0⟩ n = some (x, n) ∧
      (Img.group g').at σ ⟨0, 0⟩ n = some (x', n) ∧ (lightOf x.rgba32).a = 0 ∧ (lightOf x'.rgba32).a = 1 := by
  obtain ⟨g', h1, h2⟩ := C88_opacity_refuted hl hp fails c es h
  refine ⟨g', h1, fun σ n => ?_⟩
  obtain ⟨⟨x, hx, ha⟩, hx'⟩ := h2 σ n
  refine ⟨x, _, hx, hx', ?_, ?_⟩
  · rw [← (light_close x (C97_picture σ _ _ _ _ _ hx)).2.2.2]
    show (x.toNRGBA.a.toNat : ℚ) / 65535 = 0
    rw [ha]
    simp
  · rw [show (Color.nrgba64 ⟨0x0909, 0x0808, 0x0707, 0xffff⟩).rgba32 = ⟨0x0909, 0x0808, 0x0707, 0xffff⟩ by decide]
    simp [lightOf]

/-- that picture can be saved -/
example : ∃ es, oraEncode (pixEnv fun _ => false) (fun _ => false) false (.image (.group [⟨[], ⟨0, 0, 1, 1⟩, Mode.normal, false, 255,
    .leaf (plain 1 1 (.nrgba 9 8 7 255))⟩])) = .ok ⟨none, some es⟩ := ⟨_, rfl⟩

end Limage
