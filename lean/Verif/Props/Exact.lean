import Verif.Props.Fade
import Verif.Props.Ideal
import Mathlib.Algebra.Order.Group.MinMax
/-!
# C147: stacks of layers in gentle modes are drawn as exact arithmetic would draw them
-/
namespace Limage

namespace Spec

/-- Normal and the modes whose definitions are nowhere steep, with these (see C07) -/
def gentle : List (UInt32 × (ℚ → ℚ → ℚ)) :=
  [(0, fun _ y => y), (3, multiply), (4, screen), (6, difference), (7, addition), (8, subtract), (9, darken), (10, lighten), (20, grainExtract)]

/-- what a layer does to one channel of what is below: `formula`, with the layer's own value, shows as far as it covers -/
structure Coat where
  formula : ℚ → ℚ → ℚ
  value : ℚ
  cover : ℚ

/-- a ground under coats, the first on top, in exact numbers -/
def coated : List Coat → ℚ → ℚ
  | [], x => x
  | k :: ks, x => (1 - k.cover) * coated ks x + k.cover * k.formula (coated ks x) k.value

/-- The layers' coats for one channel of the point.  Each layer shows a colour there that does not depend on random numbers. -/
inductive Coats (channel : NRGBA64 → UInt16) (ρ : Nat → UInt16) (p : Pt) : List Layer → List Coat → Prop
  | nil : Coats channel ρ p [] []
  | hidden {l g ks} (h : ¬ shows p l) (rest : Coats channel ρ p g ks) : Coats channel ρ p (l :: g) ks
  | shown {l : Layer} {g ks φ c} (h : shows p l) (mode : (l.mode, φ) ∈ gentle)
      (color : ∀ n, l.image.at ρ ⟨p.x - l.bounds.x0, p.y - l.bounds.y0⟩ n = some (c, n)) (rest : Coats channel ρ p g ks) :
      Coats channel ρ p (l :: g) (⟨φ, unit (channel c.toNRGBA), (1 - l.transparency.toNat / 255) * unit c.toNRGBA.a⟩ :: ks)

/-- the claim for one channel: it is at most four steps per coat from the exact value -/
def DrawnExactly (channel : NRGBA64 → UInt16) : Prop := ∀ (ρ : Nat → UInt16) (upper lower : List Layer) (ks : List Coat) (p : Pt) (n : Nat),
  Coats channel ρ p upper ks → (groupModel (upper ++ lower)).map ColorModel.isPalette = some false →
  (groupModel lower).map ColorModel.isPalette = some false → ∀ (c0 : Color) (n0 : Nat), Img.at ρ (.group lower) p n = some (c0, n0) → c0.toNRGBA.a = 0xffff →
  ∃ c, Img.at ρ (.group (upper ++ lower)) p n = some (c, n0) ∧ c.toNRGBA.a = 0xffff ∧
    |unit (channel c.toNRGBA) - coated ks (unit (channel c0.toNRGBA))| ≤ 4 * ks.length / 65535

end Spec
open Spec

theorem unit_between (x : UInt16) : 0 ≤ unit x ∧ unit x ≤ 1 := by
  unfold unit
  refine ⟨by positivity, ?_⟩
  rw [div_le_one (by norm_num)]
  exact_mod_cast u16_le x

theorem gentle_lipschitz {m : Mode} {φ} (h : (m, φ) ∈ gentle) {x z y : ℚ} (h0 : 0 ≤ y) (h1 : y ≤ 1) : |φ x y - φ z y| ≤ |x - z| := by
  simp only [gentle, List.mem_cons, List.not_mem_nil, or_false, Prod.mk.injEq] at h
  rcases h with ⟨-, rfl⟩ | ⟨-, rfl⟩ | ⟨-, rfl⟩ | ⟨-, rfl⟩ | ⟨-, rfl⟩ | ⟨-, rfl⟩ | ⟨-, rfl⟩ | ⟨-, rfl⟩ | ⟨-, rfl⟩
  · dsimp only
    rw [sub_self, abs_zero]
    exact abs_nonneg _
  · unfold multiply
    rw [← sub_mul, abs_mul, abs_of_nonneg h0]
    exact mul_le_of_le_one_right (abs_nonneg _) h1
  · unfold screen
    rw [show 1 - (1 - x) * (1 - y) - (1 - (1 - z) * (1 - y)) = (x - z) * (1 - y) by ring, abs_mul, abs_of_nonneg (by linarith : 0 ≤ 1 - y)]
    exact mul_le_of_le_one_right (abs_nonneg _) (by linarith)
  · unfold difference
    rcases le_total x y with a | a <;> rcases le_total z y with b | b <;> simp only [max_eq_left, max_eq_right, min_eq_left, min_eq_right, a, b] <;>
      rcases le_total x z with e | e <;> rw [abs_le] <;>
      first
      | rw [abs_of_nonpos (by linarith : x - z ≤ 0)]; constructor <;> linarith
      | rw [abs_of_nonneg (by linarith : 0 ≤ x - z)]; constructor <;> linarith
  · unfold addition
    refine (abs_min_sub_min_le_max 1 (x + y) 1 (z + y)).trans ?_
    rw [sub_self, abs_zero, add_sub_add_right_eq_sub]
    exact max_le (abs_nonneg _) le_rfl
  · unfold subtract
    refine (abs_max_sub_max_le_max 0 (x - y) 0 (z - y)).trans ?_
    rw [sub_self, abs_zero, sub_sub_sub_cancel_right]
    exact max_le (abs_nonneg _) le_rfl
  · unfold darken
    refine (abs_min_sub_min_le_max x y z y).trans ?_
    rw [sub_self, abs_zero]
    exact max_le le_rfl (abs_nonneg _)
  · unfold lighten
    refine (abs_max_sub_max_le_max x y z y).trans ?_
    rw [sub_self, abs_zero]
    exact max_le le_rfl (abs_nonneg _)
  · unfold grainExtract
    refine (abs_min_sub_min_le_max 1 _ 1 _).trans ?_
    rw [sub_self, abs_zero]
    refine max_le (abs_nonneg _) ((abs_max_sub_max_le_max 0 _ 0 _).trans ?_)
    rw [sub_self, abs_zero]
    refine max_le (abs_nonneg _) ?_
    rw [show x - y + mid - (z - y + mid) = x - z by ring]

theorem gentle_fading {m : Mode} {φ} (h : (m, φ) ∈ gentle) : m ∉ unfading ∧ m ≠ Mode.dissolve ∧ m ≠ Mode.behind := by
  simp only [gentle, List.mem_cons, List.not_mem_nil, or_false, Prod.mk.injEq] at h
  rcases h with ⟨rfl, -⟩ | ⟨rfl, -⟩ | ⟨rfl, -⟩ | ⟨rfl, -⟩ | ⟨rfl, -⟩ | ⟨rfl, -⟩ | ⟨rfl, -⟩ | ⟨rfl, -⟩ | ⟨rfl, -⟩ <;> decide

/-- over something opaque: a blend with a number less than one step from the formula's -/
theorem gentle_form {m : Mode} {φ} (h : (m, φ) ∈ gentle) (b : Color) (hb : b.toNRGBA.a = 0xffff) (t : Color) :
    ∃ c f, composite 0 m b t = some (.nrgba64 c) ∧ c.a = 0xffff ∧ f ≤ 65535 ∧
      c.r.toNat = blendNat 65535 b.toNRGBA.r.toNat t.toNRGBA.a.toNat f ∧ |(f : ℚ) / 65535 - φ (unit b.toNRGBA.r) (unit t.toNRGBA.r)| ≤ 1 / 65535 := by
  have hb' : b.toNRGBA.a.toNat = 65535 := u16_full_nat.1 hb
  have hb0 : b.toNRGBA.a ≠ 0 := by rw [hb]; decide
  by_cases h0 : m = 0
  · have hφ : φ = fun _ y => y := by
      subst h0
      simp only [gentle, List.mem_cons, List.not_mem_nil, or_false, Prod.mk.injEq] at h
      rcases h with h | h | h | h | h | h | h | h | h
      · exact h.2
      all_goals exact absurd h.1 (by decide)
    subst h0
    obtain ⟨c, hc, h1, h2, h3, h4⟩ := compositeNormal_eq b.toNRGBA t.toNRGBA (fun h => hb0 h.1)
    rw [hb'] at h1 h4
    refine ⟨c, t.toNRGBA.r.toNat, ?_, u16_full_nat.2 (by rw [h4]; simp [cover]), u16_le _, h1, ?_⟩
    · show composite 0 Mode.normal b t = _
      rw [composite_normal, hc]; rfl
    · rw [hφ]
      unfold unit
      rw [sub_self, abs_zero]
      norm_num
  · have hm : ∃ rnd, (m, φ, rnd) ∈ channelSpec := by
      simp only [gentle, List.mem_cons, List.not_mem_nil, or_false, Prod.mk.injEq] at h
      rcases h with h | ⟨rfl, rfl⟩ | ⟨rfl, rfl⟩ | ⟨rfl, rfl⟩ | ⟨rfl, rfl⟩ | ⟨rfl, rfl⟩ | ⟨rfl, rfl⟩ | ⟨rfl, rfl⟩ | ⟨rfl, rfl⟩
      · exact absurd h.1 h0
      · exact ⟨false, by simp [channelSpec]⟩
      · exact ⟨true, by simp [channelSpec]⟩
      all_goals exact ⟨false, by simp [channelSpec]⟩
    obtain ⟨rnd, hm⟩ := hm
    obtain ⟨f, hf, hs⟩ := channelSpec_ok hm
    rw [composite_channels hf]
    obtain ⟨c, hc, ha, hr, -⟩ := compositeChannels_eq f b.toNRGBA t.toNRGBA hb0
    rw [hb', Nat.min_eq_right (u16_le t.toNRGBA.a)] at hr
    refine ⟨c, _, hc, ha.trans hb, u16_le _, hr, ?_⟩
    have hv := hs b.toNRGBA.r t.toNRGBA.r
    generalize φ (unit b.toNRGBA.r) (unit t.toNRGBA.r) = q at *
    generalize (f b.toNRGBA.r t.toNRGBA.r).toNat = v at *
    have near : |(v : ℚ) - 65535 * q| ≤ 1 := by
      have hv' : (v : ℚ) = (((v : ℤ) : ℚ)) := by norm_cast
      rw [hv', hv]
      cases rnd
      · show |((down q : ℤ) : ℚ) - _| ≤ 1
        unfold down
        have h1 := Int.floor_le (65535 * q)
        have h2 := Int.lt_floor_add_one (65535 * q)
        rw [abs_le]
        constructor <;> linarith
      · show |((up q : ℤ) : ℚ) - _| ≤ 1
        unfold up
        have h1 := Int.le_ceil (65535 * q)
        have h2 := Int.ceil_lt_add_one (65535 * q)
        rw [abs_le]
        constructor <;> linarith
    rw [show (v : ℚ) / 65535 - q = ((v : ℚ) - 65535 * q) / 65535 by ring, abs_div, abs_of_pos (by norm_num : (0 : ℚ) < 65535)]
    exact div_le_div_of_nonneg_right near (by norm_num)

/-- the error of one coat -/
theorem coat_error {v x z f α α' φx φz E ε : ℚ} (hα0 : 0 ≤ α) (hα1 : α ≤ 1) (hx0 : 0 ≤ x) (hx1 : x ≤ 1) (hf0 : 0 ≤ f) (hf1 : f ≤ 1)
    (hv : |v - ((1 - α') * x + α' * f)| ≤ 2 * ε) (hα : |α' - α| ≤ ε) (hf : |f - φx| ≤ ε) (hφ : |φx - φz| ≤ |x - z|) (hz : |x - z| ≤ E) :
    |v - ((1 - α) * z + α * φz)| ≤ E + 4 * ε := by
  have hε : 0 ≤ ε := (abs_nonneg _).trans hα
  have e : v - ((1 - α) * z + α * φz) = (v - ((1 - α') * x + α' * f)) + (α' - α) * (f - x) + α * (f - φx) + ((1 - α) * (x - z) + α * (φx - φz)) := by ring
  have h1 : |(α' - α) * (f - x)| ≤ ε := by
    rw [abs_mul]
    have : |f - x| ≤ 1 := by rw [abs_le]; constructor <;> linarith
    calc |α' - α| * |f - x| ≤ ε * 1 := mul_le_mul hα this (abs_nonneg _) hε
      _ = ε := mul_one ε
  have h2 : |α * (f - φx)| ≤ ε := by
    rw [abs_mul, abs_of_nonneg hα0]
    calc α * |f - φx| ≤ 1 * ε := mul_le_mul hα1 hf (abs_nonneg _) (by norm_num)
      _ = ε := one_mul ε
  have h3 : |(1 - α) * (x - z) + α * (φx - φz)| ≤ E := by
    refine (abs_add_le _ _).trans ?_
    rw [abs_mul, abs_mul, abs_of_nonneg hα0, abs_of_nonneg (by linarith : 0 ≤ 1 - α)]
    have a1 := mul_le_mul_of_nonneg_left hz (by linarith : 0 ≤ 1 - α)
    have a2 := mul_le_mul_of_nonneg_left (hφ.trans hz) hα0
    linarith
  rw [e]
  refine (abs_add_le _ _).trans ?_
  have h4 := (abs_add_le ((v - ((1 - α') * x + α' * f)) + (α' - α) * (f - x)) (α * (f - φx)))
  have h5 := (abs_add_le (v - ((1 - α') * x + α' * f)) ((α' - α) * (f - x)))
  linarith

theorem coat_step {m : Mode} {φ} (h : (m, φ) ∈ gentle) (b : Color) (hb : b.toNRGBA.a = 0xffff) (t : Color) (tr : UInt8) {z E : ℚ}
    (hz : |unit b.toNRGBA.r - z| ≤ E) :
    ∃ c, composite 0 m b (transparency t (255 - tr)) = some (.nrgba64 c) ∧ c.a = 0xffff ∧
      |unit c.r - ((1 - (1 - tr.toNat / 255) * unit t.toNRGBA.a) * z + (1 - tr.toNat / 255) * unit t.toNRGBA.a * φ z (unit t.toNRGBA.r))| ≤
        E + 4 * (1 / 65535) := by
  have htr := u8_le tr
  have ho : (255 - tr).toNat = 255 - tr.toNat := UInt8.toNat_sub_of_le _ _ (UInt8.le_iff_toNat_le.2 htr)
  have hoq : (((255 - tr).toNat : Nat) : ℚ) = 255 - tr.toNat := by rw [ho, Nat.cast_sub htr]; norm_num
  have hA := unit_between t.toNRGBA.a
  have hbp := byte_part tr
  have hcov0 : 0 ≤ (1 - (tr.toNat : ℚ) / 255) * unit t.toNRGBA.a := mul_nonneg (by linarith) hA.1
  have hcov1 : (1 - (tr.toNat : ℚ) / 255) * unit t.toNRGBA.a ≤ 1 := mul_le_one₀ (by linarith) hA.1 hA.2
  obtain ⟨c, f, hc, ha, hf1, hr, hf⟩ := gentle_form h b hb (transparency t (255 - tr))
  have hal := transparency_alpha t (255 - tr)
  have haF := u16_le (transparency t (255 - tr)).toNRGBA.a
  refine ⟨c, hc, ha, ?_⟩
  have hx := unit_between b.toNRGBA.r
  obtain ⟨v1, v2⟩ := fade_bounds (transparency t (255 - tr)).toNRGBA.a.toNat b.toNRGBA.r.toNat f haF
  rw [← hr] at v1 v2
  have v1' : (65535 : ℚ) * c.r.toNat ≤ 65535 * b.toNRGBA.r.toNat + (transparency t (255 - tr)).toNRGBA.a.toNat * (f - b.toNRGBA.r.toNat) := by exact_mod_cast v1
  have v2' : (65535 : ℚ) * b.toNRGBA.r.toNat + (transparency t (255 - tr)).toNRGBA.a.toNat * (f - b.toNRGBA.r.toNat) ≤ 65535 * c.r.toNat + 2 * 65534 := by
    exact_mod_cast v2
  have hv : |unit c.r - ((1 - unit (transparency t (255 - tr)).toNRGBA.a) * unit b.toNRGBA.r + unit (transparency t (255 - tr)).toNRGBA.a * ((f : ℚ) / 65535))| ≤
      2 * (1 / 65535) := by
    unfold unit
    rw [show (c.r.toNat : ℚ) / 65535 - ((1 - ((transparency t (255 - tr)).toNRGBA.a.toNat : ℚ) / 65535) * ((b.toNRGBA.r.toNat : ℚ) / 65535) +
        ((transparency t (255 - tr)).toNRGBA.a.toNat : ℚ) / 65535 * ((f : ℚ) / 65535)) =
      (65535 * (c.r.toNat : ℚ) - (65535 * b.toNRGBA.r.toNat + (transparency t (255 - tr)).toNRGBA.a.toNat * (f - b.toNRGBA.r.toNat))) / 65535 / 65535 by ring,
      abs_div, abs_div, abs_of_pos (by norm_num : (0 : ℚ) < 65535), div_div, div_le_iff₀ (by norm_num), abs_le]
    constructor <;> linarith
  have hα : |unit (transparency t (255 - tr)).toNRGBA.a - (1 - (tr.toNat : ℚ) / 255) * unit t.toNRGBA.a| ≤ 1 / 65535 := by
    have hfl := Nat.div_add_mod ((255 - tr).toNat * t.toNRGBA.a.toNat) 255
    have hm := Nat.mod_lt ((255 - tr).toNat * t.toNRGBA.a.toNat) (show 0 < 255 by decide)
    rw [← hal] at hfl
    generalize (255 - tr).toNat * t.toNRGBA.a.toNat % 255 = k at *
    have hfl' : (255 : ℚ) * (transparency t (255 - tr)).toNRGBA.a.toNat + k = (255 - tr.toNat) * t.toNRGBA.a.toNat := by
      rw [← hoq]; exact_mod_cast hfl
    have hk0 : (0 : ℚ) ≤ k := by positivity
    have hk1 : (k : ℚ) ≤ 255 := by exact_mod_cast hm.le
    unfold unit
    rw [show ((transparency t (255 - tr)).toNRGBA.a.toNat : ℚ) / 65535 - (1 - (tr.toNat : ℚ) / 255) * ((t.toNRGBA.a.toNat : ℚ) / 65535) = -(k / 255 / 65535) by
      field_simp; linarith]
    rw [abs_neg, abs_of_nonneg (by positivity)]
    rw [div_le_div_iff_of_pos_right (by norm_num), div_le_one (by norm_num)]
    exact hk1
  by_cases h0 : 255 - tr = 0
  · -- the layer is fully transparent
    have ht : tr.toNat = 255 := by
      rw [h0] at ho
      have : (0 : UInt8).toNat = 0 := rfl
      omega
    have ha0 : (transparency t (255 - tr)).toNRGBA.a.toNat = 0 := by rw [hal, h0]; simp
    have e : c.r.toNat = b.toNRGBA.r.toNat := by
      rw [hr, ha0]
      simp [blendNat, mixK]
    have e1 : unit c.r = unit b.toNRGBA.r := by unfold unit; rw [e]
    rw [e1, ht]
    have e2 : (1 : ℚ) - ((255 : Nat) : ℚ) / 255 = 0 := by norm_num
    rw [e2, zero_mul, zero_mul, sub_zero, one_mul, add_zero]
    linarith
  · have hsh := (transparency_shade t (255 - tr) h0).1
    rw [hsh] at hf
    exact coat_error hcov0 hcov1 hx.1 hx.2 (by positivity) (by rw [div_le_one (by norm_num)]; exact_mod_cast hf1) hv hα hf
      (gentle_lipschitz h (unit_between _).1 (unit_between _).2) hz

/-- **C147**: where the lower layers show something opaque, and the colours of the upper layers do not depend on random numbers, red is at most four steps per
upper layer that shows from what exact arithmetic gives.  Missing: green and blue (refuted below). -/
theorem C147_red_partial : DrawnExactly NRGBA64.r := by
  intro ρ upper lower ks p n hk hcm hlow c0 n0 h0 hc0
  rw [at_group]
  rw [at_group, layersAt_flag lower (hlow.trans hcm.symm)] at h0
  generalize groupModel (upper ++ lower) = cm at h0 hcm ⊢
  clear hlow
  induction hk with
  | nil =>
    refine ⟨c0, h0, hc0, ?_⟩
    rw [coated, sub_self, abs_zero]
    positivity
  | hidden hs _ ih =>
    obtain ⟨c, hc, ha, he⟩ := ih
    refine ⟨c, ?_, ha, he⟩
    rw [List.cons_append, layersAt_cons, hc, Option.bind_some]
    exact drawLayer_hidden _ _ hs
  | @shown l g ks φ t hs hm hcol _ ih =>
    obtain ⟨b, hb, ha, he⟩ := ih
    obtain ⟨c, hc, hca, hce⟩ := coat_step hm b ha t l.transparency he
    refine ⟨.nrgba64 c, ?_, hca, ?_⟩
    · rw [List.cons_append, layersAt_cons, hb, Option.bind_some]
      dsimp only
      rw [drawLayer_shows _ _ hs]
      cases cm with
      | none => cases hcm
      | some cm =>
        have hp : cm.isPalette = false := by simpa using hcm
        have hl : layerAt ρ l p n0 = some (transparency t (255 - l.transparency), n0) := by
          unfold layerAt
          rw [hcol n0]
          rfl
        rw [Option.bind_some, hl, Option.bind_some]
        dsimp only
        rw [if_neg (by simp [hp]), if_neg (gentle_fading hm).2.1, hc]
        rfl
    · show |unit c.r - _| ≤ _
      rw [coated]
      refine hce.trans (le_of_eq ?_)
      rw [List.length_cons]
      push_cast
      ring

/-- two layers, to be put on a third -/
def exactUpper : List Layer :=
  [⟨[], ⟨0, 0, 4, 4⟩, Mode.screen, false, 20, plainLeaf (.nrgba 9 80 200 99) .other⟩, ⟨[], ⟨0, 0, 4, 4⟩, Mode.difference, false, 0, plainLeaf (.lrgb 70 60 50) .other⟩]

example : ∃ ks, Coats NRGBA64.r (fun _ => 3) ⟨1, 1⟩ exactUpper ks ∧ ks.length = 2 ∧
    (groupModel (exactUpper ++ belowFaded)).map ColorModel.isPalette = some false ∧ (groupModel belowFaded).map ColorModel.isPalette = some false ∧
    ∃ c n, Img.at (fun _ => 3) (.group belowFaded) ⟨1, 1⟩ 0 = some (c, n) ∧ c.toNRGBA.a = 0xffff := by
  refine ⟨_, .shown (c := .nrgba 9 80 200 99) (φ := screen) ⟨rfl, by unfold inRect; decide⟩ (by simp [gentle, Mode.screen]) ?_
    (.shown (c := .lrgb 70 60 50) (φ := difference) ⟨rfl, by unfold inRect; decide⟩ (by simp [gentle, Mode.difference]) ?_ .nil), rfl, ?_, ?_,
    ⟨_, _, by cbv, by decide⟩⟩
  · intro n; unfold plainLeaf; rw [Img.at]; rfl
  · intro n; unfold plainLeaf; rw [Img.at]; rfl
  · unfold exactUpper plainLeaf
    rw [List.cons_append, groupModel_cons, Img.colorModel]
    rfl
  · unfold belowFaded plainLeaf
    rw [groupModel_cons, Img.colorModel]
    rfl

/-- a red layer -/
def redGround : List Layer := [⟨[], ⟨0, 0, 4, 4⟩, Mode.normal, false, 0, plainLeaf (.lrgb 255 0 0) .other⟩]

/-- a white Multiply layer -/
def whiteMultiply : List Layer := [⟨[], ⟨0, 0, 4, 4⟩, Mode.multiply, false, 0, plainLeaf (.gray 255) .other⟩]

/-- **C147** is false of green and blue: a white Multiply layer over red makes white, as the red below is used for all channels. -/
theorem C147_refuted : ¬ DrawnExactly NRGBA64.g ∧ ¬ DrawnExactly NRGBA64.b := by
  have h0 : Img.at (fun _ => 3) (.group redGround) ⟨1, 1⟩ 0 = some (.nrgba64 ⟨0xffff, 0, 0, 0xffff⟩, 0) := by cbv
  have h1 : Img.at (fun _ => 3) (.group (whiteMultiply ++ redGround)) ⟨1, 1⟩ 0 = some (.nrgba64 ⟨0xffff, 0xffff, 0xffff, 0xffff⟩, 0) := by cbv
  have m0 : (groupModel redGround).map ColorModel.isPalette = some false := by
    unfold redGround plainLeaf
    rw [groupModel_cons, Img.colorModel]; rfl
  have m1 : (groupModel (whiteMultiply ++ redGround)).map ColorModel.isPalette = some false := by
    unfold whiteMultiply plainLeaf
    rw [List.cons_append, groupModel_cons, Img.colorModel]; rfl
  have hk : ∀ ch, Coats ch (fun _ => 3) ⟨1, 1⟩ whiteMultiply [⟨multiply, unit (ch (Color.gray 255).toNRGBA), (1 - (0 : UInt8).toNat / 255) * unit (Color.gray 255).toNRGBA.a⟩] := by
    intro ch
    refine .shown ⟨rfl, by unfold inRect; decide⟩ (by simp [gentle, Mode.multiply]) ?_ .nil
    intro n; unfold plainLeaf; rw [Img.at]; rfl
  have e : (Color.gray 255).toNRGBA = ⟨0xffff, 0xffff, 0xffff, 0xffff⟩ := by decide
  have u1 : unit 0xffff = 1 := by unfold unit; rw [ffff16]; norm_num
  have u0 : unit 0 = 0 := by unfold unit; simp
  constructor <;> intro h <;> obtain ⟨c, hc, -, he⟩ := h _ _ _ _ _ 0 (hk _) m1 m0 _ _ h0 rfl <;> rw [h1] at hc <;> injection hc with hc <;>
    injection hc with hc _ <;> rw [← hc] at he <;> revert he
  · show ¬ |unit 0xffff - coated _ (unit 0)| ≤ _
    rw [u1, u0, e]
    simp only [coated, multiply, u1, List.length_singleton]
    norm_num
  · show ¬ |unit 0xffff - coated _ (unit 0)| ≤ _
    rw [u1, u0, e]
    simp only [coated, multiply, u1, List.length_singleton]
    norm_num

end Limage
