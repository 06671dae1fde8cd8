import Verif.Props.Merged
import Mathlib.Tactic.LinearCombination
import Mathlib.Tactic.Linarith
import Mathlib.Tactic.Positivity
import Mathlib.Tactic.Ring
import Mathlib.Tactic.FieldSimp
import Mathlib.Tactic.FinCases
/-!
# Normal layers are drawn with the over operator (C103)

The specification knows only premultiplied light: intensities and coverage as rational numbers.  What the code computes in 16 bits
without premultiplication is compared with it.
-/
namespace Limage.Spec

/-- premultiplied light of a pixel: intensities and coverage, as fractions of full intensity -/
structure Light where
  r : ℚ
  g : ℚ
  b : ℚ
  a : ℚ

/-- the `RGBA()` values of a colour as light -/
def lightOf (q : RGBA32) : Light :=
  ⟨q.r.toNat / 65535, q.g.toNat / 65535, q.b.toNat / 65535, q.a.toNat / 65535⟩

/-- the over operator: what is below is seen as far as what is above does not cover it -/
def over (below top : Light) : Light :=
  ⟨top.r + (1 - top.a) * below.r, top.g + (1 - top.a) * below.g, top.b + (1 - top.a) * below.b,
    top.a + (1 - top.a) * below.a⟩

/-- colours one over the other, the first on top -/
def flatten : List Color → Light
  | [] => ⟨0, 0, 0, 0⟩
  | t :: rest => over (flatten rest) (lightOf t.rgba32)

/-- no intensity differs by more than `e` units of 1/65535, and the coverage is at most `k` units too large -/
def LightClose (e k : ℚ) (x y : Light) : Prop :=
  |x.r - y.r| ≤ e / 65535 ∧ |x.g - y.g| ≤ e / 65535 ∧ |x.b - y.b| ≤ e / 65535 ∧
    y.a ≤ x.a ∧ x.a - y.a ≤ k / 65535

end Limage.Spec

namespace Limage
open Spec

/-- a channel times the alpha of its colour -/
def shine (x a : Nat) : ℚ := (x : ℚ) * a / 65535 / 65535

/-- the rounding of `blend` and of its alpha together is less than four units of premultiplied light -/
theorem blend_over {a1 a2 x1 x2 : Nat} (ha1 : a1 ≤ 65535) (ha2 : a2 ≤ 65535) (hx1 : x1 ≤ 65535) (hx2 : x2 ≤ 65535)
    (h : ¬ (a1 = 0 ∧ a2 = 0)) :
    |shine (blendNat a1 x1 a2 x2) (cover a1 a2) - (shine x2 a2 + (1 - (a2 : ℚ) / 65535) * shine x1 a1)| ≤ 3 / 65535 := by
  have hd0 : 0 < cover a1 a2 := Nat.pos_of_ne_zero fun e => h ((cover_eq_zero ha1 ha2).1 e)
  have hdN : cover a1 a2 ≤ 65535 := cover_le
  have hk : mixK a1 a2 ≤ 65535 := mixK_le ha1 ha2
  -- the three divisions
  have hcov : 65535 * cover a1 a2 + (65535 - a1) * (65535 - a2) =
      65535 * 65535 + (65535 - a1) * (65535 - a2) % 65535 := by
    have h1 := Nat.div_add_mod ((65535 - a1) * (65535 - a2)) 65535
    have h2 : (65535 - a1) * (65535 - a2) / 65535 ≤ 65535 := le_trans (prod_div_le (by omega)) (by omega)
    unfold cover
    generalize (65535 - a1) * (65535 - a2) = P at *
    omega
  have hs3 : (65535 - a1) * (65535 - a2) % 65535 < 65535 := Nat.mod_lt _ (by decide)
  have hkd : mixK a1 a2 * cover a1 a2 + 65535 * a2 % cover a1 a2 = 65535 * a2 := by
    have := Nat.div_add_mod (65535 * a2) (cover a1 a2)
    rw [Nat.mul_comm] at this
    exact this
  have hr : 65535 * a2 % cover a1 a2 < cover a1 a2 := Nat.mod_lt _ hd0
  have hu := Nat.div_add_mod ((65535 - mixK a1 a2) * x1) 65535
  have hs1 := Nat.mod_lt ((65535 - mixK a1 a2) * x1) (show 0 < 65535 by decide)
  have hv := Nat.div_add_mod (mixK a1 a2 * x2) 65535
  have hs2 := Nat.mod_lt (mixK a1 a2 * x2) (show 0 < 65535 by decide)
  unfold shine blendNat
  generalize (65535 - a1) * (65535 - a2) % 65535 = s3 at *
  generalize 65535 * a2 % cover a1 a2 = r at *
  generalize (65535 - mixK a1 a2) * x1 % 65535 = s1 at *
  generalize mixK a1 a2 * x2 % 65535 = s2 at *
  generalize (65535 - mixK a1 a2) * x1 / 65535 = u at *
  generalize mixK a1 a2 * x2 / 65535 = v at *
  generalize mixK a1 a2 = k at *
  generalize cover a1 a2 = d at *
  have hcov' : (65535 : ℚ) * d + (65535 - a1) * (65535 - a2) = 65535 * 65535 + s3 := by
    have := congrArg (Nat.cast (R := ℚ)) hcov
    push_cast [ha1, ha2] at this
    linarith
  have hkd' : (k : ℚ) * d + r = 65535 * a2 := by exact_mod_cast hkd
  have hu' : (65535 : ℚ) * u + s1 = (65535 - k) * x1 := by
    have := congrArg (Nat.cast (R := ℚ)) hu
    push_cast [hk] at this
    exact this
  have hv' : (65535 : ℚ) * v + s2 = k * x2 := by exact_mod_cast hv
  have key : (65535 : ℚ) * ((u + v) * d) - (65535 * (a2 * x2) + (65535 - a2) * (a1 * x1)) =
      x1 * s3 - (x2 - x1) * r - (s1 + s2) * d := by
    linear_combination (d : ℚ) * hu' + d * hv' + x1 * hcov' + (x2 - x1) * hkd'
  have cast : ∀ {a b : Nat}, a ≤ b → (a : ℚ) ≤ b := fun h => by exact_mod_cast h
  have c1 : (0 : ℚ) ≤ x1 * s3 ∧ (x1 : ℚ) * s3 ≤ 65535 * 65535 := by
    have : x1 * s3 ≤ 65535 * 65535 := Nat.mul_le_mul hx1 (by omega)
    exact ⟨by positivity, by exact_mod_cast this⟩
  have c2 : (0 : ℚ) ≤ x2 * r ∧ (x2 : ℚ) * r ≤ 65535 * 65535 := by
    have : x2 * r ≤ 65535 * 65535 := Nat.mul_le_mul hx2 (by omega)
    exact ⟨by positivity, by exact_mod_cast this⟩
  have c3 : (0 : ℚ) ≤ x1 * r ∧ (x1 : ℚ) * r ≤ 65535 * 65535 := by
    have : x1 * r ≤ 65535 * 65535 := Nat.mul_le_mul hx1 (by omega)
    exact ⟨by positivity, by exact_mod_cast this⟩
  have c4 : (0 : ℚ) ≤ (s1 + s2) * d ∧ ((s1 : ℚ) + s2) * d ≤ 2 * (65535 * 65535) := by
    have : (s1 + s2) * d ≤ (2 * 65535) * 65535 := Nat.mul_le_mul (by omega) hdN
    refine ⟨by positivity, ?_⟩
    have h : ((s1 : ℚ) + s2) * d ≤ (2 * 65535) * 65535 := by exact_mod_cast this
    linarith
  have e : ((u + v : Nat) : ℚ) * d / 65535 / 65535 -
      ((x2 : ℚ) * a2 / 65535 / 65535 + (1 - (a2 : ℚ) / 65535) * ((x1 : ℚ) * a1 / 65535 / 65535)) =
      (x1 * s3 - (x2 - x1) * r - (s1 + s2) * d) / (65535 * 65535 * 65535) := by
    rw [← key]
    push_cast
    field_simp
  rw [e, abs_le]
  constructor
  · rw [le_div_iff₀ (by norm_num)]
    nlinarith
  · rw [div_le_iff₀ (by norm_num)]
    nlinarith

/-- alpha is rounded up -/
theorem cover_over {a1 a2 : Nat} (ha1 : a1 ≤ 65535) (ha2 : a2 ≤ 65535) :
    (a2 : ℚ) / 65535 + (1 - (a2 : ℚ) / 65535) * ((a1 : ℚ) / 65535) ≤ (cover a1 a2 : ℚ) / 65535 ∧
      (cover a1 a2 : ℚ) / 65535 - ((a2 : ℚ) / 65535 + (1 - (a2 : ℚ) / 65535) * ((a1 : ℚ) / 65535)) ≤ 1 / 65535 := by
  have hcov : 65535 * cover a1 a2 + (65535 - a1) * (65535 - a2) =
      65535 * 65535 + (65535 - a1) * (65535 - a2) % 65535 := by
    have h1 := Nat.div_add_mod ((65535 - a1) * (65535 - a2)) 65535
    have h2 : (65535 - a1) * (65535 - a2) / 65535 ≤ 65535 := le_trans (prod_div_le (by omega)) (by omega)
    unfold cover
    generalize (65535 - a1) * (65535 - a2) = P at *
    omega
  have hs3 : (65535 - a1) * (65535 - a2) % 65535 < 65535 := Nat.mod_lt _ (by decide)
  generalize (65535 - a1) * (65535 - a2) % 65535 = s3 at *
  generalize cover a1 a2 = d at *
  have hcov' : (65535 : ℚ) * d + (65535 - a1) * (65535 - a2) = 65535 * 65535 + s3 := by
    have := congrArg (Nat.cast (R := ℚ)) hcov
    push_cast [ha1, ha2] at this
    linarith
  have hs : (s3 : ℚ) ≤ 65535 := by exact_mod_cast hs3.le
  have hs0 : (0 : ℚ) ≤ s3 := by positivity
  have e : (d : ℚ) / 65535 - ((a2 : ℚ) / 65535 + (1 - (a2 : ℚ) / 65535) * ((a1 : ℚ) / 65535)) = s3 / (65535 * 65535) := by
    field_simp
    linear_combination hcov'
  constructor
  · have : (0 : ℚ) ≤ s3 / (65535 * 65535) := by positivity
    linarith
  · rw [e, div_le_div_iff₀ (by norm_num) (by norm_num)]
    linarith

/-- light of a colour as the compositing functions see it -/
def nrgbaLight (c : NRGBA64) : Light :=
  ⟨shine c.r.toNat c.a.toNat, shine c.g.toNat c.a.toNat, shine c.b.toNat c.a.toNat, (c.a.toNat : ℚ) / 65535⟩

theorem shine_floor {x a q : Nat} (h1 : x * a / 65535 ≤ q) (h2 : q ≤ x * a / 65535 + 1) :
    |shine x a - (q : ℚ) / 65535| ≤ 1 / 65535 := by
  have h := Nat.div_add_mod (x * a) 65535
  have hm := Nat.mod_lt (x * a) (show 0 < 65535 by decide)
  unfold shine
  generalize x * a / 65535 = f at *
  generalize x * a % 65535 = m at *
  have h' : (65535 : ℚ) * f + m = x * a := by exact_mod_cast h
  have hm' : (m : ℚ) ≤ 65535 := by exact_mod_cast hm.le
  have hm0 : (0 : ℚ) ≤ m := by positivity
  have h1' : (f : ℚ) ≤ q := by exact_mod_cast h1
  have h2' : (q : ℚ) ≤ f + 1 := by exact_mod_cast h2
  have e : (x : ℚ) * a / 65535 / 65535 - (q : ℚ) / 65535 = (65535 * f + m - 65535 * q) / (65535 * 65535) := by
    rw [h']; field_simp
  rw [e, abs_le]
  constructor
  · rw [le_div_iff₀ (by norm_num)]; linarith
  · rw [div_le_iff₀ (by norm_num)]; linarith

/-- C72 as light -/
theorem light_close (c : Color) (hv : Premul c.rgba32) :
    |(nrgbaLight c.toNRGBA).r - (lightOf c.rgba32).r| ≤ 1 / 65535 ∧
    |(nrgbaLight c.toNRGBA).g - (lightOf c.rgba32).g| ≤ 1 / 65535 ∧
    |(nrgbaLight c.toNRGBA).b - (lightOf c.rgba32).b| ≤ 1 / 65535 ∧
    (nrgbaLight c.toNRGBA).a = (lightOf c.rgba32).a := by
  obtain ⟨ha, hr, hg, hb⟩ := C72_faithful c hv
  rw [NRGBA64.rgba_r] at hr
  rw [NRGBA64.rgba_g] at hg
  rw [NRGBA64.rgba_b] at hb
  refine ⟨shine_floor hr.1 hr.2, shine_floor hg.1 hg.2, shine_floor hb.1 hb.2, ?_⟩
  show ((c.toNRGBA.a.toNat : ℚ)) / 65535 = _
  rw [ha]; rfl

/-- one channel: the errors of the colour below, of the colour above and of the blending add up -/
theorem channel_error {o t b q f at' e : ℚ} (h0 : 0 ≤ at') (h1 : at' ≤ 1) (h : |o - (t + (1 - at') * b)| ≤ 3 / 65535)
    (ht : |t - q| ≤ 1 / 65535) (hb : |b - f| ≤ e / 65535) : |o - (q + (1 - at') * f)| ≤ (e + 4) / 65535 := by
  rw [abs_le] at h ht hb ⊢
  have he : (0 : ℚ) ≤ e / 65535 := by linarith [hb.1, hb.2]
  have m1 : (1 - at') * (b - f) ≤ e / 65535 := by
    have : (1 - at') * (b - f) ≤ (1 - at') * (e / 65535) := mul_le_mul_of_nonneg_left hb.2 (by linarith)
    nlinarith
  have m2 : -(e / 65535) ≤ (1 - at') * (b - f) := by
    have : (1 - at') * (-(e / 65535)) ≤ (1 - at') * (b - f) := mul_le_mul_of_nonneg_left hb.1 (by linarith)
    nlinarith
  have e1 : (e + 4) / 65535 = e / 65535 + 4 / 65535 := by ring
  rw [e1]
  constructor <;> linarith

/-- one colour over what has been drawn -/
theorem normal_over (draw : UInt16) (b t : Color) (hv : Premul t.rgba32) (f : Light) (e k : ℚ)
    (hf : LightClose e k (nrgbaLight b.toNRGBA) f) :
    ∃ c, composite draw Mode.normal b t = some (.nrgba64 c) ∧
      LightClose (e + 4) (k + 1) (nrgbaLight c) (over f (lightOf t.rgba32)) := by
  obtain ⟨hr, hg, hb, ha, hk⟩ := hf
  obtain ⟨tr, tg, tb, ta⟩ := light_close t hv
  have ta0 : (0 : ℚ) ≤ (t.toNRGBA.a.toNat : ℚ) / 65535 := by positivity
  have ta1 : (t.toNRGBA.a.toNat : ℚ) / 65535 ≤ 1 := by
    rw [div_le_one (by norm_num)]
    exact_mod_cast u16_le _
  have hta : (lightOf t.rgba32).a = (t.toNRGBA.a.toNat : ℚ) / 65535 := ta.symm
  rw [composite_normal]
  have alpha : ∀ d : ℚ,
      (t.toNRGBA.a.toNat : ℚ) / 65535 + (1 - (t.toNRGBA.a.toNat : ℚ) / 65535) * ((b.toNRGBA.a.toNat : ℚ) / 65535) ≤ d →
      d - ((t.toNRGBA.a.toNat : ℚ) / 65535 + (1 - (t.toNRGBA.a.toNat : ℚ) / 65535) * ((b.toNRGBA.a.toNat : ℚ) / 65535)) ≤ 1 / 65535 →
      (over f (lightOf t.rgba32)).a ≤ d ∧ d - (over f (lightOf t.rgba32)).a ≤ (k + 1) / 65535 := by
    intro d h1 h2
    have e1 : (over f (lightOf t.rgba32)).a = (lightOf t.rgba32).a + (1 - (lightOf t.rgba32).a) * f.a := rfl
    have e2 : (k + 1) / 65535 = k / 65535 + 1 / 65535 := by ring
    rw [e1, e2, hta]
    have hba : (nrgbaLight b.toNRGBA).a = (b.toNRGBA.a.toNat : ℚ) / 65535 := rfl
    rw [hba] at ha hk
    generalize (t.toNRGBA.a.toNat : ℚ) / 65535 = A at *
    generalize (b.toNRGBA.a.toNat : ℚ) / 65535 = B at *
    have m1 : (1 - A) * f.a ≤ (1 - A) * B := mul_le_mul_of_nonneg_left ha (by linarith)
    have m2 : (1 - A) * (B - f.a) ≤ (1 - A) * (k / 65535) := mul_le_mul_of_nonneg_left hk (by linarith)
    have m3 : (1 - A) * (k / 65535) ≤ k / 65535 := by
      have : (0 : ℚ) ≤ k / 65535 := by linarith
      nlinarith
    constructor <;> linarith
  by_cases h : b.toNRGBA.a = 0 ∧ t.toNRGBA.a = 0
  · refine ⟨⟨0, 0, 0, 0⟩, by rw [compositeNormal, if_pos h]; rfl, ?_⟩
    have hb0 : b.toNRGBA.a.toNat = 0 := by rw [h.1]; rfl
    have ht0 : t.toNRGBA.a.toNat = 0 := by rw [h.2]; rfl
    have z : ∀ x : Nat, shine x 0 = 0 := fun x => by simp [shine]
    have ch : ∀ x1 x2 : Nat, ∀ q g : ℚ, |shine x2 t.toNRGBA.a.toNat - q| ≤ 1 / 65535 →
        |shine x1 b.toNRGBA.a.toNat - g| ≤ e / 65535 → |shine 0 0 - (q + (1 - (t.toNRGBA.a.toNat : ℚ) / 65535) * g)| ≤ (e + 4) / 65535 := by
      intro x1 x2 q g h1 h2
      refine channel_error ta0 ta1 ?_ h1 h2
      rw [hb0, ht0, z, z, z]
      norm_num
    have al := alpha 0 (by rw [hb0, ht0]; norm_num) (by rw [hb0, ht0]; norm_num)
    refine ⟨?_, ?_, ?_, ?_, ?_⟩
    · have := ch _ _ _ _ tr hr
      rw [← hta] at this
      exact this
    · have := ch _ _ _ _ tg hg
      rw [← hta] at this
      exact this
    · have := ch _ _ _ _ tb hb
      rw [← hta] at this
      exact this
    · show _ ≤ ((0 : ℕ) : ℚ) / 65535
      simpa using al.1
    · show ((0 : ℕ) : ℚ) / 65535 - _ ≤ _
      simpa using al.2
  · obtain ⟨c, hc, cr, cg, cb, ca⟩ := compositeNormal_eq _ _ h
    refine ⟨c, by rw [hc]; rfl, ?_⟩
    have h' : ¬ (b.toNRGBA.a.toNat = 0 ∧ t.toNRGBA.a.toNat = 0) := fun e => h ⟨u16_zero_nat.2 e.1, u16_zero_nat.2 e.2⟩
    have al := cover_over (u16_le b.toNRGBA.a) (u16_le t.toNRGBA.a)
    have al := alpha _ al.1 al.2
    rw [← ca] at al
    have ch : ∀ (o : Nat) (x1 x2 : UInt16) (q g : ℚ), o = blendNat b.toNRGBA.a.toNat x1.toNat t.toNRGBA.a.toNat x2.toNat →
        |shine x2.toNat t.toNRGBA.a.toNat - q| ≤ 1 / 65535 →
        |shine x1.toNat b.toNRGBA.a.toNat - g| ≤ e / 65535 →
        |shine o c.a.toNat - (q + (1 - (lightOf t.rgba32).a) * g)| ≤ (e + 4) / 65535 := by
      intro o x1 x2 q g ho h1 h2
      rw [hta, ho, ca]
      exact channel_error ta0 ta1 (blend_over (u16_le _) (u16_le _) (u16_le _) (u16_le _) h') h1 h2
    exact ⟨ch _ _ _ _ _ cr tr hr, ch _ _ _ _ _ cg tg hg, ch _ _ _ _ _ cb tb hb, al.1, al.2⟩

/-- the last rounding: from the colour to its `RGBA()` -/
theorem rgba_light (c : NRGBA64) (f : Light) (e k : ℚ) (h : LightClose e k (nrgbaLight c) f) :
    LightClose (e + 1) k (lightOf (Color.nrgba64 c).rgba32) f := by
  obtain ⟨hr, hg, hb, ha, hk⟩ := h
  obtain ⟨r1, g1, b1, a1⟩ := light_close (.nrgba64 c) (NRGBA64.premul c)
  have e1 : (e + 1) / 65535 = e / 65535 + 1 / 65535 := by ring
  have ch : ∀ {x y z : ℚ}, |x - y| ≤ 1 / 65535 → |x - z| ≤ e / 65535 → |y - z| ≤ (e + 1) / 65535 := by
    intro x y z h1 h2
    rw [e1]
    rw [abs_le] at *
    constructor <;> linarith [h1.1, h1.2, h2.1, h2.2]
  exact ⟨ch r1 hr, ch g1 hg, ch b1 hb, by rw [← a1]; exact ha, by rw [← a1]; exact hk⟩

/-- **C103**: Normal compositing of two colours is the over operator on their `RGBA()` values; no channel is off by more than six
units of 1/65535, and alpha is exact up to rounding upwards. -/
theorem C103_pair (draw : UInt16) (b t : Color) (hb : Premul b.rgba32) (ht : Premul t.rgba32) :
    ∃ c, composite draw Mode.normal b t = some c ∧
      LightClose 6 1 (lightOf c.rgba32) (over (lightOf b.rgba32) (lightOf t.rgba32)) := by
  obtain ⟨br, bg, bb, ba⟩ := light_close b hb
  obtain ⟨c, hc, h⟩ := normal_over draw b t ht (lightOf b.rgba32) 1 0 ⟨br, bg, bb, ba.ge, by rw [ba]; norm_num⟩
  refine ⟨_, hc, ?_⟩
  have := rgba_light c _ _ _ h
  norm_num at this
  exact this

-- red that covers a fifth over blue that covers two fifths
example : Premul (Color.rgba64 0 0 26214 26214).rgba32 ∧ Premul (Color.rgba64 13107 0 0 13107).rgba32 ∧
    over (lightOf (Color.rgba64 0 0 26214 26214).rgba32) (lightOf (Color.rgba64 13107 0 0 13107).rgba32) = ⟨1 / 5, 0, 8 / 25, 13 / 25⟩ := by
  have e1 : (Color.rgba64 0 0 26214 26214).rgba32 = ⟨0, 0, 26214, 26214⟩ := by decide
  have e2 : (Color.rgba64 13107 0 0 13107).rgba32 = ⟨13107, 0, 0, 13107⟩ := by decide
  rw [e1, e2]
  refine ⟨by simp [Premul], by simp [Premul], ?_⟩
  simp only [over, lightOf, UInt32.toNat_ofNat]
  norm_num

/-- **C103**: any number of Normal colours drawn one over the other: the errors add up to at most four units for each colour. -/
theorem C103_stack (cs : List Color) (hcs : ∀ c ∈ cs, Premul c.rgba32) :
    ∃ c, paint (cs.map fun c => (Mode.normal, c)) = some c ∧
      LightClose (4 * cs.length + 1) cs.length (lightOf c.rgba32) (flatten cs) := by
  suffices h : ∃ c, paint (cs.map fun c => (Mode.normal, c)) = some c ∧ (c = .alpha 0 ∧ cs = [] ∨ ∃ n, c = .nrgba64 n) ∧
      LightClose (4 * cs.length) cs.length (nrgbaLight c.toNRGBA) (flatten cs) by
    obtain ⟨c, hc, hn, h⟩ := h
    refine ⟨c, hc, ?_⟩
    rcases hn with ⟨rfl, rfl⟩ | ⟨n, rfl⟩
    · simp [LightClose, flatten, lightOf, Color.rgba32, widen32]
    · exact rgba_light n _ _ _ h
  induction cs with
  | nil =>
    refine ⟨.alpha 0, rfl, .inl ⟨rfl, rfl⟩, ?_⟩
    have : (Color.alpha 0).toNRGBA = ⟨0, 0, 0, 0⟩ := by decide
    rw [this]
    simp [LightClose, flatten, nrgbaLight, shine]
  | cons t cs ih =>
    obtain ⟨b, hb, -, h⟩ := ih fun c hc => hcs c (List.mem_cons_of_mem _ hc)
    obtain ⟨c, hc, h⟩ := normal_over 0 b t (hcs t (List.mem_cons_self ..)) _ _ _ h
    refine ⟨.nrgba64 c, ?_, .inr ⟨c, rfl⟩, ?_⟩
    · rw [List.map_cons, paint, hb, Option.bind_some, hc]
    · rw [List.length_cons]
      have e1 : (4 * ((cs.length + 1 : ℕ) : ℚ)) = 4 * (cs.length : ℚ) + 4 := by push_cast; ring
      have e2 : ((cs.length + 1 : ℕ) : ℚ) = (cs.length : ℚ) + 1 := by push_cast; ring
      rw [e1, e2]
      exact h

example : ∀ c ∈ [Color.nrgba 255 0 0 128, .gray 7, .alpha 3], Premul c.rgba32 := by
  intro c hc
  fin_cases hc <;> simp only [Premul] <;> decide

/-- **C103**: a picture of Normal layers: each pixel is what the over operator makes of the pixels of the layers that show there,
up to four units for each of them. -/
theorem C103_picture (ρ : Nat → UInt16) (g : List Layer) (p : Pt) (n : Nat)
    (cm : ColorModel) (hcm : groupModel g = some cm) (hpal : cm.isPalette = false) (hmode : ∀ l ∈ g, l.mode = Mode.normal)
    (pix : Layer → Color) (hpix : ∀ l ∈ g, shows p l → ∀ n, layerAt ρ l p n = some (pix l, n))
    (hprop : ∀ l ∈ g, shows p l → Premul (pix l).rgba32) :
    ∃ c m, Img.at ρ (.group g) p n = some (c, m) ∧
      (open Classical in
        LightClose (4 * (g.filter fun l => decide (shows p l)).length + 1) (g.filter fun l => decide (shows p l)).length
          (lightOf c.rgba32) (flatten ((g.filter fun l => decide (shows p l)).map pix))) := by
  classical
  have h := C26_painted_in_order ρ g p n cm hcm hpal pix hpix (fun l hl => by rw [hmode l hl]; decide)
  have e : ((g.filter fun l => decide (shows p l)).map fun l => (l.mode, pix l)) =
      ((g.filter fun l => decide (shows p l)).map pix).map fun c => (Mode.normal, c) := by
    rw [List.map_map]
    apply List.map_congr_left
    intro l hl
    rw [hmode l (List.mem_filter.1 hl).1]; rfl
  obtain ⟨c, hc, hl⟩ := C103_stack ((g.filter fun l => decide (shows p l)).map pix) (by
    intro c hc
    obtain ⟨l, hl, rfl⟩ := List.mem_map.1 hc
    have := List.mem_filter.1 hl
    exact hprop l this.1 (by simpa using this.2))
  rw [e, hc] at h
  obtain ⟨⟨c', m⟩, hc', rfl⟩ := Option.map_eq_some_iff.1 h
  refine ⟨_, m, hc', ?_⟩
  rw [List.length_map] at hl
  exact hl

-- a half transparent layer over an opaque one
example : groupModel [exLayer ⟨0, 0, 2, 2⟩ Mode.normal (.nrgba 1 2 3 128), exLayer ⟨0, 0, 1, 1⟩ Mode.normal (.gray 9)] = some .other ∧
    ∀ l ∈ [exLayer ⟨0, 0, 2, 2⟩ Mode.normal (.nrgba 1 2 3 128), exLayer ⟨0, 0, 1, 1⟩ Mode.normal (.gray 9)],
      l.mode = Mode.normal ∧ shows ⟨0, 0⟩ l ∧
      ∃ c, (∀ n, layerAt (fun _ => 0) l ⟨0, 0⟩ n = some (c, n)) ∧ Premul c.rgba32 := by
  refine ⟨by rfl, ?_⟩
  intro l hl
  fin_cases hl
  · refine ⟨rfl, by simp [shows, exLayer, inRect], .nrgba 1 2 3 128, fun n => ?_, by simp only [Premul]; decide⟩
    simp only [layerAt, exLayer, exLeaf]
    rw [Img.at]
    simp [transparency]
  · refine ⟨rfl, by simp [shows, exLayer, inRect], .gray 9, fun n => ?_, by simp only [Premul]; decide⟩
    simp only [layerAt, exLayer, exLeaf]
    rw [Img.at]
    simp [transparency]

end Limage
