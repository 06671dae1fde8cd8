import Verif.Props.Component
/-! C153: the modes Color and Luminosity. -/
namespace Limage
namespace Spec

/-- half the sum of the brightest and the darkest channel -/
def lightness (c : NRGBA64) : Rat := (peak c + darkest c) / 2

/-- the saturation that goes with it: the chroma as a share of the largest that the lightness allows -/
def purity (c : NRGBA64) : Rat := chroma c / (65535 - |peak c + darkest c - 65535|)

/-- `c` has the alpha, the hue and the saturation of `x` and the lightness of `y`, up to a deviation of 1000 of 65535 -/
def Recoloured (x y c : NRGBA64) : Prop :=
  c.a = x.a ∧ |lightness c - lightness y| ≤ 1000 ∧ |chroma c - purity x * (65535 - |peak y + darkest y - 65535|)| ≤ 1000 ∧
    (chroma x ≠ 0 → chroma c ≠ 0 → HuesNear (1000 / chroma c) (hexHue c) (hexHue x))

end Spec

open Spec

theorem hcma_shape (hue c m a : UInt16) (hs : c.toNat + m.toNat ≤ 65535) :
    peak (hcmaToColour hue.toUInt32 c.toUInt32 m a) = ((m.toNat + c.toNat : Nat) : Rat) ∧
    chroma (hcmaToColour hue.toUInt32 c.toUInt32 m a) = (c.toNat : Rat) ∧
    (chroma (hcmaToColour hue.toUInt32 c.toUInt32 m a) ≠ 0 →
      HuesNear (1 / chroma (hcmaToColour hue.toUInt32 c.toUInt32 m a)) (hexHue (hcmaToColour hue.toUInt32 c.toUInt32 m a)) (6 * (hue.toNat : Rat) / 65535)) := by
  have turn : ∀ hue : UInt16, hue.toNat < 65535 →
      peak (hcmaToColour hue.toUInt32 c.toUInt32 m a) = ((m.toNat + c.toNat : Nat) : Rat) ∧
      chroma (hcmaToColour hue.toUInt32 c.toUInt32 m a) = (c.toNat : Rat) ∧
      (chroma (hcmaToColour hue.toUInt32 c.toUInt32 m a) ≠ 0 →
        HuesNear (1 / chroma (hcmaToColour hue.toUInt32 c.toUInt32 m a)) (hexHue (hcmaToColour hue.toUInt32 c.toUInt32 m a))
          (6 * (hue.toNat : Rat) / 65535)) := by
    intro hue hlt
    obtain ⟨g1, g2, g3⟩ := hcma_nat hue c m a hlt hs
    rcases Nat.eq_zero_or_pos c.toNat with h0 | hpos
    · rw [h0, Nat.mul_zero, Nat.zero_div, Nat.add_zero] at g1 g2 g3
      have k1 : peak (hcmaToColour hue.toUInt32 c.toUInt32 m a) = ((m.toNat + c.toNat : Nat) : Rat) := by
        rw [peak, nat_max3, g1, g2, g3, h0]; simp
      have k2 : chroma (hcmaToColour hue.toUInt32 c.toUInt32 m a) = (c.toNat : Rat) := by
        rw [chroma, peak, darkest, nat_max3, nat_min3, g1, g2, g3, h0]; simp
      refine ⟨k1, k2, fun h => absurd ?_ h⟩
      rw [k2, h0]; rfl
    · obtain ⟨k1, k2, k3⟩ := hex_of _ m.toNat c.toNat (6 * hue.toNat) hpos (by omega) g1 g2 g3
      refine ⟨k1, k2, fun _ => ?_⟩
      rw [k2]
      simpa using k3
  have lh := u16_le hue
  rcases Nat.lt_or_ge hue.toNat 65535 with hlt | hge
  · exact turn hue hlt
  · have ee : hue = 0xffff := UInt16.toNat_inj.1 (by show _ = 65535; omega)
    subst ee
    have e0 : hcmaToColour (0xffff : UInt16).toUInt32 c.toUInt32 m a = hcmaToColour (0 : UInt16).toUInt32 c.toUInt32 m a := rfl
    obtain ⟨k1, k2, k3⟩ := turn 0 (by decide)
    rw [e0]
    refine ⟨k1, k2, fun hne => ?_⟩
    obtain ⟨k, hk⟩ := k3 hne
    refine ⟨k + 1, ?_⟩
    have q0 : UInt16.toNat 0 = 0 := rfl
    have q1 : UInt16.toNat 0xffff = 65535 := rfl
    rw [q0] at hk
    rw [q1]
    push_cast at hk ⊢
    rw [show ∀ x : Rat, x - 6 * 65535 / 65535 + 6 * (k + 1) = x - 6 * 0 / 65535 + 6 * k by intro x; ring]
    exact hk

/-- what the colour of hue, saturation and lightness looks like where nothing wraps around -/
theorem hsl_shape (h : HSLA) (hl : 16384 ≤ h.l.toNat) (C : Nat) (hC : C = 2 * h.l.toNat * h.s.toNat / 65535) (hroom : h.l.toNat - C / 4 + C ≤ 65535) :
    peak h.toNRGBA = ((h.l.toNat - C / 4 + C : Nat) : Rat) ∧ chroma h.toNRGBA = (C : Rat) ∧
      (chroma h.toNRGBA ≠ 0 → HuesNear (1 / chroma h.toNRGBA) (hexHue h.toNRGBA) (6 * (h.h.toNat : Rat) / 65535)) := by
  obtain ⟨hh, s, l, a⟩ := h
  dsimp only at *
  have ll := u16_le l
  have ls := u16_le s
  have hCl : C ≤ 2 * l.toNat := by
    rw [hC]
    exact prod_div_le' ls
  by_cases hs : s = 0
  · subst hs
    have e : HSLA.toNRGBA ⟨hh, 0, l, a⟩ = ⟨l, l, l, a⟩ := by rw [HSLA.toNRGBA, if_pos rfl]
    have hC0 : C = 0 := by
      rw [hC]
      show 2 * l.toNat * 0 / 65535 = 0
      simp
    subst hC0
    have k : chroma ⟨l, l, l, a⟩ = 0 := by rw [chroma, peak, darkest, nat_max3, nat_min3]; simp
    rw [e]
    refine ⟨?_, by rw [k]; rfl, fun h => absurd k h⟩
    rw [peak, nat_max3]; simp
  · have h2l : (l.toUInt32 <<< 1).toNat = 2 * l.toNat := by
      rw [UInt32.toNat_shiftLeft, toNat_16_32]
      simp [Nat.shiftLeft_eq]
      omega
    have hbr : ¬ l.toUInt32 <<< 1 < 0x7fff := by
      rw [UInt32.lt_iff_toNat_lt, h2l]
      show ¬ _ < 32767
      omega
    have e : HSLA.toNRGBA ⟨hh, s, l, a⟩ = hcmaToColour hh.toUInt32 (l.toUInt32 <<< 1 * s.toUInt32 / 0xffff)
        (l - ((l.toUInt32 <<< 1 * s.toUInt32 / 0xffff) >>> 2).toUInt16) a := by
      rw [HSLA.toNRGBA, if_neg hs]
      dsimp only
      rw [if_neg hbr]
    rw [e]
    have hmul : 2 * l.toNat * s.toNat < 2 ^ 32 := by
      clear e hbr h2l
      generalize 2 * l.toNat * s.toNat = P at *
      omega
    have hcn : (l.toUInt32 <<< 1 * s.toUInt32 / 0xffff).toNat = C := by
      rw [UInt32.toNat_div, mul32 _ _ (by rw [h2l, toNat_16_32]; exact hmul), h2l, toNat_16_32, hC]; rfl
    generalize l.toUInt32 <<< 1 * s.toUInt32 / 0xffff = c32 at *
    have hC16 : C ≤ 65535 := by omega
    have ec : c32 = c32.toUInt16.toUInt32 := by
      apply UInt32.toNat_inj.1
      rw [toNat_16_32, to16 _ (by omega)]
    have hcn' : c32.toUInt16.toNat = C := by rw [to16 _ (by omega), hcn]
    have hq : (c32 >>> 2).toUInt16.toNat = C / 4 := by
      have : (c32 >>> 2).toNat = C / 4 := by
        rw [UInt32.toNat_shiftRight, hcn]
        simp [Nat.shiftRight_eq_div_pow]
      rw [to16] <;> rw [this]; omega
    have hm : (l - (c32 >>> 2).toUInt16).toNat = l.toNat - C / 4 := by
      rw [sub16 _ _ (by omega), hq]
    have := hcma_shape hh c32.toUInt16 (l - (c32 >>> 2).toUInt16) a (by omega)
    rw [← ec, hm, hcn'] at this
    exact this

theorem purity_is (x : NRGBA64) (p : HSLA) (hp : rgbToHSL x = some p) :
    p.a = x.a ∧ IsFloor p.l (lightness x) ∧ IsFloor p.s (65535 * purity x) ∧ (chroma x ≠ 0 → IsHue p.h (hexHue x)) := by
  obtain ⟨p', e, ha, hl, h0, h1⟩ := C150_hsl x
  rw [hp] at e
  injection e with e
  subst e
  refine ⟨ha, hl, ?_, fun h => (h1 h).2⟩
  by_cases hc : chroma x = 0
  · rw [(h0 hc).2, purity, hc, zero_div, mul_zero]
    exact ⟨le_refl _, by show (0 : Rat) < ((0 : Nat) : Rat) + 1; norm_num⟩
  · exact (h1 hc).1

/-- hue and saturation of one colour with the lightness of another, where nothing wraps around -/
theorem recoloured (x y : NRGBA64) (p q : HSLA) (hp : rgbToHSL x = some p) (hq : rgbToHSL y = some q)
    (hlo : 16384 ≤ lightness y) (hroom : lightness y * (1 + 3 / 2 * purity x) ≤ 65535) :
    let c := HSLA.toNRGBA ⟨p.h, p.s, q.l, p.a⟩
    c.a = x.a ∧ |chroma c - 2 * lightness y * purity x| ≤ 5 ∧ |lightness c - (lightness y + chroma c / 4)| ≤ 1 ∧
      (chroma x ≠ 0 → chroma c ≠ 0 → HuesNear (1 / chroma c + 6 / 65535) (hexHue c) (hexHue x)) := by
  intro c
  obtain ⟨ha, -, ⟨s1, s2⟩, hh⟩ := purity_is x p hp
  obtain ⟨-, ⟨l1, l2⟩, -, -⟩ := purity_is y q hq
  have ls := u16_le p.s
  have ll := u16_le q.l
  obtain ⟨C, hC⟩ : ∃ C, C = 2 * q.l.toNat * p.s.toNat / 65535 := ⟨_, rfl⟩
  have hlo' : 16384 ≤ q.l.toNat := by
    have : (16384 : Rat) < ((q.l.toNat + 1 : Nat) : Rat) := by push_cast; linarith
    have : 16384 < q.l.toNat + 1 := by exact_mod_cast this
    omega
  generalize lightness y = Y at *
  generalize purity x = P at *
  have f1 : 65535 * C ≤ 2 * q.l.toNat * p.s.toNat := by omega
  have f2 : 2 * q.l.toNat * p.s.toNat < 65535 * C + 65535 := by omega
  have f1' : (65535 * C : Rat) ≤ 2 * q.l.toNat * p.s.toNat := by exact_mod_cast f1
  have f2' : (2 * q.l.toNat * p.s.toNat : Rat) < 65535 * C + 65535 := by exact_mod_cast f2
  have s0 : (0 : Rat) ≤ p.s.toNat := Nat.cast_nonneg _
  have l0 : (0 : Rat) ≤ q.l.toNat := Nat.cast_nonneg _
  have s9 : (p.s.toNat : Rat) ≤ 65535 := by exact_mod_cast ls
  have l9 : (q.l.toNat : Rat) ≤ 65535 := by exact_mod_cast ll
  have P0 : 0 ≤ P := by linarith
  have up : (C : Rat) ≤ 2 * Y * P := by
    have : (q.l.toNat : Rat) * p.s.toNat ≤ Y * (65535 * P) := mul_le_mul l1 s1 s0 (by linarith)
    linarith
  have low : 2 * Y * P ≤ C + 5 := by
    have : Y * (65535 * P) ≤ (q.l.toNat + 1) * (p.s.toNat + 1) := mul_le_mul (le_of_lt l2) (le_of_lt s2) (by linarith) (by linarith)
    nlinarith
  have hfit : q.l.toNat - C / 4 + C ≤ 65535 := by
    have hr : (q.l.toNat : Rat) + 3 / 4 * C ≤ 65535 := by linarith
    have hr' : ((4 * q.l.toNat + 3 * C : Nat) : Rat) ≤ ((262140 : Nat) : Rat) := by push_cast; linarith
    have : 4 * q.l.toNat + 3 * C ≤ 262140 := by exact_mod_cast hr'
    omega
  obtain ⟨k1, k2, k3⟩ := hsl_shape ⟨p.h, p.s, q.l, p.a⟩ hlo' C hC hfit
  change peak c = _ at k1
  change chroma c = _ at k2
  change chroma c ≠ 0 → HuesNear (1 / chroma c) (hexHue c) _ at k3
  have hCl : C / 4 ≤ q.l.toNat := by
    have : C ≤ 2 * q.l.toNat := by rw [hC]; exact prod_div_le' ls
    omega
  refine ⟨?_, ?_, ?_, fun h1 h2 => near_is (k3 h2) (hh h1)⟩
  · show (HSLA.toNRGBA ⟨p.h, p.s, q.l, p.a⟩).a = x.a
    rw [HSLA.toNRGBA_a, ha]
  · rw [k2, abs_le]
    constructor <;> linarith
  · have hd : darkest c = peak c - chroma c := by rw [chroma]; ring
    rw [lightness, hd, k1, k2]
    have d1 : 4 * (C / 4) ≤ C := by omega
    have d2 : C ≤ 4 * (C / 4) + 3 := by omega
    generalize C / 4 = D at *
    have d1' : (4 * D : Rat) ≤ C := by exact_mod_cast d1
    have d2' : (C : Rat) ≤ 4 * D + 3 := by exact_mod_cast d2
    rw [Nat.cast_add, Nat.cast_sub hCl, abs_le]
    constructor <;> linarith

/-- a grey has no hue to give -/
theorem greyed (x y : NRGBA64) (p q : HSLA) (hp : rgbToHSL x = some p) (hq : rgbToHSL y = some q) (hg : chroma x = 0) :
    ∃ w, IsFloor w (lightness y) ∧ HSLA.toNRGBA ⟨p.h, p.s, q.l, p.a⟩ = ⟨w, w, w, x.a⟩ := by
  obtain ⟨p', e, ha, -, h0, -⟩ := C150_hsl x
  rw [hp] at e
  injection e with e
  subst e
  refine ⟨q.l, (purity_is y q hq).2.1, ?_⟩
  rw [HSLA.toNRGBA, if_pos (h0 hg).2]
  dsimp only
  rw [ha]

/-- Color, what holds of it: the result has the alpha and the hue of the layer.  Its chroma is twice the lightness of what is below times the saturation
of the layer, and its lightness is that of what is below, raised by a quarter of that chroma.  This is so where what is below has a lightness of at least a
quarter and no channel gets brighter than white.
Missing: the lightness of what is below, for which a half of the chroma had to be subtracted (lcolor/hsl.go:66), and what becomes of dark and bright
colours, of which channels wrap around; `C153_refuted` shows that the full claim is false. -/
theorem C153_color_partial (draw : UInt16) (b t : Color) (hlo : 16384 ≤ lightness b.toNRGBA)
    (hroom : lightness b.toNRGBA * (1 + 3 / 2 * purity t.toNRGBA) ≤ 65535) :
    ∃ c, composite draw Mode.color b t = some c ∧ c.toNRGBA.a = t.toNRGBA.a ∧
      |chroma c.toNRGBA - 2 * lightness b.toNRGBA * purity t.toNRGBA| ≤ 5 ∧
      |lightness c.toNRGBA - (lightness b.toNRGBA + chroma c.toNRGBA / 4)| ≤ 1 ∧
      (chroma t.toNRGBA ≠ 0 → chroma c.toNRGBA ≠ 0 →
        HuesNear (1 / chroma c.toNRGBA + 6 / 65535) (hexHue c.toNRGBA) (hexHue t.toNRGBA)) := by
  obtain ⟨-, -, lb, lt, -, -, e1, e2, -, -, e3, -⟩ := C70_components draw b t
  exact ⟨_, e3, recoloured t.toNRGBA b.toNRGBA lt lb e2 e1 hlo hroom⟩

/-- Luminosity, what holds of it: the result has the alpha and the hue of what is below, and so on as for Color. -/
theorem C153_luminosity_partial (draw : UInt16) (b t : Color) (hlo : 16384 ≤ lightness t.toNRGBA)
    (hroom : lightness t.toNRGBA * (1 + 3 / 2 * purity b.toNRGBA) ≤ 65535) :
    ∃ c, composite draw Mode.luminosity b t = some c ∧ c.toNRGBA.a = b.toNRGBA.a ∧
      |chroma c.toNRGBA - 2 * lightness t.toNRGBA * purity b.toNRGBA| ≤ 5 ∧
      |lightness c.toNRGBA - (lightness t.toNRGBA + chroma c.toNRGBA / 4)| ≤ 1 ∧
      (chroma b.toNRGBA ≠ 0 → chroma c.toNRGBA ≠ 0 →
        HuesNear (1 / chroma c.toNRGBA + 6 / 65535) (hexHue c.toNRGBA) (hexHue b.toNRGBA)) := by
  obtain ⟨-, -, lb, lt, -, -, e1, e2, -, -, -, e3, -⟩ := C70_components draw b t
  exact ⟨_, e3, recoloured b.toNRGBA t.toNRGBA lb lt e1 e2 hlo hroom⟩

/-- A grey layer in mode Color turns what is below into the grey of its lightness, with the alpha of the layer; a layer in mode Luminosity
turns a grey into the grey of the layer's lightness, with the alpha of what is below. -/
theorem C153_grey (draw : UInt16) (b t : Color) :
    (chroma t.toNRGBA = 0 → ∃ c w, composite draw Mode.color b t = some c ∧ IsFloor w (lightness b.toNRGBA) ∧ c.toNRGBA = ⟨w, w, w, t.toNRGBA.a⟩) ∧
    (chroma b.toNRGBA = 0 → ∃ c w, composite draw Mode.luminosity b t = some c ∧ IsFloor w (lightness t.toNRGBA) ∧ c.toNRGBA = ⟨w, w, w, b.toNRGBA.a⟩) := by
  obtain ⟨-, -, lb, lt, -, -, e1, e2, -, -, e3, e4, -⟩ := C70_components draw b t
  refine ⟨fun h => ?_, fun h => ?_⟩
  · obtain ⟨w, h1, h2⟩ := greyed t.toNRGBA b.toNRGBA lt lb e2 e1 h
    exact ⟨_, w, e3, h1, h2⟩
  · obtain ⟨w, h1, h2⟩ := greyed b.toNRGBA t.toNRGBA lb lt e1 e2 h
    exact ⟨_, w, e4, h1, h2⟩

/-- a dark orange on a grey of three eighths: the conditions are met, and the result is an orange that is lighter than the grey -/
example : 16384 ≤ lightness ⟨0x6000, 0x6000, 0x6000, 0xffff⟩ ∧
    lightness ⟨0x6000, 0x6000, 0x6000, 0xffff⟩ * (1 + 3 / 2 * purity ⟨0x6000, 0x4000, 0x2000, 0xffff⟩) ≤ 65535 ∧
    chroma ⟨0x6000, 0x4000, 0x2000, 0xffff⟩ ≠ 0 ∧
    (composite 0 Mode.color (.nrgba64 ⟨0x6000, 0x6000, 0x6000, 0xffff⟩) (.nrgba64 ⟨0x6000, 0x4000, 0x2000, 0xffff⟩)).map Color.toNRGBA =
      some ⟨43008, 30719, 18433, 0xffff⟩ := by
  have e1 : UInt16.toNat 0x6000 = 24576 := rfl
  have e2 : UInt16.toNat 0x4000 = 16384 := rfl
  have e3 : UInt16.toNat 0x2000 = 8192 := rfl
  refine ⟨?_, ?_, ?_, by decide⟩ <;> simp only [lightness, purity, chroma, peak, darkest, nat_max3, nat_min3, e1, e2, e3] <;> norm_num
/-- greys -/
example : chroma ⟨0x6000, 0x6000, 0x6000, 0xffff⟩ = 0 := by
  rw [chroma, peak, darkest, nat_max3, nat_min3]; simp

/-- the full claim of Color is false: a red layer makes a medium grey a darker grey -/
theorem C153_refuted : ¬ (∀ b t : NRGBA64, ∃ c, composite 0 Mode.color (.nrgba64 b) (.nrgba64 t) = some c ∧ Recoloured t b c.toNRGBA) ∧
    ¬ (∀ b t : NRGBA64, ∃ c, composite 0 Mode.luminosity (.nrgba64 b) (.nrgba64 t) = some c ∧ Recoloured b t c.toNRGBA) := by
  have hc : (HSLA.toNRGBA ⟨0, 0xffff, 0x8000, 0xffff⟩) = ⟨0x4000, 0x4000, 0x4000, 0xffff⟩ := by decide
  have e1 : UInt16.toNat 0x8000 = 32768 := rfl
  have e2 : UInt16.toNat 0x4000 = 16384 := rfl
  have bad : ∀ x, ¬ Recoloured x ⟨0x8000, 0x8000, 0x8000, 0xffff⟩ (HSLA.toNRGBA ⟨0, 0xffff, 0x8000, 0xffff⟩) := by
    rintro x ⟨-, h, -⟩
    rw [hc, abs_le] at h
    simp only [lightness, peak, darkest, nat_max3, nat_min3, e1, e2] at h
    norm_num at h
  constructor
  · intro h
    obtain ⟨c, h1, h2⟩ := h ⟨0x8000, 0x8000, 0x8000, 0xffff⟩ ⟨0xffff, 0, 0, 0xffff⟩
    have : composite 0 Mode.color (.nrgba64 ⟨0x8000, 0x8000, 0x8000, 0xffff⟩) (.nrgba64 ⟨0xffff, 0, 0, 0xffff⟩) = some (.hsla 0 0xffff 0x8000 0xffff) := by decide
    rw [this] at h1
    injection h1 with h1
    subst h1
    exact bad _ h2
  · intro h
    obtain ⟨c, h1, h2⟩ := h ⟨0xffff, 0, 0, 0xffff⟩ ⟨0x8000, 0x8000, 0x8000, 0xffff⟩
    have : composite 0 Mode.luminosity (.nrgba64 ⟨0xffff, 0, 0, 0xffff⟩) (.nrgba64 ⟨0x8000, 0x8000, 0x8000, 0xffff⟩) = some (.hsla 0 0xffff 0x8000 0xffff) := by decide
    rw [this] at h1
    injection h1 with h1
    subst h1
    exact bad _ h2

end Limage
