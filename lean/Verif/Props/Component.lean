import Verif.Props.Hue
import Verif.Props.Pixel
/-! C152: the modes Hue, Saturation and Value take what they say from the layer. -/
namespace Limage
namespace Spec

/-- two hues, in sixths of a turn, are at most `ε` apart on the circle -/
def HuesNear (ε a b : Rat) : Prop := ∃ k : Int, |a - b + 6 * k| ≤ ε

/-- the saturation of a colour that is not black -/
def saturation (c : NRGBA64) : Rat := chroma c / peak c

end Spec

open Spec

theorem share_near {w C x : Nat} (hC : 0 < C) (hx : x = w * C / 65535) :
    (x : Rat) / C ≤ w / 65535 ∧ (w : Rat) / 65535 < x / C + 1 / C := by
  have hC' : (0 : Rat) < C := by exact_mod_cast hC
  have f1 : x * 65535 ≤ w * C := by omega
  have f2 : w * C < x * 65535 + 65535 := by omega
  have f1' : (x * 65535 : Rat) ≤ w * C := by exact_mod_cast f1
  have f2' : (w * C : Rat) < x * 65535 + 65535 := by exact_mod_cast f2
  constructor
  · rw [div_le_div_iff₀ hC' (by norm_num)]; exact f1'
  · rw [← add_div, div_lt_div_iff₀ (by norm_num) hC']; linarith

theorem hex_of (col : NRGBA64) (m C T : Nat) (hC : 0 < C) (hT : T < 393210)
    (hr : col.r.toNat = m + wR T * C / 65535) (hg : col.g.toNat = m + wG T * C / 65535) (hb : col.b.toNat = m + wB T * C / 65535) :
    peak col = ((m + C : Nat) : Rat) ∧ chroma col = (C : Rat) ∧ HuesNear (1 / C) (hexHue col) ((T : Rat) / 65535) := by
  have hC' : (0 : Rat) < C := by exact_mod_cast hC
  have hCne : (C : Rat) ≠ 0 := ne_of_gt hC'
  have full : 65535 * C / 65535 = C := by omega
  have nil : 0 * C / 65535 = 0 := by omega
  have small : ∀ w, w ≤ 65535 → w * C / 65535 ≤ C := fun w hw => prod_div_le hw
  have less : ∀ w, w < 65535 → w * C / 65535 < C := by
    intro w hw
    have : w * C ≤ 65534 * C := Nat.mul_le_mul_right _ (by omega)
    omega
  have hpk : peak col = ((max col.r.toNat (max col.g.toNat col.b.toNat) : Nat) : Rat) := by rw [peak, nat_max3]
  have hdk : darkest col = ((min col.r.toNat (min col.g.toNat col.b.toNat) : Nat) : Rat) := by rw [darkest, nat_min3]
  -- it suffices to know the extremes and the hue
  have fin : max col.r.toNat (max col.g.toNat col.b.toNat) = m + C → min col.r.toNat (min col.g.toNat col.b.toNat) = m →
      (peak col = ((m + C : Nat) : Rat) → chroma col = (C : Rat) → HuesNear (1 / C) (hexHue col) ((T : Rat) / 65535)) →
      peak col = ((m + C : Nat) : Rat) ∧ chroma col = (C : Rat) ∧ HuesNear (1 / C) (hexHue col) ((T : Rat) / 65535) := by
    intro a b f
    have e1 : peak col = ((m + C : Nat) : Rat) := by rw [hpk, a]
    have e2 : chroma col = (C : Rat) := by rw [chroma, e1, hdk, b]; push_cast; ring
    exact ⟨e1, e2, f e1 e2⟩
  have sect : T / 65535 = 0 ∨ T / 65535 = 1 ∨ T / 65535 = 2 ∨ T / 65535 = 3 ∨ T / 65535 = 4 ∨ T / 65535 = 5 := by omega
  rcases sect with e | e | e | e | e | e
  · have a1 : wR T = 65535 := by unfold wR; rw [if_pos (by omega)]
    have a2 : wG T = T := by unfold wG; rw [if_pos (by omega)]
    have a3 : wB T = 0 := by unfold wB; rw [if_pos (by omega)]
    rw [a1, full] at hr
    rw [a2] at hg
    rw [a3, nil] at hb
    obtain ⟨x, hx⟩ : ∃ x, x = T * C / 65535 := ⟨_, rfl⟩
    have hxC : x ≤ C := by rw [hx]; exact small T (by omega)
    rw [← hx] at hg
    obtain ⟨s1, s2⟩ := share_near hC hx
    refine fin (by omega) (by omega) fun e1 e2 => ⟨0, ?_⟩
    rw [hexHue, e1, e2, if_pos (by rw [hr]), if_pos (by omega), hg, hb]
    rw [show (0 : Rat) + (((m + x : Nat) : Rat) - ((m + 0 : Nat) : Rat)) / C = x / C by push_cast; ring]
    rw [abs_le]
    push_cast
    constructor <;> linarith
  · have a1 : wR T = 131070 - T := by unfold wR; repeat' split
                                      all_goals omega
    have a2 : wG T = 65535 := by unfold wG; repeat' split
                                 all_goals omega
    have a3 : wB T = 0 := by unfold wB; repeat' split
                             all_goals omega
    rw [a1] at hr
    rw [a2, full] at hg
    rw [a3, nil] at hb
    obtain ⟨x, hx⟩ : ∃ x, x = (131070 - T) * C / 65535 := ⟨_, rfl⟩
    have hxC : x ≤ C := by rw [hx]; exact small _ (by omega)
    rw [← hx] at hr
    obtain ⟨s1, s2⟩ := share_near hC hx
    have hw : ((131070 - T : Nat) : Rat) / 65535 = 2 - T / 65535 := by rw [Nat.cast_sub (by omega)]; push_cast; ring
    rw [hw] at s1 s2
    refine fin (by omega) (by omega) fun e1 e2 => ⟨0, ?_⟩
    have hhex : hexHue col = 2 - x / C := by
      rw [hexHue, e1, e2, hr, hg, hb]
      by_cases hxe : x = C
      · rw [if_pos (by rw [hxe]), if_pos (by omega), hxe]
        push_cast
        field_simp
        ring
      · rw [if_neg (by rw [Nat.cast_inj]; omega), if_pos rfl]
        push_cast
        ring
    rw [hhex, abs_le]
    push_cast
    constructor <;> linarith
  · have a1 : wR T = 0 := by unfold wR; repeat' split
                             all_goals omega
    have a2 : wG T = 65535 := by unfold wG; repeat' split
                                 all_goals omega
    have a3 : wB T = T - 131070 := by unfold wB; repeat' split
                                      all_goals omega
    rw [a1, nil] at hr
    rw [a2, full] at hg
    rw [a3] at hb
    obtain ⟨x, hx⟩ : ∃ x, x = (T - 131070) * C / 65535 := ⟨_, rfl⟩
    have hxC : x ≤ C := by rw [hx]; exact small _ (by omega)
    rw [← hx] at hb
    obtain ⟨s1, s2⟩ := share_near hC hx
    have hw : ((T - 131070 : Nat) : Rat) / 65535 = T / 65535 - 2 := by rw [Nat.cast_sub (by omega)]; push_cast; ring
    rw [hw] at s1 s2
    refine fin (by omega) (by omega) fun e1 e2 => ⟨0, ?_⟩
    have hhex : hexHue col = 2 + x / C := by
      rw [hexHue, e1, e2, hr, hg, hb, if_neg (by rw [Nat.cast_inj]; omega), if_pos rfl]
      push_cast
      ring
    rw [hhex, abs_le]
    push_cast
    constructor <;> linarith
  · have a1 : wR T = 0 := by unfold wR; repeat' split
                             all_goals omega
    have a2 : wG T = 262140 - T := by unfold wG; repeat' split
                                      all_goals omega
    have a3 : wB T = 65535 := by unfold wB; repeat' split
                                 all_goals omega
    rw [a1, nil] at hr
    rw [a2] at hg
    rw [a3, full] at hb
    obtain ⟨x, hx⟩ : ∃ x, x = (262140 - T) * C / 65535 := ⟨_, rfl⟩
    have hxC : x ≤ C := by rw [hx]; exact small _ (by omega)
    rw [← hx] at hg
    obtain ⟨s1, s2⟩ := share_near hC hx
    have hw : ((262140 - T : Nat) : Rat) / 65535 = 4 - T / 65535 := by rw [Nat.cast_sub (by omega)]; push_cast; ring
    rw [hw] at s1 s2
    refine fin (by omega) (by omega) fun e1 e2 => ⟨0, ?_⟩
    have hhex : hexHue col = 4 - x / C := by
      rw [hexHue, e1, e2, hr, hg, hb, if_neg (by rw [Nat.cast_inj]; omega)]
      by_cases hxe : x = C
      · rw [if_pos (by rw [hxe]), hxe]
        push_cast
        field_simp
        ring
      · rw [if_neg (by rw [Nat.cast_inj]; omega)]
        push_cast
        ring
    rw [hhex, abs_le]
    push_cast
    constructor <;> linarith
  · have a1 : wR T = T - 262140 := by unfold wR; repeat' split
                                      all_goals omega
    have a2 : wG T = 0 := by unfold wG; repeat' split
                             all_goals omega
    have a3 : wB T = 65535 := by unfold wB; repeat' split
                                 all_goals omega
    rw [a1] at hr
    rw [a2, nil] at hg
    rw [a3, full] at hb
    obtain ⟨x, hx⟩ : ∃ x, x = (T - 262140) * C / 65535 := ⟨_, rfl⟩
    have hxC : x < C := by rw [hx]; exact less _ (by omega)
    rw [← hx] at hr
    obtain ⟨s1, s2⟩ := share_near hC hx
    have hw : ((T - 262140 : Nat) : Rat) / 65535 = T / 65535 - 4 := by rw [Nat.cast_sub (by omega)]; push_cast; ring
    rw [hw] at s1 s2
    refine fin (by omega) (by omega) fun e1 e2 => ⟨0, ?_⟩
    have hhex : hexHue col = 4 + x / C := by
      rw [hexHue, e1, e2, hr, hg, hb, if_neg (by rw [Nat.cast_inj]; omega), if_neg (by rw [Nat.cast_inj]; omega)]
      push_cast
      ring
    rw [hhex, abs_le]
    push_cast
    constructor <;> linarith
  · have a1 : wR T = 65535 := by unfold wR; repeat' split
                                 all_goals omega
    have a2 : wG T = 0 := by unfold wG; repeat' split
                             all_goals omega
    have a3 : wB T = 393210 - T := by unfold wB; repeat' split
                                      all_goals omega
    rw [a1, full] at hr
    rw [a2, nil] at hg
    rw [a3] at hb
    obtain ⟨x, hx⟩ : ∃ x, x = (393210 - T) * C / 65535 := ⟨_, rfl⟩
    have hxC : x ≤ C := by rw [hx]; exact small _ (by omega)
    rw [← hx] at hb
    obtain ⟨s1, s2⟩ := share_near hC hx
    have hw : ((393210 - T : Nat) : Rat) / 65535 = 6 - T / 65535 := by rw [Nat.cast_sub (by omega)]; push_cast; ring
    rw [hw] at s1 s2
    refine fin (by omega) (by omega) fun e1 e2 => ?_
    by_cases hx0 : x = 0
    · refine ⟨1, ?_⟩
      rw [hexHue, e1, e2, hr, hg, hb, if_pos rfl, if_pos (by omega), hx0, abs_le]
      rw [hx0] at s1 s2
      push_cast at s1 s2 ⊢
      rw [sub_self, zero_div] at *
      constructor <;> linarith
    · refine ⟨0, ?_⟩
      have hhex : hexHue col = 6 - x / C := by
        rw [hexHue, e1, e2, hr, hg, hb, if_pos rfl, if_neg (by omega)]
        push_cast
        ring
      rw [hhex, abs_le]
      push_cast
      constructor <;> linarith

/-- what the colour of three components looks like -/
theorem hsv_shape (h : HSVA) :
    peak h.toNRGBA = (h.v.toNat : Rat) ∧ chroma h.toNRGBA = ((h.v.toNat * h.s.toNat / 65535 : Nat) : Rat) ∧
      (chroma h.toNRGBA ≠ 0 → HuesNear (1 / chroma h.toNRGBA) (hexHue h.toNRGBA) (6 * (h.h.toNat : Rat) / 65535)) := by
  obtain ⟨hh, s, v, a⟩ := h
  have lv := u16_le v
  have ls := u16_le s
  have lh := u16_le hh
  have grey : ∀ w : UInt16, peak ⟨w, w, w, a⟩ = (w.toNat : Rat) ∧ chroma ⟨w, w, w, a⟩ = 0 := by
    intro w
    refine ⟨?_, ?_⟩
    · rw [peak, nat_max3]; simp
    · rw [chroma, peak, darkest, nat_max3, nat_min3]; simp
  by_cases hs : s = 0
  · subst hs
    have e : HSVA.toNRGBA ⟨hh, 0, v, a⟩ = ⟨v, v, v, a⟩ := by rw [HSVA.toNRGBA, if_pos rfl]
    rw [e]
    refine ⟨(grey v).1, ?_, fun h => absurd (grey v).2 h⟩
    rw [(grey v).2]
    show (0 : Rat) = ((v.toNat * 0 / 65535 : Nat) : Rat)
    simp
  · have e : HSVA.toNRGBA ⟨hh, s, v, a⟩ = hcmaToColour hh.toUInt32 (v.toUInt32 * s.toUInt32 / 0xffff).toUInt16.toUInt32
        (v - (v.toUInt32 * s.toUInt32 / 0xffff).toUInt16) a := by rw [HSVA.toNRGBA, if_neg hs]
    rw [e]
    have hle := prod_div_le' (a := v.toNat) ls
    have hn : ((v.toUInt32 * s.toUInt32 / 0xffff).toUInt16).toNat = v.toNat * s.toNat / 65535 := by
      have e : (v.toUInt32 * s.toUInt32 / 0xffff).toNat = v.toNat * s.toNat / 65535 := by
        rw [UInt32.toNat_div, mul16]; rfl
      rw [to16 _ (by rw [e]; omega), e]
    generalize (v.toUInt32 * s.toUInt32 / 0xffff).toUInt16 = c at *
    dsimp only
    rw [← hn] at hle ⊢
    have hm : (v - c).toNat = v.toNat - c.toNat := sub16 _ _ hle
    have hsum : c.toNat + (v - c).toNat ≤ 65535 := by omega
    have turn : ∀ hue : UInt16, hue.toNat < 65535 →
        peak (hcmaToColour hue.toUInt32 c.toUInt32 (v - c) a) = (v.toNat : Rat) ∧
        chroma (hcmaToColour hue.toUInt32 c.toUInt32 (v - c) a) = (c.toNat : Rat) ∧
        (chroma (hcmaToColour hue.toUInt32 c.toUInt32 (v - c) a) ≠ 0 →
          HuesNear (1 / chroma (hcmaToColour hue.toUInt32 c.toUInt32 (v - c) a)) (hexHue (hcmaToColour hue.toUInt32 c.toUInt32 (v - c) a))
            (6 * (hue.toNat : Rat) / 65535)) := by
      intro hue hlt
      obtain ⟨g1, g2, g3⟩ := hcma_nat hue c (v - c) a hlt hsum
      rcases Nat.eq_zero_or_pos c.toNat with h0 | hpos
      · rw [h0, Nat.mul_zero, Nat.zero_div, Nat.add_zero] at g1 g2 g3
        have k1 : peak (hcmaToColour hue.toUInt32 c.toUInt32 (v - c) a) = (v.toNat : Rat) := by
          rw [peak, nat_max3, g1, g2, g3, hm, h0]; simp
        have k2 : chroma (hcmaToColour hue.toUInt32 c.toUInt32 (v - c) a) = (c.toNat : Rat) := by
          rw [chroma, peak, darkest, nat_max3, nat_min3, g1, g2, g3, h0]; simp
        refine ⟨k1, k2, fun h => absurd ?_ h⟩
        rw [k2, h0]; rfl
      · obtain ⟨k1, k2, k3⟩ := hex_of _ (v - c).toNat c.toNat (6 * hue.toNat) hpos (by omega) g1 g2 g3
        rw [hm, Nat.sub_add_cancel hle] at k1
        refine ⟨k1, k2, fun _ => ?_⟩
        rw [k2]
        simpa using k3
    rcases Nat.lt_or_ge hh.toNat 65535 with hlt | hge
    · exact turn hh hlt
    · have ee : hh = 0xffff := UInt16.toNat_inj.1 (by show _ = 65535; omega)
      subst ee
      have e0 : hcmaToColour (0xffff : UInt16).toUInt32 c.toUInt32 (v - c) a = hcmaToColour (0 : UInt16).toUInt32 c.toUInt32 (v - c) a := rfl
      obtain ⟨k1, k2, k3⟩ := turn 0 (by decide)
      rw [e0]
      refine ⟨k1, k2, fun hne => ?_⟩
      obtain ⟨k, hk⟩ := k3 hne
      refine ⟨k + 1, ?_⟩
      have q0 : UInt16.toNat 0 = 0 := rfl
      have q1 : UInt16.toNat 0xffff = 65535 := rfl
      rw [q0] at hk
      rw [q1]
      push_cast at hk ⊢
      rw [show ∀ x : Rat, x - 6 * 65535 / 65535 + 6 * (k + 1) = x - 6 * 0 / 65535 + 6 * k by intro x; ring]
      exact hk

/-- hues that are near the same 16-bit hue are near each other -/
theorem near_is {ε x y : Rat} {h : UInt16} (h1 : HuesNear ε x (6 * (h.toNat : Rat) / 65535)) (h2 : IsHue h y) : HuesNear (ε + 6 / 65535) x y := by
  obtain ⟨k, hk⟩ := h1
  obtain ⟨a, b⟩ := h2
  refine ⟨k, ?_⟩
  rw [abs_le] at hk ⊢
  constructor <;> linarith [hk.1, hk.2]

/-- the chroma for a value and the saturation of another colour -/
theorem sat_near (v s : UInt16) (q : Rat) (h : IsFloor s (65535 * q)) :
    |((v.toNat * s.toNat / 65535 : Nat) : Rat) - v.toNat * q| ≤ 2 := by
  obtain ⟨h1, h2⟩ := h
  have lv := u16_le v
  have f1 : 65535 * (v.toNat * s.toNat / 65535) ≤ v.toNat * s.toNat := by omega
  have f2 : v.toNat * s.toNat < 65535 * (v.toNat * s.toNat / 65535) + 65535 := by omega
  generalize v.toNat * s.toNat / 65535 = x at *
  have f1' : (65535 * x : Rat) ≤ v.toNat * s.toNat := by exact_mod_cast f1
  have f2' : (v.toNat * s.toNat : Rat) < 65535 * x + 65535 := by exact_mod_cast f2
  have hv0 : (0 : Rat) ≤ v.toNat := Nat.cast_nonneg _
  have hv1 : (v.toNat : Rat) ≤ 65535 := by exact_mod_cast lv
  have g1 : (v.toNat : Rat) * s.toNat ≤ v.toNat * (65535 * q) := mul_le_mul_of_nonneg_left h1 hv0
  have g2 : (v.toNat : Rat) * (65535 * q) ≤ v.toNat * (s.toNat + 1) := mul_le_mul_of_nonneg_left (le_of_lt h2) hv0
  rw [abs_le]
  constructor <;> linarith

/-- the saturation that RGBToHSV returns is the saturation -/
theorem sat_is (c : NRGBA64) (h : HSVA) (hh : rgbToHSV c = some h) : IsFloor h.s (65535 * saturation c) := by
  obtain ⟨h', e, -, -, h0, h1⟩ := C150_hsv c
  rw [hh] at e
  injection e with e
  subst e
  by_cases hc : chroma c = 0
  · rw [(h0 hc).2, saturation, hc, zero_div, mul_zero]
    exact ⟨le_refl _, by show (0 : Rat) < ((0 : Nat) : Rat) + 1; norm_num⟩
  · exact (h1 hc).1

/-- Saturation: the result is as bright as what is below and has its hue, and the saturation of the layer. -/
theorem C152_saturation (draw : UInt16) (b t : Color) :
    ∃ c, composite draw Mode.saturation b t = some c ∧ c.toNRGBA.a = b.toNRGBA.a ∧ peak c.toNRGBA = peak b.toNRGBA ∧
      |chroma c.toNRGBA - peak c.toNRGBA * saturation t.toNRGBA| ≤ 2 ∧
      (chroma b.toNRGBA ≠ 0 → chroma c.toNRGBA ≠ 0 →
        HuesNear (1 / chroma c.toNRGBA + 6 / 65535) (hexHue c.toNRGBA) (hexHue b.toNRGBA)) := by
  obtain ⟨hb, ht, -, -, e1, e2, -, -, e3, -⟩ := C70_components draw b t
  obtain ⟨b', e, ba, bv, -, bh⟩ := C150_hsv b.toNRGBA
  rw [e1] at e; injection e with e; subst e
  refine ⟨_, e3, ?_⟩
  show (HSVA.toNRGBA ⟨hb.h, ht.s, hb.v, hb.a⟩).a = _ ∧ peak (HSVA.toNRGBA ⟨hb.h, ht.s, hb.v, hb.a⟩) = _ ∧ _
  obtain ⟨p1, p2, p3⟩ := hsv_shape ⟨hb.h, ht.s, hb.v, hb.a⟩
  refine ⟨by rw [HSVA.toNRGBA_a, ba], by rw [p1, bv], ?_, fun h1 h2 => near_is (p3 h2) (bh h1).2⟩
  show |chroma (HSVA.toNRGBA ⟨hb.h, ht.s, hb.v, hb.a⟩) - peak (HSVA.toNRGBA ⟨hb.h, ht.s, hb.v, hb.a⟩) * _| ≤ 2
  rw [p1, p2]
  exact sat_near hb.v ht.s _ (sat_is _ _ e2)

/-- a grey layer in mode Saturation on a dark red: the result is a dark grey; a blue one leaves the red as it is -/
example : composite 0 Mode.saturation (.nrgba64 ⟨0x8000, 0, 0, 0xffff⟩) (.gray 77) = some (.hsva 0 0 0x8000 0xffff) ∧
    (Color.hsva 0 0 0x8000 0xffff).toNRGBA = ⟨0x8000, 0x8000, 0x8000, 0xffff⟩ ∧
    composite 0 Mode.saturation (.nrgba64 ⟨0x8000, 0, 0, 0xffff⟩) (.nrgba64 ⟨0, 0, 9, 0xffff⟩) = some (.hsva 0 0xffff 0x8000 0xffff) := by decide

/-- Value: the result is as bright as the layer, and has the hue and saturation of what is below. -/
theorem C152_value (draw : UInt16) (b t : Color) :
    ∃ c, composite draw Mode.value b t = some c ∧ c.toNRGBA.a = b.toNRGBA.a ∧ peak c.toNRGBA = peak t.toNRGBA ∧
      |chroma c.toNRGBA - peak c.toNRGBA * saturation b.toNRGBA| ≤ 2 ∧
      (chroma b.toNRGBA ≠ 0 → chroma c.toNRGBA ≠ 0 →
        HuesNear (1 / chroma c.toNRGBA + 6 / 65535) (hexHue c.toNRGBA) (hexHue b.toNRGBA)) := by
  obtain ⟨hb, ht, -, -, e1, e2, -, -, -, e3, -⟩ := C70_components draw b t
  obtain ⟨b', e, ba, -, -, bh⟩ := C150_hsv b.toNRGBA
  rw [e1] at e; injection e with e; subst e
  obtain ⟨t', e, -, tv, -, -⟩ := C150_hsv t.toNRGBA
  rw [e2] at e; injection e with e; subst e
  refine ⟨_, e3, ?_⟩
  show (HSVA.toNRGBA ⟨hb.h, hb.s, ht.v, hb.a⟩).a = _ ∧ peak (HSVA.toNRGBA ⟨hb.h, hb.s, ht.v, hb.a⟩) = _ ∧ _
  obtain ⟨p1, p2, p3⟩ := hsv_shape ⟨hb.h, hb.s, ht.v, hb.a⟩
  refine ⟨by rw [HSVA.toNRGBA_a, ba], by rw [p1, tv], ?_, fun h1 h2 => near_is (p3 h2) (bh h1).2⟩
  show |chroma (HSVA.toNRGBA ⟨hb.h, hb.s, ht.v, hb.a⟩) - peak (HSVA.toNRGBA ⟨hb.h, hb.s, ht.v, hb.a⟩) * _| ≤ 2
  rw [p1, p2]
  exact sat_near ht.v hb.s _ (sat_is _ _ e1)

/-- a bright green layer in mode Value on a dark red: the result is a bright red -/
example : composite 0 Mode.value (.nrgba64 ⟨0x8000, 0, 0, 0xffff⟩) (.nrgba64 ⟨0x1000, 0xf000, 0x1000, 0xffff⟩) = some (.hsva 0 0xffff 0xf000 0xffff) ∧
    (Color.hsva 0 0xffff 0xf000 0xffff).toNRGBA = ⟨0xf000, 0, 0, 0xffff⟩ := by decide

/-- Hue: the result is as bright and as saturated as what is below and has the hue of the layer, unless the layer is grey (also by being
so transparent that nothing is left of its colours): then what is below does not change. -/
theorem C152_hue (draw : UInt16) (b t : Color) :
    ∃ c, composite draw Mode.hue b t = some c ∧ c.toNRGBA.a = b.toNRGBA.a ∧ peak c.toNRGBA = peak b.toNRGBA ∧
      |chroma c.toNRGBA - chroma b.toNRGBA| ≤ 2 ∧
      (t.toNRGBA.rgba.r = t.toNRGBA.rgba.g → t.toNRGBA.rgba.r = t.toNRGBA.rgba.b → c.toNRGBA = b.toNRGBA) ∧
      (¬ (t.toNRGBA.rgba.r = t.toNRGBA.rgba.g ∧ t.toNRGBA.rgba.r = t.toNRGBA.rgba.b) → chroma c.toNRGBA ≠ 0 →
        HuesNear (1 / chroma c.toNRGBA + 6 / 65535) (hexHue c.toNRGBA) (hexHue t.toNRGBA)) := by
  obtain ⟨hb, ht, -, -, e1, e2, -, -, -, -, -, -, e3, e4⟩ := C70_components draw b t
  by_cases hg : t.toNRGBA.rgba.r = t.toNRGBA.rgba.g ∧ t.toNRGBA.rgba.r = t.toNRGBA.rgba.b
  · refine ⟨_, e4 hg, rfl, rfl, ?_, fun _ _ => rfl, fun h => absurd hg h⟩
    show |chroma b.toNRGBA - chroma b.toNRGBA| ≤ 2
    rw [sub_self, abs_zero]; norm_num
  · obtain ⟨b', e, ba, bv, -, -⟩ := C150_hsv b.toNRGBA
    rw [e1] at e; injection e with e; subst e
    obtain ⟨t', e, -, -, -, th⟩ := C150_hsv t.toNRGBA
    rw [e2] at e; injection e with e; subst e
    have htc : chroma t.toNRGBA ≠ 0 := by
      intro h0
      apply hg
      rw [chroma, peak, darkest, nat_max3, nat_min3, sub_eq_zero, Nat.cast_inj] at h0
      have q1 : t.toNRGBA.r = t.toNRGBA.g := UInt16.toNat_inj.1 (by omega)
      have q2 : t.toNRGBA.r = t.toNRGBA.b := UInt16.toNat_inj.1 (by omega)
      generalize t.toNRGBA = c at q1 q2
      obtain ⟨r, g, b, a⟩ := c
      dsimp only at q1 q2
      subst q1 q2
      exact ⟨rfl, rfl⟩
    refine ⟨_, e3 hg, ?_⟩
    show (HSVA.toNRGBA ⟨ht.h, hb.s, hb.v, hb.a⟩).a = _ ∧ peak (HSVA.toNRGBA ⟨ht.h, hb.s, hb.v, hb.a⟩) = _ ∧ _
    obtain ⟨p1, p2, p3⟩ := hsv_shape ⟨ht.h, hb.s, hb.v, hb.a⟩
    refine ⟨by rw [HSVA.toNRGBA_a, ba], by rw [p1, bv], ?_, fun h1 h2 => absurd ⟨h1, h2⟩ hg, fun _ h2 => near_is (p3 h2) (th htc).2⟩
    show |chroma (HSVA.toNRGBA ⟨ht.h, hb.s, hb.v, hb.a⟩) - _| ≤ 2
    rw [p2]
    have := sat_near hb.v hb.s _ (sat_is _ _ e1)
    rw [bv, saturation] at this
    by_cases hp : peak b.toNRGBA = 0
    · have hc0 : chroma b.toNRGBA = 0 := by
        rw [peak, nat_max3, Nat.cast_eq_zero] at hp
        rw [chroma, peak, darkest, nat_max3, nat_min3, hp]
        have : min b.toNRGBA.r.toNat (min b.toNRGBA.g.toNat b.toNRGBA.b.toNat) = 0 := by omega
        rw [this]; simp
      rw [hc0] at this ⊢
      simpa using this
    · rwa [mul_div_cancel₀ _ hp] at this

/-- a green layer in mode Hue on a dark red: the result is a dark green -/
example : composite 0 Mode.hue (.nrgba64 ⟨0x8000, 0, 0, 0xffff⟩) (.nrgba64 ⟨0x1000, 0xf000, 0x1000, 0xffff⟩) = some (.hsva 21845 0xffff 0x8000 0xffff) ∧
    (Color.hsva 21845 0xffff 0x8000 0xffff).toNRGBA = ⟨0, 0x8000, 0, 0xffff⟩ := by decide

/-- and the conditions of the theorems are met by these two colours -/
example : chroma ⟨0x8000, 0, 0, 0xffff⟩ ≠ 0 ∧ chroma ⟨0x1000, 0xf000, 0x1000, 0xffff⟩ ≠ 0 := by
  have e0 : UInt16.toNat 0 = 0 := rfl
  have e1 : UInt16.toNat 0x8000 = 32768 := rfl
  have e2 : UInt16.toNat 0x1000 = 4096 := rfl
  have e3 : UInt16.toNat 0xf000 = 61440 := rfl
  constructor <;> rw [chroma, peak, darkest, nat_max3, nat_min3] <;> dsimp only <;> simp only [e0, e1, e2, e3] <;> norm_num

end Limage
