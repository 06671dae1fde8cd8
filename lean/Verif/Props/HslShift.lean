import Verif.Props.Color
/-! # What becomes of colours of medium lightness in HSL (C16) -/
namespace Limage
open Spec

/-- `x` is `y` plus a quarter of `d`, up to 10 units -/
def Spec.raisedBy (d : Nat) (y x : UInt16) : Prop :=
  4 * x.toNat ≤ 4 * y.toNat + d + 40 ∧ 4 * y.toNat + d ≤ 4 * x.toNat + 40

theorem raised_channel {w W c' C r mn mx L m : Nat} (hw1 : w ≤ W + 5) (hw2 : W ≤ w + 5) (hW : W ≤ 65535)
    (hC : C = mx - mn) (hle : mn ≤ mx) (hmx : mx ≤ 65535) (h1 : W * C ≤ 65535 * (r - mn) + C)
    (h2 : 65535 * (r - mn) ≤ W * C + C) (hr : mn ≤ r) (hc1 : c' ≤ C) (hc2 : C ≤ c' + 2) (hL : L = (mx + mn) / 2)
    (hm : m = L - c' / 4) :
    4 * (m + w * c' / 65535) ≤ 4 * r + C + 40 ∧ 4 * r + C ≤ 4 * (m + w * c' / 65535) + 40 := by
  have a1 : w * c' ≤ (W + 5) * C := Nat.mul_le_mul hw1 hc1
  have a2 : W * C ≤ (w + 5) * (c' + 2) := Nat.mul_le_mul hw2 hc2
  have e1 : (W + 5) * C = W * C + 5 * C := Nat.add_mul _ _ _
  have e2 : (w + 5) * (c' + 2) = w * c' + 5 * c' + 2 * w + 10 := by
    rw [Nat.add_mul, Nat.mul_add, Nat.mul_add]; omega
  rw [e1] at a1
  rw [e2] at a2
  obtain ⟨d, rfl⟩ := Nat.exists_eq_add_of_le hr
  obtain ⟨C', rfl⟩ := Nat.exists_eq_add_of_le hle
  rw [Nat.add_sub_cancel_left] at *
  subst hC
  generalize w * c' = P at *
  generalize W * C = Q at *
  have u1 : P / 65535 ≤ d + 6 := by omega
  have u2 : d ≤ P / 65535 + 9 := by omega
  generalize P / 65535 = q at *
  clear a1 a2 h1 h2 e1 e2
  subst hm hL
  omega

/-- C16, what holds of colours of medium lightness: they come back with every channel raised by a quarter of the difference
of the brightest and the darkest channel (lcolor/hsl.go:66 subtracts a quarter instead of a half of the chroma),
up to 10 units of 65535, as long as the brightest does not exceed the range.
Missing: darker and brighter colours, for which the chroma is wrong as well (lcolor/hsl.go:59-62), and C16 itself, which is false. -/
theorem C16_raised_partial (c : NRGBA64) (mx mn : Nat) (hmx : mx = max c.r.toNat (max c.g.toNat c.b.toNat))
    (hmn : mn = min c.r.toNat (min c.g.toNat c.b.toNat)) (hpos : mn < mx) (hlo : 32768 ≤ mx + mn) (hhi : mx + mn ≤ 65535)
    (hroom : 5 * mx ≤ mn + 262137) :
    ∃ h, rgbToHSL c = some h ∧ h.toNRGBA.a = c.a ∧ Spec.raisedBy (mx - mn) c.r h.toNRGBA.r ∧
      Spec.raisedBy (mx - mn) c.g h.toNRGBA.g ∧ Spec.raisedBy (mx - mn) c.b h.toNRGBA.b := by
  obtain ⟨h, hh, ha⟩ := rgbToHSL_some c
  refine ⟨h, hh, by rw [HSLA.toNRGBA_a, ha], ?_⟩
  have hmx' := goMax3 c.r c.g c.b
  have hmn' := goMin3 c.r c.g c.b
  unfold rgbToHSL at hh
  dsimp only at hh
  generalize goMax [c.r, c.g, c.b] = MX at *
  generalize goMin [c.r, c.g, c.b] = MN at *
  rw [← hmx] at hmx'
  rw [← hmn] at hmn'
  have lmx := u16_le MX
  have e16 : MX.toUInt32.toUInt16 = MX := by apply UInt16.toNat_inj.1; simp
  have hcn : (MX.toUInt32 - MN.toUInt32).toNat = mx - mn := by
    rw [sub32] <;> rw [toNat_16_32, toNat_16_32] <;> omega
  have hln : (MX.toUInt32 + MN.toUInt32).toNat = mx + mn := by
    rw [add32] <;> rw [toNat_16_32, toNat_16_32] <;> omega
  have hl16 : ((MX.toUInt32 + MN.toUInt32) >>> 1).toUInt16.toNat = (mx + mn) / 2 := by
    have e : ((MX.toUInt32 + MN.toUInt32) >>> 1).toNat = (mx + mn) / 2 := by
      rw [UInt32.toNat_shiftRight, hln]
      simp [Nat.shiftRight_eq_div_pow]
    rw [to16] <;> rw [e]; omega
  have hs : (0xffff * (MX.toUInt32 - MN.toUInt32) / (MX.toUInt32 + MN.toUInt32)).toUInt16.toNat
      = 65535 * (mx - mn) / (mx + mn) := by
    have e : (0xffff * (MX.toUInt32 - MN.toUInt32) / (MX.toUInt32 + MN.toUInt32)).toNat = 65535 * (mx - mn) / (mx + mn) := by
      rw [UInt32.toNat_div, hln, mul32]
      · rw [hcn]; rfl
      · rw [hcn]; show 65535 * _ < _; omega
    rw [to16] <;> rw [e]
    exact (ratio_nat (mx - mn) (mx + mn) (by omega) (by omega)).1
  obtain ⟨H, hH, hlt, hH1, hH2, ⟨r1, r2⟩, ⟨g1, g2⟩, ⟨b1, b2⟩⟩ :=
    hue_nat c MX (MX.toUInt32 - MN.toUInt32) mn (by omega) hmn (by rw [hcn]; omega) (by omega)
  rw [hcn] at r1 r2 g1 g2 b1 b2
  have h0 : MX.toUInt32 - MN.toUInt32 ≠ 0 := by
    intro e
    rw [e] at hcn
    have : (0 : UInt32).toNat = 0 := rfl
    omega
  have hd : MX.toUInt32 + MN.toUInt32 ≤ 0xffff := by
    rw [UInt32.le_iff_toNat_le, hln, ffff32]; exact hhi
  have hl0 : MX.toUInt32 + MN.toUInt32 ≠ 0 := by
    intro e
    rw [e] at hln
    have : (0 : UInt32).toNat = 0 := rfl
    omega
  rw [if_neg h0, if_pos hd, if_neg hl0, e16] at hh
  injection hh with hh
  subst hh
  obtain ⟨s1, s2, s3⟩ := ratio_nat (mx - mn) (mx + mn) (by omega) (by omega)
  generalize colourToHue c MX (MX.toUInt32 - MN.toUInt32) = hue at *
  generalize (0xffff * (MX.toUInt32 - MN.toUInt32) / (MX.toUInt32 + MN.toUInt32)).toUInt16 = s at *
  generalize ((MX.toUInt32 + MN.toUInt32) >>> 1).toUInt16 = L at *
  rw [← hs] at s1 s2 s3
  have hs0 : s ≠ 0 := by
    intro e
    rw [e] at s3
    simp at s3
    omega
  unfold HSLA.toNRGBA
  dsimp only
  rw [if_neg hs0]
  have h2l : (L.toUInt32 <<< 1).toNat = 2 * ((mx + mn) / 2) := by
    rw [UInt32.toNat_shiftLeft, toNat_16_32, hl16]
    simp [Nat.shiftLeft_eq]
    omega
  have hbr : ¬ L.toUInt32 <<< 1 < 0x7fff := by
    rw [UInt32.lt_iff_toNat_lt, h2l]
    show ¬ _ < 32767
    omega
  rw [if_neg hbr]
  have hc32 : (L.toUInt32 <<< 1 * s.toUInt32 / 0xffff).toNat = 2 * ((mx + mn) / 2) * s.toNat / 65535 := by
    rw [UInt32.toNat_div, mul32, h2l, toNat_16_32, ffff32]
    rw [h2l, toNat_16_32]
    have := Nat.mul_le_mul (show 2 * ((mx + mn) / 2) ≤ 65535 by omega) s1
    omega
  have hc1 : 2 * ((mx + mn) / 2) * s.toNat / 65535 ≤ mx - mn := by
    have : 2 * ((mx + mn) / 2) * s.toNat ≤ (mx + mn) * s.toNat := Nat.mul_le_mul_right _ (by omega)
    rw [Nat.mul_comm (mx + mn)] at this
    omega
  have hc2 : mx - mn ≤ 2 * ((mx + mn) / 2) * s.toNat / 65535 + 2 := by
    have h1 : (mx + mn) * s.toNat ≤ (2 * ((mx + mn) / 2) + 1) * s.toNat := Nat.mul_le_mul_right _ (by omega)
    rw [Nat.mul_comm (mx + mn), Nat.add_mul (2 * ((mx + mn) / 2))] at h1
    omega
  generalize 2 * ((mx + mn) / 2) * s.toNat / 65535 = K at *
  have hex : ∃ k : UInt16, k.toUInt32 = L.toUInt32 <<< 1 * s.toUInt32 / 0xffff ∧ k.toNat = K := by
    refine ⟨(L.toUInt32 <<< 1 * s.toUInt32 / 0xffff).toUInt16, ?_, ?_⟩
    · apply UInt32.toNat_inj.1
      rw [toNat_16_32, to16] 
      rw [hc32]; omega
    · rw [to16] <;> rw [hc32]; omega
  obtain ⟨k, hk1, hk2⟩ := hex
  rw [← hk1]
  have hq : ((k.toUInt32 >>> 2).toUInt16).toNat = K / 4 := by
    have e : (k.toUInt32 >>> 2).toNat = K / 4 := by
      rw [UInt32.toNat_shiftRight, toNat_16_32, hk2]
      simp [Nat.shiftRight_eq_div_pow]
    rw [to16] <;> rw [e]; omega
  have hm : (L - (k.toUInt32 >>> 2).toUInt16).toNat = (mx + mn) / 2 - K / 4 := by
    rw [sub16] <;> rw [hq, hl16]; omega
  obtain ⟨er, eg, eb⟩ := hcma_nat hue k (L - (k.toUInt32 >>> 2).toUInt16) c.a hlt (by rw [hm, hk2]; omega)
  have hl6 : 6 * hue.toNat ≤ 393210 := by omega
  unfold Spec.raisedBy
  rw [er, eg, eb, hm, hk2]
  refine ⟨?_, ?_, ?_⟩
  · exact raised_channel (wR_near hH1 hH2).1 (wR_near hH1 hH2).2 (wR_le _) rfl (by omega) (by omega) r1 r2 (by omega) hc1 hc2 rfl rfl
  · exact raised_channel (wG_near hH1 hH2).1 (wG_near hH1 hH2).2 (wG_le _) rfl (by omega) (by omega) g1 g2 (by omega) hc1 hc2 rfl rfl
  · exact raised_channel (wB_near hH hH1 hH2).1 (wB_near hH hH1 hH2).2 (wB_le hH) rfl (by omega) (by omega) b1 b2 (by omega) hc1 hc2 rfl rfl

-- a colour with a red of 0x8000, a green of 0x4000 and no blue has a chroma of 0x8000, and is raised by 0x2000
example : ∃ h, rgbToHSL ⟨0x8000, 0x4000, 0, 0xffff⟩ = some h ∧ h.toNRGBA = ⟨0xa000, 0x5fff, 0x2000, 0xffff⟩ :=
  ⟨_, rfl, by decide +kernel⟩
example : (32768 : Nat) ≤ 0x8000 + 0 ∧ 0x8000 + 0 ≤ 65535 ∧ 5 * 0x8000 ≤ 0 + 262137 := by decide

end Limage
