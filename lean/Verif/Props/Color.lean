import Verif.Proofs.HsvRound
import Verif.Spec.Color
/-!
# Properties of colours (C15–C20)
-/
namespace Limage
open Spec

/-! ## C15 -/

/-- C15: RGB → HSV → RGB returns the alpha exactly and every channel within 7 units of 65535; the
brightest of the three channels is exactly the HSV value V, which is exactly the brightest input
channel. -/
theorem C15_hsv_roundtrip (c : NRGBA64) :
    ∃ h, rgbToHSV c = some h ∧ h.toNRGBA.a = c.a ∧
      h.v.toNat = max c.r.toNat (max c.g.toNat c.b.toNat) ∧
      within 7 h.toNRGBA.r c.r ∧ within 7 h.toNRGBA.g c.g ∧ within 7 h.toNRGBA.b c.b := by
  obtain ⟨h, hh, ha, hv⟩ := rgbToHSV_some c
  refine ⟨h, hh, by rw [HSVA.toNRGBA_a, ha], hv, ?_⟩
  have hmx := goMax3 c.r c.g c.b
  have hmn := goMin3 c.r c.g c.b
  unfold rgbToHSV at hh
  dsimp only at hh
  generalize goMax [c.r, c.g, c.b] = mx at *
  generalize goMin [c.r, c.g, c.b] = mn at *
  have lmx := u16_le mx
  have hle : mn.toNat ≤ mx.toNat := by omega
  have hcn : (mx - mn).toUInt32.toNat = mx.toNat - mn.toNat := by
    rw [toNat_16_32, sub16 _ _ hle]
  split at hh
  · rename_i h0
    have h0 := congrArg UInt32.toNat h0
    rw [hcn, UInt32.toNat_zero] at h0
    injection hh with hh
    subst hh
    unfold HSVA.toNRGBA
    rw [if_pos rfl]
    dsimp only
    unfold within
    omega
  · rename_i h0
    have hpos : mn.toNat < mx.toNat := by
      rcases Nat.lt_or_ge mn.toNat mx.toNat with h | h
      · exact h
      · exfalso; apply h0; apply UInt32.toNat_inj.1; rw [hcn, UInt32.toNat_zero]; omega
    split at hh
    · exact absurd hh (by simp)
    · injection hh with hh
      subst hh
      obtain ⟨H, hH, hlt, hH1, hH2, ⟨r1, r2⟩, ⟨g1, g2⟩, ⟨b1, b2⟩⟩ :=
        hue_nat c mx (mx - mn).toUInt32 mn.toNat hmx hmn hcn hpos
      rw [hcn] at r1 r2 g1 g2 b1 b2
      generalize colourToHue c mx (mx - mn).toUInt32 = hue at *
      -- saturation and back
      have hs : (0xffff * (mx - mn).toUInt32 / mx.toUInt32).toUInt16.toNat
          = 65535 * (mx.toNat - mn.toNat) / mx.toNat := by
        have e : (0xffff * (mx - mn).toUInt32 / mx.toUInt32).toNat
            = 65535 * (mx.toNat - mn.toNat) / mx.toNat := by
          rw [UInt32.toNat_div, full_mul, sub16 _ _ hle, toNat_16_32]
        rw [to16] <;> rw [e]
        exact (ratio_nat (mx.toNat - mn.toNat) mx.toNat (by omega) (by omega)).1
      obtain ⟨s1, s2, s3⟩ := ratio_nat (mx.toNat - mn.toNat) mx.toNat (by omega) (by omega)
      generalize (0xffff * (mx - mn).toUInt32 / mx.toUInt32).toUInt16 = s at hs ⊢
      rw [← hs] at s1 s2 s3
      have hs0 : s ≠ 0 := by
        intro e
        rw [e] at s3
        simp at s3
        omega
      unfold HSVA.toNRGBA
      dsimp only
      rw [if_neg hs0]
      have hc16 : (mx.toUInt32 * s.toUInt32 / 0xffff).toUInt16.toNat = mx.toNat * s.toNat / 65535 := by
        have e : (mx.toUInt32 * s.toUInt32 / 0xffff).toNat = mx.toNat * s.toNat / 65535 := by
          rw [UInt32.toNat_div, mul16, ffff32]
        rw [to16] <;> rw [e]
        have := prod_div_le (a := mx.toNat) (b := s.toNat) lmx
        omega
      have hcle : mx.toNat * s.toNat / 65535 ≤ mx.toNat := prod_div_le' s1
      have hcc : mx.toNat * s.toNat / 65535 = mx.toNat - mn.toNat ∨
          mx.toNat * s.toNat / 65535 + 1 = mx.toNat - mn.toNat := by
        rw [Nat.mul_comm mx.toNat]
        generalize s.toNat * mx.toNat = P at *
        omega
      generalize (mx.toUInt32 * s.toUInt32 / 0xffff).toUInt16 = c' at *
      rw [← hc16] at hcle hcc
      have hm' : (mx - c').toNat = mx.toNat - c'.toNat := sub16 _ _ hcle
      obtain ⟨er, eg, eb⟩ := hcma_nat hue c' (mx - c') c.a hlt (by rw [hm']; omega)
      have hbase : (mx - c').toNat = mn.toNat + (mx.toNat - mn.toNat) - c'.toNat := by
        rw [hm']; omega
      have hl6 : 6 * hue.toNat ≤ 393210 := by omega
      unfold within
      rw [er, eg, eb, hbase]
      refine ⟨?_, ?_, ?_⟩
      · exact channel_near _ _ _ _ _ _ (wR_near hH1 hH2).1 (wR_near hH1 hH2).2 (wR_le _)
          (by omega) r1 r2 (by omega) hcc
      · exact channel_near _ _ _ _ _ _ (wG_near hH1 hH2).1 (wG_near hH1 hH2).2 (wG_le _)
          (by omega) g1 g2 (by omega) hcc
      · exact channel_near _ _ _ _ _ _ (wB_near hH hH1 hH2).1 (wB_near hH hH1 hH2).2 (wB_le hl6)
          (by omega) b1 b2 (by omega) hcc

/-- an orange: its value is its red, and it comes back within the tolerance -/
example : ∃ h, rgbToHSV ⟨0xff00, 0x8000, 0x1000, 0x7777⟩ = some h ∧ h.v.toNat = 0xff00 ∧ within 7 h.toNRGBA.g 0x8000 := by
  obtain ⟨h, h1, -, h3, -, h5, -⟩ := C15_hsv_roundtrip ⟨0xff00, 0x8000, 0x1000, 0x7777⟩
  exact ⟨h, h1, h3, h5⟩

/-- C15: the brightest channel of the returned colour is the V of the HSV colour, for every HSV
colour (so the round trip keeps the brightest channel exactly). -/
theorem C15_brightest (h : HSVA) (hh : h.h ≠ 0xffff) :
    max h.toNRGBA.r.toNat (max h.toNRGBA.g.toNat h.toNRGBA.b.toNat) = h.v.toNat := by
  unfold HSVA.toNRGBA
  split
  · simp
  · dsimp only
    have lv := u16_le h.v
    have ls := u16_le h.s
    have hc16 : (h.v.toUInt32 * h.s.toUInt32 / 0xffff).toUInt16.toNat = h.v.toNat * h.s.toNat / 65535 := by
      have e : (h.v.toUInt32 * h.s.toUInt32 / 0xffff).toNat = h.v.toNat * h.s.toNat / 65535 := by
        rw [UInt32.toNat_div, mul16, ffff32]
      rw [to16] <;> rw [e]
      have := prod_div_le (a := h.v.toNat) (b := h.s.toNat) lv
      omega
    have hcle : h.v.toNat * h.s.toNat / 65535 ≤ h.v.toNat := prod_div_le' ls
    generalize (h.v.toUInt32 * h.s.toUInt32 / 0xffff).toUInt16 = c' at *
    rw [← hc16] at hcle
    have hm' : (h.v - c').toNat = h.v.toNat - c'.toNat := sub16 _ _ hcle
    have hlt : h.h.toNat < 65535 := by
      have := u16_le h.h
      have : h.h.toNat ≠ 65535 := fun e => hh (UInt16.toNat_inj.1 e)
      omega
    obtain ⟨er, eg, eb⟩ := hcma_nat h.h c' (h.v - c') h.a hlt (by rw [hm']; omega)
    rw [er, eg, eb, hm']
    have hl6 : 6 * h.h.toNat ≤ 393210 := by omega
    have br := prod_div_le (b := c'.toNat) (wR_le (6 * h.h.toNat))
    have bg := prod_div_le (b := c'.toNat) (wG_le (6 * h.h.toNat))
    have bb := prod_div_le (b := c'.toNat) (wB_le hl6)
    have full : wR (6 * h.h.toNat) = 65535 ∨ wG (6 * h.h.toNat) = 65535 ∨ wB (6 * h.h.toNat) = 65535 := by
      generalize 6 * h.h.toNat = H at *
      unfold wR wG wB
      repeat' split
      all_goals omega
    have e : 65535 * c'.toNat / 65535 = c'.toNat := by omega
    rcases full with f | f | f <;> rw [f, e] at * <;> omega

example : (⟨100, 200, 300, 400⟩ : HSVA).h ≠ 0xffff := by decide

/-! ## C16 -/

/-- C16 as stated: every channel survives to within `d` units. -/
def HSLWithin (d : Nat) : Prop := ∀ c : NRGBA64, ∃ h, rgbToHSL c = some h ∧
  within d h.toNRGBA.r c.r ∧ within d h.toNRGBA.g c.g ∧ within d h.toNRGBA.b c.b

/-- C16 is false, by most of the range: pure red comes back as the dark grey
(0x3ffe, 0x4000, 0x4000) (lcolor/hsl.go:53-66 has the wrong chroma formula). -/
theorem C16_hsl_refuted : ¬ HSLWithin 49000 := by
  intro h
  obtain ⟨h1, e, hr, -⟩ := h ⟨0xffff, 0, 0, 0xffff⟩
  have e2 : rgbToHSL ⟨0xffff, 0, 0, 0xffff⟩ = some ⟨0, 0xffff, 0x7fff, 0xffff⟩ := by decide
  rw [e2] at e
  injection e with e
  subst e
  unfold within at *
  revert hr
  decide

/-- C16, the part that holds: greys are returned exactly, and the alpha of every colour is kept.
Missing: coloured pixels (false). -/
theorem C16_grey_partial (c : NRGBA64) :
    ∃ h, rgbToHSL c = some h ∧ h.toNRGBA.a = c.a ∧
      (c.g = c.r → c.b = c.r → h.toNRGBA = c) := by
  obtain ⟨h, hh, ha⟩ := rgbToHSL_some c
  refine ⟨h, hh, by rw [HSLA.toNRGBA_a, ha], ?_⟩
  intro hg hb
  obtain ⟨r, g, b, a⟩ := c
  dsimp only at hg hb
  subst hg hb
  have hmx := goMax3 b b b
  have hmn := goMin3 b b b
  unfold rgbToHSL at hh
  dsimp only at hh
  generalize goMax [b, b, b] = mx at *
  generalize goMin [b, b, b] = mn at *
  have e1 : mx = b := UInt16.toNat_inj.1 (by omega)
  have e2 : mn = b := UInt16.toNat_inj.1 (by omega)
  rw [e1, e2, if_pos (by simp)] at hh
  injection hh with hh
  subst hh
  unfold HSLA.toNRGBA
  rw [if_pos rfl]
  dsimp only
  have : ((b.toUInt32 + b.toUInt32) >>> 1).toUInt16 = b := by
    apply UInt16.toNat_inj.1
    have := u16_le b
    have e : ((b.toUInt32 + b.toUInt32) >>> 1).toNat = b.toNat := by
      rw [UInt32.toNat_shiftRight, add32] <;> simp only [toNat_16_32]
      · simp [Nat.shiftRight_eq_div_pow]; omega
      · omega
    rw [to16] <;> rw [e]; omega
  rw [this]

example : (⟨5, 5, 5, 9⟩ : NRGBA64).g = (⟨5, 5, 5, 9⟩ : NRGBA64).r := rfl

/-! ## C17 -/

theorem widen32_nat (x : UInt8) : (widen32 x).toNat = 257 * x.toNat := by
  unfold widen32
  have hx := u8_le x
  have hs : (x.toUInt32 <<< 8).toNat = x.toNat <<< 8 := by
    rw [UInt32.toNat_shiftLeft]; simp [Nat.shiftLeft_eq]; omega
  rw [UInt32.toNat_or, hs, toNat_8_32, Nat.or_comm,
    ← Nat.shiftLeft_add_eq_or_of_lt (show x.toNat < 2 ^ 8 by omega), Nat.shiftLeft_eq]
  omega

theorem widen16_nat (x : UInt8) : (widen16 x).toNat = 257 * x.toNat := by
  unfold widen16
  have hx := u8_le x
  have h8 : x.toUInt16.toNat = x.toNat := by simp
  have hs : (x.toUInt16 <<< 8).toNat = x.toNat <<< 8 := by
    rw [UInt16.toNat_shiftLeft]; simp [Nat.shiftLeft_eq]; omega
  rw [UInt16.toNat_or, hs, h8, Nat.or_comm,
    ← Nat.shiftLeft_add_eq_or_of_lt (show x.toNat < 2 ^ 8 by omega), Nat.shiftLeft_eq]
  omega

theorem NRGBA64.rgba_r (c : NRGBA64) : c.rgba.r.toNat = c.r.toNat * c.a.toNat / 65535 := by
  show (c.r.toUInt32 * c.a.toUInt32 / 0xffff).toNat = _
  rw [UInt32.toNat_div, mul16, ffff32]
theorem NRGBA64.rgba_g (c : NRGBA64) : c.rgba.g.toNat = c.g.toNat * c.a.toNat / 65535 := by
  show (c.g.toUInt32 * c.a.toUInt32 / 0xffff).toNat = _
  rw [UInt32.toNat_div, mul16, ffff32]
theorem NRGBA64.rgba_b (c : NRGBA64) : c.rgba.b.toNat = c.b.toNat * c.a.toNat / 65535 := by
  show (c.b.toUInt32 * c.a.toUInt32 / 0xffff).toNat = _
  rw [UInt32.toNat_div, mul16, ffff32]
theorem NRGBA64.rgba_a (c : NRGBA64) : c.rgba.a.toNat = c.a.toNat := by
  show (c.a.toUInt32).toNat = _; simp

/-- the premultiplied-colour invariant of `color.Color` -/
def Premul (c : RGBA32) : Prop :=
  c.r.toNat ≤ c.a.toNat ∧ c.g.toNat ≤ c.a.toNat ∧ c.b.toNat ≤ c.a.toNat ∧ c.a.toNat ≤ 65535

theorem NRGBA64.premul (c : NRGBA64) : Premul c.rgba := by
  unfold Premul
  rw [c.rgba_r, c.rgba_g, c.rgba_b, c.rgba_a]
  exact ⟨prod_div_le (u16_le _), prod_div_le (u16_le _), prod_div_le (u16_le _), u16_le _⟩

/-- the colour types defined by limage -/
def isLcolor : Color → Prop
  | .lrgb .. => True
  | .grayAlpha .. => True
  | .hsla .. => True
  | .hsva .. => True
  | _ => False

theorem gray_premul_nat (y a : UInt8) :
    (widen32 y * a.toUInt32 / 0xff).toNat = 257 * y.toNat * a.toNat / 255 := by
  have hy := u8_le y
  have ha := u8_le a
  have e : (0xff : UInt32).toNat = 255 := rfl
  rw [UInt32.toNat_div, mul32, widen32_nat, toNat_8_32, e]
  rw [widen32_nat, toNat_8_32]
  have : 257 * y.toNat * a.toNat ≤ 65535 * 255 := Nat.mul_le_mul (by omega) ha
  omega

/-- C17: `RGBA()` of every limage colour is a valid alpha-premultiplied value. -/
theorem C17_premultiplied (c : Color) (h : isLcolor c) : Premul c.rgba32 := by
  cases c with
  | lrgb r g b =>
    have := u8_le r; have := u8_le g; have := u8_le b
    unfold Premul Color.rgba32
    dsimp only
    rw [widen32_nat, widen32_nat, widen32_nat, ffff32]; omega
  | grayAlpha y a =>
    have hy := u8_le y
    have ha := u8_le a
    have hv : 257 * y.toNat * a.toNat / 255 ≤ 257 * a.toNat := by
      apply Nat.div_le_of_le_mul
      rw [show 255 * (257 * a.toNat) = (255 * 257) * a.toNat by rw [Nat.mul_assoc]]
      exact Nat.mul_le_mul_right _ (by omega)
    unfold Premul Color.rgba32
    dsimp only
    rw [gray_premul_nat, widen32_nat]
    exact ⟨hv, hv, hv, by omega⟩
  | hsla h s l a => exact NRGBA64.premul _
  | hsva h s v a => exact NRGBA64.premul _
  | _ => exact absurd h (by simp [isLcolor])

example : isLcolor (.grayAlpha 3 4) ∧ isLcolor (.hsva 1 2 3 4) := ⟨trivial, trivial⟩

/-- C17: `RGBA()` is exactly the premultiplied form of `ToNRGBA()`. -/
theorem C17_agrees (c : Color) (h : isLcolor c) : c.rgba32 = c.toNRGBA.rgba := by
  have ext : ∀ p q : RGBA32, p.r.toNat = q.r.toNat → p.g.toNat = q.g.toNat → p.b.toNat = q.b.toNat →
      p.a.toNat = q.a.toNat → p = q := by
    intro p q h1 h2 h3 h4
    cases p; cases q
    simp only [RGBA32.mk.injEq]
    exact ⟨UInt32.toNat_inj.1 h1, UInt32.toNat_inj.1 h2, UInt32.toNat_inj.1 h3, UInt32.toNat_inj.1 h4⟩
  cases c with
  | lrgb r g b =>
    have := u8_le r; have := u8_le g; have := u8_le b
    apply ext
    · rw [NRGBA64.rgba_r]; simp only [Color.rgba32, Color.toNRGBA, widen32_nat, widen16_nat, ffff16]; omega
    · rw [NRGBA64.rgba_g]; simp only [Color.rgba32, Color.toNRGBA, widen32_nat, widen16_nat, ffff16]; omega
    · rw [NRGBA64.rgba_b]; simp only [Color.rgba32, Color.toNRGBA, widen32_nat, widen16_nat, ffff16]; omega
    · rw [NRGBA64.rgba_a]; rfl
  | grayAlpha y a =>
    have e : 257 * y.toNat * a.toNat / 255 = 257 * y.toNat * (257 * a.toNat) / 65535 := by
      rw [show 257 * y.toNat * (257 * a.toNat) = 257 * (257 * y.toNat * a.toNat) by
        rw [Nat.mul_left_comm]]
      rw [show 65535 = 257 * 255 by rfl, Nat.mul_div_mul_left _ _ (by omega)]
    apply ext
    · rw [NRGBA64.rgba_r]
      simp only [Color.rgba32, Color.toNRGBA, gray_premul_nat, widen16_nat]; exact e
    · rw [NRGBA64.rgba_g]
      simp only [Color.rgba32, Color.toNRGBA, gray_premul_nat, widen16_nat]; exact e
    · rw [NRGBA64.rgba_b]
      simp only [Color.rgba32, Color.toNRGBA, gray_premul_nat, widen16_nat]; exact e
    · rw [NRGBA64.rgba_a]; simp only [Color.rgba32, Color.toNRGBA, widen32_nat, widen16_nat]
  | hsla h s l a => rfl
  | hsva h s v a => rfl
  | _ => exact absurd h (by simp [isLcolor])

example : isLcolor (.hsva 0x2000 0x8000 0xff00 0x7000) ∧ isLcolor (.grayAlpha 9 200) := by simp [isLcolor]

/-! ## C18 -/

theorem shr8 (q : UInt32) (n : Nat) (_ : n ≤ 255) (h : q.toNat / 256 = n) :
    (q >>> 8).toUInt8 = UInt8.ofNat n := by
  apply UInt8.toNat_inj.1
  rw [UInt32.toNat_toUInt8, UInt32.toNat_shiftRight]
  simp [Nat.shiftRight_eq_div_pow]
  omega

/-- C18: `RGBModel.Convert` returns every `RGB` colour unchanged. -/
theorem C18_rgb_idempotent (r g b : UInt8) : rgbModel (.lrgb r g b) = (r, g, b) := by
  have hr := u8_le r; have hg := u8_le g; have hb := u8_le b
  unfold rgbModel Color.rgba32
  dsimp only
  rw [shr8 (widen32 r) r.toNat hr (by rw [widen32_nat]; omega),
    shr8 (widen32 g) g.toNat hg (by rw [widen32_nat]; omega),
    shr8 (widen32 b) b.toNat hb (by rw [widen32_nat]; omega)]
  simp

example : rgbModel (.nrgba 200 100 50 255) = (200, 100, 50) ∧ rgbModel (.lrgb 200 100 50) = (200, 100, 50) := by decide

/-- C18 as stated for grey. -/
def GrayAlphaIdempotent : Prop := ∀ y a : UInt8, grayAlphaModel (.grayAlpha y a) = (y, a)

/-- C18 is false for `GrayAlpha`: the luminance is taken from the premultiplied value
(lcolor/gray.go:33-38), so a half transparent white becomes half transparent grey. -/
theorem C18_gray_refuted : ¬ GrayAlphaIdempotent := by
  intro h
  have := h 255 128
  revert this; decide

/-- C18, the part that holds: the alpha is always kept, and opaque greys are returned unchanged.
Missing: partly transparent greys (false). -/
theorem C18_gray_partial (y a : UInt8) : (grayAlphaModel (.grayAlpha y a)).2 = a ∧
    (a = 255 → grayAlphaModel (.grayAlpha y a) = (y, a)) := by
  have hy := u8_le y
  have ha := u8_le a
  have h2 : (grayAlphaModel (.grayAlpha y a)).2 = a := by
    show ((Color.grayAlpha y a).rgba32.a >>> 8).toUInt8 = a
    rw [shr8 _ a.toNat ha (by simp only [Color.rgba32, widen32_nat]; omega)]
    simp
  refine ⟨h2, ?_⟩
  intro e
  apply Prod.ext _ h2
  show grayModel (.grayAlpha y a) = y
  unfold grayModel Color.rgba32
  dsimp only
  have hv : (widen32 y * a.toUInt32 / 0xff).toNat = 257 * y.toNat := by
    rw [gray_premul_nat, e]
    have : (255 : UInt8).toNat = 255 := rfl
    rw [this]; omega
  generalize widen32 y * a.toUInt32 / 0xff = v at hv ⊢
  have c1 : (19595 : UInt32).toNat = 19595 := rfl
  have c2 : (38470 : UInt32).toNat = 38470 := rfl
  have c3 : (7471 : UInt32).toNat = 7471 := rfl
  have c4 : (0x8000 : UInt32).toNat = 32768 := rfl
  have hsum : (19595 * v + 38470 * v + 7471 * v + 0x8000 : UInt32).toNat
      = 65536 * (257 * y.toNat) + 32768 := by
    rw [UInt32.toNat_add, UInt32.toNat_add, UInt32.toNat_add, UInt32.toNat_mul, UInt32.toNat_mul,
      UInt32.toNat_mul, hv, c1, c2, c3, c4]
    omega
  apply UInt8.toNat_inj.1
  rw [UInt32.toNat_toUInt8, UInt32.toNat_shiftRight, hsum]
  have hq : (65536 * (257 * y.toNat) + 32768) / 16777216 = y.toNat := by omega
  have h24 : (24 : UInt32).toNat % 32 = 24 := rfl
  rw [h24, Nat.shiftRight_eq_div_pow]
  show (65536 * (257 * y.toNat) + 32768) / 16777216 % 256 = _
  rw [hq]; omega

example : ∃ y : UInt8, (255 : UInt8) = 255 ∧ grayAlphaModel (.grayAlpha y 255) = (y, 255) :=
  ⟨7, rfl, (C18_gray_partial 7 255).2 rfl⟩

/-! ## C19 -/

theorem sqDiff_nat (x y : UInt32) (hx : x.toNat ≤ 65535) (hy : y.toNat ≤ 65535) :
    (sqDiff x y).toNat = quarterSq x.toNat y.toNat := by
  unfold sqDiff quarterSq
  have key : ((x - y) * (x - y)).toNat = (max x.toNat y.toNat - min x.toNat y.toNat) ^ 2 := by
    rcases Nat.le_total y.toNat x.toNat with h | h
    · have e : (x - y).toNat = x.toNat - y.toNat := sub32 _ _ h
      rw [Nat.max_eq_left h, Nat.min_eq_right h, Nat.pow_two, mul32] <;> rw [e]
      have := mul_le_sq (a := x.toNat - y.toNat) (b := x.toNat - y.toNat) (by omega) (by omega)
      omega
    · have e : (y - x).toNat = y.toNat - x.toNat := sub32 _ _ h
      have : (x - y) * (x - y) = (y - x) * (y - x) := by
        have : x - y = -(y - x) := by simp
        rw [this, UInt32.neg_mul_neg]
      rw [this, Nat.max_eq_right h, Nat.min_eq_left h, Nat.pow_two, mul32] <;> rw [e]
      have := mul_le_sq (a := y.toNat - x.toNat) (b := y.toNat - x.toNat) (by omega) (by omega)
      omega
  rw [UInt32.toNat_shiftRight, key]
  simp [Nat.shiftRight_eq_div_pow]

theorem quarterSq_le (x y : Nat) (hx : x ≤ 65535) (hy : y ≤ 65535) : quarterSq x y ≤ 1073709056 := by
  unfold quarterSq
  rw [Nat.pow_two]
  have := mul_le_sq (a := max x y - min x y) (b := max x y - min x y) (by omega) (by omega)
  omega

theorem colorDist_nat (c v : Color) (hc : ValidRGBA c.rgba32) (hv : ValidRGBA v.rgba32) :
    (colorDist c v).toNat = dist c.rgba32 v.rgba32 ∧ dist c.rgba32 v.rgba32 < 4294967295 := by
  obtain ⟨a1, a2, a3, a4⟩ := hc
  obtain ⟨b1, b2, b3, b4⟩ := hv
  have q1 := quarterSq_le _ _ a1 b1
  have q2 := quarterSq_le _ _ a2 b2
  have q3 := quarterSq_le _ _ a3 b3
  have q4 := quarterSq_le _ _ a4 b4
  unfold colorDist dist
  dsimp only
  rw [UInt32.toNat_add, UInt32.toNat_add, UInt32.toNat_add, sqDiff_nat _ _ a1 b1,
    sqDiff_nat _ _ a2 b2, sqDiff_nat _ _ a3 b3, sqDiff_nat _ _ a4 b4]
  omega

/-- loop invariant of the palette search -/
theorem paletteIndexFrom_spec (c : Color) (vs : List Color) (i ret : Nat) (best : UInt32)
    (hc : ValidRGBA c.rgba32) (hvs : ∀ v ∈ vs, ValidRGBA v.rgba32) :
    (paletteIndexFrom c vs i ret best = ret ∧ ∀ v ∈ vs, best.toNat ≤ dist c.rgba32 v.rgba32) ∨
    (∃ k v, paletteIndexFrom c vs i ret best = i + k ∧ vs[k]? = some v ∧
      dist c.rgba32 v.rgba32 < best.toNat ∧
      (∀ w ∈ vs, dist c.rgba32 v.rgba32 ≤ dist c.rgba32 w.rgba32) ∧
      (∀ j w, j < k → vs[j]? = some w → dist c.rgba32 v.rgba32 < dist c.rgba32 w.rgba32)) := by
  induction vs generalizing i ret best with
  | nil => left; exact ⟨rfl, by simp⟩
  | cons v vs ih =>
    obtain ⟨hd, -⟩ := colorDist_nat c v hc (hvs v (by simp))
    have hvs' : ∀ w ∈ vs, ValidRGBA w.rgba32 := fun w hw => hvs w (by simp [hw])
    unfold paletteIndexFrom
    dsimp only
    by_cases h1 : colorDist c v < best
    · rw [if_pos h1]
      rw [UInt32.lt_iff_toNat_lt, hd] at h1
      by_cases h0 : colorDist c v = 0
      · rw [if_pos h0]
        right
        have hz : dist c.rgba32 v.rgba32 = 0 := by rw [← hd, h0]; rfl
        exact ⟨0, v, rfl, rfl, h1, by rw [hz]; intros; omega, fun j w hj => by omega⟩
      · rw [if_neg h0]
        right
        rcases ih (i + 1) i (colorDist c v) hvs' with ⟨e, hmin⟩ | ⟨k, w, e, hk, hlt, hmin, hfirst⟩
        · rw [hd] at hmin
          refine ⟨0, v, e, rfl, h1, ?_, fun j w hj => by omega⟩
          intro w hw
          rcases List.mem_cons.1 hw with rfl | hw
          · exact Nat.le_refl _
          · exact hmin w hw
        · rw [hd] at hlt
          refine ⟨k + 1, w, by rw [e]; omega, hk, by omega, ?_, ?_⟩
          · intro x hx
            rcases List.mem_cons.1 hx with rfl | hx
            · omega
            · exact hmin x hx
          · intro j x hj hx
            cases j with
            | zero => simp at hx; subst hx; exact hlt
            | succ j => exact hfirst j x (by omega) (by simpa using hx)
    · rw [if_neg h1]
      rw [UInt32.lt_iff_toNat_lt, hd] at h1
      rcases ih (i + 1) ret best hvs' with ⟨e, hmin⟩ | ⟨k, w, e, hk, hlt, hmin, hfirst⟩
      · left
        refine ⟨e, ?_⟩
        intro w hw
        rcases List.mem_cons.1 hw with rfl | hw
        · omega
        · exact hmin w hw
      · right
        refine ⟨k + 1, w, by rw [e]; omega, hk, hlt, ?_, ?_⟩
        · intro x hx
          rcases List.mem_cons.1 hx with rfl | hx
          · omega
          · exact hmin x hx
        · intro j x hj hx
          cases j with
          | zero => simp at hx; subst hx; omega
          | succ j => exact hfirst j x (by omega) (by simpa using hx)

/-- C19: `AlphaPalette.Index` returns an index within the palette, whose entry is at minimal
distance, and the first such. -/
theorem C19_nearest (p : List Color) (hp : p ≠ []) (c : Color) (hc : ValidRGBA c.rgba32)
    (hv : ∀ v ∈ p, ValidRGBA v.rgba32) :
    ∃ v, p[paletteIndex p c]? = some v ∧
      (∀ w ∈ p, dist c.rgba32 v.rgba32 ≤ dist c.rgba32 w.rgba32) ∧
      (∀ j w, j < paletteIndex p c → p[j]? = some w →
        dist c.rgba32 v.rgba32 < dist c.rgba32 w.rgba32) := by
  unfold paletteIndex
  rcases paletteIndexFrom_spec c p 0 0 0xffffffff hc hv with ⟨_, hmin⟩ | ⟨k, v, e, hk, -, hmin, hf⟩
  · exfalso
    cases p with
    | nil => exact hp rfl
    | cons v vs =>
      have h1 := hmin v (by simp)
      have h2 := (colorDist_nat c v hc (hv v (by simp))).2
      have : (0xffffffff : UInt32).toNat = 4294967295 := rfl
      omega
  · rw [e, Nat.zero_add]
    exact ⟨v, hk, hmin, hf⟩

example : ValidRGBA (Color.gray 3).rgba32 := by unfold ValidRGBA; decide

/-- C19: a colour that is in the palette is mapped to an entry that differs from it by at most one
unit in each 16-bit component. -/
theorem C19_member (p : List Color) (c : Color) (hm : c ∈ p) (hv : ∀ v ∈ p, ValidRGBA v.rgba32) :
    ∃ v, p[paletteIndex p c]? = some v ∧ dist c.rgba32 v.rgba32 = 0 := by
  obtain ⟨v, h1, h2, -⟩ := C19_nearest p (List.ne_nil_of_mem hm) c (hv c hm) hv
  refine ⟨v, h1, ?_⟩
  have := h2 c hm
  have hz : dist c.rgba32 c.rgba32 = 0 := by simp [dist, quarterSq]
  omega

example : Color.gray 3 ∈ [Color.gray 1, Color.gray 3] := by decide

/-- C19: `Convert` gives the nearest entry's colour with the argument's alpha. -/
theorem C19_convert (p : List Color) (hp : p ≠ []) (c : Color) (hc : ValidRGBA c.rgba32)
    (hv : ∀ v ∈ p, ValidRGBA v.rgba32) :
    ∃ v n, p[paletteIndex p c]? = some v ∧ alphaPaletteConvert p c = some n ∧
      n.r.toNat = v.rgba32.r.toNat ∧ n.g.toNat = v.rgba32.g.toNat ∧ n.b.toNat = v.rgba32.b.toNat ∧
      n.a.toNat = c.rgba32.a.toNat := by
  obtain ⟨v, h1, -, -⟩ := C19_nearest p hp c hc hv
  have hm : v ∈ p := List.mem_of_getElem? h1
  obtain ⟨b1, b2, b3, b4⟩ := hv v hm
  unfold alphaPaletteConvert
  rw [h1]
  exact ⟨v, _, rfl, rfl, to16 _ b1, to16 _ b2, to16 _ b3, to16 _ hc.2.2.2⟩

/-- half transparent grey in a palette of black and white -/
example : ([.gray 0, .gray 255] : List Color) ≠ [] ∧ ValidRGBA (Color.nrgba 200 200 200 128).rgba32 ∧
    ∀ v ∈ ([.gray 0, .gray 255] : List Color), ValidRGBA v.rgba32 := by
  simp only [ValidRGBA]
  decide

/-! ## C20 -/

/-- C20: opacity 255 returns the colour itself, 0 a fully transparent colour, and every other value
the same channels with alpha scaled by o/255 (rounded down). -/
theorem C20_opacity (c : Color) (o : UInt8) :
    (o = 255 → transparency c o = c) ∧
    (o = 0 → transparency c o = .nrgba64 ⟨0, 0, 0, 0⟩) ∧
    (o ≠ 0 → o ≠ 255 → ∃ n, transparency c o = .nrgba64 n ∧ n.r = c.toNRGBA.r ∧
      n.g = c.toNRGBA.g ∧ n.b = c.toNRGBA.b ∧ n.a.toNat = o.toNat * c.toNRGBA.a.toNat / 255) := by
  refine ⟨?_, ?_, ?_⟩
  · intro h; unfold transparency; rw [if_pos h]
  · intro h; unfold transparency; rw [if_neg (by rw [h]; decide), if_pos h]
  · intro h0 h255
    unfold transparency
    rw [if_neg h255, if_neg h0]
    refine ⟨_, rfl, rfl, rfl, rfl, ?_⟩
    have ho := u8_le o
    have ha := u16_le c.toNRGBA.a
    show ((widen32 o) * c.toNRGBA.a.toUInt32 / 0xffff).toUInt16.toNat = _
    have e : (widen32 o * c.toNRGBA.a.toUInt32 / 0xffff).toNat = o.toNat * c.toNRGBA.a.toNat / 255 := by
      rw [UInt32.toNat_div, mul32, widen32_nat, toNat_16_32, ffff32, Nat.mul_assoc,
        show 65535 = 257 * 255 by rfl, Nat.mul_div_mul_left _ _ (by omega)]
      rw [widen32_nat, toNat_16_32]
      have := mul_le_sq (a := 257 * o.toNat) (b := c.toNRGBA.a.toNat) (by omega) ha
      omega
    have : o.toNat * c.toNRGBA.a.toNat / 255 ≤ c.toNRGBA.a.toNat := by
      apply Nat.div_le_of_le_mul
      exact Nat.mul_le_mul_right _ ho
    rw [to16] <;> rw [e]; omega

example : (77 : UInt8) ≠ 0 ∧ (77 : UInt8) ≠ 255 := by decide

/-- C20: at every opacity the alpha is exactly ⌊o·a/255⌋. -/
theorem transparency_alpha (c : Color) (o : UInt8) :
    (transparency c o).toNRGBA.a.toNat = o.toNat * c.toNRGBA.a.toNat / 255 := by
  obtain ⟨h1, h2, h3⟩ := C20_opacity c o
  by_cases h255 : o = 255
  · rw [h1 h255, h255]
    have : (255 : UInt8).toNat = 255 := rfl
    rw [this]; omega
  · by_cases h0 : o = 0
    · rw [h2 h0, h0]; simp [Color.toNRGBA]
    · obtain ⟨n, e, -, -, -, ha⟩ := h3 h0 h255
      rw [e]; exact ha

/-- C20: the alpha never grows, and is monotone in the opacity. -/
theorem C20_monotone (c : Color) (o o' : UInt8) (h : o ≤ o') :
    (transparency c o).toNRGBA.a ≤ c.toNRGBA.a ∧
    (transparency c o).toNRGBA.a ≤ (transparency c o').toNRGBA.a := by
  rw [UInt16.le_iff_toNat_le, UInt16.le_iff_toNat_le, transparency_alpha, transparency_alpha]
  rw [UInt8.le_iff_toNat_le] at h
  constructor
  · apply Nat.div_le_of_le_mul; exact Nat.mul_le_mul_right _ (u8_le o)
  · apply Nat.div_le_div_right; exact Nat.mul_le_mul_right _ h

example : (3 : UInt8) ≤ 200 := by decide

end Limage
