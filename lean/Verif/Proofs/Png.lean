import Verif.Spec.Png
import Verif.Props.Pixel
import Verif.Props.Looks
/-!
# Colours in PNG files
-/
namespace Limage
open Spec

theorem byte_near {x : Nat} (h : x ≤ 65535) : x ≤ 257 * (x / 256) + 512 ∧ 257 * (x / 256) ≤ x + 512 := by omega

/-- a channel stored with 8 bits, not premultiplied -/
theorem premul8_near {r a : Nat} (hr : r ≤ a) (ha : a < 65535) (h0 : 0 < a) :
    r ≤ 257 * (r * 65535 / a / 256) * (a / 256) / 255 + 512 ∧ 257 * (r * 65535 / a / 256) * (a / 256) / 255 ≤ r + 512 := by
  have h1 := (unpremul_nat hr (by omega) h0).1
  have h2 : r * 65535 / a * a ≤ r * 65535 := Nat.div_mul_le_self ..
  have h3 : r * 65535 < (r * 65535 / a + 1) * a := by
    have := Nat.lt_div_mul_add (a := r * 65535) h0
    rw [Nat.add_mul, Nat.one_mul]
    exact this
  generalize r * 65535 / a = t at *
  have hu : 256 * (t / 256) ≤ t ∧ t + 1 ≤ 256 * (t / 256) + 256 := by omega
  have hv : 256 * (a / 256) ≤ a ∧ a ≤ 256 * (a / 256) + 256 := by omega
  have hu' : t / 256 ≤ 255 := by omega
  have hv' : a / 256 ≤ 255 := by omega
  generalize t / 256 = u at *
  generalize a / 256 = v at *
  have e1 : 256 * u * (256 * v) ≤ r * 65535 := Nat.le_trans (Nat.mul_le_mul hu.1 hv.1) h2
  have e2 : r * 65535 < (256 * u + 256) * (256 * v + 256) := Nat.lt_of_lt_of_le h3 (Nat.mul_le_mul hu.2 hv.2)
  have f1 : 256 * u * (256 * v) = 65536 * (u * v) := by rw [Nat.mul_mul_mul_comm]
  have f2 : (256 * u + 256) * (256 * v + 256) = 65536 * (u * v) + 65536 * u + 65536 * v + 65536 := by
    rw [Nat.add_mul, Nat.mul_add, f1, Nat.mul_add]
    omega
  have f3 : 257 * u * v = 257 * (u * v) := Nat.mul_assoc ..
  have f4 : u * v ≤ 255 * u := by rw [Nat.mul_comm 255]; exact Nat.mul_le_mul_left _ hv'
  have f5 : u * v ≤ 255 * v := Nat.mul_le_mul_right _ hu'
  rw [f1] at e1
  rw [f2] at e2
  rw [f3]
  generalize u * v = w at *
  omega

theorem high_nat (q : UInt32) (h : q.toNat ≤ 65535) : ((q >>> 8).toUInt8).toNat = q.toNat / 256 := by
  rw [UInt32.toNat_toUInt8, UInt32.toNat_shiftRight]
  simp [Nat.shiftRight_eq_div_pow]
  omega

theorem gray16_of_grey (c : Color) (v : Nat) (hv : v ≤ 65535)
    (hr : c.rgba32.r.toNat = v) (hg : c.rgba32.g.toNat = v) (hb : c.rgba32.b.toNat = v) : (gray16Model c).toNat = v := by
  by_cases hc : ∃ y, c = .gray16 y
  · obtain ⟨y, rfl⟩ := hc
    simpa [gray16Model, Color.rgba32] using hr
  have e : gray16Model c = (((19595 * c.rgba32.r + 38470 * c.rgba32.g + 7471 * c.rgba32.b + 0x8000) : UInt32)
      >>> 16).toUInt16 := by
    cases c <;> first | rfl | exact absurd ⟨_, rfl⟩ hc
  rw [e]
  generalize c.rgba32 = q at *
  have k1 : (19595 * q.r).toNat = 19595 * v := by
    have e : (19595 : UInt32).toNat = 19595 := rfl
    rw [mul32 _ _ (by rw [e]; omega), e, hr]
  have k2 : (38470 * q.g).toNat = 38470 * v := by
    have e : (38470 : UInt32).toNat = 38470 := rfl
    rw [mul32 _ _ (by rw [e]; omega), e, hg]
  have k3 : (7471 * q.b).toNat = 7471 * v := by
    have e : (7471 : UInt32).toNat = 7471 := rfl
    rw [mul32 _ _ (by rw [e]; omega), e, hb]
  have e8 : (0x8000 : UInt32).toNat = 32768 := rfl
  have k12 : (19595 * q.r + 38470 * q.g).toNat = 58065 * v := by rw [add32] <;> omega
  have k123 : (19595 * q.r + 38470 * q.g + 7471 * q.b).toNat = 65536 * v := by rw [add32] <;> omega
  have k : (19595 * q.r + 38470 * q.g + 7471 * q.b + 0x8000).toNat = 65536 * v + 32768 := by
    rw [add32] <;> omega
  rw [UInt32.toNat_toUInt16, UInt32.toNat_shiftRight, k]
  simp [Nat.shiftRight_eq_div_pow]
  omega

theorem nearby_refl (p : RGBA32) : Nearby p p := by
  unfold Nearby; omega

/-- conversion to `NRGBA` -/
theorem nrgba8_near (c : Color) (hv : Premul c.rgba32) : Nearby c.rgba32 (PngKind.tca8.back c).rgba32 := by
  by_cases hc : ∃ r g b a, c = .nrgba r g b a
  · obtain ⟨r, g, b, a, rfl⟩ := hc
    exact nearby_refl _
  have e : nrgbaModel c = nrgbaModel (.other c.rgba32) := by
    cases c <;> first | rfl | exact absurd ⟨_, _, _, _, rfl⟩ hc
  unfold PngKind.back
  dsimp only
  rw [e]
  generalize c.rgba32 = q at *
  obtain ⟨hr, hg, hb, ha⟩ := hv
  unfold nrgbaModel Nearby Color.rgba32
  dsimp only [Color.rgba32]
  by_cases h1 : q.a = 0xffff
  · rw [if_pos h1]
    have h1 : q.a.toNat = 65535 := by rw [h1]; rfl
    simp only [gray_premul_nat, widen32_nat]
    rw [high_nat _ (by omega), high_nat _ (by omega), high_nat _ (by omega), show (255 : UInt8).toNat = 255 from rfl]
    omega
  · rw [if_neg h1]
    by_cases h2 : q.a = 0
    · rw [if_pos h2]
      have h2 : q.a.toNat = 0 := by rw [h2]; rfl
      simp only [gray_premul_nat, widen32_nat, show (0 : UInt8).toNat = 0 from rfl]
      omega
    · rw [if_neg h2]
      have h1 : q.a.toNat ≠ 65535 := fun e => h1 (UInt32.toNat_inj.1 e)
      have h2 : 0 < q.a.toNat := Nat.pos_of_ne_zero fun e => h2 (UInt32.toNat_inj.1 e)
      have ch : ∀ x : UInt32, x.toNat ≤ q.a.toNat → (((x * 0xffff / q.a) >>> 8).toUInt8).toNat = x.toNat * 65535 / q.a.toNat / 256 := by
        intro x hx
        have hm : (x * 0xffff).toNat = x.toNat * 65535 := by
          rw [mul32] <;> rw [ffff32]; omega
        have hd : (x * 0xffff / q.a).toNat = x.toNat * 65535 / q.a.toNat := by
          rw [UInt32.toNat_div, hm]
        rw [high_nat _ (by rw [hd]; exact (unpremul_nat hx ha h2).1), hd]
      simp only [gray_premul_nat, widen32_nat]
      rw [ch _ hr, ch _ hg, ch _ hb, high_nat _ ha]
      exact ⟨premul8_near hr (by omega) h2, premul8_near hg (by omega) h2, premul8_near hb (by omega) h2, byte_near ha⟩

/-- what is read is near to what was written -/
theorem back_near (k : PngKind) (c : Color) (hv : Premul c.rgba32) (hd : k.drops = true → c.rgba32.a = 0xffff)
    (hg : k.grey = true → c.rgba32.r = c.rgba32.g ∧ c.rgba32.g = c.rgba32.b ∧ c.rgba32.a = 0xffff) : Nearby c.rgba32 (k.back c).rgba32 := by
  obtain ⟨v1, v2, v3, v4⟩ := hv
  cases k with
  | g8 =>
    obtain ⟨h1, h2, h3⟩ := hg rfl
    by_cases hc : ∃ y, c = .gray y
    · obtain ⟨y, rfl⟩ := hc
      exact nearby_refl _
    · have := C73_gray_of_grey c (fun y h => hc ⟨y, h⟩) c.rgba32.r.toNat (by omega) rfl (by rw [h1]) (by rw [h1, h2])
      unfold PngKind.back
      dsimp only
      unfold Nearby
      have e : (Color.gray (grayModel c)).rgba32 = ⟨widen32 (grayModel c), widen32 (grayModel c), widen32 (grayModel c), 0xffff⟩ := rfl
      rw [e]
      dsimp only
      rw [widen32_nat, this, ← h2, ← h1, h3]
      omega
  | g16 =>
    obtain ⟨h1, h2, h3⟩ := hg rfl
    have := gray16_of_grey c c.rgba32.r.toNat (by omega) rfl (by rw [h1]) (by rw [h1, h2])
    unfold PngKind.back
    dsimp only
    unfold Nearby
    have e : (Color.gray16 (gray16Model c)).rgba32 = ⟨(gray16Model c).toUInt32, (gray16Model c).toUInt32, (gray16Model c).toUInt32, 0xffff⟩ := rfl
    rw [e]
    dsimp only
    rw [UInt16.toNat_toUInt32, this, ← h2, ← h1, h3]
    omega
  | tc8 =>
    have h := hd rfl
    unfold PngKind.back
    dsimp only
    generalize c.rgba32 = q at *
    unfold Nearby Color.rgba32
    dsimp only
    rw [widen32_nat, widen32_nat, widen32_nat, widen32_nat, high_nat _ (by omega), high_nat _ (by omega), high_nat _ (by omega), h,
      show (255 : UInt8).toNat = 255 from rfl, ffff32]
    omega
  | tca8 => exact nrgba8_near c ⟨v1, v2, v3, v4⟩
  | tc16 =>
    have h := hd rfl
    unfold PngKind.back
    dsimp only
    generalize c.rgba32 = q at *
    unfold Nearby Color.rgba32
    dsimp only
    rw [UInt16.toNat_toUInt32, UInt16.toNat_toUInt32, UInt16.toNat_toUInt32, UInt16.toNat_toUInt32, to16 _ (by omega), to16 _ (by omega), to16 _ (by omega), h]
    simp
  | tca16 =>
    have hk : ∀ n : NRGBA64, (n.a.toNat = c.rgba32.a.toNat ∧
        (n.rgba.r.toNat ≤ c.rgba32.r.toNat ∧ c.rgba32.r.toNat ≤ n.rgba.r.toNat + 1) ∧
        (n.rgba.g.toNat ≤ c.rgba32.g.toNat ∧ c.rgba32.g.toNat ≤ n.rgba.g.toNat + 1) ∧
        (n.rgba.b.toNat ≤ c.rgba32.b.toNat ∧ c.rgba32.b.toNat ≤ n.rgba.b.toNat + 1)) → Nearby c.rgba32 n.rgba := by
      intro n hn
      have : n.rgba.a.toNat = n.a.toNat := by rw [NRGBA64.rgba_a]
      unfold Nearby
      omega
    show Nearby c.rgba32 (nrgba64Model c).rgba
    by_cases hc : ∃ n, c = .nrgba64 n
    · obtain ⟨n, rfl⟩ := hc
      exact nearby_refl _
    · have e : nrgba64Model c = (Color.other c.rgba32).toNRGBA := by
        cases c <;> first | rfl | exact absurd ⟨_, rfl⟩ hc
      rw [e]
      exact hk _ (C72_faithful (.other c.rgba32) ⟨v1, v2, v3, v4⟩)

/-- opaque colours with 8 bits per channel cannot be told from what is read of them -/
theorem back_opaque8 (k : PngKind) (c : Color) {r g b : UInt8} (h : Opaque8 c.rgba32 r g b) (hg : k.grey = true → r = g ∧ g = b) :
    (k.back c).toNRGBA = c.toNRGBA := by
  have he := h.eq
  have hr := u8_le r
  have hgg := u8_le g
  have hb := u8_le b
  refine (Opaque8.toNRGBA (r := r) (g := g) (b := b) ?_).trans h.toNRGBA.symm
  cases k with
  | g8 =>
    obtain ⟨rfl, rfl⟩ := hg rfl
    have : grayModel c = r := by
      by_cases hc : ∃ y, c = .gray y
      · obtain ⟨y, rfl⟩ := hc
        have := h.1
        simp only [Color.rgba32, widen32_nat] at this
        exact UInt8.toNat_inj.1 (by show y.toNat = _; omega)
      · have := C73_gray_of_grey c (fun y h => hc ⟨y, h⟩) (257 * r.toNat) (by omega) h.1 h.2.1 h.2.2.1
        exact UInt8.toNat_inj.1 (by omega)
    show Opaque8 (Color.gray (grayModel c)).rgba32 r r r
    rw [this]
    exact ⟨widen32_nat _, widen32_nat _, widen32_nat _, rfl⟩
  | g16 =>
    obtain ⟨rfl, rfl⟩ := hg rfl
    have := gray16_of_grey c (257 * r.toNat) (by omega) h.1 h.2.1 h.2.2.1
    have e : ((gray16Model c).toUInt32).toNat = 257 * r.toNat := by rw [UInt16.toNat_toUInt32, this]
    exact ⟨e, e, e, rfl⟩
  | tc8 =>
    show Opaque8 (Color.rgba _ _ _ 255).rgba32 r g b
    rw [he]
    dsimp only
    rw [shr8_widen, shr8_widen, shr8_widen]
    exact ⟨widen32_nat _, widen32_nat _, widen32_nat _, rfl⟩
  | tca8 =>
    show Opaque8 (Color.nrgba (nrgbaModel c).1 (nrgbaModel c).2.1 (nrgbaModel c).2.2.1 (nrgbaModel c).2.2.2).rgba32 r g b
    rw [nrgbaModel_opaque h]
    dsimp only
    rw [nrgba_opaque]
    exact ⟨widen32_nat _, widen32_nat _, widen32_nat _, rfl⟩
  | tc16 =>
    show Opaque8 (Color.rgba64 _ _ _ 0xffff).rgba32 r g b
    rw [he]
    have hw : ∀ x : UInt8, ((widen32 x).toUInt16).toUInt32.toNat = 257 * x.toNat := by
      intro x
      have := u8_le x
      rw [UInt16.toNat_toUInt32, to16 _ (by rw [widen32_nat]; omega), widen32_nat]
    exact ⟨hw _, hw _, hw _, rfl⟩
  | tca16 =>
    show Opaque8 (nrgba64Model c).rgba r g b
    have hd : ∀ x : UInt8, ((widen32 x).toUInt16.toUInt32 * (0xffff : UInt16).toUInt32 / 0xffff).toNat = 257 * x.toNat := by
      intro x
      have := u8_le x
      rw [UInt32.toNat_div, UInt32.toNat_mul, UInt16.toNat_toUInt32, show ((0xffff : UInt16).toUInt32).toNat = 65535 from rfl,
        show (0xffff : UInt32).toNat = 65535 from rfl, to16 _ (by rw [widen32_nat]; omega), widen32_nat]
      omega
    by_cases hc : ∃ n, c = .nrgba64 n
    · obtain ⟨n, rfl⟩ := hc
      exact h
    · have e : nrgba64Model c = (Color.other c.rgba32).toNRGBA := by
        cases c <;> first | rfl | exact absurd ⟨_, rfl⟩ hc
      rw [e, he, show (Color.other ⟨widen32 r, widen32 g, widen32 b, 0xffff⟩).toNRGBA =
        ⟨(widen32 r).toUInt16, (widen32 g).toUInt16, (widen32 b).toUInt16, 0xffff⟩ by rfl]
      exact ⟨hd _, hd _, hd _, rfl⟩

end Limage
