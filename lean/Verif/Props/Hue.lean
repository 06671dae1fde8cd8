import Verif.Props.HslShift
import Mathlib.Tactic.Linarith
import Mathlib.Tactic.FieldSimp
import Mathlib.Tactic.Push
import Mathlib.Data.Rat.Cast.Order
/-! C150: hue, saturation, lightness and value are those of their definitions. -/
namespace Limage
namespace Spec

/-- the brightest channel -/
def peak (c : NRGBA64) : Rat := max (c.r.toNat : Rat) (max c.g.toNat c.b.toNat)

/-- the darkest channel -/
def darkest (c : NRGBA64) : Rat := min (c.r.toNat : Rat) (min c.g.toNat c.b.toNat)

/-- the chroma of a colour -/
def chroma (c : NRGBA64) : Rat := peak c - darkest c

/-- The hue of a colour that is not grey, in sixths of a turn (Smith 1978): red is 0, yellow 1, green 2, cyan 3, blue 4 and
magenta 5. -/
def hexHue (c : NRGBA64) : Rat :=
  if (c.r.toNat : Rat) = peak c then
    (if c.b.toNat ≤ c.g.toNat then 0 else 6) + ((c.g.toNat : Rat) - c.b.toNat) / chroma c
  else if (c.g.toNat : Rat) = peak c then 2 + ((c.b.toNat : Rat) - c.r.toNat) / chroma c
  else 4 + ((c.r.toNat : Rat) - c.g.toNat) / chroma c

/-- a 16-bit value is a fraction of the full range, rounded down -/
def IsFloor (x : UInt16) (q : Rat) : Prop := (x.toNat : Rat) ≤ q ∧ q < x.toNat + 1

/-- a 16-bit hue (65535 to the turn) is an angle given in sixths of a turn, rounded down, except that it may be the next number if the
angle is less than a sixth of a unit below it -/
def IsHue (h : UInt16) (q : Rat) : Prop := (h.toNat : Rat) < 65535 * q / 6 + 1 / 6 ∧ 65535 * q / 6 < h.toNat + 1

end Spec

open Spec

theorem nat_max3 (a b c : Nat) : max (a : Rat) (max (b : Rat) (c : Rat)) = ((max a (max b c) : Nat) : Rat) := by push_cast; rfl

theorem nat_min3 (a b c : Nat) : min (a : Rat) (min (b : Rat) (c : Rat)) = ((min a (min b c) : Nat) : Rat) := by push_cast; rfl

/-- the angle the code divides by six -/
theorem hue_angle (cl : NRGBA64) (mx : UInt16) (c : UInt32) (mn : Nat)
    (hmx : mx.toNat = max cl.r.toNat (max cl.g.toNat cl.b.toNat)) (hmn : mn = min cl.r.toNat (min cl.g.toNat cl.b.toNat))
    (hc : c.toNat = mx.toNat - mn) (hpos : mn < mx.toNat) :
    ∃ H : Nat, (colourToHue cl mx c).toNat = H / 6 ∧
      (if cl.r.toNat = mx.toNat then
        if cl.b.toNat ≤ cl.g.toNat then H = 65535 * (cl.g.toNat - cl.b.toNat) / c.toNat
        else H = 393210 - 65535 * (cl.b.toNat - cl.g.toNat) / c.toNat
      else if cl.g.toNat = mx.toNat then
        if cl.r.toNat ≤ cl.b.toNat then H = 131070 + 65535 * (cl.b.toNat - cl.r.toNat) / c.toNat
        else H = 131070 - 65535 * (cl.r.toNat - cl.b.toNat) / c.toNat
      else
        if cl.g.toNat ≤ cl.r.toNat then H = 262140 + 65535 * (cl.r.toNat - cl.g.toNat) / c.toNat
        else H = 262140 - 65535 * (cl.g.toNat - cl.r.toNat) / c.toNat) := by
  have lr := u16_le cl.r
  have lg := u16_le cl.g
  have lb := u16_le cl.b
  have c6 : (6 : UInt32).toNat = 6 := rfl
  have cA : (0x5fffa : UInt32).toNat = 393210 := rfl
  have cB : (0x1fffe : UInt32).toNat = 131070 := rfl
  have cC : (0x3fffc : UInt32).toNat = 262140 := rfl
  have quot : ∀ x y : UInt16, y.toNat ≤ x.toNat →
      (0xffff * (x - y).toUInt32 / c).toNat = 65535 * (x.toNat - y.toNat) / c.toNat := by
    intro x y h
    rw [UInt32.toNat_div, full_mul, sub16 _ _ h]
  have small : ∀ d, d ≤ c.toNat → 65535 * d / c.toNat ≤ 65535 := fun d hd => (ratio_nat d c.toNat hd (by omega)).1
  have fin : ∀ h : UInt32, h.toNat ≤ 393210 → (h / 6).toUInt16.toNat = h.toNat / 6 := by
    intro h hl
    rw [to16] <;> rw [UInt32.toNat_div, c6]; omega
  have iff1 : (mx = cl.r) ↔ cl.r.toNat = mx.toNat := by rw [← UInt16.toNat_inj]; omega
  have iff2 : (mx = cl.g) ↔ cl.g.toNat = mx.toNat := by rw [← UInt16.toNat_inj]; omega
  have iff3 : (mx = cl.b) ↔ cl.b.toNat = mx.toNat := by rw [← UInt16.toNat_inj]; omega
  unfold colourToHue
  dsimp only
  simp only [iff1, iff2, iff3, ge_iff_le, UInt16.le_iff_toNat_le]
  split
  · split
    · rename_i h
      refine ⟨_, fin _ ?_, ?_⟩
      · rw [UInt32.zero_add, quot _ _ h]; have := small (cl.g.toNat - cl.b.toNat) (by omega); omega
      · rw [UInt32.zero_add, quot _ _ h]
    · rename_i h
      have h' : cl.g.toNat ≤ cl.b.toNat := by omega
      have sm := small (cl.b.toNat - cl.g.toNat) (by omega)
      have e : (0x5fffa - 0xffff * (cl.b - cl.g).toUInt32 / c).toNat = 393210 - 65535 * (cl.b.toNat - cl.g.toNat) / c.toNat := by
        rw [sub32] <;> rw [quot _ _ h', cA]; omega
      exact ⟨_, fin _ (by rw [e]; exact Nat.le_trans (Nat.sub_le _ _) (by decide)), e⟩
  · split
    · split
      · rename_i h
        have sm := small (cl.b.toNat - cl.r.toNat) (by omega)
        have e : (0x1fffe + 0xffff * (cl.b - cl.r).toUInt32 / c).toNat = 131070 + 65535 * (cl.b.toNat - cl.r.toNat) / c.toNat := by
          rw [add32] <;> rw [quot _ _ h, cB]; omega
        exact ⟨_, fin _ (by rw [e]; omega), e⟩
      · rename_i h
        have h' : cl.b.toNat ≤ cl.r.toNat := by omega
        have sm := small (cl.r.toNat - cl.b.toNat) (by omega)
        have e : (0x1fffe - 0xffff * (cl.r - cl.b).toUInt32 / c).toNat = 131070 - 65535 * (cl.r.toNat - cl.b.toNat) / c.toNat := by
          rw [sub32] <;> rw [quot _ _ h', cB]; omega
        exact ⟨_, fin _ (by rw [e]; exact Nat.le_trans (Nat.sub_le _ _) (by decide)), e⟩
    · rw [if_pos (by omega)]
      split
      · rename_i h
        have sm := small (cl.r.toNat - cl.g.toNat) (by omega)
        have e : (0x3fffc + 0xffff * (cl.r - cl.g).toUInt32 / c).toNat = 262140 + 65535 * (cl.r.toNat - cl.g.toNat) / c.toNat := by
          rw [add32] <;> rw [quot _ _ h, cC]; omega
        exact ⟨_, fin _ (by rw [e]; omega), e⟩
      · rename_i h
        have h' : cl.r.toNat ≤ cl.g.toNat := by omega
        have sm := small (cl.g.toNat - cl.r.toNat) (by omega)
        have e : (0x3fffc - 0xffff * (cl.g - cl.r).toUInt32 / c).toNat = 262140 - 65535 * (cl.g.toNat - cl.r.toNat) / c.toNat := by
          rw [sub32] <;> rw [quot _ _ h', cC]; omega
        exact ⟨_, fin _ (by rw [e]; exact Nat.le_trans (Nat.sub_le _ _) (by decide)), e⟩

/-- a sector of the hexagon, counted up or down from `k` -/
theorem hue_up {H h k d C : Nat} (hC : 0 < C) (hh : h = H / 6) (hH : H = 65535 * k + 65535 * d / C) :
    (h : Rat) < 65535 * (k + (d : Rat) / C) / 6 + 1 / 6 ∧ 65535 * (k + (d : Rat) / C) / 6 < h + 1 := by
  have hC' : (0 : Rat) < C := by exact_mod_cast hC
  have f1 : 65535 * d / C * C ≤ 65535 * d := Nat.div_mul_le_self _ _
  have f2 : 65535 * d < 65535 * d / C * C + C := by have := Nat.lt_div_mul_add (a := 65535 * d) hC; omega
  generalize 65535 * d / C = q at *
  have g1 : 6 * h ≤ H := by omega
  have g2 : H ≤ 6 * h + 5 := by omega
  have g1' : (6 * h : Rat) ≤ 65535 * k + q := by rw [hH] at g1; exact_mod_cast g1
  have g2' : (65535 * k + q : Rat) ≤ 6 * h + 5 := by rw [hH] at g2; exact_mod_cast g2
  have f1' : (q : Rat) ≤ 65535 * (d / C) := by
    rw [← mul_div_assoc, le_div_iff₀ hC']; exact_mod_cast f1
  have f2' : 65535 * ((d : Rat) / C) < q + 1 := by
    rw [← mul_div_assoc, div_lt_iff₀ hC', add_mul, one_mul]; exact_mod_cast f2
  generalize (d : Rat) / C = x at *
  constructor <;> linarith

theorem hue_down {H h k d C : Nat} (hC : 0 < C) (hh : h = H / 6) (hH : H = 65535 * k - 65535 * d / C) (hk : 65535 * d / C ≤ 65535 * k) :
    (h : Rat) < 65535 * (k + (-(d : Rat)) / C) / 6 + 1 / 6 ∧ 65535 * (k + (-(d : Rat)) / C) / 6 < h + 1 := by
  have hC' : (0 : Rat) < C := by exact_mod_cast hC
  have f1 : 65535 * d / C * C ≤ 65535 * d := Nat.div_mul_le_self _ _
  have f2 : 65535 * d < 65535 * d / C * C + C := by have := Nat.lt_div_mul_add (a := 65535 * d) hC; omega
  generalize 65535 * d / C = q at *
  have g1 : 6 * h + q ≤ 65535 * k := by omega
  have g2 : 65535 * k ≤ 6 * h + 5 + q := by omega
  have g1' : (6 * h + q : Rat) ≤ 65535 * k := by exact_mod_cast g1
  have g2' : (65535 * k : Rat) ≤ 6 * h + 5 + q := by exact_mod_cast g2
  have f1' : (q : Rat) ≤ 65535 * (d / C) := by
    rw [← mul_div_assoc, le_div_iff₀ hC']; exact_mod_cast f1
  have f2' : 65535 * ((d : Rat) / C) < q + 1 := by
    rw [← mul_div_assoc, div_lt_iff₀ hC', add_mul, one_mul]; exact_mod_cast f2
  rw [neg_div]
  generalize (d : Rat) / C = x at *
  constructor <;> linarith

theorem hue_is (cl : NRGBA64) (mx : UInt16) (c : UInt32) (mn : Nat)
    (hmx : mx.toNat = max cl.r.toNat (max cl.g.toNat cl.b.toNat)) (hmn : mn = min cl.r.toNat (min cl.g.toNat cl.b.toNat))
    (hc : c.toNat = mx.toNat - mn) (hpos : mn < mx.toNat) : IsHue (colourToHue cl mx c) (hexHue cl) := by
  obtain ⟨H, h1, h2⟩ := hue_angle cl mx c mn hmx hmn hc hpos
  have hb : peak cl = (mx.toNat : Rat) := by rw [peak, nat_max3, hmx]
  have hch : chroma cl = (c.toNat : Rat) := by
    rw [chroma, hb, darkest, nat_min3, ← hmn, hc, Nat.cast_sub (by omega)]
  have hC : 0 < c.toNat := by omega
  have small : ∀ d, d ≤ c.toNat → 65535 * d / c.toNat ≤ 65535 := fun d hd => (ratio_nat d c.toNat hd hC).1
  unfold IsHue hexHue
  rw [hb, hch]
  simp only [Nat.cast_inj]
  split at h2
  · rename_i e
    rw [if_pos e]
    split at h2
    · rename_i l
      rw [if_pos l, ← Nat.cast_sub l]
      have := hue_up (k := 0) (d := cl.g.toNat - cl.b.toNat) hC h1 (by omega)
      simpa using this
    · rename_i l
      rw [if_neg l, show (cl.g.toNat : Rat) - cl.b.toNat = -((cl.b.toNat - cl.g.toNat : Nat) : Rat) by
        rw [Nat.cast_sub (by omega)]; ring]
      have := hue_down (k := 6) hC h1 (by omega) (by have := small (cl.b.toNat - cl.g.toNat) (by omega); omega)
      exact this
  · rename_i e
    rw [if_neg e]
    split at h2
    · rename_i e
      rw [if_pos e]
      split at h2
      · rename_i l
        rw [← Nat.cast_sub l]
        exact hue_up (k := 2) hC h1 (by omega)
      · rename_i l
        rw [show (cl.b.toNat : Rat) - cl.r.toNat = -((cl.r.toNat - cl.b.toNat : Nat) : Rat) by
          rw [Nat.cast_sub (by omega)]; ring]
        exact hue_down (k := 2) hC h1 (by omega) (by have := small (cl.r.toNat - cl.b.toNat) (by omega); omega)
    · rename_i e
      rw [if_neg e]
      split at h2
      · rename_i l
        rw [← Nat.cast_sub l]
        exact hue_up (k := 4) hC h1 (by omega)
      · rename_i l
        rw [show (cl.r.toNat : Rat) - cl.g.toNat = -((cl.g.toNat - cl.r.toNat : Nat) : Rat) by
          rw [Nat.cast_sub (by omega)]; ring]
        exact hue_down (k := 4) hC h1 (by omega) (by have := small (cl.g.toNat - cl.r.toNat) (by omega); omega)

theorem floor_is {d C : Nat} (hC : 0 < C) (x : UInt16) (hx : x.toNat = 65535 * d / C) :
    IsFloor x (65535 * ((d : Rat) / C)) := by
  have hC' : (0 : Rat) < C := by exact_mod_cast hC
  have f1 : 65535 * d / C * C ≤ 65535 * d := Nat.div_mul_le_self _ _
  have f2 : 65535 * d < 65535 * d / C * C + C := by have := Nat.lt_div_mul_add (a := 65535 * d) hC; omega
  unfold IsFloor
  rw [hx]
  generalize 65535 * d / C = q at *
  constructor
  · rw [← mul_div_assoc, le_div_iff₀ hC']; exact_mod_cast f1
  · rw [← mul_div_assoc, div_lt_iff₀ hC', add_mul, one_mul]; exact_mod_cast f2

/-- the extremes of a colour, as the code computes them -/
theorem extremes (c : NRGBA64) : peak c = ((goMax [c.r, c.g, c.b]).toNat : Rat) ∧ darkest c = ((goMin [c.r, c.g, c.b]).toNat : Rat) ∧
    (goMin [c.r, c.g, c.b]).toNat ≤ (goMax [c.r, c.g, c.b]).toNat := by
  have h1 := goMax3 c.r c.g c.b
  have h2 := goMin3 c.r c.g c.b
  refine ⟨by rw [peak, nat_max3, h1], by rw [darkest, nat_min3, h2], by omega⟩

/-- RGBToHSV. -/
theorem C150_hsv (c : NRGBA64) :
    ∃ h, rgbToHSV c = some h ∧ h.a = c.a ∧ (h.v.toNat : Rat) = peak c ∧
      (chroma c = 0 → h.h = 0 ∧ h.s = 0) ∧
      (chroma c ≠ 0 → IsFloor h.s (65535 * (chroma c / peak c)) ∧ IsHue h.h (hexHue c)) := by
  obtain ⟨e1, e2, e3⟩ := extremes c
  have m1 := goMax3 c.r c.g c.b
  have m2 := goMin3 c.r c.g c.b
  unfold rgbToHSV
  dsimp only
  generalize goMax [c.r, c.g, c.b] = mx at *
  generalize goMin [c.r, c.g, c.b] = mn at *
  have lmx := u16_le mx
  have hc : (mx - mn).toUInt32.toNat = mx.toNat - mn.toNat := by rw [toNat_16_32, sub16 _ _ e3]
  have hch : chroma c = ((mx.toNat - mn.toNat : Nat) : Rat) := by rw [chroma, e1, e2, Nat.cast_sub e3]
  by_cases h0 : (mx - mn).toUInt32 = 0
  · rw [if_pos h0]
    have : mx.toNat - mn.toNat = 0 := by rw [← hc, h0]; rfl
    refine ⟨_, rfl, rfl, e1.symm, fun _ => ⟨rfl, rfl⟩, fun h => absurd ?_ h⟩
    rw [hch, this]; rfl
  · have hpos : mn.toNat < mx.toNat := by
      refine Nat.lt_of_not_le fun h => h0 (UInt32.toNat_inj.1 ?_)
      rw [hc]
      show _ = 0
      omega
    have hm0 : mx.toUInt32 ≠ 0 := by
      intro e
      have := congrArg UInt32.toNat e
      rw [toNat_16_32] at this
      have : mx.toNat = 0 := this
      omega
    rw [if_neg h0, if_neg hm0]
    refine ⟨_, rfl, rfl, e1.symm, fun h => ?_, fun _ => ⟨?_, hue_is c mx _ mn.toNat m1 m2 hc hpos⟩⟩
    · rw [hch, Nat.cast_eq_zero] at h; omega
    · rw [hch, e1]
      refine floor_is (by omega) _ ?_
      have e : (0xffff * (mx - mn).toUInt32 / mx.toUInt32).toNat = 65535 * (mx.toNat - mn.toNat) / mx.toNat := by
        rw [UInt32.toNat_div, full_mul, sub16 _ _ e3, toNat_16_32]
      rw [to16] <;> rw [e]
      exact (ratio_nat _ _ (by omega) (by omega)).1

/-- an orange that is not fully saturated: a sixth of half a turn from red, chroma two thirds of the peak -/
example : rgbToHSV ⟨0xc000, 0x8000, 0x4000, 0xffff⟩ = some ⟨5461, 43690, 0xc000, 0xffff⟩ := by decide

/-- RGBToHSL. The saturation is the chroma divided by the largest chroma there is with that lightness. -/
theorem C150_hsl (c : NRGBA64) :
    ∃ h, rgbToHSL c = some h ∧ h.a = c.a ∧ IsFloor h.l ((peak c + darkest c) / 2) ∧
      (chroma c = 0 → h.h = 0 ∧ h.s = 0) ∧
      (chroma c ≠ 0 → IsFloor h.s (65535 * (chroma c / (65535 - |peak c + darkest c - 65535|))) ∧ IsHue h.h (hexHue c)) := by
  obtain ⟨e1, e2, e3⟩ := extremes c
  have m1 := goMax3 c.r c.g c.b
  have m2 := goMin3 c.r c.g c.b
  unfold rgbToHSL
  dsimp only
  generalize goMax [c.r, c.g, c.b] = mx at *
  generalize goMin [c.r, c.g, c.b] = mn at *
  have lmx := u16_le mx
  have hc : (mx.toUInt32 - mn.toUInt32).toNat = mx.toNat - mn.toNat := by
    rw [sub32] <;> rw [toNat_16_32, toNat_16_32]; exact e3
  have hl : (mx.toUInt32 + mn.toUInt32).toNat = mx.toNat + mn.toNat := by
    rw [add32] <;> rw [toNat_16_32, toNat_16_32]; omega
  have hch : chroma c = ((mx.toNat - mn.toNat : Nat) : Rat) := by rw [chroma, e1, e2, Nat.cast_sub e3]
  have hsum : peak c + darkest c = ((mx.toNat + mn.toNat : Nat) : Rat) := by rw [e1, e2, Nat.cast_add]
  have e16 : mx.toUInt32.toUInt16 = mx := by apply UInt16.toNat_inj.1; simp
  have hl16 : ((mx.toUInt32 + mn.toUInt32) >>> 1).toUInt16.toNat = (mx.toNat + mn.toNat) / 2 := by
    have e : ((mx.toUInt32 + mn.toUInt32) >>> 1).toNat = (mx.toNat + mn.toNat) / 2 := by
      rw [UInt32.toNat_shiftRight, hl]
      simp [Nat.shiftRight_eq_div_pow]
    rw [to16] <;> rw [e]; omega
  have hfl : IsFloor ((mx.toUInt32 + mn.toUInt32) >>> 1).toUInt16 ((peak c + darkest c) / 2) := by
    unfold IsFloor
    rw [hl16, hsum]
    have a1 : 2 * ((mx.toNat + mn.toNat) / 2) ≤ mx.toNat + mn.toNat := by omega
    have a2 : mx.toNat + mn.toNat < 2 * ((mx.toNat + mn.toNat) / 2) + 2 := by omega
    generalize (mx.toNat + mn.toNat) / 2 = q at *
    generalize mx.toNat + mn.toNat = s at *
    have a1' : (2 * q : Rat) ≤ s := by exact_mod_cast a1
    have a2' : (s : Rat) < 2 * q + 2 := by exact_mod_cast a2
    constructor <;> linarith
  by_cases h0 : mx.toUInt32 - mn.toUInt32 = 0
  · rw [if_pos h0]
    have : mx.toNat - mn.toNat = 0 := by rw [← hc, h0]; rfl
    refine ⟨_, rfl, rfl, hfl, fun _ => ⟨rfl, rfl⟩, fun h => absurd ?_ h⟩
    rw [hch, this]; rfl
  · have hpos : mn.toNat < mx.toNat := by
      refine Nat.lt_of_not_le fun h => h0 (UInt32.toNat_inj.1 ?_)
      rw [hc]
      show _ = 0
      omega
    obtain ⟨D, hD, hD1, hD2⟩ : ∃ D : Nat, (if mx.toUInt32 + mn.toUInt32 ≤ 0xffff then mx.toUInt32 + mn.toUInt32
        else 0x1fffe - (mx.toUInt32 + mn.toUInt32)).toNat = D ∧ mx.toNat - mn.toNat ≤ D ∧
        (65535 : Rat) - |((mx.toNat + mn.toNat : Nat) : Rat) - 65535| = D := by
      refine ⟨_, rfl, ?_⟩
      by_cases hle : mx.toUInt32 + mn.toUInt32 ≤ 0xffff
      · rw [if_pos hle, hl]
        rw [UInt32.le_iff_toNat_le, hl, ffff32] at hle
        refine ⟨by omega, ?_⟩
        have : ((mx.toNat + mn.toNat : Nat) : Rat) ≤ 65535 := by exact_mod_cast hle
        rw [abs_of_nonpos (by linarith)]
        ring
      · rw [if_neg hle]
        rw [UInt32.le_iff_toNat_le, hl, ffff32] at hle
        have e : (0x1fffe - (mx.toUInt32 + mn.toUInt32)).toNat = 131070 - (mx.toNat + mn.toNat) := by
          rw [sub32] <;> rw [hl]
          · rfl
          · show _ ≤ 131070; omega
        rw [e]
        refine ⟨by omega, ?_⟩
        have : (65535 : Rat) ≤ ((mx.toNat + mn.toNat : Nat) : Rat) := by
          have : 65535 ≤ mx.toNat + mn.toNat := by omega
          exact_mod_cast this
        rw [abs_of_nonneg (by linarith), Nat.cast_sub (by omega)]
        push_cast
        ring
    generalize (if mx.toUInt32 + mn.toUInt32 ≤ 0xffff then mx.toUInt32 + mn.toUInt32
        else 0x1fffe - (mx.toUInt32 + mn.toUInt32)) = d at *
    have hd0 : d ≠ 0 := by
      intro e
      rw [e] at hD
      have : (0 : UInt32).toNat = 0 := rfl
      omega
    rw [if_neg h0, if_neg hd0, e16]
    refine ⟨_, rfl, rfl, hfl, fun h => ?_, fun _ => ⟨?_, hue_is c mx _ mn.toNat m1 m2 hc hpos⟩⟩
    · rw [hch, Nat.cast_eq_zero] at h; omega
    · rw [hsum, hD2, hch]
      refine floor_is (by omega) _ ?_
      have e : (0xffff * (mx.toUInt32 - mn.toUInt32) / d).toNat = 65535 * (mx.toNat - mn.toNat) / D := by
        rw [UInt32.toNat_div, hD, mul32]
        · rw [hc]; rfl
        · rw [hc]; show 65535 * _ < _; omega
      rw [to16] <;> rw [e]
      exact (ratio_nat _ _ (by omega) (by omega)).1

/-- the same orange -/
example : rgbToHSL ⟨0xc000, 0x8000, 0x4000, 0xffff⟩ = some ⟨5461, 0x8000, 0x8000, 0xffff⟩ := by decide

/-- The two conversions give the same hue. -/
theorem C150_same (c : NRGBA64) (h : HSLA) (v : HSVA) (h1 : rgbToHSL c = some h) (h2 : rgbToHSV c = some v) : h.h = v.h := by
  obtain ⟨-, -, e3⟩ := extremes c
  unfold rgbToHSL at h1
  unfold rgbToHSV at h2
  dsimp only at h1 h2
  generalize goMax [c.r, c.g, c.b] = mx at *
  generalize goMin [c.r, c.g, c.b] = mn at *
  have hc : mx.toUInt32 - mn.toUInt32 = (mx - mn).toUInt32 := by
    apply UInt32.toNat_inj.1
    rw [toNat_16_32, sub16 _ _ e3, sub32] <;> rw [toNat_16_32, toNat_16_32]
    exact e3
  have e16 : mx.toUInt32.toUInt16 = mx := by apply UInt16.toNat_inj.1; simp
  rw [hc, e16] at h1
  generalize (if mx.toUInt32 + mn.toUInt32 ≤ 0xffff then mx.toUInt32 + mn.toUInt32 else 0x1fffe - (mx.toUInt32 + mn.toUInt32)) = d at h1
  by_cases h0 : (mx - mn).toUInt32 = 0
  · rw [if_pos h0] at h1 h2
    injection h1 with h1; injection h2 with h2
    rw [← h1, ← h2]
  · rw [if_neg h0] at h1 h2
    split at h1
    · exact absurd h1 nofun
    · split at h2
      · exact absurd h2 nofun
      · injection h1 with h1; injection h2 with h2
        rw [← h1, ← h2]

/-- an orange that is not fully saturated -/
example : rgbToHSL ⟨0xc000, 0x8000, 0x4000, 0xffff⟩ = some ⟨5461, 0x8000, 0x8000, 0xffff⟩ ∧
    rgbToHSV ⟨0xc000, 0x8000, 0x4000, 0xffff⟩ = some ⟨5461, 43690, 0xc000, 0xffff⟩ := by decide

/-- Adding the same amount of light to all channels leaves the hue as it is. -/
theorem C150_tint (c c' : NRGBA64) (k : Nat) (hr : c'.r.toNat = c.r.toNat + k) (hg : c'.g.toNat = c.g.toNat + k)
    (hb : c'.b.toNat = c.b.toNat + k) (h h' : HSVA) (h1 : rgbToHSV c = some h) (h2 : rgbToHSV c' = some h') : h'.h = h.h := by
  have m1 := goMax3 c.r c.g c.b
  have m2 := goMin3 c.r c.g c.b
  have m1' := goMax3 c'.r c'.g c'.b
  have m2' := goMin3 c'.r c'.g c'.b
  unfold rgbToHSV at h1 h2
  dsimp only at h1 h2
  generalize goMax [c.r, c.g, c.b] = mx at *
  generalize goMin [c.r, c.g, c.b] = mn at *
  generalize goMax [c'.r, c'.g, c'.b] = mx' at *
  generalize goMin [c'.r, c'.g, c'.b] = mn' at *
  have hc : (mx - mn).toUInt32.toNat = mx.toNat - mn.toNat := by rw [toNat_16_32, sub16 _ _ (by omega)]
  have hc' : (mx' - mn').toUInt32.toNat = mx'.toNat - mn'.toNat := by rw [toNat_16_32, sub16 _ _ (by omega)]
  have hmx : mx'.toNat = mx.toNat + k := by omega
  have hmn : mn'.toNat = mn.toNat + k := by omega
  have hcc : (mx' - mn').toUInt32 = (mx - mn).toUInt32 := by
    apply UInt32.toNat_inj.1
    rw [hc, hc']; omega
  rw [hcc] at h2
  by_cases h0 : (mx - mn).toUInt32 = 0
  · rw [if_pos h0] at h1 h2
    injection h1 with h1; injection h2 with h2
    rw [← h1, ← h2]
  · have hpos : mn.toNat < mx.toNat := by
      refine Nat.lt_of_not_le fun h => h0 (UInt32.toNat_inj.1 ?_)
      rw [hc]
      show _ = 0
      omega
    obtain ⟨H, a1, a2⟩ := hue_angle c mx _ mn.toNat m1 m2 hc hpos
    obtain ⟨H', b1, b2⟩ := hue_angle c' mx' (mx - mn).toUInt32 mn'.toNat m1' m2' (by rw [hc]; omega) (by omega)
    have hH : H' = H := by
      rw [hr, hg, hb, hmx] at b2
      simp only [Nat.add_right_cancel_iff, Nat.add_le_add_iff_right, Nat.add_sub_add_right] at b2
      generalize (mx - mn).toUInt32.toNat = C at *
      split at a2
      · rename_i e
        rw [if_pos e] at b2
        split at a2
        · rename_i e; rw [if_pos e] at b2; exact b2.trans a2.symm
        · rename_i e; rw [if_neg e] at b2; exact b2.trans a2.symm
      · rename_i e
        rw [if_neg e] at b2
        split at a2
        · rename_i e
          rw [if_pos e] at b2
          split at a2
          · rename_i e; rw [if_pos e] at b2; exact b2.trans a2.symm
          · rename_i e; rw [if_neg e] at b2; exact b2.trans a2.symm
        · rename_i e
          rw [if_neg e] at b2
          split at a2
          · rename_i e; rw [if_pos e] at b2; exact b2.trans a2.symm
          · rename_i e; rw [if_neg e] at b2; exact b2.trans a2.symm
    rw [if_neg h0] at h1 h2
    split at h1
    · exact absurd h1 nofun
    · split at h2
      · exact absurd h2 nofun
      · injection h1 with h1; injection h2 with h2
        rw [← h1, ← h2]
        exact UInt16.toNat_inj.1 (by rw [a1, b1, hH])

/-- an orange: hue of half a sixth, brightest red, darkest blue -/
example : hexHue ⟨0xffff, 0x8000, 0x0001, 0xffff⟩ = 32767 / 65534 ∧ chroma ⟨0xffff, 0x8000, 0x0001, 0xffff⟩ ≠ 0 ∧
    rgbToHSV ⟨0xffff, 0x8000, 0x0001, 0xffff⟩ = some ⟨5461, 65534, 0xffff, 0xffff⟩ := by
  have e1 : UInt16.toNat 0xffff = 65535 := rfl
  have e2 : UInt16.toNat 0x8000 = 32768 := rfl
  have e3 : UInt16.toNat 0x0001 = 1 := rfl
  refine ⟨?_, ?_, by decide⟩
  · rw [hexHue, chroma, peak, darkest, nat_max3, nat_min3]
    dsimp only
    rw [e1, e2, e3]
    norm_num
  · rw [chroma, peak, darkest, nat_max3, nat_min3]
    dsimp only
    rw [e1, e2, e3]
    norm_num

/-- the same with light added -/
example : rgbToHSV ⟨0x8000, 0x4000, 0, 0xffff⟩ = some ⟨5461, 65535, 0x8000, 0xffff⟩ ∧
    rgbToHSV ⟨0x8800, 0x4800, 0x800, 0xffff⟩ = some ⟨5461, 61680, 0x8800, 0xffff⟩ := by decide

end Limage
