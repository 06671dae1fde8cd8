import Verif.Proofs.Arith
import Verif.Spec.Blend
import Mathlib.Tactic.Ring
import Mathlib.Tactic.Linarith
import Mathlib.Tactic.FieldSimp
import Mathlib.Tactic.NormNum
import Mathlib.Tactic.Push
/-! Channel functions against their rational specification. -/
namespace Limage
open Spec

theorem floor_natdiv (m n : Nat) : ⌊(m : ℚ) / (n : ℚ)⌋ = ((m / n : Nat) : ℤ) := by
  rw [Rat.floor_natCast_div_natCast]; rfl

theorem down_div (m n : Nat) (q : ℚ) (h : 65535 * q = (m : ℚ) / (n : ℚ)) :
    down q = ((m / n : Nat) : ℤ) := by
  rw [down, h, floor_natdiv]

theorem up_sub_div (c m n : Nat) (q : ℚ) (h : 65535 * q = (c : ℚ) - (m : ℚ) / (n : ℚ)) :
    up q = (c : ℤ) - ((m / n : Nat) : ℤ) := by
  rw [up, h]
  rw [show (c : ℚ) - (m : ℚ) / (n : ℚ) = -((m : ℚ) / (n : ℚ)) + ((c : ℤ) : ℚ) by push_cast; ring]
  rw [Int.ceil_add_intCast, Int.ceil_neg, floor_natdiv]; ring

theorem down_int (m : ℤ) (q : ℚ) (h : 65535 * q = (m : ℚ)) : down q = m := by
  rw [down, h, Int.floor_intCast]

theorem unit_nonneg (x : UInt16) : 0 ≤ unit x := by
  unfold unit; positivity

theorem unit_le_one (x : UInt16) : unit x ≤ 1 := by
  unfold unit
  rw [div_le_one (by norm_num)]
  exact_mod_cast u16_le x

theorem unit_eq_zero (x : UInt16) : unit x = 0 ↔ x = 0 := by
  unfold unit
  rw [div_eq_zero_iff]
  constructor
  · rintro (h | h)
    · apply UInt16.toNat_inj.1; simpa using h
    · norm_num at h
  · rintro rfl; left; simp

theorem unit_eq_one (x : UInt16) : unit x = 1 ↔ x = 0xffff := by
  unfold unit
  rw [div_eq_one_iff_eq (by norm_num)]
  constructor
  · intro h
    apply UInt16.toNat_inj.1
    have : x.toNat = 65535 := by exact_mod_cast h
    rw [this]; rfl
  · rintro rfl; norm_num

theorem multiply_nat (x y : UInt16) : (compositeMultiply x y).toNat = x.toNat * y.toNat / 65535 := by
  unfold compositeMultiply
  have hd : (x.toUInt32 * y.toUInt32 / 0xffff).toNat = x.toNat * y.toNat / 65535 := by
    rw [UInt32.toNat_div, mul16, ffff32]
  have := prod_div_le (b := y.toNat) (u16_le x)
  have := u16_le y
  rw [to16, hd]; omega

theorem multiply_spec (x y : UInt16) :
    ((compositeMultiply x y).toNat : ℤ) = down (multiply (unit x) (unit y)) := by
  rw [multiply_nat, down_div (x.toNat * y.toNat) 65535]
  unfold multiply unit; push_cast; field_simp

theorem screen_nat (x y : UInt16) :
    (compositeScreen x y).toNat = 65535 - (65535 - x.toNat) * (65535 - y.toNat) / 65535 := by
  unfold compositeScreen
  have hd : ((0xffff - x).toUInt32 * (0xffff - y).toUInt32 / 0xffff).toNat
      = (65535 - x.toNat) * (65535 - y.toNat) / 65535 := by
    rw [UInt32.toNat_div, mul16, ffff32, inv16, inv16]
  have := prod_div_le (a := 65535 - x.toNat) (b := 65535 - y.toNat) (by omega)
  have hs : (0xffff - (0xffff - x).toUInt32 * (0xffff - y).toUInt32 / 0xffff).toNat
      = 65535 - (65535 - x.toNat) * (65535 - y.toNat) / 65535 := by
    rw [sub32] <;> rw [hd, ffff32]; omega
  rw [to16, hs]; rw [hs]; omega

theorem cast_inv (x : UInt16) : ((65535 - x.toNat : Nat) : ℚ) = 65535 - (x.toNat : ℚ) := by
  rw [Nat.cast_sub (u16_le x)]; rfl

theorem cover_up (x y : UInt16) :
    ((cover x.toNat y.toNat : Nat) : ℤ) = up (1 - (1 - unit x) * (1 - unit y)) := by
  rw [up_sub_div 65535 ((65535 - x.toNat) * (65535 - y.toNat)) 65535]
  · have := prod_div_le (a := 65535 - x.toNat) (b := 65535 - y.toNat) (by omega)
    unfold cover
    omega
  · rw [Nat.cast_mul, cast_inv, cast_inv]; unfold unit; push_cast; field_simp

theorem screen_spec (x y : UInt16) :
    ((compositeScreen x y).toNat : ℤ) = up (screen (unit x) (unit y)) := by
  rw [screen_nat]; exact cover_up x y

theorem clamp_nat (n : UInt32) : (clamp n).toNat = min 65535 n.toNat := by
  unfold clamp
  split
  · rename_i h
    have : n.toNat > 65535 := by simpa [UInt32.lt_iff_toNat_lt] using h
    simp; omega
  · rename_i h
    have : n.toNat ≤ 65535 := by simpa [UInt32.lt_iff_toNat_lt] using h
    rw [to16 _ this]; omega

theorem addition_nat (x y : UInt16) :
    (compositeAddition x y).toNat = min 65535 (x.toNat + y.toNat) := by
  unfold compositeAddition
  have := u16_le x
  have := u16_le y
  rw [clamp_nat, add32] <;> simp only [toNat_16_32]; omega

theorem addition_spec (x y : UInt16) :
    ((compositeAddition x y).toNat : ℤ) = down (addition (unit x) (unit y)) := by
  rw [down_int (min 65535 ((x.toNat : ℤ) + y.toNat)), addition_nat]
  · push_cast; rfl
  · unfold addition unit
    rw [mul_min_of_nonneg _ _ (by norm_num)]
    push_cast
    congr 1 <;> ring

theorem difference_spec (x y : UInt16) :
    ((compositeDifference x y).toNat : ℤ) = down (difference (unit x) (unit y)) := by
  rw [down_int (max (x.toNat : ℤ) y.toNat - min (x.toNat : ℤ) y.toNat)]
  · unfold compositeDifference
    split
    · rename_i h
      have h : y.toNat < x.toNat := by simpa [UInt16.lt_iff_toNat_lt] using h
      rw [sub16 _ _ (by omega)]; omega
    · rename_i h
      have h : x.toNat ≤ y.toNat := by simpa [UInt16.lt_iff_toNat_lt] using h
      rw [sub16 _ _ (by omega)]; omega
  · unfold difference unit
    rw [mul_sub, mul_max_of_nonneg _ _ (by norm_num), mul_min_of_nonneg _ _ (by norm_num)]
    push_cast
    congr 2 <;> field_simp

theorem subtract_spec (x y : UInt16) :
    ((compositeSubtract x y).toNat : ℤ) = down (subtract (unit x) (unit y)) := by
  rw [down_int (max 0 ((x.toNat : ℤ) - y.toNat))]
  · unfold compositeSubtract
    split
    · rename_i h
      have h : x.toNat < y.toNat := by simpa [UInt16.lt_iff_toNat_lt] using h
      simp; omega
    · rename_i h
      have h : y.toNat ≤ x.toNat := by simpa [UInt16.lt_iff_toNat_lt] using h
      rw [sub16 _ _ (by omega)]; omega
  · unfold subtract unit
    rw [mul_max_of_nonneg _ _ (by norm_num)]
    push_cast
    congr 1
    · simp
    · field_simp

theorem u16_min (m o : UInt16) : (if o < m then o else m).toNat = min m.toNat o.toNat := by
  split <;> rename_i h <;> rw [UInt16.lt_iff_toNat_lt] at h <;> omega

theorem u16_max (m o : UInt16) : (if o > m then o else m).toNat = max m.toNat o.toNat := by
  split <;> rename_i h <;> rw [gt_iff_lt, UInt16.lt_iff_toNat_lt] at h <;> omega

theorem goMin2 (x y : UInt16) : (goMin [x, y]).toNat = min x.toNat y.toNat := by
  have := u16_le x
  simp only [goMin, List.foldl, u16_min, ffff16]; omega

theorem goMax2 (x y : UInt16) : (goMax [x, y]).toNat = max x.toNat y.toNat := by
  simp only [goMax, List.foldl, u16_max, UInt16.toNat_zero]; omega

theorem goMin3 (x y z : UInt16) : (goMin [x, y, z]).toNat = min x.toNat (min y.toNat z.toNat) := by
  have := u16_le x
  simp only [goMin, List.foldl, u16_min, ffff16]; omega

theorem goMax3 (x y z : UInt16) : (goMax [x, y, z]).toNat = max x.toNat (max y.toNat z.toNat) := by
  simp only [goMax, List.foldl, u16_max, UInt16.toNat_zero]; omega

theorem darken_spec (x y : UInt16) :
    ((compositeDarkenOnly x y).toNat : ℤ) = down (darken (unit x) (unit y)) := by
  rw [down_int (min (x.toNat : ℤ) y.toNat)]
  · unfold compositeDarkenOnly
    rw [goMin2]; push_cast; rfl
  · unfold darken unit
    rw [mul_min_of_nonneg _ _ (by norm_num)]
    push_cast
    congr 1 <;> field_simp

theorem lighten_spec (x y : UInt16) :
    ((compositeLightenOnly x y).toNat : ℤ) = down (lighten (unit x) (unit y)) := by
  rw [down_int (max (x.toNat : ℤ) y.toNat)]
  · unfold compositeLightenOnly
    rw [goMax2]; push_cast; rfl
  · unfold lighten unit
    rw [mul_max_of_nonneg _ _ (by norm_num)]
    push_cast
    congr 1 <;> field_simp

theorem full_mul (x : UInt16) : (0xffff * x.toUInt32).toNat = 65535 * x.toNat := by
  have := u16_le x
  rw [mul32] <;> rw [toNat_16_32, ffff32]; omega

theorem down_min_one_div (m n : Nat) (q : ℚ) (h : 65535 * q = (m : ℚ) / (n : ℚ)) :
    down (min 1 q) = min 65535 ((m / n : Nat) : ℤ) := by
  have hmono : Monotone (fun z : ℚ => ⌊z⌋) := Int.floor_mono
  rw [down, mul_min_of_nonneg _ _ (by norm_num), h]
  have := hmono.map_min (a := 65535 * (1 : ℚ)) (b := (m : ℚ) / (n : ℚ))
  rw [this, floor_natdiv]
  norm_num

theorem divide_spec (x y : UInt16) :
    ((compositeDivide x y).toNat : ℤ) = down (divide (unit x) (unit y)) := by
  unfold compositeDivide divide
  simp only [unit_eq_zero]
  split
  · split
    · simp [down]
    · simp [down]
  · rename_i hy
    have hy0 : (y.toNat : ℚ) ≠ 0 := by
      intro e; apply hy; apply UInt16.toNat_inj.1; simpa using e
    rw [clamp_nat, UInt32.toNat_div, full_mul, toNat_16_32,
      down_min_one_div (65535 * x.toNat) y.toNat]
    · push_cast; rfl
    · unfold unit; push_cast; field_simp

theorem dodge_spec (x y : UInt16) :
    ((compositeDodge x y).toNat : ℤ) = down (dodge (unit x) (unit y)) := by
  unfold compositeDodge dodge
  simp only [unit_eq_one, unit_eq_zero]
  split
  · split
    · simp [down]
    · simp [down]
  · rename_i hy
    have hy0 : (65535 : ℚ) - (y.toNat : ℚ) ≠ 0 := by
      intro e; apply hy; apply UInt16.toNat_inj.1
      have : (65535 : ℚ) = y.toNat := by linarith
      have : 65535 = y.toNat := by exact_mod_cast this
      rw [← this]; rfl
    rw [clamp_nat, UInt32.toNat_div, full_mul, inv32,
      down_min_one_div (65535 * x.toNat) (65535 - y.toNat)]
    · push_cast; rfl
    · rw [cast_inv]
      unfold unit; push_cast
      have : (1 : ℚ) - (y.toNat : ℚ) / 65535 ≠ 0 := by
        intro e; apply hy0; field_simp at e; linarith
      field_simp

theorem grainExtract_nat (x y : UInt16) : ((compositeGrainExtract x y).toNat : ℤ) =
    min 65535 (max 0 ((x.toNat : ℤ) - y.toNat + 32767)) := by
  unfold compositeGrainExtract
  simp only []
  have hx := u16_le x
  have hy := u16_le y
  have h7 : (0x7fff : UInt32).toNat = 32767 := rfl
  have ha : (x.toUInt32 + 0x7fff).toNat = x.toNat + 32767 := by
    rw [add32] <;> simp only [toNat_16_32, h7]; omega
  split
  · rename_i h
    rw [UInt32.lt_iff_toNat_lt, ha, toNat_16_32] at h
    simp; omega
  · rename_i h
    rw [UInt32.lt_iff_toNat_lt, ha, toNat_16_32] at h
    rw [clamp_nat]
    have : (x.toUInt32 - y.toUInt32 + 0x7fff).toNat = x.toNat + 32767 - y.toNat := by
      rw [UInt32.toNat_add, UInt32.toNat_sub, h7, toNat_16_32, toNat_16_32]; omega
    rw [this]; omega

theorem grainExtract_spec (x y : UInt16) :
    ((compositeGrainExtract x y).toNat : ℤ) = down (grainExtract (unit x) (unit y)) := by
  rw [grainExtract_nat, down_int]
  unfold grainExtract unit mid
  rw [mul_min_of_nonneg _ _ (by norm_num), mul_max_of_nonneg _ _ (by norm_num)]
  push_cast
  congr 1
  · norm_num
  · congr 1
    · simp
    · ring

theorem grainMerge_nat (x y : UInt16) : (compositeGrainMerge x y).toNat =
    min 65535 (x.toNat + y.toNat + 32767) := by
  unfold compositeGrainMerge
  have hx := u16_le x
  have hy := u16_le y
  have h7 : (0x7fff : UInt32).toNat = 32767 := rfl
  rw [clamp_nat, UInt32.toNat_add, UInt32.toNat_add, h7, toNat_16_32, toNat_16_32]; omega

end Limage
