import Verif.Spec.Ora
import Mathlib.Tactic.Linarith
import Mathlib.Tactic.FieldSimp
import Mathlib.Tactic.Ring
import Mathlib.Tactic.NormNum
import Mathlib.Data.Rat.Floor
/-!
# Thumbnails
-/
namespace Limage
open Spec

theorem trunc_pos {q : Rat} {k : Int} (h0 : 0 ≤ k) (h1 : (k : Rat) ≤ q) (h2 : q < ((k + 1 : Int) : Rat)) : truncRat q = k := by
  have hq : (0 : Rat) ≤ q := le_trans (by exact_mod_cast h0) h1
  unfold truncRat
  rw [if_pos hq]
  have a := Rat.le_floor_iff.2 h1
  have b := Rat.floor_lt_iff.2 h2
  omega

theorem trunc_neg {q : Rat} {k : Int} (h0 : k ≤ 0) (h1 : q ≤ (k : Rat)) (h2 : ((k - 1 : Int) : Rat) < q) : truncRat q = k := by
  unfold truncRat
  by_cases hq : 0 ≤ q
  · rw [if_pos hq]
    have hk : (0 : Rat) ≤ (k : Rat) := le_trans hq h1
    have hk' : 0 ≤ k := by exact_mod_cast hk
    have : k = 0 := by omega
    subst this
    have : q = 0 := le_antisymm (by simpa using h1) hq
    rw [this]
    rfl
  · rw [if_neg hq]
    have e : q.ceil = -(-q).floor := by rw [Rat.ceil_eq_neg_floor_neg]
    rw [e]
    have a : -k ≤ (-q).floor := Rat.le_floor_iff.2 (by push_cast; linarith)
    have b : (-q).floor < -k + 1 := Rat.floor_lt_iff.2 (by push_cast at h2 ⊢; linarith)
    omega

/-- a rounded quotient is not rounded past an integer -/
theorem trunc_quotient {q : Rat} {x side : Int} (hs : 0 < side) (h1 : -2 ^ 45 < x) (h2 : x < 2 ^ 45) (h : Rounded q (256 * (x : Rat) / (side : Rat))) :
    truncRat q = Int.tdiv (256 * x) side := by
  have hsQ : (0 : Rat) < (side : Rat) := by exact_mod_cast hs
  by_cases hx : 0 ≤ x
  · have he : (0 : Rat) ≤ 256 * (x : Rat) / (side : Rat) := div_nonneg (mul_nonneg (by norm_num) (by exact_mod_cast hx)) hsQ.le
    obtain ⟨k, r, hkr, hr0, hr1, hk0, hkd⟩ : ∃ k r : Int, 256 * x = side * k + r ∧ 0 ≤ r ∧ r < side ∧ 0 ≤ k ∧ Int.tdiv (256 * x) side = k := by
      refine ⟨256 * x / side, 256 * x % side, (Int.mul_ediv_add_emod ..).symm, Int.emod_nonneg _ (by omega), Int.emod_lt_of_pos _ hs, ?_, ?_⟩
      · exact Int.ediv_nonneg (by omega) hs.le
      · rw [Int.tdiv_eq_ediv_of_nonneg (by omega)]
    rw [hkd]
    have hkrQ : 256 * (x : Rat) = (side : Rat) * k + r := by exact_mod_cast hkr
    have hle : (k : Rat) ≤ 256 * (x : Rat) / (side : Rat) := by
      rw [le_div_iff₀ hsQ, hkrQ]
      have : (0 : Rat) ≤ r := by exact_mod_cast hr0
      linarith
    refine trunc_pos hk0 (h.below k hle) ?_
    have hn := h.near.1 he
    -- q ≤ e + e / 2^53
    have hr : (r : Rat) ≤ side - 1 := by
      have : r ≤ side - 1 := by omega
      exact_mod_cast this
    have hx2 : 256 * (x : Rat) < 2 ^ 53 := by
      have : 256 * x < 2 ^ 53 := by omega
      exact_mod_cast this
    have hE : 256 * (x : Rat) / (side : Rat) * side = 256 * x := by field_simp
    generalize 256 * (x : Rat) / (side : Rat) = e at *
    -- e * side = side*k + r ; q*2^53 ≤ e*2^53 + e ; want q < k+1
    push_cast
    by_contra hc
    have hc : (k : Rat) + 1 ≤ q := by linarith
    have h3 : ((k : Rat) + 1) * 2 ^ 53 ≤ e * 2 ^ 53 + e := by nlinarith
    have h4 : ((k : Rat) + 1) * 2 ^ 53 * side ≤ (e * 2 ^ 53 + e) * side := mul_le_mul_of_nonneg_right h3 hsQ.le
    have h5 : (e * 2 ^ 53 + e) * side = (e * side) * 2 ^ 53 + e * side := by ring
    rw [h5, hE] at h4
    have h6 : ((k : Rat) + 1) * 2 ^ 53 * side = (side * k) * 2 ^ 53 + side * 2 ^ 53 := by ring
    rw [h6] at h4
    nlinarith
  · have hx : x < 0 := by omega
    have he : 256 * (x : Rat) / (side : Rat) ≤ 0 := div_nonpos_of_nonpos_of_nonneg (mul_nonpos_of_nonneg_of_nonpos (by norm_num) (by exact_mod_cast hx.le)) hsQ.le
    obtain ⟨k, r, hkr, hr0, hr1, hk0, hkd⟩ : ∃ k r : Int, 256 * x = side * k - r ∧ 0 ≤ r ∧ r < side ∧ k ≤ 0 ∧ Int.tdiv (256 * x) side = k := by
      have hm := Int.mul_ediv_add_emod (256 * -x) side
      have hn : Int.tdiv (256 * x) side = -(256 * -x / side) := by
        rw [show 256 * x = -(256 * -x) by omega, Int.neg_tdiv, Int.tdiv_eq_ediv_of_nonneg (by omega)]
      refine ⟨-(256 * -x / side), 256 * -x % side, ?_, Int.emod_nonneg _ (by omega), Int.emod_lt_of_pos _ hs, ?_, hn⟩
      · rw [Int.mul_neg]; omega
      · have : 0 ≤ 256 * -x / side := Int.ediv_nonneg (by omega) hs.le
        omega
    rw [hkd]
    have hkrQ : 256 * (x : Rat) = (side : Rat) * k - r := by exact_mod_cast hkr
    have hle : 256 * (x : Rat) / (side : Rat) ≤ (k : Rat) := by
      rw [div_le_iff₀ hsQ, hkrQ]
      have : (0 : Rat) ≤ r := by exact_mod_cast hr0
      linarith
    refine trunc_neg hk0 (h.above k hle) ?_
    have hn := h.near.2 he
    have hr : (r : Rat) ≤ side - 1 := by
      have : r ≤ side - 1 := by omega
      exact_mod_cast this
    have hx2 : -(2 ^ 53 : Rat) < 256 * (x : Rat) := by
      have : -2 ^ 53 < 256 * x := by omega
      exact_mod_cast this
    have hE : 256 * (x : Rat) / (side : Rat) * side = 256 * x := by field_simp
    generalize 256 * (x : Rat) / (side : Rat) = e at *
    push_cast
    by_contra hc
    have hc : q ≤ (k : Rat) - 1 := by linarith
    have h3 : e * 2 ^ 53 + e ≤ ((k : Rat) - 1) * 2 ^ 53 := by nlinarith
    have h4 : (e * 2 ^ 53 + e) * side ≤ ((k : Rat) - 1) * 2 ^ 53 * side := mul_le_mul_of_nonneg_right h3 hsQ.le
    have h5 : (e * 2 ^ 53 + e) * side = (e * side) * 2 ^ 53 + e * side := by ring
    rw [h5, hE] at h4
    have h6 : ((k : Rat) - 1) * 2 ^ 53 * side = (side * k) * 2 ^ 53 - side * 2 ^ 53 := by ring
    rw [h6] at h4
    nlinarith

/-- truncated quotients are not further apart than the quotients -/
theorem tdiv_apart {a b side n : Int} (hs : 0 < side) (h : b - a ≤ n * side) (hab : a ≤ b) : Int.tdiv b side - Int.tdiv a side ≤ n := by
  have hd : ∀ x : Int, 0 ≤ x → ∃ r, x = side * (x / side) + r ∧ 0 ≤ r ∧ r < side := fun x _ =>
    ⟨x % side, (Int.mul_ediv_add_emod ..).symm, Int.emod_nonneg _ (by omega), Int.emod_lt_of_pos _ hs⟩
  by_cases ha : 0 ≤ a
  · rw [Int.tdiv_eq_ediv_of_nonneg (by omega), Int.tdiv_eq_ediv_of_nonneg ha]
    obtain ⟨r, hr, hr0, hr1⟩ := hd a ha
    obtain ⟨s, hs1, hs0, hs2⟩ := hd b (by omega)
    by_contra hc
    have : n + 1 ≤ b / side - a / side := by omega
    have := Int.mul_le_mul_of_nonneg_left this hs.le
    nlinarith
  · have hna : Int.tdiv a side = -(-a / side) := by
      rw [show a = -(-a) by omega, Int.neg_tdiv, Int.tdiv_eq_ediv_of_nonneg (by omega), Int.neg_neg]
    rw [hna]
    obtain ⟨r, hr, hr0, hr1⟩ := hd (-a) (by omega)
    by_cases hb : 0 ≤ b
    · rw [Int.tdiv_eq_ediv_of_nonneg hb]
      obtain ⟨s, hs1, hs0, hs2⟩ := hd b hb
      by_contra hc
      have : n + 1 ≤ b / side + -a / side := by omega
      have := Int.mul_le_mul_of_nonneg_left this hs.le
      nlinarith
    · have hnb : Int.tdiv b side = -(-b / side) := by
        rw [show b = -(-b) by omega, Int.neg_tdiv, Int.tdiv_eq_ediv_of_nonneg (by omega), Int.neg_neg]
      rw [hnb]
      obtain ⟨s, hs1, hs0, hs2⟩ := hd (-b) (by omega)
      by_contra hc
      have : n + 1 ≤ -a / side - -b / side := by omega
      have := Int.mul_le_mul_of_nonneg_left this hs.le
      nlinarith

end Limage
