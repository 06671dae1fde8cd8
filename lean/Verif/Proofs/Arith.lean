import Verif.Model.Composite
/-! Helper lemmas: fixed-width arithmetic without overflow. -/
namespace Limage

theorem u16_lt (x : UInt16) : x.toNat < 65536 := x.toNat_lt
theorem u16_le (x : UInt16) : x.toNat ≤ 65535 := by have := x.toNat_lt; omega
theorem u8_le (x : UInt8) : x.toNat ≤ 255 := by have := x.toNat_lt; omega

@[simp] theorem toNat_16_32 (x : UInt16) : x.toUInt32.toNat = x.toNat := by simp
@[simp] theorem toNat_8_32 (x : UInt8) : x.toUInt32.toNat = x.toNat := by simp

theorem mul32 (a b : UInt32) (h : a.toNat * b.toNat < 4294967296) :
    (a * b).toNat = a.toNat * b.toNat := by
  rw [UInt32.toNat_mul]; exact Nat.mod_eq_of_lt h

theorem mul_le_sq {a b : Nat} (ha : a ≤ 65535) (hb : b ≤ 65535) : a * b ≤ 4294836225 :=
  Nat.mul_le_mul ha hb

theorem sub32 (a b : UInt32) (h : b.toNat ≤ a.toNat) : (a - b).toNat = a.toNat - b.toNat := by
  rw [UInt32.toNat_sub]; have := a.toNat_lt; have := b.toNat_lt; omega

theorem sub16 (a b : UInt16) (h : b.toNat ≤ a.toNat) : (a - b).toNat = a.toNat - b.toNat := by
  rw [UInt16.toNat_sub]; have := a.toNat_lt; have := b.toNat_lt; omega

theorem add32 (a b : UInt32) (h : a.toNat + b.toNat < 4294967296) :
    (a + b).toNat = a.toNat + b.toNat := by
  rw [UInt32.toNat_add]; exact Nat.mod_eq_of_lt h

theorem add16 (a b : UInt16) (h : a.toNat + b.toNat < 65536) :
    (a + b).toNat = a.toNat + b.toNat := by
  rw [UInt16.toNat_add]; exact Nat.mod_eq_of_lt h

theorem to16 (a : UInt32) (h : a.toNat ≤ 65535) : a.toUInt16.toNat = a.toNat := by
  rw [UInt32.toNat_toUInt16]; omega

@[simp] theorem ffff32 : (0xffff : UInt32).toNat = 65535 := rfl
@[simp] theorem ffff16 : (0xffff : UInt16).toNat = 65535 := rfl

theorem inv32 (a : UInt16) : (0xffff - a.toUInt32).toNat = 65535 - a.toNat := by
  rw [sub32] <;> simp; have := u16_le a; omega

theorem inv16 (a : UInt16) : (0xffff - a).toNat = 65535 - a.toNat := by
  rw [sub16] <;> simp; have := u16_le a; omega

theorem mul16 (a b : UInt16) : (a.toUInt32 * b.toUInt32).toNat = a.toNat * b.toNat := by
  rw [mul32] <;> simp
  have := mul_le_sq (u16_le a) (u16_le b); omega

/-- union coverage of two alphas -/
def cover (a b : Nat) : Nat := 65535 - (65535 - a) * (65535 - b) / 65535

theorem prod_div_le {a b : Nat} (ha : a ≤ 65535) : a * b / 65535 ≤ b := by
  apply Nat.div_le_of_le_mul
  exact Nat.mul_le_mul_right b ha

theorem prod_div_le' {a b : Nat} (hb : b ≤ 65535) : a * b / 65535 ≤ a := by
  rw [Nat.mul_comm]; exact prod_div_le hb

theorem cover_ge_left {a b : Nat} (ha : a ≤ 65535) (hb : b ≤ 65535) : a ≤ cover a b := by
  unfold cover
  have : (65535 - a) * (65535 - b) / 65535 ≤ 65535 - a := prod_div_le' (by omega)
  omega

theorem cover_ge_right {a b : Nat} (ha : a ≤ 65535) (hb : b ≤ 65535) : b ≤ cover a b := by
  unfold cover
  have : (65535 - a) * (65535 - b) / 65535 ≤ 65535 - b := prod_div_le (by omega)
  omega

theorem cover_le {a b : Nat} : cover a b ≤ 65535 := by unfold cover; omega

theorem cover32 (a b : UInt16) :
    (0xffff - (0xffff - a.toUInt32) * (0xffff - b.toUInt32) / 0xffff : UInt32).toNat
      = cover a.toNat b.toNat := by
  have ha := u16_le a
  have hb := u16_le b
  have hm : ((0xffff - a.toUInt32) * (0xffff - b.toUInt32) : UInt32).toNat
      = (65535 - a.toNat) * (65535 - b.toNat) := by
    rw [mul32] <;> rw [inv32, inv32]
    have := mul_le_sq (Nat.sub_le 65535 a.toNat) (Nat.sub_le 65535 b.toNat)
    omega
  have hd : ((0xffff - a.toUInt32) * (0xffff - b.toUInt32) / 0xffff : UInt32).toNat
      = (65535 - a.toNat) * (65535 - b.toNat) / 65535 := by
    rw [UInt32.toNat_div, hm, ffff32]
  rw [sub32, hd]
  · rfl
  · rw [hd]
    have : (65535 - a.toNat) * (65535 - b.toNat) / 65535 ≤ 65535 - b.toNat := prod_div_le (by omega)
    rw [ffff32]
    omega

/-- the mixing factor used by `blend` -/
def mixK (a1 a2 : Nat) : Nat := 65535 * a2 / cover a1 a2

theorem mixK_le {a1 a2 : Nat} (h1 : a1 ≤ 65535) (h2 : a2 ≤ 65535) : mixK a1 a2 ≤ 65535 := by
  unfold mixK
  apply Nat.div_le_of_le_mul
  rw [Nat.mul_comm]
  exact Nat.mul_le_mul_right _ (cover_ge_right h1 h2)

/-- the value of `blend` in natural numbers -/
def blendNat (a1 x1 a2 x2 : Nat) : Nat :=
  (65535 - mixK a1 a2) * x1 / 65535 + mixK a1 a2 * x2 / 65535

theorem mix_le_max {k x1 x2 : Nat} (hk : k ≤ 65535) :
    (65535 - k) * x1 / 65535 + k * x2 / 65535 ≤ max x1 x2 := by
  have h1 : (65535 - k) * x1 ≤ (65535 - k) * max x1 x2 := Nat.mul_le_mul_left _ (Nat.le_max_left ..)
  have h2 : k * x2 ≤ k * max x1 x2 := Nat.mul_le_mul_left _ (Nat.le_max_right ..)
  have h3 : (65535 - k) * max x1 x2 + k * max x1 x2 = 65535 * max x1 x2 := by
    rw [← Nat.add_mul]; congr 1; omega
  generalize (65535 - k) * x1 = p at *
  generalize k * x2 = q at *
  generalize (65535 - k) * max x1 x2 = P at *
  generalize k * max x1 x2 = Q at *
  omega

theorem min_le_mix {k x1 x2 : Nat} (hk : k ≤ 65535) :
    min x1 x2 ≤ (65535 - k) * x1 / 65535 + k * x2 / 65535 + 1 := by
  have h1 : (65535 - k) * min x1 x2 ≤ (65535 - k) * x1 := Nat.mul_le_mul_left _ (Nat.min_le_left ..)
  have h2 : k * min x1 x2 ≤ k * x2 := Nat.mul_le_mul_left _ (Nat.min_le_right ..)
  have h3 : (65535 - k) * min x1 x2 + k * min x1 x2 = 65535 * min x1 x2 := by
    rw [← Nat.add_mul]; congr 1; omega
  generalize (65535 - k) * x1 = p at *
  generalize k * x2 = q at *
  generalize (65535 - k) * min x1 x2 = P at *
  generalize k * min x1 x2 = Q at *
  omega

theorem cover_eq_zero {a b : Nat} (ha : a ≤ 65535) (hb : b ≤ 65535) :
    cover a b = 0 ↔ a = 0 ∧ b = 0 := by
  constructor
  · intro h
    have := cover_ge_left ha hb
    have := cover_ge_right ha hb
    omega
  · rintro ⟨rfl, rfl⟩; decide

theorem blend_some (a1 x1 a2 x2 : UInt16) (h : ¬ (a1 = 0 ∧ a2 = 0)) :
    ∃ r, blend a1 x1 a2 x2 = some r ∧ r.toNat = blendNat a1.toNat x1.toNat a2.toNat x2.toNat := by
  have ha1 := u16_le a1
  have ha2 := u16_le a2
  have hx1 := u16_le x1
  have hx2 := u16_le x2
  have hd0 : (0xffff - (0xffff - a1.toUInt32) * (0xffff - a2.toUInt32) / 0xffff : UInt32) ≠ 0 := by
    intro e
    have := cover32 a1 a2
    rw [e] at this
    have hz := (cover_eq_zero ha1 ha2).1 (by simpa using this.symm)
    apply h
    constructor <;> apply UInt16.toNat_inj.1 <;> simp [hz]
  unfold blend
  simp only []
  rw [if_neg hd0]
  refine ⟨_, rfl, ?_⟩
  have hk : (0xffff * a2.toUInt32 /
      (0xffff - (0xffff - a1.toUInt32) * (0xffff - a2.toUInt32) / 0xffff) : UInt32).toNat
      = mixK a1.toNat a2.toNat := by
    rw [UInt32.toNat_div, cover32, mul32, toNat_16_32]
    · rfl
    · rw [toNat_16_32, ffff32]; omega
  have hkle := mixK_le ha1 ha2
  generalize (0xffff * a2.toUInt32 /
      (0xffff - (0xffff - a1.toUInt32) * (0xffff - a2.toUInt32) / 0xffff) : UInt32) = k at hk ⊢
  have hs : (0xffff - k).toNat = 65535 - mixK a1.toNat a2.toNat := by
    rw [sub32] <;> rw [ffff32, hk]; exact hkle
  have hm1 : ((0xffff - k) * x1.toUInt32).toNat = (65535 - mixK a1.toNat a2.toNat) * x1.toNat := by
    rw [mul32] <;> rw [hs, toNat_16_32]
    have := mul_le_sq (Nat.sub_le 65535 (mixK a1.toNat a2.toNat)) hx1
    omega
  have hm2 : (k * x2.toUInt32).toNat = mixK a1.toNat a2.toNat * x2.toNat := by
    rw [mul32] <;> rw [hk, toNat_16_32]
    have := mul_le_sq hkle hx2
    omega
  have hmax := mix_le_max (x1 := x1.toNat) (x2 := x2.toNat) hkle
  have hsum : ((0xffff - k) * x1.toUInt32 / 0xffff + k * x2.toUInt32 / 0xffff : UInt32).toNat
      = blendNat a1.toNat x1.toNat a2.toNat x2.toNat := by
    rw [add32] <;> rw [UInt32.toNat_div, UInt32.toNat_div, hm1, hm2, ffff32]
    · rfl
    · omega
  rw [to16, hsum]
  rw [hsum]; unfold blendNat; omega

theorem blend_eq (a1 x1 a2 x2 : UInt16) (h : ¬ (a1 = 0 ∧ a2 = 0)) :
    blend a1 x1 a2 x2 = some (UInt16.ofNat (blendNat a1.toNat x1.toNat a2.toNat x2.toNat)) := by
  obtain ⟨r, hr, e⟩ := blend_some a1 x1 a2 x2 h
  rw [hr, ← e, UInt16.ofNat_toNat]

theorem blendNat_le (a1 x1 a2 x2 : Nat) (h1 : a1 ≤ 65535) (h2 : a2 ≤ 65535) :
    blendNat a1 x1 a2 x2 ≤ max x1 x2 := mix_le_max (mixK_le h1 h2)

/-- transparent top: the bottom shows through -/
theorem blendNat_top0 (a1 x1 x2 : Nat) : blendNat a1 x1 0 x2 = x1 := by
  simp [blendNat, mixK]

/-- opaque top replaces -/
theorem blendNat_topFull (a1 x1 x2 : Nat) : blendNat a1 x1 65535 x2 = x2 := by
  simp [blendNat, mixK, cover]

theorem blendNat_bot0 (a2 x1 x2 : Nat) (h : 0 < a2) (h2 : a2 ≤ 65535) : blendNat 0 x1 a2 x2 = x2 := by
  have : cover 0 a2 = a2 := by simp [cover]; omega
  have : mixK 0 a2 = 65535 := by rw [mixK, this]; exact Nat.mul_div_left _ h
  simp [blendNat, this]

end Limage
