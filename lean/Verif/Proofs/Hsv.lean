import Verif.Proofs.Blend
/-! HSV/HSL conversions never divide by zero; alpha bookkeeping. -/
namespace Limage

theorem rgbToHSV_some (c : NRGBA64) : ∃ h, rgbToHSV c = some h ∧ h.a = c.a ∧
    h.v.toNat = max c.r.toNat (max c.g.toNat c.b.toNat) := by
  unfold rgbToHSV
  simp only []
  split
  · exact ⟨_, rfl, rfl, goMax3 ..⟩
  · rename_i hc
    split
    · rename_i h0
      exfalso; apply hc
      have hmx : goMax [c.r, c.g, c.b] = 0 := by
        apply UInt16.toNat_inj.1
        have := congrArg UInt32.toNat h0
        simpa using this
      have hmn : goMin [c.r, c.g, c.b] = 0 := by
        apply UInt16.toNat_inj.1
        have h1 := goMin3 c.r c.g c.b
        have h2 := goMax3 c.r c.g c.b
        rw [hmx] at h2
        rw [h1]; simp at h2 ⊢; omega
      rw [hmx, hmn]; rfl
    · exact ⟨_, rfl, rfl, goMax3 ..⟩

theorem rgbToHSL_some (c : NRGBA64) : ∃ h, rgbToHSL c = some h ∧ h.a = c.a := by
  unfold rgbToHSL
  simp only []
  split
  · exact ⟨_, rfl, rfl⟩
  · rename_i hc
    have h1 := goMin3 c.r c.g c.b
    have h2 := goMax3 c.r c.g c.b
    have e1 := u16_le (goMin [c.r, c.g, c.b])
    have e2 := u16_le (goMax [c.r, c.g, c.b])
    generalize goMin [c.r, c.g, c.b] = mn at *
    generalize goMax [c.r, c.g, c.b] = mx at *
    have hle : mn.toNat ≤ mx.toNat := by omega
    have hne : mn.toNat ≠ mx.toNat := by
      intro e; apply hc
      apply UInt32.toNat_inj.1
      rw [sub32] <;> simp [e]
    have hsum : (mx.toUInt32 + mn.toUInt32).toNat = mx.toNat + mn.toNat := by
      rw [add32] <;> simp only [toNat_16_32]; omega
    have e3 : (0x1fffe : UInt32).toNat = 131070 := rfl
    have hd : (if mx.toUInt32 + mn.toUInt32 ≤ 0xffff then mx.toUInt32 + mn.toUInt32
        else 0x1fffe - (mx.toUInt32 + mn.toUInt32)) ≠ 0 := by
      intro h0
      have h0 := congrArg UInt32.toNat h0
      by_cases hl : mx.toUInt32 + mn.toUInt32 ≤ 0xffff
      · rw [if_pos hl, hsum, UInt32.toNat_zero] at h0
        omega
      · rw [if_neg hl, sub32, hsum, e3, UInt32.toNat_zero] at h0
        · omega
        · rw [hsum, e3]; omega
    rw [if_neg hd]
    exact ⟨_, rfl, rfl⟩

theorem hcma_a (h c : UInt32) (m a : UInt16) : (hcmaToColour h c m a).a = a := rfl

theorem HSVA.toNRGBA_a (h : HSVA) : h.toNRGBA.a = h.a := by
  unfold HSVA.toNRGBA; split <;> rfl

theorem HSLA.toNRGBA_a (h : HSLA) : h.toNRGBA.a = h.a := by
  unfold HSLA.toNRGBA; split <;> rfl

end Limage
