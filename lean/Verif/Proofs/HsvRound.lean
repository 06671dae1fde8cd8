import Verif.Proofs.Hsv
/-! Error bounds for the HSV round trip. -/
namespace Limage

/-- red weight of a hue angle (0..6*65535) -/
def wR (h : Nat) : Nat :=
  if h ≤ 65535 then 65535 else if h ≤ 131070 then 131070 - h else if h ≤ 262140 then 0
  else if h ≤ 327675 then h - 262140 else 65535
def wG (h : Nat) : Nat :=
  if h ≤ 65535 then h else if h ≤ 196605 then 65535 else if h ≤ 262140 then 262140 - h else 0
def wB (h : Nat) : Nat :=
  if h ≤ 131070 then 0 else if h ≤ 196605 then h - 131070 else if h ≤ 327675 then 65535
  else 393210 - h

theorem wR_near {h h' : Nat} (a : h ≤ h') (b : h' ≤ h + 5) : wR h ≤ wR h' + 5 ∧ wR h' ≤ wR h + 5 := by
  unfold wR; repeat' split
  all_goals omega
theorem wG_near {h h' : Nat} (a : h ≤ h') (b : h' ≤ h + 5) : wG h ≤ wG h' + 5 ∧ wG h' ≤ wG h + 5 := by
  unfold wG; repeat' split
  all_goals omega
theorem wB_near {h h' : Nat} (c : h' ≤ 393210) (a : h ≤ h') (b : h' ≤ h + 5) :
    wB h ≤ wB h' + 5 ∧ wB h' ≤ wB h + 5 := by
  unfold wB; repeat' split
  all_goals omega

theorem wR_le (h : Nat) : wR h ≤ 65535 := by unfold wR; repeat' split
                                             all_goals omega
theorem wG_le (h : Nat) : wG h ≤ 65535 := by unfold wG; repeat' split
                                             all_goals omega
theorem wB_le {h : Nat} (c : h ≤ 393210) : wB h ≤ 65535 := by unfold wB; repeat' split
                                                              all_goals omega

/-- triangle wave used by `hcmaToColour` -/
def tri (h : Nat) : Nat := if h % 131070 ≥ 65535 then 131070 - h % 131070 else h % 131070

theorem hcma_nat (hue c m a : UInt16) (hh : hue.toNat < 65535) (hs : c.toNat + m.toNat ≤ 65535) :
    (hcmaToColour hue.toUInt32 c.toUInt32 m a).r.toNat
      = m.toNat + wR (6 * hue.toNat) * c.toNat / 65535 ∧
    (hcmaToColour hue.toUInt32 c.toUInt32 m a).g.toNat
      = m.toNat + wG (6 * hue.toNat) * c.toNat / 65535 ∧
    (hcmaToColour hue.toUInt32 c.toUInt32 m a).b.toNat
      = m.toNat + wB (6 * hue.toNat) * c.toNat / 65535 := by
  have hne : hue.toUInt32 ≠ 0xffff := by
    intro e
    have := congrArg UInt32.toNat e
    simp at this; omega
  have h6 : (hue.toUInt32 * 6).toNat = 6 * hue.toNat := by
    have e6 : (6 : UInt32).toNat = 6 := rfl
    rw [mul32] <;> rw [toNat_16_32, e6] <;> omega
  have e1 : (0x1fffe : UInt32).toNat = 131070 := rfl
  unfold hcmaToColour
  dsimp only
  rw [if_pos hne]
  generalize hue.toUInt32 * 6 = h at h6 ⊢
  have hx1 : (if h % 0x1fffe ≥ 0xffff then 0x1fffe - h % 0x1fffe else h % 0x1fffe).toNat
      = tri (6 * hue.toNat) := by
    unfold tri
    have hmod : (h % 0x1fffe).toNat = 6 * hue.toNat % 131070 := by rw [UInt32.toNat_mod, h6, e1]
    have : (h % 0x1fffe ≥ 0xffff) ↔ 6 * hue.toNat % 131070 ≥ 65535 := by
      rw [ge_iff_le, UInt32.le_iff_toNat_le, hmod, ffff32]
    split
    · rename_i hc
      rw [if_pos (this.1 hc), sub32] <;> rw [hmod, e1]
      omega
    · rename_i hc
      rw [if_neg (fun e => hc (this.2 e)), hmod]
  have htri : tri (6 * hue.toNat) ≤ 65535 := by unfold tri; split <;> omega
  generalize (if h % 0x1fffe ≥ 0xffff then 0x1fffe - h % 0x1fffe else h % 0x1fffe) = x at hx1 ⊢
  have hx : (x * c.toUInt32 / 0xffff).toNat = tri (6 * hue.toNat) * c.toNat / 65535 := by
    rw [UInt32.toNat_div, mul32] <;> rw [hx1, toNat_16_32]
    · rfl
    · have := mul_le_sq htri (u16_le c); omega
  have hxle : tri (6 * hue.toNat) * c.toNat / 65535 ≤ c.toNat := prod_div_le htri
  have hx16 : (x * c.toUInt32 / 0xffff).toUInt16.toNat = tri (6 * hue.toNat) * c.toNat / 65535 := by
    have := u16_le c
    rw [to16] <;> rw [hx]; omega
  have hc16 : c.toUInt32.toUInt16.toNat = c.toNat := by simp
  generalize (x * c.toUInt32 / 0xffff).toUInt16 = X at *
  generalize c.toUInt32.toUInt16 = C at *
  have hd : ∀ n : UInt32, (h / 0xffff = n) ↔ 6 * hue.toNat / 65535 = n.toNat := by
    intro n
    rw [← UInt32.toNat_inj, UInt32.toNat_div, h6, ffff32]
  have z0 : (0 : UInt32).toNat = 0 := rfl
  have z1 : (1 : UInt32).toNat = 1 := rfl
  have z2 : (2 : UInt32).toNat = 2 := rfl
  have z3 : (3 : UInt32).toNat = 3 := rfl
  have z4 : (4 : UInt32).toNat = 4 := rfl
  have z5 : (5 : UInt32).toNat = 5 := rfl
  simp only [hd, z0, z1, z2, z3, z4, z5]
  have full : 65535 * c.toNat / 65535 = c.toNat := by omega
  have nil : 0 * c.toNat / 65535 = 0 := by omega
  have addX : (X + m).toNat = m.toNat + tri (6 * hue.toNat) * c.toNat / 65535 := by
    rw [add16] <;> rw [hx16] <;> omega
  have addC : (C + m).toNat = m.toNat + c.toNat := by
    rw [add16] <;> rw [hc16] <;> omega
  have add0 : ((0 : UInt16) + m).toNat = m.toNat := by simp
  have cases6 : 6 * hue.toNat / 65535 = 0 ∨ 6 * hue.toNat / 65535 = 1 ∨ 6 * hue.toNat / 65535 = 2 ∨
    6 * hue.toNat / 65535 = 3 ∨ 6 * hue.toNat / 65535 = 4 ∨ 6 * hue.toNat / 65535 = 5 := by omega
  generalize 6 * hue.toNat = H at *
  rcases cases6 with e | e | e | e | e | e
  all_goals
    simp only [e, OfNat.ofNat_ne_zero, OfNat.zero_ne_ofNat, if_true, if_false,
      one_ne_zero, zero_ne_one, OfNat.one_ne_ofNat, OfNat.ofNat_ne_one, Nat.reduceEqDiff]
    simp only [addX, addC, add0]
  · have a1 : wR H = 65535 := by unfold wR; rw [if_pos (by omega)]
    have a2 : wG H = tri H := by unfold wG tri; rw [if_pos (by omega)]; split <;> omega
    have a3 : wB H = 0 := by unfold wB; rw [if_pos (by omega)]
    rw [a1, a2, a3, full, nil]; simp
  · have a1 : wR H = tri H := by unfold wR tri; repeat' split
                                 all_goals omega
    have a2 : wG H = 65535 := by unfold wG; repeat' split
                                 all_goals omega
    have a3 : wB H = 0 := by unfold wB; repeat' split
                             all_goals omega
    rw [a1, a2, a3, full, nil]; simp
  · have a1 : wR H = 0 := by unfold wR; repeat' split
                             all_goals omega
    have a2 : wG H = 65535 := by unfold wG; repeat' split
                                 all_goals omega
    have a3 : wB H = tri H := by unfold wB tri; repeat' split
                                 all_goals omega
    rw [a1, a2, a3, full, nil]; simp
  · have a1 : wR H = 0 := by unfold wR; repeat' split
                             all_goals omega
    have a2 : wG H = tri H := by unfold wG tri; repeat' split
                                 all_goals omega
    have a3 : wB H = 65535 := by unfold wB; repeat' split
                                 all_goals omega
    rw [a1, a2, a3, full, nil]; simp
  · have a1 : wR H = tri H := by unfold wR tri; repeat' split
                                 all_goals omega
    have a2 : wG H = 0 := by unfold wG; repeat' split
                             all_goals omega
    have a3 : wB H = 65535 := by unfold wB; repeat' split
                                 all_goals omega
    rw [a1, a2, a3, full, nil]; simp
  · have a1 : wR H = 65535 := by unfold wR; repeat' split
                                 all_goals omega
    have a2 : wG H = 0 := by unfold wG; repeat' split
                             all_goals omega
    have a3 : wB H = tri H := by unfold wB tri; repeat' split
                                 all_goals omega
    rw [a1, a2, a3, full, nil]; simp

theorem ratio_nat (d c : Nat) (hd : d ≤ c) (hc : 0 < c) :
    65535 * d / c ≤ 65535 ∧ 65535 * d / c * c ≤ 65535 * d ∧ 65535 * d < 65535 * d / c * c + c := by
  refine ⟨?_, Nat.div_mul_le_self _ _, ?_⟩
  · apply Nat.div_le_of_le_mul; rw [Nat.mul_comm c]; exact Nat.mul_le_mul_left _ hd
  · have := Nat.lt_div_mul_add (a := 65535 * d) hc
    omega

/-- the hue of a colour: within 5 of an angle whose weights give the channels back -/
theorem hue_nat (cl : NRGBA64) (mx : UInt16) (c : UInt32) (mn : Nat)
    (hmx : mx.toNat = max cl.r.toNat (max cl.g.toNat cl.b.toNat))
    (hmn : mn = min cl.r.toNat (min cl.g.toNat cl.b.toNat))
    (hc : c.toNat = mx.toNat - mn) (hpos : mn < mx.toNat) :
    ∃ H, H ≤ 393210 ∧ (colourToHue cl mx c).toNat < 65535 ∧
      6 * (colourToHue cl mx c).toNat ≤ H ∧ H ≤ 6 * (colourToHue cl mx c).toNat + 5 ∧
      (wR H * c.toNat ≤ 65535 * (cl.r.toNat - mn) + c.toNat ∧
        65535 * (cl.r.toNat - mn) ≤ wR H * c.toNat + c.toNat) ∧
      (wG H * c.toNat ≤ 65535 * (cl.g.toNat - mn) + c.toNat ∧
        65535 * (cl.g.toNat - mn) ≤ wG H * c.toNat + c.toNat) ∧
      (wB H * c.toNat ≤ 65535 * (cl.b.toNat - mn) + c.toNat ∧
        65535 * (cl.b.toNat - mn) ≤ wB H * c.toNat + c.toNat) := by
  have lr := u16_le cl.r
  have lg := u16_le cl.g
  have lb := u16_le cl.b
  have c6 : (6 : UInt32).toNat = 6 := rfl
  have cA : (0x5fffa : UInt32).toNat = 393210 := rfl
  have cB : (0x1fffe : UInt32).toNat = 131070 := rfl
  have cC : (0x3fffc : UInt32).toNat = 262140 := rfl
  -- quotient of a difference
  have quot : ∀ x y : UInt16, y.toNat ≤ x.toNat →
      (0xffff * (x - y).toUInt32 / c).toNat = 65535 * (x.toNat - y.toNat) / c.toNat := by
    intro x y h
    rw [UInt32.toNat_div, full_mul, sub16 _ _ h]
  -- from the angle to the rest
  have fin : ∀ (h : UInt32), h.toNat < 393210 →
      (h / 6).toUInt16.toNat < 65535 ∧ 6 * (h / 6).toUInt16.toNat ≤ h.toNat ∧
      h.toNat ≤ 6 * (h / 6).toUInt16.toNat + 5 := by
    intro h hl
    have : (h / 6).toUInt16.toNat = h.toNat / 6 := by
      rw [to16] <;> rw [UInt32.toNat_div, c6]; omega
    rw [this]; omega
  have hcpos : 0 < c.toNat := by omega
  unfold colourToHue
  dsimp only
  split
  · rename_i e
    have er : cl.r.toNat = mx.toNat := by rw [← e]
    split
    · rename_i h
      rw [ge_iff_le, UInt16.le_iff_toNat_le] at h
      have em : mn = cl.b.toNat := by omega
      obtain ⟨q1, q2, q3⟩ := ratio_nat (cl.g.toNat - cl.b.toNat) c.toNat (by omega) hcpos
      have hq := quot _ _ h
      rw [show (0x00000 : UInt32) + 0xffff * (cl.g - cl.b).toUInt32 / c
        = 0xffff * (cl.g - cl.b).toUInt32 / c by simp]
      generalize (0xffff * (cl.g - cl.b).toUInt32 / c) = Q at hq ⊢
      generalize 65535 * (cl.g.toNat - cl.b.toNat) / c.toNat = q at *
      refine ⟨Q.toNat, by omega, (fin Q (by omega)).1, (fin Q (by omega)).2.1,
        (fin Q (by omega)).2.2, ?_, ?_, ?_⟩
      · have : wR Q.toNat = 65535 := by unfold wR; rw [if_pos (by omega)]
        rw [this]; omega
      · have : wG Q.toNat = q := by unfold wG; rw [if_pos (by omega)]; omega
        rw [this, em]; omega
      · have : wB Q.toNat = 0 := by unfold wB; rw [if_pos (by omega)]
        rw [this, em]; omega
    · rename_i h
      rw [ge_iff_le, UInt16.le_iff_toNat_le] at h
      have em : mn = cl.g.toNat := by omega
      obtain ⟨q1, q2, q3⟩ := ratio_nat (cl.b.toNat - cl.g.toNat) c.toNat (by omega) hcpos
      have hq := quot cl.b cl.g (by omega)
      have q0 : 0 < 65535 * (cl.b.toNat - cl.g.toNat) / c.toNat := by
        apply Nat.div_pos _ hcpos; omega
      generalize (0xffff * (cl.b - cl.g).toUInt32 / c) = Q at hq ⊢
      generalize 65535 * (cl.b.toNat - cl.g.toNat) / c.toNat = q at *
      have hh : (0x5fffa - Q).toNat = 393210 - q := by
        rw [sub32] <;> rw [hq, cA]; omega
      generalize (0x5fffa - Q) = h6 at hh ⊢
      refine ⟨h6.toNat, by omega, (fin h6 (by omega)).1, (fin h6 (by omega)).2.1,
        (fin h6 (by omega)).2.2, ?_, ?_, ?_⟩
      · have : wR h6.toNat = 65535 := by unfold wR; repeat' split
                                         all_goals omega
        rw [this]; omega
      · have : wG h6.toNat = 0 := by unfold wG; repeat' split
                                     all_goals omega
        rw [this, em]; omega
      · have : wB h6.toNat = q := by unfold wB; repeat' split
                                     all_goals omega
        rw [this, em]; omega
  · split
    · rename_i e0 e
      have er : cl.g.toNat = mx.toNat := by rw [← e]
      have hne : cl.r.toNat ≠ mx.toNat := fun x => e0 (UInt16.toNat_inj.1 x.symm)
      split
      · rename_i h
        rw [ge_iff_le, UInt16.le_iff_toNat_le] at h
        have em : mn = cl.r.toNat := by omega
        obtain ⟨q1, q2, q3⟩ := ratio_nat (cl.b.toNat - cl.r.toNat) c.toNat (by omega) hcpos
        have hq := quot _ _ h
        generalize (0xffff * (cl.b - cl.r).toUInt32 / c) = Q at hq ⊢
        generalize 65535 * (cl.b.toNat - cl.r.toNat) / c.toNat = q at *
        have hh : (0x1fffe + Q).toNat = 131070 + q := by
          rw [add32] <;> rw [hq, cB]; omega
        generalize (0x1fffe + Q) = h6 at hh ⊢
        refine ⟨h6.toNat, by omega, (fin h6 (by omega)).1, (fin h6 (by omega)).2.1,
          (fin h6 (by omega)).2.2, ?_, ?_, ?_⟩
        · have : wR h6.toNat = 0 := by unfold wR; repeat' split
                                       all_goals omega
          rw [this, em]; omega
        · have : wG h6.toNat = 65535 := by unfold wG; repeat' split
                                           all_goals omega
          rw [this]; omega
        · have : wB h6.toNat = q := by unfold wB; repeat' split
                                       all_goals omega
          rw [this, em]; omega
      · rename_i h
        rw [ge_iff_le, UInt16.le_iff_toNat_le] at h
        have em : mn = cl.b.toNat := by omega
        obtain ⟨q1, q2, q3⟩ := ratio_nat (cl.r.toNat - cl.b.toNat) c.toNat (by omega) hcpos
        have hq := quot cl.r cl.b (by omega)
        generalize (0xffff * (cl.r - cl.b).toUInt32 / c) = Q at hq ⊢
        generalize 65535 * (cl.r.toNat - cl.b.toNat) / c.toNat = q at *
        have hh : (0x1fffe - Q).toNat = 131070 - q := by
          rw [sub32] <;> rw [hq, cB]; omega
        generalize (0x1fffe - Q) = h6 at hh ⊢
        refine ⟨h6.toNat, by omega, (fin h6 (by omega)).1, (fin h6 (by omega)).2.1,
          (fin h6 (by omega)).2.2, ?_, ?_, ?_⟩
        · have : wR h6.toNat = q := by unfold wR; repeat' split
                                       all_goals omega
          rw [this, em]; omega
        · have : wG h6.toNat = 65535 := by unfold wG; repeat' split
                                           all_goals omega
          rw [this]; omega
        · have : wB h6.toNat = 0 := by unfold wB; repeat' split
                                       all_goals omega
          rw [this, em]; omega
    · rename_i e0 e1
      have hne : cl.r.toNat ≠ mx.toNat := fun x => e0 (UInt16.toNat_inj.1 x.symm)
      have hne1 : cl.g.toNat ≠ mx.toNat := fun x => e1 (UInt16.toNat_inj.1 x.symm)
      have eb : mx.toNat = cl.b.toNat := by omega
      rw [if_pos (UInt16.toNat_inj.1 eb)]
      split
      · rename_i h
        rw [ge_iff_le, UInt16.le_iff_toNat_le] at h
        have em : mn = cl.g.toNat := by omega
        obtain ⟨q1, q2, q3⟩ := ratio_nat (cl.r.toNat - cl.g.toNat) c.toNat (by omega) hcpos
        have hq := quot _ _ h
        generalize (0xffff * (cl.r - cl.g).toUInt32 / c) = Q at hq ⊢
        generalize 65535 * (cl.r.toNat - cl.g.toNat) / c.toNat = q at *
        have hh : (0x3fffc + Q).toNat = 262140 + q := by
          rw [add32] <;> rw [hq, cC]; omega
        generalize (0x3fffc + Q) = h6 at hh ⊢
        refine ⟨h6.toNat, by omega, (fin h6 (by omega)).1, (fin h6 (by omega)).2.1,
          (fin h6 (by omega)).2.2, ?_, ?_, ?_⟩
        · have : wR h6.toNat = q := by unfold wR; repeat' split
                                       all_goals omega
          rw [this, em]; omega
        · have : wG h6.toNat = 0 := by unfold wG; repeat' split
                                       all_goals omega
          rw [this, em]; omega
        · have : wB h6.toNat = 65535 := by unfold wB; repeat' split
                                           all_goals omega
          rw [this]; omega
      · rename_i h
        rw [ge_iff_le, UInt16.le_iff_toNat_le] at h
        have em : mn = cl.r.toNat := by omega
        obtain ⟨q1, q2, q3⟩ := ratio_nat (cl.g.toNat - cl.r.toNat) c.toNat (by omega) hcpos
        have hq := quot cl.g cl.r (by omega)
        generalize (0xffff * (cl.g - cl.r).toUInt32 / c) = Q at hq ⊢
        generalize 65535 * (cl.g.toNat - cl.r.toNat) / c.toNat = q at *
        have hh : (0x3fffc - Q).toNat = 262140 - q := by
          rw [sub32] <;> rw [hq, cC]; omega
        generalize (0x3fffc - Q) = h6 at hh ⊢
        refine ⟨h6.toNat, by omega, (fin h6 (by omega)).1, (fin h6 (by omega)).2.1,
          (fin h6 (by omega)).2.2, ?_, ?_, ?_⟩
        · have : wR h6.toNat = 0 := by unfold wR; repeat' split
                                       all_goals omega
          rw [this, em]; omega
        · have : wG h6.toNat = q := by unfold wG; repeat' split
                                       all_goals omega
          rw [this, em]; omega
        · have : wB h6.toNat = 65535 := by unfold wB; repeat' split
                                           all_goals omega
          rw [this]; omega

/-- from a weight within 6 of the right one to a channel within 7 -/
theorem channel_near (w w' c c' ch mn : Nat) (hw : w ≤ w' + 5) (hw' : w' ≤ w + 5) (hwl : w ≤ 65535)
    (hc : c ≤ 65535) (h1 : w' * c ≤ 65535 * (ch - mn) + c) (h2 : 65535 * (ch - mn) ≤ w' * c + c)
    (hmn : mn ≤ ch) (hcc : c' = c ∨ c' + 1 = c) :
    (mn + c - c') + w * c' / 65535 ≤ ch + 7 ∧ ch ≤ (mn + c - c') + w * c' / 65535 + 7 := by
  have k1 : w * c ≤ w' * c + 5 * c := by rw [← Nat.add_mul]; exact Nat.mul_le_mul_right _ hw
  have k2 : w' * c ≤ w * c + 5 * c := by rw [← Nat.add_mul]; exact Nat.mul_le_mul_right _ hw'
  rcases hcc with e | e
  · subst e
    generalize w * c' = P at *
    generalize w' * c' = P' at *
    omega
  · have : w * c = w * c' + w := by rw [← e, Nat.mul_add, Nat.mul_one]
    generalize w * c = P at *
    generalize w' * c = P' at *
    generalize w * c' = P'' at *
    omega

end Limage
