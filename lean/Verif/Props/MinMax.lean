import Verif.Model.Color
/-!
# Smallest, largest and middle number

`Min` and `Max` (internal/minmax.go) give the smallest and the largest of the numbers; `Mid` gives the number half-way between them unless their
sum takes more than 16 bits, when it is below all of them.
-/
namespace Limage

theorem goMin_fold (n : List UInt16) : ∀ m : UInt16, let r := n.foldl (fun m o => if o < m then o else m) m
    (r ≤ m ∧ ∀ o ∈ n, r ≤ o) ∧ (r = m ∨ r ∈ n) := by
  induction n with
  | nil => intro m; exact ⟨⟨UInt16.le_refl _, fun _ h => nomatch h⟩, .inl rfl⟩
  | cons a n ih =>
    intro m
    obtain ⟨⟨h1, h2⟩, h3⟩ := ih (if a < m then a else m)
    rw [List.foldl_cons]
    dsimp only at h1 h2 h3 ⊢
    by_cases h : a < m
    · rw [if_pos h] at h1 h2 h3 ⊢
      refine ⟨⟨UInt16.le_trans h1 (UInt16.le_of_lt h), fun o ho => ?_⟩, ?_⟩
      · rcases List.mem_cons.1 ho with rfl | ho
        · exact h1
        · exact h2 o ho
      · rcases h3 with h3 | h3
        · exact .inr (List.mem_cons.2 (.inl h3))
        · exact .inr (List.mem_cons_of_mem _ h3)
    · rw [if_neg h] at h1 h2 h3 ⊢
      refine ⟨⟨h1, fun o ho => ?_⟩, ?_⟩
      · rcases List.mem_cons.1 ho with rfl | ho
        · exact UInt16.le_trans h1 (UInt16.not_lt.1 h)
        · exact h2 o ho
      · rcases h3 with h3 | h3
        · exact .inl h3
        · exact .inr (List.mem_cons_of_mem _ h3)

theorem goMax_fold (n : List UInt16) : ∀ m : UInt16, let r := n.foldl (fun m o => if o > m then o else m) m
    (m ≤ r ∧ ∀ o ∈ n, o ≤ r) ∧ (r = m ∨ r ∈ n) := by
  induction n with
  | nil => intro m; exact ⟨⟨UInt16.le_refl _, fun _ h => nomatch h⟩, .inl rfl⟩
  | cons a n ih =>
    intro m
    obtain ⟨⟨h1, h2⟩, h3⟩ := ih (if a > m then a else m)
    rw [List.foldl_cons]
    dsimp only at h1 h2 h3 ⊢
    by_cases h : a > m
    · rw [if_pos h] at h1 h2 h3 ⊢
      refine ⟨⟨UInt16.le_trans (UInt16.le_of_lt h) h1, fun o ho => ?_⟩, ?_⟩
      · rcases List.mem_cons.1 ho with rfl | ho
        · exact h1
        · exact h2 o ho
      · rcases h3 with h3 | h3
        · exact .inr (List.mem_cons.2 (.inl h3))
        · exact .inr (List.mem_cons_of_mem _ h3)
    · rw [if_neg h] at h1 h2 h3 ⊢
      refine ⟨⟨h1, fun o ho => ?_⟩, ?_⟩
      · rcases List.mem_cons.1 ho with rfl | ho
        · exact UInt16.le_trans (UInt16.not_lt.1 h) h1
        · exact h2 o ho
      · rcases h3 with h3 | h3
        · exact .inl h3
        · exact .inr (List.mem_cons_of_mem _ h3)

/-- C116: `Min` gives one of the numbers, and none is smaller. -/
theorem C116_min (n : List UInt16) (hn : n ≠ []) : goMin n ∈ n ∧ ∀ o ∈ n, goMin n ≤ o := by
  obtain ⟨⟨-, h2⟩, h3⟩ := goMin_fold n 0xffff
  refine ⟨?_, h2⟩
  rcases h3 with h3 | h3
  · obtain ⟨a, ha⟩ := List.exists_mem_of_ne_nil n hn
    have h4 := h2 a ha
    rw [h3] at h4
    have h5 : a = 0xffff := UInt16.le_antisymm (UInt16.le_iff_toNat_le.2 (Nat.le_of_lt_succ a.toNat_lt)) h4
    unfold goMin
    rw [h3, ← h5]
    exact ha
  · exact h3

example : ([9, 5, 60000] : List UInt16) ≠ [] ∧ goMin [9, 5, 60000] = 5 := by decide

/-- C116: `Max` gives one of the numbers, and none is larger. -/
theorem C116_max (n : List UInt16) (hn : n ≠ []) : goMax n ∈ n ∧ ∀ o ∈ n, o ≤ goMax n := by
  obtain ⟨⟨-, h2⟩, h3⟩ := goMax_fold n 0
  refine ⟨?_, h2⟩
  rcases h3 with h3 | h3
  · obtain ⟨a, ha⟩ := List.exists_mem_of_ne_nil n hn
    have h4 := h2 a ha
    rw [h3] at h4
    have h5 : a = 0 := UInt16.le_antisymm h4 (UInt16.le_iff_toNat_le.2 (Nat.zero_le _))
    unfold goMax
    rw [h3, ← h5]
    exact ha
  · exact h3

example : ([9, 5, 60000] : List UInt16) ≠ [] ∧ goMax [9, 5, 60000] = 60000 := by decide

/-- C116 (without the numbers whose sum takes more than 16 bits): `Mid` is half the sum of the smallest number `a` and the largest number `b`,
rounded down, and so between them. -/
theorem C116_mid_partial (n : List UInt16) (a b : UInt16) (ha : a ∈ n) (hb : b ∈ n) (hn : ∀ o ∈ n, a ≤ o ∧ o ≤ b)
    (hs : a.toNat + b.toNat < 65536) : (goMid n).toNat = (a.toNat + b.toNat) / 2 ∧ a ≤ goMid n ∧ goMid n ≤ b := by
  have hne : n ≠ [] := by rintro rfl; cases ha
  have e1 : goMin n = a := UInt16.le_antisymm ((C116_min n hne).2 a ha) (hn _ (C116_min n hne).1).1
  have e2 : goMax n = b := UInt16.le_antisymm (hn _ (C116_max n hne).1).2 ((C116_max n hne).2 b hb)
  have h : (goMid n).toNat = (a.toNat + b.toNat) / 2 := by
    unfold goMid
    rw [e1, e2, UInt16.toNat_shiftRight, UInt16.toNat_add, Nat.mod_eq_of_lt hs]
    rfl
  have hab := UInt16.le_iff_toNat_le.1 (hn a ha).2
  refine ⟨h, UInt16.le_iff_toNat_le.2 ?_, UInt16.le_iff_toNat_le.2 ?_⟩ <;> rw [h] <;> omega

/-- The hypotheses of C116 are met by three numbers in any order. -/
example : (5 : UInt16) ∈ [(9 : UInt16), 5, 60000] ∧ (60000 : UInt16) ∈ [(9 : UInt16), 5, 60000] ∧
    (∀ o ∈ [(9 : UInt16), 5, 60000], 5 ≤ o ∧ o ≤ 60000) ∧ (5 : UInt16).toNat + (60000 : UInt16).toNat < 65536 := by decide

/-- C116 is false of all other numbers: when the sum of the smallest and the largest takes more than 16 bits, `Mid` is smaller than every one
of the numbers. -/
theorem C116_mid_refuted : (∀ (n : List UInt16) (a b : UInt16), a ∈ n → b ∈ n → (∀ o ∈ n, a ≤ o ∧ o ≤ b) → 65536 ≤ a.toNat + b.toNat →
    ∀ o ∈ n, goMid n < o) ∧ goMid [0xffff] = 0x7fff := by
  refine ⟨fun n a b ha hb hn hs o ho => ?_, rfl⟩
  have hne : n ≠ [] := by rintro rfl; cases ha
  have e1 : goMin n = a := UInt16.le_antisymm ((C116_min n hne).2 a ha) (hn _ (C116_min n hne).1).1
  have e2 : goMax n = b := UInt16.le_antisymm (hn _ (C116_max n hne).1).2 ((C116_max n hne).2 b hb)
  have h1 := UInt16.le_iff_toNat_le.1 (hn o ho).1
  have h2 := a.toNat_lt
  have h3 := b.toNat_lt
  rw [UInt16.lt_iff_toNat_lt]
  unfold goMid
  rw [e1, e2, UInt16.toNat_shiftRight, UInt16.toNat_add]
  have e : (a.toNat + b.toNat) % 2 ^ 16 = a.toNat + b.toNat - 65536 := by omega
  have e3 : (1 : UInt16).toNat % 16 = 1 := rfl
  rw [e, e3, Nat.shiftRight_eq_div_pow]
  omega

end Limage
