import Verif.Proofs.Raster
import Verif.Model.Image
/-!
# Sub-images of sub-images
-/
namespace Limage
open Spec

theorem empty_iff_le (r : Rect) : r.empty = true ↔ r.x1 ≤ r.x0 ∨ r.y1 ≤ r.y0 := by
  unfold Rect.empty
  rw [Bool.or_eq_true, decide_eq_true_iff, decide_eq_true_iff]

theorem inter_cases (r s : Rect) :
    ((min r.x1 s.x1 ≤ max r.x0 s.x0 ∨ min r.y1 s.y1 ≤ max r.y0 s.y0) ∧ r.inter s = Rect.zero) ∨
    (max r.x0 s.x0 < min r.x1 s.x1 ∧ max r.y0 s.y0 < min r.y1 s.y1 ∧
      r.inter s = ⟨max r.x0 s.x0, max r.y0 s.y0, min r.x1 s.x1, min r.y1 s.y1⟩) := by
  unfold Rect.inter
  dsimp only
  by_cases h : (⟨max r.x0 s.x0, max r.y0 s.y0, min r.x1 s.x1, min r.y1 s.y1⟩ : Rect).empty = true
  · exact .inl ⟨(empty_iff_le _).1 h, if_pos h⟩
  · rw [if_neg h]
    rw [empty_iff_le] at h
    dsimp only at h
    exact .inr ⟨by omega, by omega, rfl⟩

theorem inter_comm (r s : Rect) : r.inter s = s.inter r := by
  unfold Rect.inter
  rw [Int.max_comm r.x0, Int.max_comm r.y0, Int.min_comm r.x1, Int.min_comm r.y1]

theorem same_points {r s : Rect} (hr : r = Rect.zero ∨ r.x0 < r.x1 ∧ r.y0 < r.y1) (hs : s = Rect.zero ∨ s.x0 < s.x1 ∧ s.y0 < s.y1)
    (h : ∀ p, inRect r p ↔ inRect s p) : r = s := by
  rcases hr with rfl | ⟨r1, r2⟩ <;> rcases hs with rfl | ⟨s1, s2⟩
  · rfl
  · have := (h ⟨s.x0, s.y0⟩).2 ⟨Int.le_refl _, s1, Int.le_refl _, s2⟩
    simp only [inRect, Rect.zero] at this
    omega
  · have := (h ⟨r.x0, r.y0⟩).1 ⟨Int.le_refl _, r1, Int.le_refl _, r2⟩
    simp only [inRect, Rect.zero] at this
    omega
  · have a1 := (h ⟨r.x0, r.y0⟩).1 ⟨Int.le_refl _, r1, Int.le_refl _, r2⟩
    have a2 := (h ⟨s.x0, s.y0⟩).2 ⟨Int.le_refl _, s1, Int.le_refl _, s2⟩
    have a3 := (h ⟨r.x1 - 1, r.y1 - 1⟩).1 (by simp only [inRect]; omega)
    have a4 := (h ⟨s.x1 - 1, s.y1 - 1⟩).2 (by simp only [inRect]; omega)
    obtain ⟨x0, y0, x1, y1⟩ := r
    obtain ⟨u0, v0, u1, v1⟩ := s
    simp only [inRect] at a1 a2 a3 a4
    rw [Rect.mk.injEq]
    omega

theorem inter_canon (r s : Rect) : r.inter s = Rect.zero ∨ (r.inter s).x0 < (r.inter s).x1 ∧ (r.inter s).y0 < (r.inter s).y1 := by
  rcases inter_cases r s with ⟨_, h⟩ | ⟨a, b, h⟩
  · exact .inl h
  · exact .inr (by rw [h]; exact ⟨a, b⟩)

theorem inter_assoc (r s t : Rect) : (r.inter s).inter t = r.inter (s.inter t) := by
  refine same_points (inter_canon _ _) (inter_canon _ _) fun p => ?_
  rw [inRect_inter, inRect_inter, inRect_inter, inRect_inter, and_assoc]

/-- C117, `RGB`, `GrayAlpha` and `PalettedAlpha`: a sub-image of a sub-image is that of the common part, the very same view of the same pixels. -/
theorem C117_raster (m m1 m2 : Raster) (r s : Rect) (h1 : m.sub r = some m1) (h2 : m1.sub s = some m2) : m.sub (s.inter r) = some m2 := by
  unfold Raster.sub at h1
  dsimp only at h1
  by_cases e1 : (r.inter m.rect).empty = true
  · rw [if_pos e1] at h1
    cases h1
    have e0 : r.inter m.rect = Rect.zero := by
      rcases inter_cases r m.rect with ⟨_, h⟩ | ⟨a, b, h⟩
      · exact h
      · rw [h, empty_iff_le] at e1; dsimp only at e1; omega
    unfold Raster.sub at h2 ⊢
    dsimp only at h2 ⊢
    rw [inter_assoc, e0]
    by_cases e2 : (s.inter Rect.zero).empty = true
    · rw [if_pos e2] at h2 ⊢; exact h2
    · rw [empty_iff_le] at e2
      rcases inter_cases s Rect.zero with ⟨_, h⟩ | ⟨a, b, h⟩
      · rw [h] at e2; simp only [Rect.zero] at e2; omega
      · simp only [Rect.zero] at a b; omega
  · rw [if_neg e1] at h1
    by_cases b1 : 0 ≤ m.pixOffset ⟨(r.inter m.rect).x0, (r.inter m.rect).y0⟩ ∧ m.pixOffset ⟨(r.inter m.rect).x0, (r.inter m.rect).y0⟩ ≤ m.len
    · rw [if_pos b1] at h1
      injection h1 with h1
      subst h1
      unfold Raster.sub at h2 ⊢
      dsimp only at h2 ⊢
      rw [inter_assoc]
      by_cases e2 : (s.inter (r.inter m.rect)).empty = true
      · rw [if_pos e2] at h2 ⊢
        exact h2
      · rw [if_neg e2] at h2 ⊢
        generalize s.inter (r.inter m.rect) = t at h2 ⊢
        generalize r.inter m.rect = u at h2 b1
        have hoff : m.pixOffset ⟨t.x0, t.y0⟩ = m.pixOffset ⟨u.x0, u.y0⟩ + Raster.pixOffset ⟨m.arr, m.off + (m.pixOffset ⟨u.x0, u.y0⟩).toNat,
            m.len - (m.pixOffset ⟨u.x0, u.y0⟩).toNat, m.stride, u⟩ ⟨t.x0, t.y0⟩ := by
          unfold Raster.pixOffset
          dsimp only
          have : (t.y0 - m.rect.y0) * m.stride = (u.y0 - m.rect.y0) * m.stride + (t.y0 - u.y0) * m.stride := by
            rw [← Int.add_mul]
            congr 1
            omega
          omega
        generalize hq : Raster.pixOffset ⟨m.arr, m.off + (m.pixOffset ⟨u.x0, u.y0⟩).toNat, m.len - (m.pixOffset ⟨u.x0, u.y0⟩).toNat, m.stride, u⟩
          ⟨t.x0, t.y0⟩ = q at h2 hoff
        generalize m.pixOffset ⟨u.x0, u.y0⟩ = o at h2 hoff b1
        rw [hoff]
        by_cases b2 : 0 ≤ q ∧ q ≤ ((m.len - o.toNat : Nat) : Int)
        · rw [if_pos b2] at h2
          rw [if_pos (by omega)]
          rw [← h2, Option.some.injEq, Raster.mk.injEq]
          exact ⟨rfl, by omega, by omega, rfl, rfl⟩
        · rw [if_neg b2] at h2; cases h2
    · rw [if_neg b1] at h1; cases h1

example : (⟨0, 0, 12, 4, ⟨0, 0, 4, 3⟩⟩ : Raster).sub ⟨1, 1, 9, 9⟩ = some ⟨0, 5, 7, 4, ⟨1, 1, 4, 3⟩⟩ ∧
    (⟨0, 5, 7, 4, ⟨1, 1, 4, 3⟩⟩ : Raster).sub ⟨-1, 2, 3, 4⟩ = some ⟨0, 9, 3, 4, ⟨1, 2, 3, 3⟩⟩ := by decide

/-- C117, `Layer` and `Image`: a sub-image of a sub-image is that of the common part. -/
theorem C117_layers (g : List Layer) (r s : Rect) : groupSubImage s (groupSubImage r g) = groupSubImage (s.inter r) g := by
  unfold groupSubImage
  rw [List.map_map]
  refine List.map_congr_left fun l _ => ?_
  show subImageLayer s (subImageLayer r l) = _
  unfold subImageLayer
  dsimp only
  rw [inter_assoc]

example : (groupSubImage ⟨1, 1, 9, 9⟩ (groupSubImage ⟨0, 0, 5, 5⟩ [⟨[], ⟨-1, 2, 7, 7⟩, Mode.normal, false, 0, .nil⟩])).map (·.bounds) =
    [⟨1, 2, 5, 5⟩] := by decide

/-- C117: in which order two parts are taken does not matter. -/
theorem C117_order (g : List Layer) (r s : Rect) (m m1 m2 m1' m2' : Raster) (h1 : m.sub r = some m1) (h2 : m1.sub s = some m2)
    (h1' : m.sub s = some m1') (h2' : m1'.sub r = some m2') :
    groupSubImage s (groupSubImage r g) = groupSubImage r (groupSubImage s g) ∧ m2 = m2' := by
  refine ⟨by rw [C117_layers, C117_layers, inter_comm], ?_⟩
  have e1 := C117_raster m m1 m2 r s h1 h2
  have e2 := C117_raster m m1' m2' s r h1' h2'
  rw [inter_comm, e2] at e1
  exact (Option.some.inj e1).symm

/-- The hypotheses of C117 are met by an image of 4 by 3 pixels and two parts of it that overlap. -/
example : (⟨0, 0, 12, 4, ⟨0, 0, 4, 3⟩⟩ : Raster).sub ⟨1, 1, 9, 9⟩ = some ⟨0, 5, 7, 4, ⟨1, 1, 4, 3⟩⟩ ∧
    (⟨0, 5, 7, 4, ⟨1, 1, 4, 3⟩⟩ : Raster).sub ⟨-1, 2, 3, 4⟩ = some ⟨0, 9, 3, 4, ⟨1, 2, 3, 3⟩⟩ ∧
    (⟨0, 0, 12, 4, ⟨0, 0, 4, 3⟩⟩ : Raster).sub ⟨-1, 2, 3, 4⟩ = some ⟨0, 8, 4, 4, ⟨0, 2, 3, 3⟩⟩ ∧
    (⟨0, 8, 4, 4, ⟨0, 2, 3, 3⟩⟩ : Raster).sub ⟨1, 1, 9, 9⟩ = some ⟨0, 9, 3, 4, ⟨1, 2, 3, 3⟩⟩ := by decide

end Limage
