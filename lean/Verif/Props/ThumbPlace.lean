import Verif.Props.Thumbnail
/-!
# C80 for images at any place

When an image can be stored does not only depend on its size: the bounds of the thumbnail are rounded toward zero, so that it also matters where the image is.
-/
namespace Limage
namespace Spec

/-- the longer side -/
def longer (b : Rect) : Int := max b.dx b.dy

/-- There is at least one point in the image of which the sides are shrunk to 256, with coordinates rounded toward zero. -/
def ShrunkShows (b : Rect) : Prop :=
  Int.tdiv (256 * b.x0) (longer b) < Int.tdiv (256 * b.x1) (longer b) ∧ Int.tdiv (256 * b.y0) (longer b) < Int.tdiv (256 * b.y1) (longer b)

end Spec
open Spec

theorem longer_eq (b : Rect) : (if b.dx > b.dy then b.dx else b.dy) = longer b := by
  unfold longer
  split <;> omega

theorem entries_of_encode {env : OraEnv} {fails : Nat → Bool} {c : Bool} {m : OraInput} {file : Option (List ZipEntry)}
    (he : oraEncode env fails c m = .ok ⟨none, file⟩) : ∃ es, oraEntries env fails m = .ok es := by
  unfold oraEncode at he
  split at he
  · next es h1 => exact ⟨es, h1⟩
  all_goals cases he

/-- C80, the exact condition: an image at any place, whose points can be looked at as can those of its layers, and none of which is empty, is stored if
and only if it is at most 256 points wide and high or there is a point in its thumbnail. -/
theorem C80_exact {env : OraEnv} (hl : OraLib env) (hd : Divides env) (hw : PngWrites env) (m : OraInput) (b : Rect) (hb : m.bounds = some b) (hs : Small m)
    (hm : Writable m) (hls : ∀ i ∈ leaves m.top, Writable (.image i)) :
    (∃ es, oraEncode env (fun _ => false) false m = .ok ⟨none, some es⟩) ↔ b.dx ≤ 256 ∧ b.dy ≤ 256 ∨ ShrunkShows b := by
  obtain ⟨b', hb', w1, w2, w3, w4, w5⟩ := id hm
  rw [hb] at hb'
  cases hb'
  have hside : 0 < longer b ∧ longer b < 2 ^ 32 ∧ b.dx ≤ longer b ∧ b.dy ≤ longer b := by
    unfold longer
    omega
  obtain ⟨s1, s2, s5, s6⟩ := hside
  have tb := thumb_bounds hd hb hs s1 (by omega)
  constructor
  · rintro ⟨es, he⟩
    by_cases hbig : b.dx ≤ 256 ∧ b.dy ≤ 256
    · exact .inl hbig
    right
    obtain ⟨es, hes⟩ := entries_of_encode he
    obtain ⟨b', -, -, thumb, hb', -, -, ht, -⟩ := oraEntries_ok hes
    rw [hb] at hb'
    cases hb'
    rw [show thumbPic m b.dx b.dy = .thumb m (longer b) by
      unfold thumbPic
      rw [if_pos (by omega), longer_eq]] at ht
    obtain ⟨t, ht1, h1, h2, -⟩ := hl.png _ _ ht
    rw [tb] at ht1
    cases ht1
    unfold Rect.dx at h1
    unfold Rect.dy at h2
    exact ⟨Int.sub_pos.1 h1, Int.sub_pos.1 h2⟩
  · intro h1
    have hp : ∀ m, Writable m → ∃ d, env.png (.full m) = .ok d := by
      intro m ⟨b, hb, w1, w2, w3, w4, w5⟩
      exact hw (.full m) b hb w1 w2 w3 w4 (fun ρ q n _ => w5 ρ q n)
    obtain ⟨r, hr⟩ := oraLayers_writes env m.top 0 (fun x hx => hp _ (hls x hx))
    obtain ⟨d, hd1⟩ := hp m hm
    have ht : ∃ d, env.png (thumbPic m b.dx b.dy) = .ok d := by
      unfold thumbPic
      split
      · next hbig =>
        rw [longer_eq]
        obtain ⟨p1, p2⟩ : ShrunkShows b := h1.resolve_left (by omega)
        have ex : 256 * b.x1 - 256 * b.x0 = 256 * b.dx := by unfold Rect.dx; omega
        have ey : 256 * b.y1 - 256 * b.y0 = 256 * b.dy := by unfold Rect.dy; omega
        have q1 := tdiv_apart (a := 256 * b.x0) (b := 256 * b.x1) (n := 256) s1 (by omega) (by omega)
        have q2 := tdiv_apart (a := 256 * b.y0) (b := 256 * b.y1) (n := 256) s1 (by omega) (by omega)
        refine hw _ _ tb ?_ ?_ ?_ ?_ (fun ρ q n _ => w5 ρ _ n)
        all_goals simp only [Rect.dx, Rect.dy]; omega
      · exact ⟨d, hd1⟩
    obtain ⟨t, ht⟩ := ht
    have : ∃ es, oraEntries env (fun _ => false) m = .ok es := by
      unfold oraEntries
      rw [hb]
      simp only [Bool.false_eq_true, if_false]
      rw [hr, OraRes.ok_bind]
      unfold writePng
      simp only [Bool.false_eq_true, if_false]
      rw [hd1, OraRes.ok_bind, OraRes.ok_bind, ht, OraRes.ok_bind, OraRes.ok_bind]
      exact ⟨_, rfl⟩
    obtain ⟨es, hes⟩ := this
    refine ⟨es, ?_⟩
    unfold oraEncode
    rw [hes]
    rfl

/-- a picture of 400 by 3 pixels around the origin is shrunk to something, one of 512 by 2 is not -/
example : ShrunkShows ⟨-200, -1, 200, 2⟩ ∧ ¬ShrunkShows ⟨0, -1, 512, 1⟩ := by
  unfold ShrunkShows longer
  decide

/-- numbers two steps apart are different after rounding toward zero -/
theorem tdiv_lt_of_far {a b side : Int} (hs : 0 < side) (h : a + 2 * side ≤ b) : Int.tdiv a side < Int.tdiv b side := by
  by_cases ha : 0 ≤ a
  · rw [Int.tdiv_eq_ediv_of_nonneg ha, Int.tdiv_eq_ediv_of_nonneg (by omega)]
    have : (a + side * 1) / side ≤ b / side := Int.ediv_le_ediv hs (by omega)
    rw [Int.add_mul_ediv_left _ _ (by omega)] at this
    omega
  · by_cases hb : 0 ≤ b
    · rw [Int.tdiv_eq_ediv_of_nonneg hb]
      have h1 : Int.tdiv a side ≤ 0 := by
        rw [show Int.tdiv a side = -(Int.tdiv (-a) side) by rw [Int.neg_tdiv]; omega, Int.tdiv_eq_ediv_of_nonneg (by omega)]
        have : 0 ≤ -a / side := Int.ediv_nonneg (by omega) (by omega)
        omega
      by_cases hb' : side ≤ b
      · have : (1 : Int) ≤ b / side := (Int.le_ediv_iff_mul_le hs).2 (by omega)
        omega
      · have h2 : Int.tdiv a side = -(Int.tdiv (-a) side) := by rw [Int.neg_tdiv]; omega
        rw [h2, Int.tdiv_eq_ediv_of_nonneg (by omega), Int.ediv_eq_zero_of_lt hb (by omega)]
        have : (1 : Int) ≤ -a / side := (Int.le_ediv_iff_mul_le hs).2 (by omega)
        omega
    · have h1 : Int.tdiv a side = -(Int.tdiv (-a) side) := by rw [Int.neg_tdiv]; omega
      have h2 : Int.tdiv b side = -(Int.tdiv (-b) side) := by rw [Int.neg_tdiv]; omega
      rw [h1, h2, Int.tdiv_eq_ediv_of_nonneg (by omega), Int.tdiv_eq_ediv_of_nonneg (by omega)]
      have : (-b + side * 1) / side ≤ -a / side := Int.ediv_le_ediv hs (by omega)
      rw [Int.add_mul_ediv_left _ _ (by omega)] at this
      omega

/-- C80, the part that is true of images at any place: those neither of whose sides is more than 128 times as long as the other are stored.

Missing for the full statement: longer ones; `C80_exact` says which of those can be stored. -/
theorem C80_places_partial {env : OraEnv} (hl : OraLib env) (hd : Divides env) (hw : PngWrites env) (m : OraInput) (b : Rect) (hb : m.bounds = some b) (hs : Small m)
    (hm : Writable m) (hls : ∀ i ∈ leaves m.top, Writable (.image i)) (h1 : b.dx ≤ 128 * b.dy) (h2 : b.dy ≤ 128 * b.dx) :
    ∃ es, oraEncode env (fun _ => false) false m = .ok ⟨none, some es⟩ := by
  refine (C80_exact hl hd hw m b hb hs hm hls).2 (.inr ?_)
  obtain ⟨b', hb', w1, w2, w3, w4, w5⟩ := hm
  rw [hb] at hb'
  cases hb'
  have hside : 0 < longer b ∧ longer b ≤ 128 * b.dx ∧ longer b ≤ 128 * b.dy := by
    unfold longer
    omega
  obtain ⟨s1, s2, s3⟩ := hside
  constructor
  · refine tdiv_lt_of_far s1 ?_
    unfold Rect.dx at s2
    omega
  · refine tdiv_lt_of_far s1 ?_
    unfold Rect.dy at s3
    omega

/-- an image of the given bounds -/
def blankAt (b : Rect) : Leaf := ⟨b, .gray, fun _ => some (.gray 0)⟩

theorem blankAt_writable (b : Rect) (h : 0 < b.dx ∧ 0 < b.dy ∧ b.dx < 2 ^ 32 ∧ b.dy < 2 ^ 32) : Writable (.image (.leaf (blankAt b))) :=
  ⟨b, rfl, h.1, h.2.1, h.2.2.1, h.2.2.2, fun _ _ _ h => by cases h⟩

/-- a line of 400 by 3 points around zero can be stored although its sides are in the ratio of 133 -/
example : ∃ es, oraEncode libEnv (fun _ => false) false (.image (.leaf (blankAt ⟨-200, -1, 200, 2⟩))) = .ok ⟨none, some es⟩ := by
  refine (C80_exact libEnv_lib libEnv_divides libEnv_writes _ ⟨-200, -1, 200, 2⟩ rfl (fun b hb => by cases hb; decide) (blankAt_writable _ (by decide)) fun i hi => ?_).2
    (.inr (by unfold ShrunkShows; decide))
  have hi : i ∈ [Img.leaf (blankAt ⟨-200, -1, 200, 2⟩)] := hi
  rw [List.mem_singleton.1 hi]
  exact blankAt_writable _ (by decide)

/-- a line of 512 by 2 points around zero cannot be stored, as its thumbnail starts and ends at 0, though one at the origin can -/
example : ¬ ∃ es, oraEncode libEnv (fun _ => false) false (.image (.leaf (blankAt ⟨0, -1, 512, 1⟩))) = .ok ⟨none, some es⟩ := by
  rw [C80_exact libEnv_lib libEnv_divides libEnv_writes _ ⟨0, -1, 512, 1⟩ rfl (fun b hb => by cases hb; decide) (blankAt_writable _ (by decide)) fun i hi => by
    have hi : i ∈ [Img.leaf (blankAt ⟨0, -1, 512, 1⟩)] := hi
    rw [List.mem_singleton.1 hi]
    exact blankAt_writable _ (by decide)]
  unfold ShrunkShows
  decide

/-- an image of 300 by 200 points away from the origin -/
example : ∃ es, oraEncode libEnv (fun _ => false) false (.image (.leaf (blankAt ⟨-20, 30, 280, 230⟩))) = .ok ⟨none, some es⟩ :=
  C80_places_partial libEnv_lib libEnv_divides libEnv_writes _ ⟨-20, 30, 280, 230⟩ rfl (fun b hb => by cases hb; decide) (blankAt_writable _ (by decide)) (fun i hi => by
    have hi : i ∈ [Img.leaf (blankAt ⟨-20, 30, 280, 230⟩)] := hi
    rw [List.mem_singleton.1 hi]
    exact blankAt_writable _ (by decide)) (by decide) (by decide)

end Limage
