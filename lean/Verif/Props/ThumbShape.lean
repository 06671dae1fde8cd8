import Verif.Props.ThumbPlace
/-!
# C158: the thumbnails of large pictures have the shape of the pictures
-/
namespace Limage
namespace Spec

/-- Shrunk in the ratio of 256 to `side`, `len` becomes `short`, with an error of less than two points. -/
def Shrinks (side len short : Int) : Prop := -2 * side < side * short - 256 * len ∧ side * short - 256 * len < 2 * side

/-- The same, rounded down. -/
def ShrinksDown (side len short : Int) : Prop := side * short ≤ 256 * len ∧ 256 * len < side * short + side

end Spec
open Spec

/-- what rounding toward zero leaves away -/
theorem tdiv_near (a : Int) {side : Int} (h : 0 < side) :
    -side < side * Int.tdiv a side - a ∧ side * Int.tdiv a side - a < side := by
  have h1 := Int.mul_tdiv_add_tmod a side
  have h2 := Int.tmod_lt_of_pos a h
  have h3 : -side < Int.tmod a side := by
    have := Int.tmod_lt_of_pos (-a) h
    rw [Int.neg_tmod] at this
    omega
  generalize side * Int.tdiv a side = q at *
  omega

theorem shrinks_of_tdiv (x y : Int) {side : Int} (h : 0 < side) :
    Shrinks side (y - x) (Int.tdiv (256 * y) side - Int.tdiv (256 * x) side) := by
  have h1 := tdiv_near (256 * x) h
  have h2 := tdiv_near (256 * y) h
  unfold Shrinks
  rw [Int.mul_sub]
  generalize side * Int.tdiv (256 * y) side = q at *
  generalize side * Int.tdiv (256 * x) side = r at *
  omega

theorem shrinksDown_of_tdiv {y side : Int} (h : 0 < side) (hy : 0 ≤ y) : ShrinksDown side y (Int.tdiv (256 * y) side) := by
  have h1 := Int.mul_tdiv_add_tmod (256 * y) side
  have h2 := Int.tmod_lt_of_pos (256 * y) h
  have h3 : 0 ≤ Int.tmod (256 * y) side := Int.tmod_nonneg _ (by omega)
  unfold ShrinksDown
  generalize side * Int.tdiv (256 * y) side = q at *
  omega

/-- the thumbnail of a picture of which one side is longer than 256 -/
theorem large_thumb {env : OraEnv} (hl : OraLib env) (hd : Divides env) {fails : Nat → Bool} {c : Bool} {m : OraInput} (hs : Small m) {b : Rect}
    (hb : m.bounds = some b) (hbig : 256 < longer b) {es : List ZipEntry} (h : oraEncode env fails c m = .ok ⟨none, some es⟩) :
    0 < longer b ∧ 0 < b.dx ∧ 0 < b.dy ∧ ∃ d, ZipEntry.of (lit "Thumbnails/thumbnail.png") d ∈ es ∧ env.png (.thumb m (longer b)) = .ok d ∧
      (Pic.thumb m (longer b)).bounds env = some ⟨Int.tdiv (256 * b.x0) (longer b), Int.tdiv (256 * b.y0) (longer b), Int.tdiv (256 * b.x1) (longer b),
        Int.tdiv (256 * b.y1) (longer b)⟩ := by
  obtain ⟨b', les, merged, thumb, hb', -, hm, ht, rfl⟩ := oraEntries_ok (encode_entries h)
  rw [hb] at hb'
  cases hb'
  obtain ⟨⟨a1, a2⟩, ⟨b1, b2⟩, ⟨c1, c2⟩, d1, d2⟩ := hs b hb
  obtain ⟨b', hb', hx, hy, -⟩ := hl.png _ _ hm
  have hbb : b' = b := by
    have : some b' = some b := hb'.symm.trans hb
    injection this
  subst hbb
  have hs2 : longer b' < 2 ^ 45 := by
    unfold longer Rect.dx Rect.dy
    omega
  rw [show thumbPic m b'.dx b'.dy = .thumb m (longer b') by
    unfold thumbPic
    rw [if_pos (by unfold longer at hbig; omega), longer_eq]] at ht
  exact ⟨by omega, hx, hy, thumb, by simp, ht, thumb_bounds hd hb hs (by omega) hs2⟩

/-- C158: the thumbnail of a picture with a side longer than 256, wherever this is, is an image both sides of which are those of the picture, shrunk in
the same ratio, namely that which makes the longer side 256, to within two points. -/
theorem C158_shape {env : OraEnv} (hl : OraLib env) (hd : Divides env) (fails : Nat → Bool) (c : Bool) (m : OraInput) (hs : Small m) (b : Rect)
    (hb : m.bounds = some b) (hbig : 256 < longer b) (es : List ZipEntry) (h : oraEncode env fails c m = .ok ⟨none, some es⟩) :
    ∃ p d t, ZipEntry.of (lit "Thumbnails/thumbnail.png") d ∈ es ∧ env.png p = .ok d ∧ p.bounds env = some t ∧
      Shrinks (longer b) b.dx t.dx ∧ Shrinks (longer b) b.dy t.dy ∧ 255 ≤ longer t ∧ longer t ≤ 256 := by
  obtain ⟨h0, hx, hy, d, h1, h2, h3⟩ := large_thumb hl hd hs hb hbig h
  have e1 := shrinks_of_tdiv b.x0 b.x1 h0
  have e2 := shrinks_of_tdiv b.y0 b.y1 h0
  refine ⟨_, d, _, h1, h2, h3, e1, e2, ?_, ?_⟩
  · rcases (by unfold longer; omega : longer b = b.dx ∨ longer b = b.dy) with h4 | h4
    · have h5 : 255 ≤ Int.tdiv (256 * b.x1) (longer b) - Int.tdiv (256 * b.x0) (longer b) := by
        unfold Shrinks at e1
        by_contra h6
        have h7 : Int.tdiv (256 * b.x1) (longer b) - Int.tdiv (256 * b.x0) (longer b) ≤ 254 := by omega
        have h8 := Int.mul_le_mul_of_nonneg_left h7 (Int.le_of_lt h0)
        generalize longer b * (Int.tdiv (256 * b.x1) (longer b) - Int.tdiv (256 * b.x0) (longer b)) = q at *
        unfold Rect.dx at h4
        omega
      unfold longer Rect.dx
      exact Int.le_trans h5 (Int.le_max_left _ _)
    · have h5 : 255 ≤ Int.tdiv (256 * b.y1) (longer b) - Int.tdiv (256 * b.y0) (longer b) := by
        unfold Shrinks at e2
        by_contra h6
        have h7 : Int.tdiv (256 * b.y1) (longer b) - Int.tdiv (256 * b.y0) (longer b) ≤ 254 := by omega
        have h8 := Int.mul_le_mul_of_nonneg_left h7 (Int.le_of_lt h0)
        generalize longer b * (Int.tdiv (256 * b.y1) (longer b) - Int.tdiv (256 * b.y0) (longer b)) = q at *
        unfold Rect.dy at h4
        omega
      unfold longer Rect.dy
      exact Int.le_trans h5 (Int.le_max_right _ _)
  · have g1 : b.dx ≤ longer b ∧ b.dy ≤ longer b := by unfold longer; omega
    unfold Rect.dx at g1 hx
    unfold Rect.dy at g1 hy
    generalize longer b = side at *
    unfold longer
    exact Int.max_le.2 ⟨tdiv_apart h0 (by omega) (by omega), tdiv_apart h0 (by omega) (by omega)⟩

/-- a picture of 1024 by 300 points around the origin has a thumbnail of 256 by 74 -/
example : (Pic.thumb (.image (.leaf (blankAt ⟨-512, -150, 512, 150⟩))) 1024).bounds libEnv = some ⟨-128, -37, 128, 37⟩ ∧
    ∃ es, oraEncode libEnv (fun _ => false) false (.image (.leaf (blankAt ⟨-512, -150, 512, 150⟩))) = .ok ⟨none, some es⟩ :=
  ⟨(thumb_bounds libEnv_divides rfl (fun b hb => by cases hb; decide) (by decide) (by decide)).trans (by decide),
    (C80_exact libEnv_lib libEnv_divides libEnv_writes _ _ rfl (fun b hb => by cases hb; decide)
      (blankAt_writable _ (by decide)) (fun i hi => by
        rw [show leaves (OraInput.image (.leaf (blankAt ⟨-512, -150, 512, 150⟩))).top = [.leaf (blankAt ⟨-512, -150, 512, 150⟩)] from rfl] at hi
        cases List.mem_singleton.1 hi
        exact blankAt_writable _ (by decide))).2 (.inr (by unfold ShrunkShows; decide))⟩

/-- C158, for pictures that begin at the origin, as those that are read from files do: the longer side of the thumbnail is 256 and the other one is that
of the picture shrunk in the same ratio and rounded down. -/
theorem C158_origin {env : OraEnv} (hl : OraLib env) (hd : Divides env) (fails : Nat → Bool) (c : Bool) (m : OraInput) (hs : Small m) (w h : Int)
    (hb : m.bounds = some ⟨0, 0, w, h⟩) (hbig : 256 < max w h) (es : List ZipEntry) (he : oraEncode env fails c m = .ok ⟨none, some es⟩) :
    ∃ p d w' h', ZipEntry.of (lit "Thumbnails/thumbnail.png") d ∈ es ∧ env.png p = .ok d ∧ p.bounds env = some ⟨0, 0, w', h'⟩ ∧
      max w' h' = 256 ∧ ShrinksDown (max w h) w w' ∧ ShrinksDown (max w h) h h' := by
  have hlo : longer ⟨0, 0, w, h⟩ = max w h := by
    unfold longer Rect.dx Rect.dy
    simp
  obtain ⟨h0, hw, hh, d, h1, h2, h3⟩ := large_thumb hl hd hs hb (hlo ▸ hbig) he
  rw [hlo] at h0 h2 h3
  unfold Rect.dx at hw
  unfold Rect.dy at hh
  simp only [Int.sub_zero] at hw hh
  have e1 := shrinksDown_of_tdiv (y := w) h0 (by omega)
  have e2 := shrinksDown_of_tdiv (y := h) h0 (by omega)
  refine ⟨_, d, Int.tdiv (256 * w) (max w h), Int.tdiv (256 * h) (max w h), h1, h2, ?_, ?_, e1, e2⟩
  · rw [h3]
    simp
  · have key : ∀ {s : Int}, 0 < s → Int.tdiv (256 * s) s = 256 := fun hs => Int.mul_tdiv_cancel _ (by omega)
    rcases Int.le_total w h with h4 | h4
    · rw [Int.max_eq_right h4] at *
      have := tdiv_apart (a := 0) (b := 256 * w) (n := 256) h0 (by omega) (by omega)
      rw [Int.zero_tdiv] at this
      rw [key h0]
      omega
    · rw [Int.max_eq_left h4] at *
      have := tdiv_apart (a := 0) (b := 256 * h) (n := 256) h0 (by omega) (by omega)
      rw [Int.zero_tdiv] at this
      rw [key h0]
      omega

/-- a picture of 300 by 1000 points has a thumbnail of 76 by 256 -/
example : (Pic.thumb (.image (.leaf (blankAt ⟨0, 0, 300, 1000⟩))) 1000).bounds libEnv = some ⟨0, 0, 76, 256⟩ ∧
    ∃ es, oraEncode libEnv (fun _ => false) false (.image (.leaf (blankAt ⟨0, 0, 300, 1000⟩))) = .ok ⟨none, some es⟩ :=
  ⟨(thumb_bounds libEnv_divides rfl (fun b hb => by cases hb; decide) (by decide) (by decide)).trans (by decide),
    (C80_exact libEnv_lib libEnv_divides libEnv_writes _ _ rfl (fun b hb => by cases hb; decide)
      (blankAt_writable _ (by decide)) (fun i hi => by
        rw [show leaves (OraInput.image (.leaf (blankAt ⟨0, 0, 300, 1000⟩))).top = [.leaf (blankAt ⟨0, 0, 300, 1000⟩)] from rfl] at hi
        cases List.mem_singleton.1 hi
        exact blankAt_writable _ (by decide))).2 (.inr (by unfold ShrunkShows; decide))⟩

end Limage
