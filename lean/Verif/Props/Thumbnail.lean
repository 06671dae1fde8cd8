import Verif.Proofs.Thumbnail
import Verif.Props.OraWrite
/-!
# Properties of OpenRaster files: thumbnails and errors (C67, C79, C80)
-/
namespace Limage
open Spec

/-! ## C67 -/

/-- the thumbnail of a large image: all coordinates are scaled down, towards zero -/
theorem thumb_bounds {env : OraEnv} (hd : Divides env) {m : OraInput} {b : Rect} (hb : m.bounds = some b) (hs : Small m) {side : Int} (h0 : 0 < side)
    (h1 : side < 2 ^ 45) : (Pic.thumb m side).bounds env =
      some ⟨Int.tdiv (256 * b.x0) side, Int.tdiv (256 * b.y0) side, Int.tdiv (256 * b.x1) side, Int.tdiv (256 * b.y1) side⟩ := by
  obtain ⟨⟨a1, a2⟩, ⟨b1, b2⟩, ⟨c1, c2⟩, d1, d2⟩ := hs b hb
  show m.bounds.map _ = _
  rw [hb, Option.map_some]
  have key : ∀ x : Int, -2 ^ 44 < x → x < 2 ^ 44 → truncRat (env.quotient x side) = Int.tdiv (256 * x) side := fun x l u =>
    trunc_quotient h0 (by omega) (by omega) (hd x side (by omega) (by omega) h0 (by omega))
  rw [key _ a1 a2, key _ b1 b2, key _ c1 c2, key _ d1 d2]

/-- C67, the part that is true: the thumbnail is at most 256 points wide and high, and an image that is not larger is its own thumbnail.
Missing: what the points of the thumbnails of larger images are. -/
theorem C67_size_partial {env : OraEnv} (hl : OraLib env) (hd : Divides env) (fails : Nat → Bool) (c : Bool) (m : OraInput) (hs : Small m) (es : List ZipEntry)
    (h : oraEncode env fails c m = .ok ⟨none, some es⟩) :
    ∃ b p d t, m.bounds = some b ∧ ZipEntry.of (lit "Thumbnails/thumbnail.png") d ∈ es ∧ env.png p = .ok d ∧ p.bounds env = some t ∧ t.dx ≤ 256 ∧ t.dy ≤ 256 ∧
      (b.dx ≤ 256 → b.dy ≤ 256 → t = b ∧ ∀ ρ q n, p.at env ρ q n = m.at ρ q n) := by
  obtain ⟨b, les, merged, thumb, hb, -, hm, ht, rfl⟩ := oraEntries_ok (encode_entries h)
  have hmem : ZipEntry.of (lit "Thumbnails/thumbnail.png") thumb ∈ (.of (lit "mimetype") oraMime :: les ++ [.of (lit "stack.xml")
      (env.xmlWrite (stackTokens env m b.dx b.dy)), .of (lit "mergedimage.png") merged, .of (lit "Thumbnails/thumbnail.png") thumb]) := by simp
  by_cases hbig : b.dx > 256 ∨ b.dy > 256
  · have hp : thumbPic m b.dx b.dy = .thumb m (if b.dx > b.dy then b.dx else b.dy) := if_pos hbig
    rw [hp] at ht
    obtain ⟨b', hb', hx, hy, -⟩ := hl.png _ _ hm
    have hbb : b' = b := by
      have : some b' = some b := hb'.symm.trans hb
      injection this
    subst hbb
    obtain ⟨⟨a1, a2⟩, ⟨b1, b2⟩, ⟨c1, c2⟩, d1, d2⟩ := hs _ hb
    simp only [Rect.dx, Rect.dy] at hx hy hbig
    have hside : 0 < (if b'.dx > b'.dy then b'.dx else b'.dy) ∧ (if b'.dx > b'.dy then b'.dx else b'.dy) < 2 ^ 45 ∧
        b'.x1 - b'.x0 ≤ (if b'.dx > b'.dy then b'.dx else b'.dy) ∧ b'.y1 - b'.y0 ≤ (if b'.dx > b'.dy then b'.dx else b'.dy) := by
      by_cases hc : b'.dx > b'.dy
      · simp only [if_pos hc]
        simp only [Rect.dx, Rect.dy] at hc ⊢
        omega
      · simp only [if_neg hc]
        simp only [Rect.dx, Rect.dy] at hc ⊢
        omega
    generalize (if b'.dx > b'.dy then b'.dx else b'.dy) = side at *
    obtain ⟨s1, s2, s3, s4⟩ := hside
    refine ⟨b', _, thumb, _, hb, hmem, ht, thumb_bounds hd hb hs s1 s2, ?_, ?_, fun h1 h2 => ?_⟩
    · exact tdiv_apart s1 (by omega) (by omega)
    · exact tdiv_apart s1 (by omega) (by omega)
    · simp only [Rect.dx, Rect.dy] at h1 h2; omega
  · have hp : thumbPic m b.dx b.dy = .full m := if_neg hbig
    rw [hp] at ht
    refine ⟨b, _, thumb, b, hb, hmem, ht, hb, by omega, by omega, fun _ _ => ⟨rfl, fun ρ q n => ?_⟩⟩
    rfl

/-- an image that is written with itself as thumbnail -/
example : ∃ es d, oraEncode libEnv (fun _ => false) false (.image (.group exampleTree)) = .ok ⟨none, some es⟩ ∧
    ZipEntry.of (lit "Thumbnails/thumbnail.png") d ∈ es := by
  obtain ⟨es, h⟩ := exampleTree_written
  obtain ⟨_, _, d, _, _, h1, -⟩ := C67_size_partial libEnv_lib libEnv_divides _ _ _ (fun b hb => by cases hb; decide) es h
  exact ⟨es, d, h, h1⟩

/-- C67, false: every column of a thumbnail of a large image has one colour, and the colours are those of points that are not where they should be. -/
theorem C67_refuted {env : OraEnv} (hd : Divides env) (m : OraInput) (side : Int) (h0 : 0 < side) (h1 : side < 2 ^ 45) (ρ : Nat → UInt16) (x y : Int)
    (hx0 : -2 ^ 45 < x) (hx : x < 2 ^ 45) (n : Nat) :
    (Pic.thumb m side).at env ρ ⟨x, y⟩ n = m.at ρ ⟨Int.tdiv (256 * x) side, Int.tdiv (256 * x) side⟩ n := by
  show m.at ρ (thumbPoint env side ⟨x, y⟩) n = _
  unfold thumbPoint
  rw [trunc_quotient h0 hx0 hx (hd x side (by omega) (by omega) h0 (by omega))]

/-- an image of 512 by 512 points that is dark above and bright below -/
def halves : Leaf := ⟨⟨0, 0, 512, 512⟩, .gray, fun p => some (.gray (if p.y < 256 then 0 else 255))⟩

/-- the thumbnail of the image is dark, where it should be bright -/
example : thumbPic (.image (.leaf halves)) 512 512 = .thumb (.image (.leaf halves)) 512 ∧
    (Pic.thumb (.image (.leaf halves)) 512).at libEnv (fun _ => 0) ⟨10, 200⟩ 0 = some (.gray 0, 0) ∧
    OraInput.at (fun _ => 0) (.image (.leaf halves)) ⟨10 * 2, 200 * 2⟩ 0 = some (.gray 255, 0) :=
  ⟨rfl, (C67_refuted libEnv_divides _ 512 (by decide) (by decide) _ 10 200 (by decide) (by decide) 0).trans rfl, rfl⟩

/-! ## C79 -/

/-- C79, false: if the archive cannot be finished, no error is reported, and there is no file. -/
theorem C79_refuted (env : OraEnv) (fails : Nat → Bool) (m : OraInput) (es : List ZipEntry) (h : oraEncode env fails false m = .ok ⟨none, some es⟩) :
    oraEncode env fails true m = .ok ⟨none, none⟩ := by
  unfold oraEncode
  rw [encode_entries h]
  rfl

/-- nothing is reported -/
example : oraEncode libEnv (fun _ => false) true (.image (.group exampleTree)) = .ok ⟨none, none⟩ := by
  obtain ⟨es, h⟩ := exampleTree_written
  exact C79_refuted _ _ _ es h

theorem writeOne_fails {env : OraEnv} {fails : Nat → Bool} {i : Img} {n : Nat} {r : List ZipEntry × Nat} (h : writeOne env fails i n = .ok r) :
    ∀ k, n < k → k ≤ n + 1 → fails k = false := by
  intro k h1 h2
  obtain rfl : k = n + 1 := by omega
  unfold writeOne writePng at h
  obtain ⟨e, h3, -⟩ := OraRes.bind_ok h
  split at h3
  · cases h3
  · next hf => simpa using hf

mutual
theorem oraLayers_fails (env : OraEnv) (fails : Nat → Bool) (i : Img) (n : Nat) (r : List ZipEntry × Nat) (h : oraLayers env fails i n = .ok r) :
    ∀ k, n < k → k ≤ n + (leaves i).length → fails k = false := by
  match i with
  | .group g => rw [leaves]; rw [oraLayers] at h; exact writeGroup_fails env fails g n r h
  | .leaf _ | .nil | .text _ _ | .masked _ _ => exact writeOne_fails h
termination_by structural i
theorem writeGroup_fails (env : OraEnv) (fails : Nat → Bool) (g : List Layer) (n : Nat) (r : List ZipEntry × Nat) (h : writeGroup env fails g n = .ok r) :
    ∀ k, n < k → k ≤ n + (leavesAll g).length → fails k = false := by
  match g with
  | [] => intro k h1 h2; have : k ≤ n := h2; omega
  | ⟨_, _, _, _, _, im⟩ :: rest =>
    rw [writeGroup] at h
    obtain ⟨⟨es1, k1⟩, h1, h⟩ := OraRes.bind_ok h
    obtain ⟨r2, h2, -⟩ := OraRes.bind_ok h
    have hk := (oraLayers_holds env fails im n k1 es1 h1).1
    intro k hk1 hk2
    rw [leavesAll, List.length_append] at hk2
    by_cases hc : k ≤ n + (leaves im).length
    · exact oraLayers_fails env fails im n _ h1 k hk1 hc
    · exact writeGroup_fails env fails rest k1 _ h2 k (by omega) (by omega)
termination_by structural g
end

/-- C79, the part that is true: if an entry cannot be written, an error is returned.  The entries are the mimetype, the layers, the stack, the merged image
and the thumbnail.  Missing: the directory. -/
theorem C79_partial (env : OraEnv) (fails : Nat → Bool) (c : Bool) (m : OraInput) (k : Nat) (hk : k ≤ (leaves m.top).length + 3) (hf : fails k = true)
    (r : OraResult) (h : oraEncode env fails c m = .ok r) : r.err ≠ none ∧ r.file = none := by
  unfold oraEncode at h
  split at h
  · next es he =>
    exfalso
    unfold oraEntries at he
    split at he
    · cases he
    · split at he
      · cases he
      · next h0 =>
        obtain ⟨⟨les, n⟩, h1, he⟩ := OraRes.bind_ok he
        split at he
        · cases he
        · next h2 =>
          obtain ⟨e1, h3, he⟩ := OraRes.bind_ok he
          obtain ⟨e2, h4, he⟩ := OraRes.bind_ok he
          have hn := (oraLayers_holds env fails m.top 0 n les h1).1
          have hall := oraLayers_fails env fails m.top 0 _ h1
          unfold writePng at h3 h4
          split at h3
          · cases h3
          · next h5 =>
            split at h4
            · cases h4
            · next h6 =>
              dsimp only at h2 h5 h6
              by_cases a : k = 0
              · subst a; exact h0 hf
              · by_cases b : k ≤ (leaves m.top).length
                · have := hall k (by omega) (by omega)
                  rw [hf] at this
                  cases this
                · have : k = n + 1 ∨ k = n + 2 ∨ k = n + 3 := by omega
                  rcases this with rfl | rfl | rfl
                  · exact h2 hf
                  · exact h5 hf
                  · exact h6 hf
  · cases h; exact ⟨nofun, rfl⟩
  · cases h
  · cases h

/-- the merged image cannot be written -/
example (r : OraResult) (h : oraEncode libEnv (fun k => k = 4) false (.image (.group exampleTree)) = .ok r) : r.err ≠ none :=
  (C79_partial libEnv _ _ _ 4 (by decide) (by decide) r h).1

/-! ## C80 -/

/-- C80, false: no image that is more than 256 times as wide as it is high can be written, as its thumbnail is empty. -/
theorem C80_refuted {env : OraEnv} (hl : OraLib env) (hd : Divides env) (fails : Nat → Bool) (c : Bool) (m : OraInput) (w h : Int)
    (hb : m.bounds = some ⟨0, 0, w, h⟩) (hw : 256 < w) (hw' : w < 2 ^ 44) (hh : 0 ≤ h) (hwh : 256 * h < w) :
    ∀ file, oraEncode env fails c m ≠ .ok ⟨none, file⟩ := by
  intro file he
  have : ∃ es, oraEntries env fails m = .ok es := by
    unfold oraEncode at he
    split at he
    · next es h1 => exact ⟨es, h1⟩
    all_goals cases he
  obtain ⟨es, hes⟩ := this
  obtain ⟨b, -, -, thumb, hb', -, -, ht, -⟩ := oraEntries_ok hes
  rw [hb] at hb'
  cases hb'
  have hp : thumbPic m (Rect.mk 0 0 w h).dx (Rect.mk 0 0 w h).dy = .thumb m w := by
    simp only [Rect.dx, Rect.dy, Int.sub_zero]
    unfold thumbPic
    rw [if_pos (.inl hw), if_pos (by omega)]
  rw [hp] at ht
  obtain ⟨t, ht1, -, ht2, -⟩ := hl.png _ _ ht
  rw [thumb_bounds hd hb (fun b hb' => by
    rw [hb] at hb'
    cases hb'
    refine ⟨?_, ?_, ?_, ?_⟩ <;> dsimp only <;> omega) (by omega) (by omega)] at ht1
  cases ht1
  simp only [Rect.dy, Int.mul_zero, Int.zero_tdiv, Int.sub_zero] at ht2
  rw [Int.tdiv_eq_ediv_of_nonneg (by omega), Int.ediv_eq_zero_of_lt (by omega) hwh] at ht2
  exact absurd ht2 (by decide)

/-- a line of 257 points -/
example : ∀ file, oraEncode libEnv (fun _ => false) false (.image (.leaf (blank 257 1))) ≠ .ok ⟨none, file⟩ :=
  C80_refuted libEnv_lib libEnv_divides _ _ _ 257 1 rfl (by decide) (by decide) (by decide) (by decide)

theorem writeOne_writes {env : OraEnv} (i : Img) (n : Nat) (h : ∃ d, env.png (.full (.image i)) = .ok d) : ∃ r, writeOne env (fun _ => false) i n = .ok r := by
  obtain ⟨d, hd⟩ := h
  unfold writeOne writePng
  rw [if_neg (show ¬(false = true) by decide), hd]
  exact ⟨_, rfl⟩

mutual
theorem oraLayers_writes (env : OraEnv) (i : Img) (n : Nat) (h : ∀ x ∈ leaves i, ∃ d, env.png (.full (.image x)) = .ok d) :
    ∃ r, oraLayers env (fun _ => false) i n = .ok r := by
  match i with
  | .group g => rw [oraLayers]; rw [leaves] at h; exact writeGroup_writes env g n h
  | .leaf l => exact writeOne_writes _ n (h _ (List.mem_singleton_self _))
  | .nil => exact writeOne_writes _ n (h _ (List.mem_singleton_self _))
  | .text i t => exact writeOne_writes _ n (h _ (List.mem_singleton_self _))
  | .masked i m => exact writeOne_writes _ n (h _ (List.mem_singleton_self _))
termination_by structural i
theorem writeGroup_writes (env : OraEnv) (g : List Layer) (n : Nat) (h : ∀ x ∈ leavesAll g, ∃ d, env.png (.full (.image x)) = .ok d) :
    ∃ r, writeGroup env (fun _ => false) g n = .ok r := by
  match g with
  | [] => exact ⟨_, rfl⟩
  | ⟨_, _, _, _, _, im⟩ :: rest =>
    rw [leavesAll] at h
    obtain ⟨r, h1⟩ := oraLayers_writes env im n (fun x hx => h x (List.mem_append_left _ hx))
    obtain ⟨r', h2⟩ := writeGroup_writes env rest r.2 (fun x hx => h x (List.mem_append_right _ hx))
    rw [writeGroup, h1, OraRes.ok_bind, h2, OraRes.ok_bind]
    exact ⟨_, rfl⟩
termination_by structural g
end

/-- an image that can be written: it is not empty, smaller than 2^32, and all points can be looked at -/
def Writable (m : OraInput) : Prop :=
  ∃ b, m.bounds = some b ∧ 0 < b.dx ∧ 0 < b.dy ∧ b.dx < 2 ^ 32 ∧ b.dy < 2 ^ 32 ∧ ∀ ρ q n, m.at ρ q n ≠ none

/-- C80, the part that is true: an image at the origin is written if it and its layers are not empty, and it is neither more than 256 times as wide as it is high,
nor the other way round.  Missing: images at other places. -/
theorem C80_partial {env : OraEnv} (hd : Divides env) (hw : PngWrites env) (m : OraInput) (w h : Int) (hb : m.bounds = some ⟨0, 0, w, h⟩)
    (hm : Writable m) (hls : ∀ i ∈ leaves m.top, Writable (.image i)) (h1 : w ≤ 256 ∧ h ≤ 256 ∨ w ≤ 256 * h ∧ h ≤ 256 * w) :
    ∃ es, oraEncode env (fun _ => false) false m = .ok ⟨none, some es⟩ := by
  have hp : ∀ m, Writable m → ∃ d, env.png (.full m) = .ok d := by
    intro m ⟨b, hb, w1, w2, w3, w4, w5⟩
    exact hw (.full m) b hb w1 w2 w3 w4 (fun ρ q n _ => w5 ρ q n)
  obtain ⟨r, hr⟩ := oraLayers_writes env m.top 0 (fun x hx => hp _ (hls x hx))
  obtain ⟨d, hd1⟩ := hp m hm
  have ht : ∃ d, env.png (thumbPic m w h) = .ok d := by
    unfold thumbPic
    obtain ⟨b, hb', w1, w2, w3, w4, w5⟩ := hm
    rw [hb] at hb'
    cases hb'
    simp only [Rect.dx, Rect.dy, Int.sub_zero] at w1 w2 w3 w4
    split
    · next hbig =>
      have hs : 0 < (if w > h then w else h) ∧ (if w > h then w else h) < 2 ^ 32 ∧ (if w > h then w else h) ≤ 256 * w ∧ (if w > h then w else h) ≤ 256 * h ∧
          w ≤ (if w > h then w else h) ∧ h ≤ (if w > h then w else h) := by
        by_cases hc : w > h
        · simp only [if_pos hc]; omega
        · simp only [if_neg hc]; omega
      generalize (if w > h then w else h) = side at *
      obtain ⟨s1, s2, s3, s4, s5, s6⟩ := hs
      have q1 := tdiv_apart (a := 0) (b := 256 * w) (n := 256) s1 (by omega) (by omega)
      have q2 := tdiv_apart (a := 0) (b := 256 * h) (n := 256) s1 (by omega) (by omega)
      have p1 : 0 < Int.tdiv (256 * w) side := by
        rw [Int.tdiv_eq_ediv_of_nonneg (by omega)]
        exact Int.lt_of_lt_of_le Int.zero_lt_one ((Int.le_ediv_iff_mul_le s1).2 (by omega))
      have p2 : 0 < Int.tdiv (256 * h) side := by
        rw [Int.tdiv_eq_ediv_of_nonneg (by omega)]
        exact Int.lt_of_lt_of_le Int.zero_lt_one ((Int.le_ediv_iff_mul_le s1).2 (by omega))
      rw [Int.zero_tdiv] at q1 q2
      refine hw _ _ (thumb_bounds hd hb (fun b hb' => by
        rw [hb] at hb'
        cases hb'
        refine ⟨?_, ?_, ?_, ?_⟩ <;> dsimp only <;> omega) s1 (by omega)) ?_ ?_ ?_ ?_ (fun ρ q n _ => w5 ρ _ n)
      all_goals simp only [Rect.dx, Rect.dy, Int.mul_zero, Int.zero_tdiv, Int.sub_zero]; omega
    · exact ⟨d, hd1⟩
  obtain ⟨t, ht⟩ := ht
  have : ∃ es, oraEntries env (fun _ => false) m = .ok es := by
    unfold oraEntries
    rw [hb]
    simp only [Bool.false_eq_true, if_false]
    rw [hr, OraRes.ok_bind]
    unfold writePng
    simp only [Bool.false_eq_true, if_false]
    have e1 : (Rect.mk 0 0 w h).dx = w := Int.sub_zero w
    have e2 : (Rect.mk 0 0 w h).dy = h := Int.sub_zero h
    rw [hd1, OraRes.ok_bind, OraRes.ok_bind, e1, e2, ht, OraRes.ok_bind, OraRes.ok_bind]
    exact ⟨_, rfl⟩
  obtain ⟨es, hes⟩ := this
  refine ⟨es, ?_⟩
  unfold oraEncode
  rw [hes]
  rfl

/-- a line of 1000 by 4 points -/
example : ∃ es, oraEncode libEnv (fun _ => false) false (.image (.leaf (blank 1000 4))) = .ok ⟨none, some es⟩ := by
  have hw : Writable (.image (.leaf (blank 1000 4))) := ⟨_, rfl, by decide, by decide, by decide, by decide, fun _ _ _ h => by cases h⟩
  refine C80_partial libEnv_divides libEnv_writes _ 1000 4 rfl hw (fun i hi => ?_) (by decide)
  have hi : i ∈ [Img.leaf (blank 1000 4)] := hi
  rw [List.mem_singleton.1 hi]
  exact hw

end Limage
