import Verif.Props.Accepted
import Mathlib.Data.List.Nodup
/-! # How many layers and pixels a file of a given size can hold (C111) -/
namespace Limage

/-! ## Specification -/

namespace Spec

/-- number of points of a rectangle -/
def area (r : Rect) : Nat := (r.x1 - r.x0).toNat * (r.y1 - r.y0).toNat

/-- `m` is a mask in an image, with texts and other masks taken off -/
inductive CarriesMask (m : GrayImg) : Img → Prop
  | mask {i : Img} : CarriesMask m (.masked i (some m))
  | text {i : Img} {t : TextData} : CarriesMask m i → CarriesMask m (.text i t)
  | masked {i : Img} {m' : Option GrayImg} : CarriesMask m i → CarriesMask m (.masked i m')

mutual
/-- number of layers in an image, those of groups in it included -/
def layersIn : Img → Nat
  | .nil => 0
  | .leaf _ => 0
  | .group g => layersInAll g
  | .text i _ => layersIn i
  | .masked i _ => layersIn i

/-- number of layers in a list and in the groups of it -/
def layersInAll : List Layer → Nat
  | [] => 0
  | ⟨_, _, _, _, _, im⟩ :: g => 1 + layersIn im + layersInAll g
end

end Spec

/-! ## Tiles -/

theorem readPtrs_inside (mode : UInt32) : ∀ (n : Nat) {r r' : R} {ps : List UInt64}, readPtrs mode n r = .ok (ps, r') →
    r'.err = none → 0 < n → r.pos + 4 * n ≤ r'.pos ∧ r'.pos ≤ r'.data.length := by
  intro n
  induction n with
  | zero => intro _ _ _ _ _ h; omega
  | succ n ih =>
    intro r r' ps e he _
    unfold readPtrs at e
    obtain ⟨p, r1, h1, e⟩ := M.bind_inv e
    obtain ⟨qs, r2, h2, e⟩ := M.bind_inv e
    cases e
    have h1' := readPtr_inside _ _ _ _ h1 ((readPtrs_keeps _ _ _ _ _ h2).none he)
    have hd := (readPtrs_keeps _ _ _ _ _ h2).1
    rcases Nat.eq_zero_or_pos n with rfl | hn
    · cases h2
      exact ⟨by omega, h1'.2⟩
    · have := ih h2 he hn
      omega

theorem tileCount_covers (w h : Nat) : w * h ≤ 4096 * (tileCount w * tileCount h) := by
  have h1 : w ≤ 64 * tileCount w := by unfold tileCount; omega
  have h2 : h ≤ 64 * tileCount h := by unfold tileCount; omega
  calc w * h ≤ (64 * tileCount w) * (64 * tileCount h) := Nat.mul_le_mul h1 h2
    _ = 4096 * (tileCount w * tileCount h) := by
      rw [Nat.mul_mul_mul_comm]

theorem readTiles_fits {c : Ctx} {w h : Nat} {r r' : R} {ts : List UInt64} (e : readTiles c w h r = .ok (ts, r'))
    (he : r'.err = none) : w * h ≤ 1024 * r'.data.length := by
  unfold readTiles at e
  obtain ⟨_, r1, _, e⟩ := M.bind_inv e
  have hc := tileCount_covers w h
  rcases Nat.eq_zero_or_pos (tileCount w * tileCount h) with h0 | hn
  · rw [h0] at hc; omega
  · have := readPtrs_inside _ _ e he hn
    omega

theorem readLevel_fits {c : Ctx} {w h k : UInt32} {r r' : R} {x : UInt32 × List UInt64}
    (e : readLevel c w h k r = .ok (some x, r')) (he : r'.err = none) : w.toNat * h.toNat ≤ 1024 * r'.data.length := by
  unfold readLevel at e
  obtain ⟨_, r1, _, e⟩ := M.bind_inv e
  obtain ⟨_, r2, _, e⟩ := M.bind_inv e
  split at e
  · obtain ⟨_, _, _, e⟩ := M.bind_inv e; cases e
  obtain ⟨bpp, r3, _, e⟩ := M.bind_inv e
  split at e
  · obtain ⟨_, _, _, e⟩ := M.bind_inv e; cases e
  obtain ⟨_, r4, _, e⟩ := M.bind_inv e
  obtain ⟨_, r5, _, e⟩ := M.bind_inv e
  obtain ⟨_, r6, _, e⟩ := M.bind_inv e
  obtain ⟨_, r7, _, e⟩ := M.bind_inv e
  split at e
  · obtain ⟨_, _, _, e⟩ := M.bind_inv e; cases e
  obtain ⟨ts, r8, h8, e⟩ := M.bind_inv e
  obtain ⟨z, r9, h9, e⟩ := M.bind_inv e
  split at e
  · obtain ⟨_, _, _, e⟩ := M.bind_inv e; cases e
  cases e
  have hk := readUint32_keeps _ _ _ h9
  rw [hk.1]
  exact readTiles_fits h8 (hk.none he)

theorem readImage_fits {c : Ctx} {w h k : UInt32} {r r' : R} {d : DecImg}
    (e : readImage c w h k r = .ok (some d, r')) (he : r'.err = none) : w.toNat * h.toNat ≤ 1024 * r'.data.length := by
  unfold readImage at e
  obtain ⟨x, r1, h1, e⟩ := M.bind_inv e
  cases x with
  | none => cases e
  | some x =>
    dsimp only at e
    have hk : Keep r1 r' := by
      split at e
      · obtain ⟨im, r2, h2, e⟩ := M.bind_inv e
        cases im with
        | none => cases e
        | some im => cases e; exact readEager_keeps _ _ _ _ _ _ _ _ _ h2
      · obtain ⟨im, r2, h2, e⟩ := M.bind_inv e
        cases im with
        | none => cases e
        | some im => cases e; exact readLazy_keeps _ _ _ _ _ _ _ _ _ h2
    rw [hk.1]
    exact readLevel_fits h1 (hk.none he)

/-! ## Layers -/

/-- every image and every mask in `i` has at most `n` pixels -/
inductive Fits (n : Nat) : Img → Prop
  | nil : Fits n .nil
  | leaf (x : Leaf) : Spec.area x.bounds ≤ n → Fits n (.leaf x)
  | text {i : Img} (t : TextData) : Fits n i → Fits n (.text i t)
  | masked {i : Img} (m : GrayImg) : Spec.area m.rect ≤ n → Fits n i → Fits n (.masked i (some m))

theorem fits_pixels {n : Nat} {i : Img} (h : Fits n i) {x : Leaf} (hx : Spec.PixelsOf x i) : Spec.area x.bounds ≤ n := by
  induction h with
  | nil => cases hx
  | leaf y h => cases hx; exact h
  | text t _ ih => cases hx with | text hx => exact ih hx
  | masked m _ _ ih => cases hx with | masked hx => exact ih hx

theorem fits_mask {n : Nat} {i : Img} (h : Fits n i) {m : GrayImg} (hx : Spec.CarriesMask m i) : Spec.area m.rect ≤ n := by
  induction h with
  | nil => cases hx
  | leaf y h => cases hx
  | text t _ ih => cases hx with | text hx => exact ih hx
  | masked m' h _ ih =>
    cases hx with
    | mask => exact h
    | masked hx => exact ih hx

theorem fits_count {n : Nat} {i : Img} (h : Fits n i) : Spec.layersIn i = 0 := by
  induction h with
  | nil => rfl
  | leaf y h => rfl
  | text t _ ih => rw [Spec.layersIn]; exact ih
  | masked m' h _ ih => rw [Spec.layersIn]; exact ih

theorem area_size (w h : Nat) : Spec.area (sizeRect w h) = w * h := by
  unfold Spec.area sizeRect
  simp

theorem layerImage_fits {c : Ctx} {g : Bool} {w h k : UInt32} {r r' : R} {i : Img}
    (e : layerImage c g w h k r = .ok (some i, r')) (he : r'.err = none) : Fits (1024 * r'.data.length) i := by
  unfold layerImage at e
  cases g with
  | true => cases e; exact .nil
  | false =>
    rw [if_neg (by decide)] at e
    obtain ⟨x, r1, h1, e⟩ := M.bind_inv e
    cases x with
    | none => cases e
    | some d =>
      cases e
      refine .leaf _ ?_
      rw [(readImage_frame h1).2.1, area_size]
      exact readImage_fits h1 he

theorem layerText_fits {c : Ctx} {ps : List Parasite} {im : Img} {r r' : R} {i : Img} {n : Nat} (hi : Fits n im)
    (e : layerText c ps im r = .ok (some i, r')) : Fits n i := by
  unfold layerText at e
  cases hp : getParasite ps textParasiteName with
  | none => rw [hp] at e; cases e; exact hi
  | some t =>
    rw [hp] at e
    dsimp only at e
    cases ht : c.env.parseText t.data with
    | panic => rw [ht] at e; cases e
    | hang => rw [ht] at e; cases e
    | ok d =>
      rw [ht] at e
      cases d with
      | none =>
        obtain ⟨_, r1, _, e⟩ := M.bind_inv e
        cases e
      | some d => cases e; exact .text _ hi

theorem layerText_still {c : Ctx} {ps : List Parasite} {im : Img} {r r' : R} {x : Option Img} (he : r'.err = none)
    (e : layerText c ps im r = .ok (x, r')) : r' = r ∧ x ≠ none := by
  unfold layerText at e
  cases hp : getParasite ps textParasiteName with
  | none => rw [hp] at e; cases e; exact ⟨rfl, nofun⟩
  | some t =>
    rw [hp] at e
    dsimp only at e
    cases ht : c.env.parseText t.data with
    | panic => rw [ht] at e; cases e
    | hang => rw [ht] at e; cases e
    | ok d =>
      rw [ht] at e
      cases d with
      | none =>
        obtain ⟨_, r1, h1, e⟩ := M.bind_inv e
        cases e
        exact absurd he (setError_isSome h1)
      | some d => cases e; exact ⟨rfl, nofun⟩

theorem readChannel_fits {c : Ctx} {r r' : R} {m : GrayImg} (e : readChannel c r = .ok (some m, r')) (he : r'.err = none) :
    Spec.area m.rect ≤ 1024 * r'.data.length := by
  unfold readChannel at e
  obtain ⟨w, r1, _, e⟩ := M.bind_inv e
  obtain ⟨h, r2, _, e⟩ := M.bind_inv e
  obtain ⟨_, r3, _, e⟩ := M.bind_inv e
  obtain ⟨_, r4, _, e⟩ := M.bind_inv e
  obtain ⟨p, r5, _, e⟩ := M.bind_inv e
  obtain ⟨_, r6, _, e⟩ := M.bind_inv e
  obtain ⟨x, r7, h7, e⟩ := M.bind_inv e
  cases x with
  | none => cases e
  | some d =>
    cases d with
    | eager im =>
      cases e
      have h1 := (readImage_frame h7).2.1
      have h2 := readImage_fits h7 he
      show Spec.area (sizeRect im.width im.height) ≤ _
      have h3 : sizeRect im.width im.height = sizeRect w.toNat h.toNat := h1
      rw [h3, area_size]
      exact h2
    | lazy im => cases e

theorem readChannel_keep {c : Ctx} {r r' : R} {x : Option GrayImg} (e : readChannel c r = .ok (x, r')) : Keep r r' := by
  unfold readChannel at e
  obtain ⟨w, r1, h1, e⟩ := M.bind_inv e
  obtain ⟨h, r2, h2, e⟩ := M.bind_inv e
  obtain ⟨_, r3, h3, e⟩ := M.bind_inv e
  obtain ⟨_, r4, h4, e⟩ := M.bind_inv e
  obtain ⟨p, r5, h5, e⟩ := M.bind_inv e
  obtain ⟨_, r6, h6, e⟩ := M.bind_inv e
  obtain ⟨x, r7, h7, e⟩ := M.bind_inv e
  have hk : Keep r r7 := (readUint32_keeps _ _ _ h1).trans <| (readUint32_keeps _ _ _ h2).trans <|
    (skipString_total.keeps _ _ _ h3).trans <| (skipPropertiesAll_total.keeps _ _ _ h4).trans <|
    (readPtr_keeps _ _ _ _ h5).trans <| (goto_keeps _ _ _ _ h6).trans (readImage_keeps _ _ _ _ _ _ _ h7)
  cases x with
  | none => cases e; exact hk
  | some d =>
    cases d with
    | eager im => cases e; exact hk
    | lazy im => cases e

theorem readMask_fits {c : Ctx} {b : Rect} {im im' : Img} {r r' : R} {n : Nat} (hn : n = 1024 * r'.data.length)
    (hi : Fits n im) (e : readMask c b im r = .ok (im', r')) (he : r'.err = none) : Fits n im' := by
  subst hn
  unfold readMask at e
  obtain ⟨x, r1, h1, e⟩ := M.bind_inv e
  cases x with
  | none => cases e; exact hi
  | some m =>
    dsimp only at e
    split at e
    · cases e
      exact .masked m (readChannel_fits h1 he) hi
    · obtain ⟨_, r2, _, e⟩ := M.bind_inv e
      cases e; exact hi

theorem readMask_keep {c : Ctx} {b : Rect} {im im' : Img} {r r' : R} (e : readMask c b im r = .ok (im', r')) : Keep r r' := by
  unfold readMask at e
  obtain ⟨x, r1, h1, e⟩ := M.bind_inv e
  have hk := readChannel_keep h1
  cases x with
  | none => cases e; exact hk
  | some m =>
    dsimp only at e
    split at e
    · cases e; exact hk
    · obtain ⟨_, r2, h2, e⟩ := M.bind_inv e
      cases e; exact hk.trans (setError_keeps _ _ _ _ h2)

theorem readLayer_fits {c : Ctx} {r r' : R} {l : DLayer} (e : readLayer c r = .ok (l, r')) (he : r'.err = none) :
    Fits (1024 * r'.data.length) l.layer.image := by
  unfold readLayer at e
  obtain ⟨w, r1, _, e⟩ := M.bind_inv e
  obtain ⟨h, r2, _, e⟩ := M.bind_inv e
  obtain ⟨t, r3, _, e⟩ := M.bind_inv e
  by_cases ht : t >>> 1 ≠ c.baseType
  · rw [if_pos ht] at e
    obtain ⟨_, r4, h4, e⟩ := M.bind_inv e
    cases e
    exact absurd he (setError_isSome h4)
  rw [if_neg ht] at e
  obtain ⟨name, r4, _, e⟩ := M.bind_inv e
  obtain ⟨s, r5, h5, e⟩ := M.bind_inv e
  obtain ⟨hp, r6, _, e⟩ := M.bind_inv e
  obtain ⟨mp, r7, _, e⟩ := M.bind_inv e
  obtain ⟨_, r8, _, e⟩ := M.bind_inv e
  dsimp only at e
  obtain ⟨im, r9, h9, e⟩ := M.bind_inv e
  cases im with
  | none => cases e; exact .nil
  | some im =>
    dsimp only at e
    obtain ⟨im2, r10, h10, e⟩ := M.bind_inv e
    cases im2 with
    | none =>
      cases e
      exact absurd rfl (layerText_still he h10).2
    | some im2 =>
      dsimp only at e
      by_cases hm : mp ≠ 0
      · rw [if_pos hm] at e
        obtain ⟨_, r11, h11, e⟩ := M.bind_inv e
        obtain ⟨im3, r12, h12, e⟩ := M.bind_inv e
        cases e
        have k := (goto_keeps _ _ _ _ h11).trans (readMask_keep h12)
        have h10e := k.none he
        obtain rfl := (layerText_still h10e h10).1
        refine readMask_fits rfl ?_ h12 he
        rw [k.1]
        exact layerText_fits (layerImage_fits h9 h10e) h10
      · rw [if_neg hm] at e; cases e
        obtain rfl := (layerText_still he h10).1
        exact layerText_fits (layerImage_fits h9 he) h10

/-! ## The tree -/

/-- the layers of a tree hold groups or images that fit -/
def FitsIn (n : Nat) (g : List Layer) : Prop :=
  ∀ s, Spec.GroupIn s g → ∀ l ∈ s, (∃ t, l.image = .group t) ∨ Fits n l.image

theorem groupTree_fits {n : Nat} {s : GState} (hs : ∀ i, ∀ l ∈ s.items i, ∃ im, l.image = .val im ∧ Fits n im) (P : List Nat) :
    ∀ f i, FitsIn n (groupTree s P f i) := by
  intro f
  induction f with
  | zero =>
    intro i g hg l hl
    cases hg with
    | self => cases hl
    | deeper hx _ _ => cases hx
  | succ f ih =>
    intro i g hg
    have hmem : ∀ l ∈ groupTree s P (f + 1) i, (∃ c, l.image = .group (groupTree s P f c)) ∨ Fits n l.image := by
      intro l hl
      unfold groupTree at hl
      obtain ⟨k, hk, rfl⟩ := List.mem_mapIdx.1 hl
      obtain ⟨im, h1, h2⟩ := hs i _ (List.getElem_mem hk)
      dsimp only
      cases hc : childAt s P i k with
      | some c => exact Or.inl ⟨c, rfl⟩
      | none => right; rw [h1]; exact h2
    cases hg with
    | self =>
      intro l hl
      rcases hmem l hl with ⟨c, h⟩ | h
      · exact Or.inl ⟨_, h⟩
      · exact Or.inr h
    | deeper hx hi hg =>
      rcases hmem _ hx with ⟨c, h⟩ | h
      · rw [hi] at h; cases h
        exact ih c g hg
      · rw [hi] at h; cases h

theorem fitsIn_fixBottom {n : Nat} {g : List Layer} (h : FitsIn n g) : FitsIn n (fixBottom g) := by
  intro s hs
  rcases groupIn_fixBottom hs with rfl | hs
  · exact fixBottom_images (P := fun i => (∃ t, i = .group t) ∨ Fits n i) (h g .self)
  · exact h s hs

/-! ## Counting the layers of a tree -/

theorem count_cons (l : Layer) (g : List Layer) : Spec.layersInAll (l :: g) = 1 + Spec.layersIn l.image + Spec.layersInAll g := by
  cases l; rw [Spec.layersInAll]

theorem count_append (g h : List Layer) : Spec.layersInAll (g ++ h) = Spec.layersInAll g + Spec.layersInAll h := by
  induction g with
  | nil => rw [List.nil_append, Spec.layersInAll]; omega
  | cons l g ih => rw [List.cons_append, count_cons, count_cons, ih]; omega

theorem count_fixBottom (g : List Layer) : Spec.layersInAll (fixBottom g) = Spec.layersInAll g := by
  unfold fixBottom
  cases hl : g.getLast? with
  | none => rfl
  | some l =>
    dsimp only
    split
    · rfl
    · have : g = g.dropLast ++ [l] := by
        rw [List.dropLast_append_getLast? l (by rw [hl]; rfl)]
      conv => rhs; rw [this]
      rw [count_append, count_append, count_cons, count_cons]

theorem count_mapIdx {α : Type} : ∀ (xs : List α) (f : Nat → α → Layer) (w : Nat → Nat),
    (∀ k (h : k < xs.length), Spec.layersIn (f k xs[k]).image ≤ w k) →
    Spec.layersInAll (xs.mapIdx f) ≤ xs.length + ((List.range xs.length).map w).sum := by
  intro xs
  induction xs with
  | nil => intro f w _; exact Nat.le_refl _
  | cons x xs ih =>
    intro f w h
    rw [List.mapIdx_cons, count_cons, List.length_cons, List.range_succ_eq_map, List.map_cons, List.sum_cons, List.map_map]
    have h0 : Spec.layersIn (f 0 x).image ≤ w 0 := h 0 (Nat.succ_pos _)
    have h1 := ih (fun i => f (i + 1)) (w ∘ Nat.succ) fun k hk => h (k + 1) (Nat.succ_lt_succ hk)
    omega

/-- the groups in the tree of group `i` -/
def below (s : GState) (P : List Nat) : Nat → Nat → List Nat
  | 0, _ => []
  | f + 1, i => i :: (List.range (s.items i).length).flatMap fun k =>
    match childAt s P i k with
    | some c => below s P f c
    | none => []

theorem sum_flatMap (w : Nat → Nat) (f : Nat → List Nat) : ∀ (xs : List Nat),
    ((xs.flatMap f).map w).sum = (xs.map fun k => ((f k).map w).sum).sum := by
  intro xs
  induction xs with
  | nil => rfl
  | cons x xs ih =>
    rw [List.flatMap_cons, List.map_append, List.sum_append, ih, List.map_cons, List.sum_cons]

theorem count_tree {n : Nat} {s : GState} (hs : ∀ i, ∀ l ∈ s.items i, ∃ im, l.image = .val im ∧ Fits n im) (P : List Nat) :
    ∀ f i, Spec.layersInAll (groupTree s P f i) ≤ ((below s P f i).map fun j => (s.items j).length).sum := by
  intro f
  induction f with
  | zero => intro i; exact Nat.le_refl _
  | succ f ih =>
    intro i
    unfold groupTree below
    rw [List.map_cons, List.sum_cons, sum_flatMap]
    refine count_mapIdx _ _ _ fun k hk => ?_
    dsimp only
    cases hc : childAt s P i k with
    | some c => exact ih c
    | none =>
      obtain ⟨im, h1, h2⟩ := hs i _ (List.getElem_mem hk)
      rw [h1]
      dsimp only
      rw [fits_count h2]
      exact Nat.zero_le _

/-- `c` is `j` or a group around it -/
inductive Around (s : GState) (c : Nat) : Nat → Prop
  | self : Around s c c
  | step {j p k : Nat} : s.parentOf j = some (p, k) → Around s c p → Around s c j

theorem parent_lt {s : GState} (hi : GInv s) {j p k : Nat} (h : s.parentOf j = some (p, k)) : p < j := by
  unfold GState.parentOf at h
  cases ho : s.objs[j]? with
  | none => rw [ho] at h; cases h
  | some g =>
    rw [ho] at h
    rcases Nat.eq_zero_or_pos j with rfl | hj
    · obtain ⟨g', h1, h2⟩ := hi.root
      rw [ho] at h1; cases h1
      change g.parent = _ at h
      rw [h2] at h; cases h
    · obtain ⟨p', k', h1, h2, _⟩ := hi.parent j g ho hj
      change g.parent = _ at h
      rw [h1] at h; cases h; exact h2

theorem Around.le {s : GState} (hi : GInv s) {c j : Nat} (h : Around s c j) : c ≤ j := by
  induction h with
  | self => exact Nat.le_refl _
  | step hp _ ih => have := parent_lt hi hp; omega

theorem Around.trans {s : GState} {c d j : Nat} (h1 : Around s d j) (h2 : Around s c d) : Around s c j := by
  induction h1 with
  | self => exact h2
  | step hp _ ih => exact .step hp ih

theorem around_unique {s : GState} (hi : GInv s) {c d i k m j : Nat} (hc : s.parentOf c = some (i, k))
    (hd : s.parentOf d = some (i, m)) (h1 : Around s c j) (h2 : Around s d j) : c = d := by
  induction h1 with
  | self =>
    cases h2 with
    | self => rfl
    | step hp h =>
      rw [hc] at hp; cases hp
      have := h.le hi
      have := parent_lt hi hd
      omega
  | step hp h ih =>
    cases h2 with
    | self =>
      rw [hd] at hp; cases hp
      have := h.le hi
      have := parent_lt hi hc
      omega
    | step hp' h' =>
      rw [hp] at hp'; cases hp'
      exact ih h'

theorem childAt_parent {s : GState} {P : List Nat} {i k c : Nat} (h : childAt s P i k = some c) : s.parentOf c = some (i, k) := by
  simpa using List.find?_some h

theorem below_around {s : GState} (hi : GInv s) (P : List Nat) : ∀ f i j, i < s.objs.length → j ∈ below s P f i →
    Around s i j ∧ j < s.objs.length := by
  intro f
  induction f with
  | zero => intro i j _ h; cases h
  | succ f ih =>
    intro i j hl h
    unfold below at h
    rcases List.mem_cons.1 h with rfl | h
    · exact ⟨.self, hl⟩
    · obtain ⟨k, _, hk⟩ := List.mem_flatMap.1 h
      cases hc : childAt s P i k with
      | none => rw [hc] at hk; cases hk
      | some c =>
        rw [hc] at hk
        obtain ⟨h1, h2⟩ := ih c j (childAt_lt hi hc).2 hk
        refine ⟨?_, h2⟩
        have hp := childAt_parent hc
        exact h1.trans (.step hp .self)

theorem below_nodup {s : GState} (hi : GInv s) (P : List Nat) : ∀ f i, i < s.objs.length → (below s P f i).Nodup := by
  intro f
  induction f with
  | zero => intro i _; exact List.nodup_nil
  | succ f ih =>
    intro i hl
    unfold below
    refine List.nodup_cons.2 ⟨?_, ?_⟩
    · intro h
      obtain ⟨k, _, hk⟩ := List.mem_flatMap.1 h
      cases hc : childAt s P i k with
      | none => rw [hc] at hk; cases hk
      | some c =>
        rw [hc] at hk
        have h1 := (below_around hi P f c i (childAt_lt hi hc).2 hk).1.le hi
        have := (childAt_lt hi hc).1
        omega
    · rw [List.nodup_flatMap]
      refine ⟨fun k _ => ?_, ?_⟩
      · cases hc : childAt s P i k with
        | none => exact List.nodup_nil
        | some c => exact ih c (childAt_lt hi hc).2
      · refine List.Pairwise.imp ?_ (List.nodup_range (n := (s.items i).length))
        intro k m hkm j h1 h2
        dsimp only at h1 h2
        cases hc : childAt s P i k with
        | none => rw [hc] at h1; cases h1
        | some c =>
          cases hd : childAt s P i m with
          | none => rw [hd] at h2; cases h2
          | some d =>
            rw [hc] at h1
            rw [hd] at h2
            have pc := childAt_parent hc
            have pd := childAt_parent hd
            have := around_unique hi pc pd (below_around hi P f c j (childAt_lt hi hc).2 h1).1
              (below_around hi P f d j (childAt_lt hi hd).2 h2).1
            subst this
            rw [pc] at pd
            cases pd
            exact hkm rfl

theorem sum_subset (w : Nat → Nat) : ∀ (xs ys : List Nat), xs.Nodup → (∀ x ∈ xs, x ∈ ys) → (xs.map w).sum ≤ (ys.map w).sum := by
  intro xs
  induction xs with
  | nil => intro ys _ _; exact Nat.zero_le _
  | cons x xs ih =>
    intro ys hn hs
    obtain ⟨h1, h2⟩ := List.nodup_cons.1 hn
    have hp := List.perm_cons_erase (hs x List.mem_cons_self)
    rw [(hp.map w).sum_nat]
    rw [List.map_cons, List.map_cons, List.sum_cons, List.sum_cons]
    refine Nat.add_le_add_left (ih _ h2 fun y hy => ?_) _
    exact (List.mem_erase_of_ne (fun h : y = x => h1 (by rw [← h]; exact hy))).2 (hs y (List.mem_cons_of_mem _ hy))

theorem sum_step (a b : Nat → Nat) (gi : Nat) (h : ∀ j, b j = if j = gi then a gi + 1 else a j) : ∀ N,
    ((List.range N).map b).sum ≤ ((List.range N).map a).sum + (if gi < N then 1 else 0) := by
  intro N
  induction N with
  | zero => exact Nat.zero_le _
  | succ N ih =>
    rw [List.range_succ, List.map_append, List.map_append, List.sum_append, List.sum_append]
    have := h N
    simp only [List.map_cons, List.map_nil, List.sum_cons, List.sum_nil]
    rw [this]
    split at ih <;> split <;> split <;> first | omega | (subst_vars; omega)

theorem makeGroups_total {bounds : Rect} : ∀ {ls : List DLayer} {s s' : GState}, GInv s → makeGroups bounds ls s = .ok s' →
    ∀ N, ((List.range N).map fun j => (s'.items j).length).sum ≤ ((List.range N).map fun j => (s.items j).length).sum + ls.length := by
  intro ls
  induction ls with
  | nil => intro s s' _ h N; cases h; exact Nat.le_refl _
  | cons l ls ih =>
    intro s s' hi h N
    unfold makeGroups at h
    cases hs : groupStep bounds l s with
    | error e => rw [hs] at h; cases h
    | ok s1 =>
      rw [hs] at h
      obtain ⟨gi, g, x, hgi, hg, hlk, hx, hit, _, hal, _⟩ := groupStep_ok hi hs
      have h1 := ih (groupStep_inv hi hs) h N
      have h2 := sum_step (fun j => (s.items j).length) (fun j => (s1.items j).length) gi (fun j => by
        rw [hit j]; split
        · rw [List.length_append]; rfl
        · rfl) N
      rw [List.length_cons]
      split at h2 <;> omega

/-! ## Layer pointers -/

theorem layerPointers_inside (mode : UInt32) : ∀ (f : Nat) {ps qs : List UInt64} {r r' : R},
    layerPointers mode f ps r = .ok (qs, r') → r'.err = none →
    r.err = none ∧ r.pos + 4 * (qs.length + 1) ≤ r'.pos + 4 * ps.length ∧ r'.pos ≤ r'.data.length ∧ r'.data = r.data := by
  intro f
  induction f with
  | zero => intro _ _ _ _ e; cases e
  | succ f ih =>
    intro ps qs r r' e he
    unfold layerPointers at e
    obtain ⟨p, r1, h1, e⟩ := M.bind_inv e
    have hk := readPtr_keeps _ _ _ _ h1
    split at e
    · cases e
      have := readPtr_inside _ _ _ _ h1 he
      exact ⟨hk.none he, by omega, this.2, hk.1⟩
    · obtain ⟨k1, k2, k3, k4⟩ := ih e he
      have := readPtr_inside _ _ _ _ h1 k1
      rw [List.length_append, List.length_singleton] at k2
      exact ⟨hk.none k1, by omega, k3, k4.trans hk.1⟩

theorem readHead_layers {D : Bytes} {hd : Head} {r : R} (e : readHead (newReader D) = .ok (.ok hd, r)) :
    4 * (hd.ptrs.length + 1) ≤ D.length := by
  have hkeep := readHead_total.keeps _ _ _ e
  have he := readHead_noErr e
  unfold readHead at e
  obtain ⟨x, r1, e1, e⟩ := M.bind_inv e
  cases x with
  | error er => cases e
  | ok mode =>
    dsimp only at e
    obtain ⟨w, r2, e2, e⟩ := M.bind_inv e
    obtain ⟨ht, r3, e3, e⟩ := M.bind_inv e
    obtain ⟨b, r4, e4, e⟩ := M.bind_inv e
    obtain ⟨_, r5, e5, e⟩ := M.bind_inv e
    obtain ⟨y, r6, e6, e⟩ := M.bind_inv e
    cases y with
    | error er => cases e
    | ok p =>
      dsimp only at e
      obtain ⟨ps, r7, e7, e⟩ := M.bind_inv e
      obtain ⟨er, r8, e8, e⟩ := M.bind_inv e
      cases e8
      cases her : r7.err with
      | some er => rw [her] at e; cases e
      | none =>
        rw [her] at e
        cases e
        obtain ⟨_, k2, k3, _⟩ := layerPointers_inside _ _ e7 he
        have hkeep := hkeep.1
        rw [hkeep] at k3
        change _ ≤ D.length at k3
        simp only [List.length_nil] at k2
        dsimp only
        omega

/-! ## C111 -/

/-- what both decoders return fits -/
theorem decode_fits {env : Env} {sch : Sched} (hv : sch.Valid) {dec : Bool} {D : Bytes} {g : List Layer}
    (h : decodeImage env sch dec D = .ok (.ok g)) : FitsIn (1024 * D.length) g ∧ 4 * (Spec.layersInAll g + 1) ≤ D.length := by
  unfold decodeImage at h
  split at h
  · cases h
  · cases h
  · cases h
  · rename_i hd r hh
    unfold decodeLayers at h
    split at h
    · cases h
    · cases h
    · cases h
    · rename_i ls hl
      cases hm : makeGroups (sizeRect hd.width.toNat hd.height.toNat) ls GState.start with
      | error e => rw [hm] at h; cases h
      | ok s =>
        rw [hm] at h
        dsimp only at h
        have hi := makeGroups_inv ginv_start hm
        rw [makeImage_tree hi _ (hv.2 _)] at h
        cases h
        have hstart : ∀ i, GState.start.items i = [] := by
          intro i
          rcases Nat.eq_zero_or_pos i with rfl | hi0
          · rfl
          · unfold GState.items
            rw [List.getD_eq_getElem?_getD, List.getElem?_eq_none (by exact hi0)]
            rfl
        have hall := readLayers_noErr hv hl
        have hfit : ∀ i, ∀ l ∈ s.items i, ∃ im, l.image = .val im ∧ Fits (1024 * D.length) im := by
          refine makeGroups_all (Fits (1024 * D.length)) ginv_start ?_ (fun i x hx => by rw [hstart] at hx; cases hx) hm
          intro l hl'
          have hmem : (Outcome.ok (l, none) : Outcome (DLayer × Option Err)) ∈ hd.ptrs.map (layerAtPtr (hd.ctx env dec) D) := by
            rw [hall]; exact List.mem_map.2 ⟨l, hl', rfl⟩
          obtain ⟨p, _, hp⟩ := List.mem_map.1 hmem
          unfold layerAtPtr at hp
          split at hp
          · rename_i l2 r2 hr2
            injection hp with hp
            injection hp with hp1 hp2
            subst hp1
            obtain ⟨_, r3, e3, e⟩ := M.bind_inv hr2
            have hd' : r2.data = D :=
              ((readLayer_ext (t := []) _).keeps _ _ _ e).1.trans (goto_keeps _ _ _ _ e3).1
            have := readLayer_fits e hp2
            rw [hd'] at this
            exact this
          · cases hp
          · cases hp
        refine ⟨fitsIn_fixBottom (groupTree_fits hfit _ _ _), ?_⟩
        rw [count_fixBottom]
        have h0 : 0 < s.objs.length := by
          obtain ⟨g, h1, _⟩ := hi.root
          exact (List.getElem?_eq_some_iff.1 h1).1
        have c1 := count_tree hfit (s.map.map (·.2)) s.objs.length 0
        have c2 := sum_subset (fun j => (s.items j).length) _ (List.range s.objs.length)
          (below_nodup hi (s.map.map (·.2)) s.objs.length 0 h0)
          (fun j hj => List.mem_range.2 (below_around hi _ _ _ _ h0 hj).2)
        have c3 := makeGroups_total ginv_start hm s.objs.length
        have c4 : ((List.range s.objs.length).map fun j => (GState.start.items j).length).sum = 0 := by
          refine Nat.eq_zero_of_le_zero ?_
          generalize s.objs.length = N
          induction N with
          | zero => exact Nat.le_refl _
          | succ N ih =>
            rw [List.range_succ, List.map_append, List.sum_append]
            simp only [List.map_cons, List.map_nil, List.sum_cons, List.sum_nil, hstart, List.length_nil] at ih ⊢
            omega
        have c5 : ls.length = hd.ptrs.length := by
          have := congrArg List.length hall
          rw [List.length_map, List.length_map] at this
          exact this.symm
        have c6 := readHead_layers hh
        omega

/-- C111: In whatever `Decode` or `DecodeCompressed` accept, there are fewer layers, groups and their contents counted,
than a quarter of the bytes of the file, and the pixels of each layer and each mask are at most 1024 for every byte of the file. -/
theorem C111_bound (env : Env) (sch : Sched) (hv : sch.Valid) (dec : Bool) (D : Bytes) (g : List Layer)
    (h : decodeImage env sch dec D = .ok (.ok g)) :
    4 * Spec.layersInAll g < D.length ∧
    ∀ s, Spec.GroupIn s g → ∀ l ∈ s,
      (∀ x, Spec.PixelsOf x l.image → Spec.area x.bounds ≤ 1024 * D.length) ∧
      ∀ m, Spec.CarriesMask m l.image → Spec.area m.rect ≤ 1024 * D.length := by
  obtain ⟨h1, h2⟩ := decode_fits hv h
  refine ⟨by omega, fun s hs l hl => ?_⟩
  rcases h1 s hs l hl with ⟨t, ht⟩ | hf
  · rw [ht]
    exact ⟨fun x hx => (by cases hx), fun m hm => (by cases hm)⟩
  · exact ⟨fun x hx => fits_pixels hf hx, fun m hm => fits_mask hf hm⟩

/-- a file with a masked layer -/
example : (decodeImage exEnv exSched true maskedLayer).isImage = true ∧ exSched.Valid :=
  ⟨by decide +kernel, fun _ => List.Perm.refl _, fun _ => List.Perm.refl _⟩

/-! ## What is not bounded

Layer pointers and tile pointers may be the same number several times, so a file can name a layer of many tiles many times.
The pixels of all layers together are not bounded by the size of the file times a number: -/

/-- eight times the same grey layer of 1024 by 64 pixels, whose 16 tiles are the same -/
def sameLayers : Bytes :=
  [103, 105, 109, 112, 32, 120, 99, 102, 32, 118, 48, 48, 51, 0] ++ be 4 1024 ++ be 4 64 ++ be 4 1 ++
  be 4 17 ++ be 4 1 ++ [1] ++ be 4 0 ++ be 4 0 ++ (List.replicate 8 (be 4 83)).flatten ++ be 4 0 ++ be 4 0 ++
  -- 83: layer
  be 4 1024 ++ be 4 64 ++ be 4 3 ++ be 4 0 ++ be 4 0 ++ be 4 0 ++ be 4 115 ++ be 4 0 ++
  -- 115: hierarchy, 135: level, 211: tile
  be 4 1024 ++ be 4 64 ++ be 4 2 ++ be 4 135 ++ be 4 0 ++
  be 4 1024 ++ be 4 64 ++ (List.replicate 16 (be 4 211)).flatten ++ be 4 0 ++
  [127, 16, 0, 9, 127, 16, 0, 255]

theorem sameLayers_outline : outline (decodeImage exEnv exSched false sameLayers) =
    List.replicate 8 (⟨0, 0, 1024, 64⟩, Mode.normal) := by decide +kernel

theorem outline_some {x : Outcome (Except Err (List Layer))} {o : Rect × Mode} {os : List (Rect × Mode)} (h : outline x = o :: os) :
    ∃ g, x = .ok (.ok g) ∧ g.map (fun l => (l.bounds, l.mode)) = o :: os := by
  unfold outline at h
  split at h
  · exact ⟨_, rfl, h⟩
  · cases h

/-- C111, how far it goes; a stronger claim is false: the layers of an accepted file cover together at most 1024 pixels for every byte. -/
theorem C111_not_total : ¬ ∀ (env : Env) (sch : Sched), sch.Valid → ∀ (dec : Bool) (D : Bytes) (g : List Layer),
    decodeImage env sch dec D = .ok (.ok g) → (g.map fun l => Spec.area l.bounds).sum ≤ 1024 * D.length := by
  intro H
  obtain ⟨g, h1, h2⟩ := outline_some (sameLayers_outline.trans (List.replicate_succ (n := 7)))
  have := H exEnv exSched ⟨fun _ => List.Perm.refl _, fun _ => List.Perm.refl _⟩ false sameLayers g h1
  have hm : (g.map fun l => Spec.area l.bounds) = (g.map fun l => (l.bounds, l.mode)).map fun p => Spec.area p.1 := by
    rw [List.map_map]; rfl
  rw [hm, h2] at this
  exact absurd this (by decide +kernel)

/-! ### Examples -/

-- 219 bytes hold eight layers of 65536 pixels each, within the bounds of 54 layers and 224256 pixels for each
example : ∃ g, decodeImage exEnv exSched false sameLayers = .ok (.ok g) ∧ g.length = 8 ∧ sameLayers.length = 219 ∧
    4 * Spec.layersInAll g < 219 ∧ ∀ l ∈ g, ∀ x, Spec.PixelsOf x l.image → Spec.area x.bounds ≤ 224256 := by
  obtain ⟨g, h1, h2⟩ := outline_some (sameLayers_outline.trans (List.replicate_succ (n := 7)))
  obtain ⟨k1, k2⟩ := C111_bound exEnv exSched ⟨fun _ => List.Perm.refl _, fun _ => List.Perm.refl _⟩ false _ g h1
  have hl : sameLayers.length = 219 := by decide +kernel
  rw [hl] at k1 k2
  refine ⟨g, h1, ?_, hl, k1, fun l hl x hx => (k2 g .self l hl).1 x hx⟩
  have := congrArg List.length h2
  rw [List.length_map] at this
  exact this

end Limage
