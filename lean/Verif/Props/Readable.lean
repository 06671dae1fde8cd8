import Verif.Proofs.Groups
import Verif.Props.Truncate
import Verif.Props.Composite
/-! # Reading the pixels of a decoded image (C53) -/
namespace Limage

/-! ## Specification -/

namespace Spec

/-- `i` occurs in the tree of images -/
inductive Within (i : Img) : Img → Prop
  | self : Within i i
  | text {j : Img} {t : TextData} : Within i j → Within i (.text j t)
  | masked {j : Img} {m : Option GrayImg} : Within i j → Within i (.masked j m)
  | layer {g : List Layer} {l : Layer} : l ∈ g → Within i l.image → Within i (.group g)

/-- no layer is without an image -/
def Complete (i : Img) : Prop := ¬ Within .nil i

/-- every indexed image in the tree has a full palette -/
def FullPalettes (i : Img) : Prop :=
  ∀ l pal, Within (.leaf l) i → l.model = .palette pal ∨ l.model = .alphaPalette pal → 256 ≤ pal.length

end Spec

/-! ## What decoding produces -/

/-- Images put together by `Decode` of a file with base type `b` and palette `pal`. -/
inductive Built (b : Nat) (pal : List Color) : Img → Prop
  | nil : Built b pal .nil
  | leaf (e : EagerImg) (h : e.kind < 6) (hb : e.kind / 2 = b) (hp : e.palette = pal) :
    Built b pal (.leaf (DecImg.eager e).leaf)
  | text {i : Img} (t : TextData) : Built b pal i → Built b pal (.text i t)
  | masked {i : Img} (m : GrayImg) : Built b pal i → Built b pal (.masked i (some m))
  | group {g : List Layer} : (∀ l ∈ g, Built b pal l.image) → Built b pal (.group g)

theorem readEager_kind {c : Ctx} {k bpp w h : Nat} {ts : List UInt64} {r r' : R} {im : EagerImg}
    (e : readEager c k bpp w h ts r = .ok (some im, r')) : im.kind < 6 ∧ im.kind = k ∧ im.palette = c.palette := by
  unfold readEager at e
  by_cases hk : k < 6
  · rw [if_pos hk] at e
    obtain ⟨_, r1, _, e⟩ := M.bind_inv e
    obtain ⟨s, r2, _, e⟩ := M.bind_inv e
    cases e
    exact ⟨hk, rfl, rfl⟩
  · rw [if_neg hk] at e
    obtain ⟨_, r1, _, e⟩ := M.bind_inv e
    cases e

theorem readImage_eager {c : Ctx} (hc : c.decompress = true) {w h k : UInt32} {r r' : R} {d : DecImg}
    (e : readImage c w h k r = .ok (some d, r')) : ∃ im, d = .eager im ∧ im.kind < 6 ∧ im.kind = k.toNat ∧
      im.palette = c.palette := by
  unfold readImage at e
  obtain ⟨x, r1, _, e⟩ := M.bind_inv e
  cases x with
  | none => cases e
  | some x =>
    dsimp only at e
    rw [hc, Bool.true_or, if_pos rfl] at e
    obtain ⟨im, r2, h2, e⟩ := M.bind_inv e
    cases im with
    | none => cases e
    | some im => cases e; exact ⟨im, rfl, readEager_kind h2⟩

theorem readMask_built {k : Nat} {pal : List Color} {c : Ctx} {b : Rect} {im im' : Img} {r r' : R} (hi : Built k pal im)
    (e : readMask c b im r = .ok (im', r')) : Built k pal im' := by
  unfold readMask at e
  obtain ⟨x, r1, _, e⟩ := M.bind_inv e
  cases x with
  | none => cases e; exact hi
  | some m =>
    dsimp only at e
    by_cases h : b.eq m.rect
    · rw [if_pos h] at e; cases e; exact .masked m hi
    · rw [if_neg h] at e
      obtain ⟨_, r2, _, e⟩ := M.bind_inv e
      cases e; exact hi

theorem layerImage_built {c : Ctx} (hc : c.decompress = true) {g : Bool} {w h k : UInt32} {r r' : R} {i : Img}
    (hk : k >>> 1 = c.baseType) (e : layerImage c g w h k r = .ok (some i, r')) :
    Built c.baseType.toNat c.palette i := by
  unfold layerImage at e
  cases g with
  | true => cases e; exact .nil
  | false =>
    rw [if_neg (by decide)] at e
    obtain ⟨x, r1, h1, e⟩ := M.bind_inv e
    cases x with
    | none => cases e
    | some d =>
      cases e
      obtain ⟨im, rfl, h2, h3, h4⟩ := readImage_eager hc h1
      refine .leaf im h2 ?_ h4
      rw [← hk, h3, UInt32.toNat_shiftRight]
      simp [Nat.shiftRight_eq_div_pow]

theorem layerText_built {c : Ctx} {ps : List Parasite} {im : Img} {r r' : R} {i : Img} {k : Nat} {pal : List Color}
    (hi : Built k pal im) (e : layerText c ps im r = .ok (some i, r')) : Built k pal i := by
  unfold layerText at e
  cases hp : getParasite ps textParasiteName with
  | none => rw [hp] at e; cases e; exact hi
  | some t =>
    rw [hp] at e
    dsimp only at e
    cases ht : c.env.parseText t.data with
    | panic => rw [ht] at e; cases e
    | hang => rw [ht] at e; cases e
    | ok d =>
      rw [ht] at e
      cases d with
      | none =>
        obtain ⟨_, r1, _, e⟩ := M.bind_inv e
        cases e
      | some d => cases e; exact .text _ hi

theorem readLayer_built {c : Ctx} (hc : c.decompress = true) {r r' : R} {l : DLayer}
    (e : readLayer c r = .ok (l, r')) : Built c.baseType.toNat c.palette l.layer.image := by
  unfold readLayer at e
  obtain ⟨w, r1, _, e⟩ := M.bind_inv e
  obtain ⟨h, r2, _, e⟩ := M.bind_inv e
  obtain ⟨t, r3, _, e⟩ := M.bind_inv e
  by_cases ht : t >>> 1 ≠ c.baseType
  · rw [if_pos ht] at e
    obtain ⟨_, r4, _, e⟩ := M.bind_inv e
    cases e; exact .nil
  · rw [if_neg ht] at e
    obtain ⟨name, r4, _, e⟩ := M.bind_inv e
    obtain ⟨s, r5, _, e⟩ := M.bind_inv e
    obtain ⟨hp, r6, _, e⟩ := M.bind_inv e
    obtain ⟨mp, r7, _, e⟩ := M.bind_inv e
    obtain ⟨_, r8, _, e⟩ := M.bind_inv e
    dsimp only at e
    obtain ⟨im, r9, h9, e⟩ := M.bind_inv e
    cases im with
    | none => cases e; exact .nil
    | some im =>
      have hb := layerImage_built hc (by simpa using ht) h9
      dsimp only at e
      obtain ⟨im2, r10, h10, e⟩ := M.bind_inv e
      cases im2 with
      | none => cases e; exact hb
      | some im2 =>
        have hb2 := layerText_built hb h10
        dsimp only at e
        by_cases hm : mp ≠ 0
        · rw [if_pos hm] at e
          obtain ⟨_, r11, _, e⟩ := M.bind_inv e
          obtain ⟨im3, r12, h12, e⟩ := M.bind_inv e
          cases e
          exact readMask_built hb2 h12
        · rw [if_neg hm] at e; cases e; exact hb2

/-! ## No image is missing -/

theorem setError_isSome {e : Err} {r r' : R} {x : Unit} (h : setError e r = .ok (x, r')) : r'.err ≠ none := by
  unfold setError at h
  cases h
  dsimp only
  cases he : r.err <;> simp

theorem readLevel_none {c : Ctx} {w h k : UInt32} {r r' : R} (e : readLevel c w h k r = .ok (none, r')) :
    r'.err ≠ none := by
  unfold readLevel at e
  obtain ⟨tw, r1, _, e⟩ := M.bind_inv e
  obtain ⟨th, r2, _, e⟩ := M.bind_inv e
  split at e
  · obtain ⟨_, r3, h3, e⟩ := M.bind_inv e
    cases e; exact setError_isSome h3
  · obtain ⟨bpp, r3, _, e⟩ := M.bind_inv e
    split at e
    · obtain ⟨_, r3, h3, e⟩ := M.bind_inv e
      cases e; exact setError_isSome h3
    · obtain ⟨lp, r4, _, e⟩ := M.bind_inv e
      obtain ⟨_, r5, _, e⟩ := M.bind_inv e
      obtain ⟨_, r6, _, e⟩ := M.bind_inv e
      obtain ⟨_, r7, _, e⟩ := M.bind_inv e
      split at e
      · obtain ⟨_, r3, h3, e⟩ := M.bind_inv e
        cases e; exact setError_isSome h3
      · obtain ⟨_, r8, _, e⟩ := M.bind_inv e
        obtain ⟨_, r9, _, e⟩ := M.bind_inv e
        split at e
        · obtain ⟨_, r3, h3, e⟩ := M.bind_inv e
          cases e; exact setError_isSome h3
        · cases e

theorem readImage_none {c : Ctx} {w h k : UInt32} (hk : k.toNat < 6) {r r' : R}
    (e : readImage c w h k r = .ok (none, r')) : r'.err ≠ none := by
  unfold readImage at e
  obtain ⟨x, r1, h1, e⟩ := M.bind_inv e
  cases x with
  | none => cases e; exact readLevel_none h1
  | some x =>
    dsimp only at e
    split at e
    · obtain ⟨im, r2, h2, e⟩ := M.bind_inv e
      unfold readEager at h2
      rw [if_pos hk] at h2
      obtain ⟨_, r3, _, h2⟩ := M.bind_inv h2
      obtain ⟨_, r4, _, h2⟩ := M.bind_inv h2
      cases h2
      cases e
    · obtain ⟨im, r2, h2, e⟩ := M.bind_inv e
      unfold readLazy at h2
      obtain ⟨_, r3, _, h2⟩ := M.bind_inv h2
      obtain ⟨_, r4, _, h2⟩ := M.bind_inv h2
      rw [if_pos hk] at h2
      cases h2
      cases e

open Spec in
theorem complete_leaf (l : Leaf) : Complete (.leaf l) := by intro h; cases h
open Spec in
theorem complete_text {i : Img} {t : TextData} (h : Complete i) : Complete (.text i t) := by
  intro hw; cases hw with
  | text hw => exact h hw
open Spec in
theorem complete_masked {i : Img} {m : Option GrayImg} (h : Complete i) : Complete (.masked i m) := by
  intro hw; cases hw with
  | masked hw => exact h hw

/-- a layer that is not a group has an image, if reading it was successful -/
theorem readLayer_complete {c : Ctx} (hb : c.baseType.toNat ≤ 2) {r r' : R} {l : DLayer}
    (e : readLayer c r = .ok (l, r')) (he : r'.err = none) (hg : l.group = false) : Spec.Complete l.layer.image := by
  unfold readLayer at e
  obtain ⟨w, r1, _, e⟩ := M.bind_inv e
  obtain ⟨h, r2, _, e⟩ := M.bind_inv e
  obtain ⟨t, r3, _, e⟩ := M.bind_inv e
  by_cases ht : t >>> 1 ≠ c.baseType
  · rw [if_pos ht] at e
    obtain ⟨_, r4, h4, e⟩ := M.bind_inv e
    cases e
    exact absurd he (setError_isSome h4)
  · rw [if_neg ht] at e
    have htn : t.toNat < 6 := by
      have h1 : t >>> 1 = c.baseType := by simpa using ht
      rw [← h1, UInt32.toNat_shiftRight] at hb
      simp [Nat.shiftRight_eq_div_pow] at hb
      omega
    obtain ⟨name, r4, _, e⟩ := M.bind_inv e
    obtain ⟨s, r5, _, e⟩ := M.bind_inv e
    obtain ⟨hp, r6, _, e⟩ := M.bind_inv e
    obtain ⟨mp, r7, _, e⟩ := M.bind_inv e
    obtain ⟨_, r8, _, e⟩ := M.bind_inv e
    dsimp only at e
    obtain ⟨im, r9, h9, e⟩ := M.bind_inv e
    have hsg : s.group = false := by
      cases im with
      | none => cases e; exact hg
      | some im =>
        dsimp only at e
        obtain ⟨im2, r10, h10, e⟩ := M.bind_inv e
        cases im2 with
        | none => cases e; exact hg
        | some im2 =>
          dsimp only at e
          split at e
          · obtain ⟨_, r11, _, e⟩ := M.bind_inv e
            obtain ⟨im3, r12, h12, e⟩ := M.bind_inv e
            cases e; exact hg
          · cases e; exact hg
    unfold layerImage at h9
    rw [hsg, if_neg (by decide)] at h9
    obtain ⟨d, r10, h10, h9⟩ := M.bind_inv h9
    cases d with
    | none =>
      cases h9
      cases e
      exact absurd he (readImage_none htn h10)
    | some d =>
      cases h9
      dsimp only at e
      obtain ⟨im2, r11, h11, e⟩ := M.bind_inv e
      have hc1 : Spec.Complete (.leaf d.leaf) := complete_leaf _
      cases im2 with
      | none => cases e; exact hc1
      | some im2 =>
        have hc2 : Spec.Complete im2 := by
          unfold layerText at h11
          cases hp : getParasite s.parasites textParasiteName with
          | none => rw [hp] at h11; cases h11; exact hc1
          | some t =>
            rw [hp] at h11
            dsimp only at h11
            cases ht : c.env.parseText t.data with
            | panic => rw [ht] at h11; cases h11
            | hang => rw [ht] at h11; cases h11
            | ok d =>
              rw [ht] at h11
              cases d with
              | none =>
                obtain ⟨_, r1, _, e⟩ := M.bind_inv h11
                cases e
              | some d => cases h11; exact complete_text hc1
        dsimp only at e
        by_cases hm : mp ≠ 0
        · rw [if_pos hm] at e
          obtain ⟨_, r12, _, e⟩ := M.bind_inv e
          obtain ⟨im3, r13, h13, e⟩ := M.bind_inv e
          cases e
          show Spec.Complete im3
          unfold readMask at h13
          obtain ⟨x, r1, _, h13⟩ := M.bind_inv h13
          cases x with
          | none => cases h13; exact hc2
          | some m =>
            dsimp only at h13
            split at h13
            · cases h13; exact complete_masked hc2
            · obtain ⟨_, r2, _, h13⟩ := M.bind_inv h13
              cases h13; exact hc2
        · rw [if_neg hm] at e; cases e; exact hc2

/-! ## The tree -/

/-- place of a layer in the tree, as `makeGroups` sees it: the item path, or for a layer without one a
number counted up -/
def layerPlace (n : UInt32) (l : DLayer) : List UInt32 := if l.itemPath = [] then [n] else l.itemPath

/-- One layer: it is added to the layers of its group `gi`, and if it is a group itself, an object is
added for it. -/
theorem groupStep_ok {bounds : Rect} {l : DLayer} {s s' : GState} (hi : GInv s) (h : groupStep bounds l s = .ok s') :
    ∃ (gi : Nat) (g : GroupObj) (hl : HLayer), gi < s.objs.length ∧ s.objs[gi]? = some g ∧
      lookupKey s.map (pathKey (layerPlace s.n l).dropLast) = some gi ∧
      hl = ⟨l.layer.name, (l.layer.bounds.inter bounds).sub ⟨g.ox, g.oy⟩, l.layer.mode, l.layer.invisible,
        l.layer.transparency, .val l.layer.image⟩ ∧
      (∀ j, s'.items j = if j = gi then s.items gi ++ [hl] else s.items j) ∧
      s'.n = (if l.itemPath = [] then s.n + 1 else s.n) ∧ s'.alpha = l.alpha ∧
      (l.group = false → s'.objs = s.objs ∧ s'.map = s.map) ∧
      (l.group = true → s'.objs = s.objs ++ [⟨s.objs.length, l.layer.bounds.x0, l.layer.bounds.y0,
          some (gi, (s.items gi).length)⟩] ∧
        s'.map = assignKey s.map (pathKey (layerPlace s.n l)) s.objs.length) := by
  unfold groupStep at h
  by_cases ha : s.alpha = false
  · rw [if_pos ha] at h; cases h
  rw [if_neg ha] at h
  dsimp only at h
  rw [show (if l.itemPath = [] then [s.n] else l.itemPath) = layerPlace s.n l from rfl] at h
  cases hl : lookupKey s.map (pathKey (layerPlace s.n l).dropLast) with
  | none => rw [hl] at h; cases h
  | some gi =>
    rw [hl] at h
    dsimp only at h
    cases hg : s.objs[gi]? with
    | none => rw [hg] at h; cases h
    | some g =>
      rw [hg] at h
      dsimp only at h
      have hgi : gi < s.objs.length := (List.getElem?_eq_some_iff.1 hg).1
      have hcur : g.cur = gi := hi.cur gi g hg
      refine ⟨gi, g, _, hgi, hg, rfl, rfl, ?_⟩
      rw [hcur] at h
      have hset : ∀ (x : List HLayer) (e : List (List HLayer)), e = [] ∨ e = [[]] → ∀ j,
          (s.arrays.set gi x ++ e).getD j [] = if j = gi then x else s.arrays.getD j [] := by
        intro x e he j
        rw [List.getD_eq_getElem?_getD, List.getElem?_append]
        have hlen : (s.arrays.set gi x).length = s.arrays.length := List.length_set ..
        rw [hlen]
        by_cases hj : j < s.arrays.length
        · rw [if_pos hj, List.getElem?_set]
          by_cases hjg : gi = j
          · rw [if_pos hjg, if_pos (by rw [hi.len]; exact hgi), if_pos hjg.symm]; rfl
          · rw [if_neg hjg, if_neg (Ne.symm hjg), List.getD_eq_getElem?_getD]
        · have hx : s.arrays[j]? = none := List.getElem?_eq_none (by omega)
          rw [if_neg hj, if_neg (by rw [hi.len] at hj; omega), List.getD_eq_getElem?_getD, hx]
          rcases he with rfl | rfl
          · simp
          · cases hjj : j - s.arrays.length <;> simp
      cases hgr : l.group with
      | true =>
        rw [hgr, if_pos rfl] at h
        cases h
        refine ⟨fun j => ?_, rfl, rfl, (fun hf => by cases hf), fun _ => ⟨?_, rfl⟩⟩
        · exact hset _ _ (Or.inr rfl) j
        · rw [hi.len]; rfl
      | false =>
        rw [hgr, if_neg (by decide)] at h
        cases h
        refine ⟨fun j => ?_, rfl, rfl, (fun _ => ⟨rfl, rfl⟩), (fun hf => by cases hf)⟩
        have := hset (s.arrays.getD gi [] ++ [⟨l.layer.name, (l.layer.bounds.inter bounds).sub ⟨g.ox, g.oy⟩, l.layer.mode, l.layer.invisible,
          l.layer.transparency, .val l.layer.image⟩]) [] (Or.inl rfl) j
        rw [List.append_nil] at this
        exact this

/-- a predicate on the images of the layers holds for those in the groups -/
theorem makeGroups_all (P : Img → Prop) {bounds : Rect} : ∀ {ls : List DLayer} {s s' : GState}, GInv s →
    (∀ l ∈ ls, P l.layer.image) → (∀ i, ∀ l ∈ s.items i, ∃ im, l.image = .val im ∧ P im) →
    makeGroups bounds ls s = .ok s' → ∀ i, ∀ l ∈ s'.items i, ∃ im, l.image = .val im ∧ P im := by
  intro ls
  induction ls with
  | nil => intro s s' _ _ h2 h; cases h; exact h2
  | cons l ls ih =>
    intro s s' hi hP h2 h
    unfold makeGroups at h
    cases hs : groupStep bounds l s with
    | error e => rw [hs] at h; cases h
    | ok s1 =>
      rw [hs] at h
      obtain ⟨gi, g, hl, hgi, hg, hlk, hhl, hit, _⟩ := groupStep_ok hi hs
      refine ih (groupStep_inv hi hs) (fun l hl => hP l (List.mem_cons_of_mem _ hl)) ?_ h
      intro i x hx
      rw [hit] at hx
      by_cases hig : i = gi
      · rw [if_pos hig] at hx
        rcases List.mem_append.1 hx with hx | hx
        · exact h2 gi x hx
        · rw [List.mem_singleton.1 hx, hhl]
          exact ⟨_, rfl, hP l List.mem_cons_self⟩
      · rw [if_neg hig] at hx; exact h2 i x hx

theorem fixBottom_images {P : Img → Prop} {g : List Layer} (h : ∀ l ∈ g, P l.image) : ∀ l ∈ fixBottom g, P l.image := by
  unfold fixBottom
  cases hg : g.getLast? with
  | none => exact h
  | some x =>
    dsimp only
    split
    · exact h
    · intro l hl
      rcases List.mem_append.1 hl with hl | hl
      · exact h l (List.dropLast_subset _ hl)
      · rw [List.mem_singleton.1 hl]
        exact h x (List.mem_of_getLast? hg)

theorem groupTree_built {s : GState} {k : Nat} {pal : List Color} (hs : ∀ i, ∀ l ∈ s.items i, ∃ im, l.image = .val im ∧ Built k pal im) (P : List Nat) :
    ∀ f i, ∀ l ∈ groupTree s P f i, Built k pal l.image := by
  intro f
  induction f with
  | zero => intro i l hl; cases hl
  | succ f ih =>
    intro i l hl
    unfold groupTree at hl
    obtain ⟨k, hk, rfl⟩ := List.mem_mapIdx.1 hl
    dsimp only
    cases childAt s P i k with
    | some c => exact .group (ih c)
    | none =>
      obtain ⟨im, h1, h2⟩ := hs i _ (List.getElem_mem hk)
      rw [h1]
      exact h2

/-- where the layers come from -/
theorem readLayers_layers {sch : Sched} (hv : sch.Valid) {c : Ctx} {D : Bytes} {ptrs : List UInt64}
    {ls : List DLayer} (hl : readLayers sch c D ptrs = .ok (ls, none)) :
    ∀ l ∈ ls, ∃ p ∈ ptrs, ∃ r r', readLayer c r = .ok (l, r') ∧ r'.err = none := by
  intro l hl'
  unfold readLayers at hl
  cases hx : gather (ptrs.map (layerAtPtr c D)) with
  | panic => rw [hx] at hl; cases hl
  | hang => rw [hx] at hl; cases hl
  | ok xs =>
    rw [hx] at hl
    dsimp only at hl
    injection hl with hl
    injection hl with hl1 hl2
    rw [← hl1] at hl'
    obtain ⟨x, hxm, rfl⟩ := List.mem_map.1 hl'
    have := gather_ok hx
    have hlen : xs.length = ptrs.length := by
      have := congrArg List.length this
      simpa using this.symm
    have hnone : x.2 = none := by
      refine firstErr_all (errs := xs.map (·.2)) ?_ hl2 x.2 (List.mem_map.2 ⟨x, hxm, rfl⟩)
      rw [List.length_map, hlen]
      exact hv.1 _
    have hmem : Outcome.ok x ∈ ptrs.map (layerAtPtr c D) := by
      rw [this]; exact List.mem_map.2 ⟨x, hxm, rfl⟩
    obtain ⟨p, hpm, hp⟩ := List.mem_map.1 hmem
    unfold layerAtPtr at hp
    split at hp
    · rename_i l2 r2 hr2
      cases hp
      obtain ⟨_, r3, _, e⟩ := M.bind_inv hr2
      exact ⟨p, hpm, r3, r2, e, hnone⟩
    · cases hp
    · cases hp

/-- `Decode` returns images of the known kinds -/
theorem decode_built {env : Env} {sch : Sched} (hv : sch.Valid) {D : Bytes} {im : List Layer}
    (h : decodeImage env sch true D = .ok (.ok im)) :
    ∃ hd r, readHead (newReader D) = .ok (.ok hd, r) ∧ Built hd.baseType.toNat hd.props.palette (.group im) := by
  unfold decodeImage at h
  split at h
  · cases h
  · cases h
  · cases h
  · rename_i hd r hh
    unfold decodeLayers at h
    split at h
    · cases h
    · cases h
    · cases h
    · rename_i ls hl
      cases hm : makeGroups (sizeRect hd.width.toNat hd.height.toNat) ls GState.start with
      | error e => rw [hm] at h; cases h
      | ok s =>
        rw [hm] at h
        dsimp only at h
        have hi := makeGroups_inv ginv_start hm
        rw [makeImage_tree hi _ (hv.2 _)] at h
        cases h
        refine ⟨hd, r, hh, ?_⟩
        refine .group (fixBottom_images (P := Built _ _) (groupTree_built ?_ _ _ _))
        refine makeGroups_all (Built _ _) ginv_start ?_ ?_ hm
        · intro l hl'
          obtain ⟨p, _, r2, r3, e, _⟩ := readLayers_layers hv hl l hl'
          exact readLayer_built (c := hd.ctx env true) rfl e
        · intro i l hl'
          rcases Nat.eq_zero_or_pos i with rfl | hi0
          · cases hl'
          · unfold GState.items at hl'
            rw [List.getD_eq_getElem?_getD, List.getElem?_eq_none (by exact hi0)] at hl'
            cases hl'

/-! ## Reading pixels -/

theorem eagerColor_isSome (k : Nat) (pal : List Color) (px : Bytes) (h : 4 ≤ k → 256 ≤ pal.length) :
    (eagerColor k pal px).isSome := by
  unfold eagerColor
  dsimp only
  split
  · rfl
  · rfl
  · rfl
  · rfl
  · rw [List.getElem?_eq_getElem (by have := (px.getD 0 0).toNat_lt; have := h (by omega); omega)]; rfl
  · rename_i h0 h1 h2 h3 h4
    have h5 : 4 ≤ k := by
      rcases Nat.lt_or_ge k 4 with h5 | h5
      · have : k = 0 ∨ k = 1 ∨ k = 2 ∨ k = 3 := by omega
        rcases this with rfl | rfl | rfl | rfl
        · exact absurd rfl h0
        · exact absurd rfl h1
        · exact absurd rfl h2
        · exact absurd rfl h3
      · exact h5
    unfold IdxPix.toColor
    dsimp only
    rw [List.getElem?_eq_getElem (by have := (px.getD 0 0).toNat_lt; have := h h5; omega)]; rfl

theorem leaf_isSome (e : EagerImg) (hk : e.kind < 6)
    (h : ∀ pal, (DecImg.eager e).leaf.model = .palette pal ∨ (DecImg.eager e).leaf.model = .alphaPalette pal →
      256 ≤ pal.length) (p : Pt) : ((DecImg.eager e).leaf.pixel p).isSome := by
  have h4 : 4 ≤ e.kind → 256 ≤ e.palette.length := by
    intro h4
    have h5 : e.kind = 4 ∨ e.kind = 5 := by omega
    refine h e.palette ?_
    unfold DecImg.leaf
    rcases h5 with h5 | h5
    · exact Or.inl (by show kindModel e.kind _ = _; rw [h5]; rfl)
    · exact Or.inr (by show kindModel e.kind _ = _; rw [h5]; rfl)
  show (EagerImg.at e p).isSome
  unfold EagerImg.at
  split
  · exact eagerColor_isSome _ _ _ h4
  · exact eagerColor_isSome _ _ _ h4

/-- the colour model and the pixels of a complete image exist -/
theorem built_at {b : Nat} {pal : List Color} {i : Img} (hb : Built b pal i) : Spec.Complete i → Spec.FullPalettes i →
    i.colorModel.isSome ∧ ∀ ρ p n, (i.at ρ p n).isSome := by
  induction hb with
  | nil => intro h; exact absurd .self h
  | leaf e hk _ _ =>
    intro _ hp
    refine ⟨rfl, fun ρ p n => ?_⟩
    show ((DecImg.eager e).leaf.pixel p |>.map _).isSome
    rw [Option.isSome_map]
    exact leaf_isSome e hk (fun pal => hp _ pal .self) p
  | text t _ ih =>
    intro hc hp
    exact ih (fun h => hc (.text h)) (fun l pal h => hp l pal (.text h))
  | @masked i m _ ih =>
    intro hc hp
    obtain ⟨h1, h2⟩ := ih (fun h => hc (.masked h)) (fun l pal h => hp l pal (.masked h))
    refine ⟨h1, fun ρ p n => ?_⟩
    have := h2 ρ p n
    show (Img.at ρ (.masked i (some m)) p n).isSome
    unfold Img.at
    cases hx : i.at ρ p n with
    | none => rw [hx] at this; cases this
    | some x => rfl
  | @group g hg ih =>
    intro hc hp
    have hl : ∀ l ∈ g, l.image.colorModel.isSome ∧ ∀ ρ p n, (l.image.at ρ p n).isSome := fun l hm =>
      ih l hm (fun h => hc (.layer hm h)) (fun l' pal h => hp l' pal (.layer hm h))
    have hcm : (groupModel g).isSome := by
      cases g with
      | nil => rfl
      | cons l g =>
        obtain ⟨a, b, c, d, e, f⟩ := l
        exact (hl _ List.mem_cons_self).1
    refine ⟨hcm, fun ρ p n => ?_⟩
    show (layersAt ρ (groupModel g) g p n).isSome
    obtain ⟨cm, hcm'⟩ := Option.isSome_iff_exists.1 hcm
    rw [hcm']
    clear hcm hcm' ih hg hc hp
    induction g generalizing n with
    | nil => rfl
    | cons l g ih =>
      obtain ⟨a, b, c, d, e, f⟩ := l
      have ih := ih (fun l hm => hl l (List.mem_cons_of_mem _ hm)) n
      obtain ⟨⟨x, n1⟩, hx⟩ := Option.isSome_iff_exists.1 ih
      obtain ⟨⟨y, n2⟩, hy⟩ := Option.isSome_iff_exists.1 ((hl _ List.mem_cons_self).2 ρ ⟨p.x - b.x0, p.y - b.y0⟩ n1)
      dsimp only at hy
      unfold layersAt
      rw [hx, Option.bind_eq_bind, Option.bind_some]
      dsimp only
      rw [hy]
      simp only [Option.bind_eq_bind, Option.bind_some]
      have hcomp : ∀ dr m b t, ∃ z, composite dr m b t = some z := fun dr m b t =>
        Option.isSome_iff_exists.1 (C04_never_panics dr m b t)
      split
      · rfl
      split
      · rfl
      split
      · split <;> rfl
      split
      · obtain ⟨z, hz⟩ := hcomp (ρ n2) c x (Limage.transparency y (255 - e))
        rw [hz]; rfl
      · obtain ⟨z, hz⟩ := hcomp 0 c x (Limage.transparency y (255 - e))
        rw [hz]; rfl

/-! ## C53 -/

/-- An indexed layer of one pixel, with the number of a colour that is not in the palette of one colour. -/
def badIndex : Bytes :=
  fileTypeID ++ [118, 48, 48, 51, 0] ++ be 4 1 ++ be 4 1 ++ be 4 2 ++
  be 4 1 ++ be 4 7 ++ be 4 1 ++ [10, 20, 30] ++ be 4 0 ++ be 4 0 ++ be 4 57 ++ be 4 0 ++
  -- 57: layer
  be 4 1 ++ be 4 1 ++ be 4 5 ++ be 4 0 ++ be 4 0 ++ be 4 0 ++ be 4 89 ++ be 4 0 ++
  -- 89: hierarchy, 105: level, 121: tile
  be 4 1 ++ be 4 1 ++ be 4 2 ++ be 4 105 ++ be 4 1 ++ be 4 1 ++ be 4 121 ++ be 4 0 ++ [5, 255]

/-- Two groups with the same item path. -/
def twoGroups : Bytes :=
  fileTypeID ++ [118, 48, 48, 51, 0] ++ be 4 1 ++ be 4 1 ++ be 4 0 ++ be 4 0 ++ be 4 0 ++ be 4 46 ++ be 4 46 ++ be 4 0 ++
  -- 46: layer
  be 4 1 ++ be 4 1 ++ be 4 1 ++ be 4 0 ++ be 4 29 ++ be 4 0 ++ be 4 30 ++ be 4 4 ++ be 4 0 ++ be 4 0 ++ be 4 0 ++
  be 4 0 ++ be 4 0

/-- decoded to an image whose pixel at `p` cannot be read -/
def unreadable (x : Outcome (Except Err (List Layer))) (ρ : Nat → UInt16) (p : Pt) : Bool :=
  match x with
  | .ok (.ok im) => (Img.at ρ (.group im) p 0).isNone
  | _ => false

set_option maxRecDepth 100000 in
/-- C53 is false: `Decode` accepts files that it decodes into images on which `At` panics, at a point
within the bounds: pixels with the number of a colour not in the palette, and two groups with the same
item path, of which the first is left without an image. -/
theorem C53_refuted : ∀ env ρ, unreadable (decodeImage env exSched true badIndex) ρ ⟨0, 0⟩ = true ∧
    unreadable (decodeImage env exSched true twoGroups) ρ ⟨0, 0⟩ = true := by
  intro env ρ
  refine ⟨?_, ?_⟩
  · cbv
  · cbv

/-- C53, the true part: if no layer is without an image, and indexed images have 256 colours, `At` of
an image returned by `Decode` returns a colour, at every point (inside or outside the bounds), whatever
the random source returns; so does `ColorModel`.
Missing: the remaining files, for which it is false (`C53_refuted`). -/
theorem C53_at_partial (env : Env) (sch : Sched) (hv : sch.Valid) (D : Bytes) (im : List Layer)
    (h : decodeImage env sch true D = .ok (.ok im)) (hc : Spec.Complete (.group im))
    (hp : Spec.FullPalettes (.group im)) (ρ : Nat → UInt16) (p : Pt) (n : Nat) :
    (Img.group im).colorModel.isSome ∧ ((Img.group im).at ρ p n).isSome := by
  obtain ⟨_, _, _, hb⟩ := decode_built hv h
  exact ⟨(built_at hb hc hp).1, (built_at hb hc hp).2 ρ p n⟩

/-- a file with a masked layer -/
example : (decodeImage exEnv exSched true maskedLayer).isImage = true ∧ exSched.Valid :=
  ⟨by decide +kernel, fun _ => List.Perm.refl _, fun _ => List.Perm.refl _⟩

/-! ### Files whose groups are in different places -/

/-- Places of the groups among the layers, in order: the item path, or, for layers without one, the
number of earlier layers without one. -/
def groupPlaces : UInt32 → List DLayer → List Key
  | _, [] => []
  | n, l :: ls =>
    (if l.group then [pathKey (layerPlace n l)] else []) ++ groupPlaces (if l.itemPath = [] then n + 1 else n) ls

theorem layerPlace_ne (n : UInt32) (l : DLayer) : pathKey (layerPlace n l) ≠ [] := by
  unfold layerPlace pathKey
  split
  · simp
  · rename_i h; simpa using h

/-- every layer has an image or is a group known to the map -/
def Filled (s : GState) : Prop :=
  ∀ i k l, (s.items i)[k]? = some l → (∃ im, l.image = .val im ∧ Spec.Complete im) ∨
    ∃ c ∈ s.map.map (·.2), s.parentOf c = some (i, k)

theorem groupStep_filled {bounds : Rect} {l : DLayer} {s s' : GState} (hi : GInv s) (hf : Filled s)
    (hl : l.group = false → Spec.Complete l.layer.image)
    (hnew : l.group = true → ∀ e ∈ s.map, e.1 ≠ pathKey (layerPlace s.n l))
    (h : groupStep bounds l s = .ok s') : Filled s' := by
  obtain ⟨gi, g, hl', hgi, hg, hlk, hhl, hit, hn, ha, hfalse, htrue⟩ := groupStep_ok hi h
  -- old children stay
  have old : ∀ c ∈ s.map.map (·.2), c ∈ s'.map.map (·.2) ∧ s'.parentOf c = s.parentOf c := by
    intro c hc
    cases hgr : l.group with
    | false =>
      obtain ⟨e1, e2⟩ := hfalse hgr
      rw [e2]
      exact ⟨hc, by unfold GState.parentOf; rw [e1]⟩
    | true =>
      obtain ⟨e1, e2⟩ := htrue hgr
      obtain ⟨e, he, rfl⟩ := List.mem_map.1 hc
      refine ⟨?_, ?_⟩
      · rw [e2]
        unfold assignKey
        refine List.mem_map.2 ⟨e, List.mem_append_left _ (List.mem_filter.2 ⟨he, ?_⟩), rfl⟩
        simpa using hnew hgr e he
      · unfold GState.parentOf
        rw [e1, List.getElem?_append_left (hi.lt e he)]
  intro i k x hx
  rw [hit] at hx
  have hold : (s.items i)[k]? = some x → (∃ im, x.image = .val im ∧ Spec.Complete im) ∨
    ∃ c ∈ s'.map.map (·.2), s'.parentOf c = some (i, k) := by
    intro hx
    rcases hf i k x hx with h1 | ⟨c, hc, hp⟩
    · exact Or.inl h1
    · obtain ⟨o1, o2⟩ := old c hc
      exact Or.inr ⟨c, o1, o2.trans hp⟩
  by_cases hig : i = gi
  · rw [if_pos hig] at hx
    by_cases hk : k < (s.items gi).length
    · rw [List.getElem?_append_left hk, ← hig] at hx
      exact hold hx
    · rw [List.getElem?_append_right (by omega)] at hx
      have hk0 : k = (s.items gi).length := by
        rcases Nat.eq_zero_or_pos (k - (s.items gi).length) with h0 | h0
        · omega
        · rw [List.getElem?_eq_none (by exact h0)] at hx; cases hx
      have hxl : hl' = x := by rw [hk0, Nat.sub_self] at hx; simpa using hx
      cases hgr : l.group with
      | false =>
        left
        rw [← hxl, hhl]
        exact ⟨_, rfl, hl hgr⟩
      | true =>
        right
        obtain ⟨e1, e2⟩ := htrue hgr
        refine ⟨s.objs.length, ?_, ?_⟩
        · rw [e2]
          unfold assignKey
          exact List.mem_map.2 ⟨(_, s.objs.length), List.mem_append_right _ (List.mem_singleton.2 rfl), rfl⟩
        · unfold GState.parentOf
          rw [e1, List.getElem?_append_right (Nat.le_refl _), Nat.sub_self, hk0, hig]
          rfl
  · rw [if_neg hig] at hx
    exact hold hx

theorem makeGroups_filled {bounds : Rect} : ∀ {ls : List DLayer} {s s' : GState}, GInv s → Filled s →
    (∀ l ∈ ls, l.group = false → Spec.Complete l.layer.image) → (groupPlaces s.n ls).Nodup →
    (∀ e ∈ s.map, e.1 ∉ groupPlaces s.n ls) → makeGroups bounds ls s = .ok s' → Filled s' := by
  intro ls
  induction ls with
  | nil => intro s s' _ hf _ _ _ h; cases h; exact hf
  | cons l ls ih =>
    intro s s' hi hf hc hnd hnew h
    unfold makeGroups at h
    cases hs : groupStep bounds l s with
    | error e => rw [hs] at h; cases h
    | ok s1 =>
      rw [hs] at h
      dsimp only at h
      obtain ⟨gi, g, hl', hgi, hg, hlk, hhl, hit, hn, ha, hfalse, htrue⟩ := groupStep_ok hi hs
      unfold groupPlaces at hnd hnew
      rw [← hn] at hnd hnew
      have hnd2 := (List.nodup_append.1 hnd).2.1
      refine ih (groupStep_inv hi hs) (groupStep_filled hi hf (hc l List.mem_cons_self) ?_ hs)
        (fun l hl => hc l (List.mem_cons_of_mem _ hl)) hnd2 ?_ h
      · intro hgr e he
        have := hnew e he
        rw [hgr, if_pos rfl] at this
        exact fun hh => this (List.mem_append_left _ (List.mem_singleton.2 hh))
      · intro e he
        cases hgr : l.group with
        | false =>
          rw [(hfalse hgr).2] at he
          exact fun hh => hnew e he (List.mem_append_right _ hh)
        | true =>
          rw [(htrue hgr).2] at he
          unfold assignKey at he
          rcases List.mem_append.1 he with he | he
          · exact fun hh => hnew e (List.mem_filter.1 he).1 (List.mem_append_right _ hh)
          · rw [List.mem_singleton.1 he]
            rw [hgr, if_pos rfl] at hnd
            exact fun hh => (List.nodup_append.1 hnd).2.2 _ (List.mem_singleton.2 rfl) _ hh rfl

theorem groupTree_complete {s : GState} (hs : Filled s) : ∀ f i, ∀ l ∈ groupTree s (s.map.map (·.2)) f i, Spec.Complete l.image := by
  intro f
  induction f with
  | zero => intro i l hl; cases hl
  | succ f ih =>
    intro i l hl
    unfold groupTree at hl
    obtain ⟨k, hk, rfl⟩ := List.mem_mapIdx.1 hl
    dsimp only
    cases hch : childAt s (s.map.map (·.2)) i k with
    | some c =>
      dsimp only
      intro hw
      cases hw with
      | layer hm hw => exact ih c _ hm hw
    | none =>
      rcases hs i k _ (List.getElem?_eq_getElem hk) with ⟨im, h1, h2⟩ | ⟨c, hc, hp⟩
      · rw [h1]; exact h2
      · have := List.find?_eq_none.1 hch c hc
        simp [hp] at this

theorem built_palettes {b : Nat} {pal : List Color} {i : Img} (hb : Built b pal i)
    (hp : b ≤ 1 ∨ 256 ≤ pal.length) : Spec.FullPalettes i := by
  intro l pal' hw
  induction hb with
  | nil => cases hw
  | leaf e hk hb he =>
    cases hw
    intro hm
    have h2 : kindModel e.kind e.palette = .palette pal' ∨ kindModel e.kind e.palette = .alphaPalette pal' := hm
    have h3 : 2 ≤ b ∧ pal' = pal := by
      unfold kindModel at h2
      rw [← hb]
      split at h2
      · rcases h2 with h | h <;> cases h
      · rcases h2 with h | h <;> cases h
      · rename_i hk4
        rcases h2 with h | h
        · cases h; exact ⟨by omega, he⟩
        · cases h
      · rename_i hk4
        rcases h2 with h | h
        · cases h
        · cases h; exact ⟨by omega, he⟩
      · rcases h2 with h | h <;> cases h
    rcases hp with hp | hp
    · omega
    · rw [h3.2]; exact hp
  | text _ _ ih => cases hw with
    | text hw => exact ih hw
  | masked _ _ ih => cases hw with
    | masked hw => exact ih hw
  | group _ ih => cases hw with
    | layer hm hw => exact ih _ hm hw

/-- C53, from the contents of the file: if it is not indexed or has 256 colours, and no two groups are in the same place
(as layer groups written by Gimp, and by `Encode`, are not), every layer has an image, and `At` returns
a colour at every point. Here `ls` are the layers as they are stored in the file. -/
theorem C53_file_partial (env : Env) (sch : Sched) (hv : sch.Valid) (D : Bytes) (hd : Head) (r : R)
    (hh : readHead (newReader D) = .ok (.ok hd, r)) (hb : hd.baseType.toNat ≤ 1 ∨ hd.baseType.toNat = 2 ∧ 256 ≤ hd.props.palette.length)
    (ls : List DLayer)
    (hl : readLayers sch (hd.ctx env true) D hd.ptrs = .ok (ls, none)) (hn : (groupPlaces 0 ls).Nodup)
    (im : List Layer) (h : decodeImage env sch true D = .ok (.ok im)) :
    Spec.Complete (.group im) ∧ ∀ ρ p n, ((Img.group im).at ρ p n).isSome := by
  obtain ⟨hd', r', hh', hbuilt⟩ := decode_built hv h
  rw [hh] at hh'
  cases hh'
  unfold decodeImage at h
  rw [hh] at h
  dsimp only at h
  unfold decodeLayers at h
  rw [hl] at h
  dsimp only at h
  cases hm : makeGroups (sizeRect hd.width.toNat hd.height.toNat) ls GState.start with
  | error e => rw [hm] at h; cases h
  | ok s =>
    rw [hm] at h
    dsimp only at h
    have hi := makeGroups_inv ginv_start hm
    rw [makeImage_tree hi _ (hv.2 _)] at h
    have start : ∀ (i : Nat), GState.start.items i = [] := by
      intro i
      rcases Nat.eq_zero_or_pos i with rfl | hi0
      · rfl
      · unfold GState.items
        rw [List.getD_eq_getElem?_getD, List.getElem?_eq_none (by exact hi0)]
        rfl
    have hfill : Filled s := by
      refine makeGroups_filled ginv_start ?_ ?_ hn ?_ hm
      · intro i k l hx
        rw [start] at hx; cases hx
      · intro l hlm hg
        obtain ⟨p, _, r2, r3, e, he⟩ := readLayers_layers hv hl l hlm
        exact readLayer_complete (by show hd.baseType.toNat ≤ 2; omega) e he hg
      · intro e he
        rw [List.mem_singleton.1 he]
        intro hh
        have : ∀ (ls : List DLayer) n, [] ∉ groupPlaces n ls := by
          intro ls
          induction ls with
          | nil => intro n h; cases h
          | cons l ls ih =>
            intro n h
            unfold groupPlaces at h
            rcases List.mem_append.1 h with h | h
            · split at h
              · exact layerPlace_ne n l (List.mem_singleton.1 h).symm
              · cases h
            · exact ih _ h
        exact this _ _ hh
    have hcomp : Spec.Complete (.group im) := by
      have := fixBottom_images (P := Spec.Complete) (groupTree_complete hfill s.objs.length 0)
      cases h
      intro hw
      cases hw with
      | layer hm hw => exact this _ hm hw
    have hpal : Spec.FullPalettes (.group im) := built_palettes hbuilt (hb.imp id And.right)
    exact ⟨hcomp, fun ρ p n => (built_at hbuilt hcomp hpal).2 ρ p n⟩

/-- A file with a group and a layer in it, one pixel of red. -/
def oneGroup : Bytes :=
  fileTypeID ++ [118, 48, 48, 51, 0] ++ be 4 1 ++ be 4 1 ++ be 4 0 ++ be 4 0 ++ be 4 0 ++ be 4 46 ++ be 4 98 ++ be 4 0 ++
  -- 46: group
  be 4 1 ++ be 4 1 ++ be 4 1 ++ be 4 0 ++ be 4 29 ++ be 4 0 ++ be 4 30 ++ be 4 4 ++ be 4 0 ++ be 4 0 ++ be 4 0 ++
  be 4 0 ++ be 4 0 ++
  -- 98: layer
  be 4 1 ++ be 4 1 ++ be 4 1 ++ be 4 0 ++ be 4 30 ++ be 4 8 ++ be 4 0 ++ be 4 0 ++ be 4 0 ++ be 4 0 ++ be 4 146 ++ be 4 0 ++
  -- 146: hierarchy, 162: level, 178: tile
  be 4 1 ++ be 4 1 ++ be 4 4 ++ be 4 162 ++ be 4 1 ++ be 4 1 ++ be 4 178 ++ be 4 0 ++ [255, 0, 0, 255]

/-- the conditions of `C53_file_partial` as a computation -/
def placesDiffer (D : Bytes) : Bool :=
  match readHead (newReader D) with
  | .ok (.ok hd, _) =>
    match readLayers exSched (hd.ctx exEnv true) D hd.ptrs with
    | .ok (ls, none) => decide (groupPlaces 0 ls).Nodup && decide (ls.length = 2) && decide (hd.baseType.toNat ≤ 1)
    | _ => false
  | _ => false

example : placesDiffer oneGroup = true ∧ (decodeImage exEnv exSched true oneGroup).isImage = true := by
  decide +kernel

/-- one layer, not a group -/
def soleLeaf (x : Outcome (Except Err (List Layer))) : Bool :=
  match x with
  | .ok (.ok [⟨_, _, _, _, _, .leaf l⟩]) => decide (l.model = .grayAlpha)
  | .ok (.ok [⟨_, _, _, _, _, .masked (.leaf l) _⟩]) => decide (l.model = .grayAlpha)
  | _ => false

/-- the conditions of `C53_at_partial` for a file with a mask -/
example : ∃ im, decodeImage exEnv exSched true maskedLayer = .ok (.ok im) ∧ Spec.Complete (.group im) ∧
    Spec.FullPalettes (.group im) := by
  have h : soleLeaf (decodeImage exEnv exSched true maskedLayer) = true := by decide +kernel
  unfold soleLeaf at h
  split at h
  · rename_i l hx
    refine ⟨_, hx, ?_, ?_⟩
    · intro hw
      cases hw with
      | layer hm hw => rw [List.mem_singleton.1 hm] at hw; cases hw
    · intro x pal hw hp
      cases hw with
      | layer hm hw =>
        rw [List.mem_singleton.1 hm] at hw
        cases hw
        rw [of_decide_eq_true h] at hp
        rcases hp with hp | hp <;> cases hp
  · rename_i l hx
    refine ⟨_, hx, ?_, ?_⟩
    · intro hw
      cases hw with
      | layer hm hw =>
        rw [List.mem_singleton.1 hm] at hw
        cases hw with
        | masked hw => cases hw
    · intro x pal hw hp
      cases hw with
      | layer hm hw =>
        rw [List.mem_singleton.1 hm] at hw
        cases hw with
        | masked hw =>
          cases hw
          rw [of_decide_eq_true h] at hp
          rcases hp with hp | hp <;> cases hp
  · cases h

end Limage
