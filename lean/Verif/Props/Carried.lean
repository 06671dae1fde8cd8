import Verif.Props.Coverage
/-!
# C130, C131: pictures of grey layers are grey; channels do not mix

Both are instances of `at_paired`: what all steps of drawing keep, pictures keep.
-/
namespace Limage

namespace Spec

/-- one of the three channels -/
inductive Chan where
  | red
  | green
  | blue

/-- the channel of a colour that is not multiplied with alpha -/
def Chan.of : Chan → NRGBA64 → UInt16
  | .red, c => c.r
  | .green, c => c.g
  | .blue, c => c.b

/-- the channel of the result of `RGBA()` -/
def Chan.light : Chan → RGBA32 → UInt32
  | .red, c => c.r
  | .green, c => c.g
  | .blue, c => c.b

/-- channel `k` of the first colour is channel `k'` of the second, and the alpha is the same -/
def Carries (k k' : Chan) (c c' : Color) : Prop :=
  (k.of c.toNRGBA = k'.of c'.toNRGBA ∧ c.toNRGBA.a = c'.toNRGBA.a) ∧ k.light c.rgba32 = k'.light c'.rgba32 ∧ c.rgba32.a = c'.rgba32.a

/-- all channels are the same -/
def Grey (c : Color) : Prop :=
  (c.toNRGBA.g = c.toNRGBA.r ∧ c.toNRGBA.b = c.toNRGBA.r) ∧ c.rgba32.g = c.rgba32.r ∧ c.rgba32.b = c.rgba32.r

mutual
/-- the same tree of images with modes in `M`, whose pixels are related by `R` -/
def Paired (R : Color → Color → Prop) (M : Mode → Prop) (i j : Img) : Prop :=
  match i with
  | .leaf L => ∃ L', j = .leaf L' ∧ L.model.isPalette = L'.model.isPalette ∧ ∀ p c, L.pixel p = some c → ∃ c', L'.pixel p = some c' ∧ R c c'
  | .nil => j = .nil
  | .text i _ => ∃ j' t, j = .text j' t ∧ Paired R M i j'
  | .masked i m => ∃ j', j = .masked j' m ∧ Paired R M i j'
  | .group g => ∃ g', j = .group g' ∧ PairedLayers R M g g'
termination_by structural i

/-- the same for layers -/
def PairedLayers (R : Color → Color → Prop) (M : Mode → Prop) (g g' : List Layer) : Prop :=
  match g with
  | [] => g' = []
  | ⟨_, b, mode, invisible, tr, im⟩ :: rest =>
    ∃ l' rest', g' = l' :: rest' ∧ l'.bounds = b ∧ l'.mode = mode ∧ l'.invisible = invisible ∧ l'.transparency = tr ∧ M mode ∧
      Paired R M im l'.image ∧ PairedLayers R M rest rest'
termination_by structural g
end

end Spec
open Spec

/-- what drawing in the modes of `M` keeps -/
structure Kept (R : Color → Color → Prop) (M : Mode → Prop) : Prop where
  nothing : R (.alpha 0) (.alpha 0)
  transparency : ∀ {c c' : Color} (o : UInt8), R c c' → R (transparency c o) (transparency c' o)
  solid : ∀ {c c' : Color}, R c c' → c.toNRGBA.a = c'.toNRGBA.a ∧ R (.nrgba64 { c.toNRGBA with a := 0xffff }) (.nrgba64 { c'.toNRGBA with a := 0xffff })
  composite : ∀ (d : UInt16) {m : Mode}, M m → ∀ {b b' t t' : Color}, R b b' → R t t' →
    ∃ c c', composite d m b t = some c ∧ Limage.composite d m b' t' = some c' ∧ R c c'

/-- a result that is related, with as many random numbers drawn -/
def PairedResult (R : Color → Color → Prop) (x y : Option (Color × Nat)) : Prop := ∀ c n, x = some (c, n) → ∃ c', y = some (c', n) ∧ R c c'

theorem paired_model (R : Color → Color → Prop) (M : Mode → Prop) : ∀ (i j : Img), Paired R M i j →
    i.colorModel.map ColorModel.isPalette = j.colorModel.map ColorModel.isPalette
  | .leaf L, j, h => by
    rw [Paired] at h
    obtain ⟨L', rfl, hm, -⟩ := h
    rw [Img.colorModel, Img.colorModel, Option.map_some, Option.map_some, hm]
  | .nil, j, h => by rw [Paired] at h; rw [h]
  | .text i t, j, h => by
    rw [Paired] at h
    obtain ⟨j', t', rfl, h⟩ := h
    rw [Img.colorModel, Img.colorModel]
    exact paired_model R M i j' h
  | .masked i m, j, h => by
    rw [Paired] at h
    obtain ⟨j', rfl, h⟩ := h
    rw [Img.colorModel, Img.colorModel]
    exact paired_model R M i j' h
  | .group [], j, h => by
    rw [Paired] at h
    obtain ⟨g', rfl, h⟩ := h
    rw [PairedLayers] at h
    rw [h]
  | .group (⟨nm, b, mode, inv, tr, im⟩ :: rest), j, h => by
    rw [Paired] at h
    obtain ⟨g', rfl, h⟩ := h
    rw [PairedLayers] at h
    obtain ⟨l', rest', rfl, -, -, -, -, -, h, -⟩ := h
    rw [Img.colorModel, Img.colorModel, groupModel_cons, groupModel_cons]
    exact paired_model R M im l'.image h

theorem draw_paired {R : Color → Color → Prop} {M : Mode → Prop} (hk : Kept R M) (ρ : Nat → UInt16) {cm cm' : Option ColorModel}
    (hcm : cm.map ColorModel.isPalette = cm'.map ColorModel.isPalette) {l l' : Layer}
    (hb : l'.bounds = l.bounds) (hm : l'.mode = l.mode) (hi : l'.invisible = l.invisible) (ht : l'.transparency = l.transparency) (hM : M l.mode)
    (him : ∀ p n, PairedResult R (l.image.at ρ p n) (l'.image.at ρ p n)) (p : Pt) {c c' : Color} (hc : R c c') (n : Nat) :
    PairedResult R (drawLayer ρ cm l p c n) (drawLayer ρ cm' l' p c' n) := by
  have hss : shows p l' ↔ shows p l := by unfold shows; rw [hb, hi]
  by_cases hs : shows p l
  · rw [drawLayer_shows _ _ hs, drawLayer_shows _ _ (hss.2 hs)]
    intro r k hr
    cases cm with
    | none => cases hr
    | some m =>
    rw [Option.bind_some] at hr
    obtain ⟨⟨t, k1⟩, h1, hr⟩ := Option.bind_eq_some_iff.1 hr
    obtain ⟨⟨u, k2⟩, h2, h3⟩ := Option.bind_eq_some_iff.1 h1
    cases h3
    obtain ⟨u', h4, h5⟩ := him _ _ _ _ h2
    have h6 := hk.transparency (255 - l.transparency) h5
    have h7 : layerAt ρ l' p n = some (transparency u' (255 - l.transparency), k1) := by
      unfold layerAt
      rw [hb, h4, ht]
      rfl
    rw [h7]
    cases cm' with
    | none => cases hcm
    | some m' =>
      rw [Option.map_some, Option.map_some, Option.some.injEq] at hcm
      rw [Option.bind_some, Option.bind_some, hm]
      dsimp only at hr ⊢
      rw [← hcm]
      generalize transparency u (255 - l.transparency) = t at *
      generalize transparency u' (255 - l.transparency) = t' at *
      by_cases hp : (decide (l.mode ≠ Mode.dissolve) && m.isPalette) = true
      · rw [if_pos hp] at hr ⊢
        obtain ⟨e1, e2⟩ := hk.solid h6
        by_cases ha : t.toNRGBA.a > 0x7fff
        · rw [if_pos ha] at hr
          cases hr
          rw [if_pos (by rw [← e1]; exact ha)]
          exact ⟨_, rfl, e2⟩
        · rw [if_neg ha] at hr
          cases hr
          rw [if_neg (by rw [← e1]; exact ha)]
          exact ⟨_, rfl, hc⟩
      · rw [if_neg hp] at hr ⊢
        by_cases hd : l.mode = Mode.dissolve
        · rw [if_pos hd] at hr ⊢
          obtain ⟨x, x', e1, e2, e3⟩ := hk.composite (ρ k1) hM hc h6
          rw [e1] at hr
          cases hr
          exact ⟨x', by rw [e2]; rfl, e3⟩
        · rw [if_neg hd] at hr ⊢
          obtain ⟨x, x', e1, e2, e3⟩ := hk.composite 0 hM hc h6
          rw [e1] at hr
          cases hr
          exact ⟨x', by rw [e2]; rfl, e3⟩
  · rw [drawLayer_hidden _ _ hs, drawLayer_hidden _ _ (fun h => hs (hss.1 h))]
    intro r k hr
    cases hr
    exact ⟨_, rfl, hc⟩

mutual
/-- what all steps keep, pictures keep -/
theorem at_paired {R : Color → Color → Prop} {M : Mode → Prop} (hk : Kept R M) (ρ : Nat → UInt16) (i : Img) (j : Img) (h : Paired R M i j) (p : Pt) (n : Nat) :
    PairedResult R (i.at ρ p n) (j.at ρ p n) := by
  match i with
  | .leaf L =>
    rw [Paired] at h
    obtain ⟨L', rfl, -, h⟩ := h
    intro c k hc
    rw [Img.at] at hc ⊢
    obtain ⟨x, hx, hc⟩ := Option.map_eq_some_iff.1 hc
    cases hc
    obtain ⟨c', h1, h2⟩ := h p c hx
    exact ⟨c', by rw [h1]; rfl, h2⟩
  | .nil => intro c k hc; rw [Img.at] at hc; cases hc
  | .text i t =>
    rw [Paired] at h
    obtain ⟨j', t', rfl, h⟩ := h
    rw [Img.at, Img.at]
    exact at_paired hk ρ i j' h p n
  | .masked i m =>
    rw [Paired] at h
    obtain ⟨j', rfl, h⟩ := h
    intro c k hc
    rw [Img.at] at hc ⊢
    obtain ⟨⟨x, k1⟩, h1, hc⟩ := Option.bind_eq_some_iff.1 hc
    obtain ⟨a, rfl, hc⟩ := Option.bind_eq_some_iff.1 hc
    cases hc
    obtain ⟨x', h2, h3⟩ := at_paired hk ρ i j' h p n _ _ h1
    exact ⟨_, by rw [h2]; rfl, hk.transparency _ h3⟩
  | .group g =>
    have hcm := paired_model _ _ _ _ h
    rw [Paired] at h
    obtain ⟨g', rfl, h⟩ := h
    rw [Img.colorModel, Img.colorModel] at hcm
    rw [at_group, at_group]
    exact layersAt_paired hk ρ g g' h _ _ hcm p n
termination_by structural i

theorem layersAt_paired {R : Color → Color → Prop} {M : Mode → Prop} (hk : Kept R M) (ρ : Nat → UInt16) (g : List Layer) (g' : List Layer)
    (h : PairedLayers R M g g') (cm cm' : Option ColorModel)
    (hcm : cm.map ColorModel.isPalette = cm'.map ColorModel.isPalette) (p : Pt) (n : Nat) :
    PairedResult R (layersAt ρ cm g p n) (layersAt ρ cm' g' p n) := by
  match g with
  | [] =>
    rw [PairedLayers] at h
    rw [h, layersAt_nil, layersAt_nil]
    intro c k hc
    cases hc
    exact ⟨_, rfl, hk.nothing⟩
  | ⟨nm, b, mode, inv, tr, im⟩ :: rest =>
    rw [PairedLayers] at h
    obtain ⟨l', rest', rfl, hb, hm, hi, ht, hM, hf, h⟩ := h
    rw [layersAt_cons, layersAt_cons]
    intro c k hc
    obtain ⟨⟨x, k1⟩, h1, hc⟩ := Option.bind_eq_some_iff.1 hc
    obtain ⟨x', h2, h3⟩ := layersAt_paired hk ρ rest rest' h cm cm' hcm p n _ _ h1
    rw [h2, Option.bind_some]
    exact draw_paired hk ρ (l := ⟨nm, b, mode, inv, tr, im⟩) hcm hb hm hi ht hM (fun q m => at_paired hk ρ im l'.image hf q m) p h3 k1 c k hc
termination_by structural g
end

/-! ## Channels -/

theorem light_rgba (k : Chan) (n : NRGBA64) : k.light n.rgba = (k.of n).toUInt32 * n.a.toUInt32 / 0xffff := by cases k <;> rfl

theorem carries_nrgba {k k' : Chan} {n n' : NRGBA64} (h : k.of n = k'.of n') (ha : n.a = n'.a) : Carries k k' (.nrgba64 n) (.nrgba64 n') := by
  refine ⟨⟨h, ha⟩, ?_, ?_⟩
  · show k.light n.rgba = k'.light n'.rgba
    rw [light_rgba, light_rgba, h, ha]
  · show n.a.toUInt32 = n'.a.toUInt32
    rw [ha]

theorem of_alpha (k : Chan) (n : NRGBA64) (a : UInt16) : k.of { n with a := a } = k.of n := by cases k <;> rfl

theorem carries_transparency {k k' : Chan} {c c' : Color} (o : UInt8) (h : Carries k k' c c') : Carries k k' (transparency c o) (transparency c' o) := by
  unfold transparency
  by_cases h1 : o = 0xff
  · rw [if_pos h1, if_pos h1]; exact h
  · rw [if_neg h1, if_neg h1]
    by_cases h2 : o = 0
    · rw [if_pos h2, if_pos h2]
      refine carries_nrgba ?_ rfl
      cases k <;> cases k' <;> rfl
    · rw [if_neg h2, if_neg h2]
      refine carries_nrgba ?_ ?_
      · exact (of_alpha ..).trans (h.1.1.trans (of_alpha ..).symm)
      · dsimp only; rw [h.1.2]

theorem normal_of (b t c : NRGBA64) (h : ¬(b.a = 0 ∧ t.a = 0)) (hc : compositeNormal b t = some c) (k : Chan) :
    (k.of c).toNat = blendNat b.a.toNat (k.of b).toNat t.a.toNat (k.of t).toNat ∧ c.a.toNat = cover b.a.toNat t.a.toNat := by
  obtain ⟨c', hc', h1, h2, h3, h4⟩ := compositeNormal_eq b t h
  rw [hc] at hc'
  cases hc'
  cases k
  · exact ⟨h1, h4⟩
  · exact ⟨h2, h4⟩
  · exact ⟨h3, h4⟩

theorem carries_normal (d : UInt16) {k k' : Chan} {b b' t t' : Color} (hb : Carries k k' b b') (ht : Carries k k' t t') :
    ∃ c c', composite d Mode.normal b t = some c ∧ composite d Mode.normal b' t' = some c' ∧ Carries k k' c c' := by
  rw [composite_normal, composite_normal]
  obtain ⟨⟨hb1, hb2⟩, -⟩ := hb
  obtain ⟨⟨ht1, ht2⟩, -⟩ := ht
  generalize b.toNRGBA = b at *
  generalize t.toNRGBA = t at *
  generalize b'.toNRGBA = b' at *
  generalize t'.toNRGBA = t' at *
  by_cases h : b.a = 0 ∧ t.a = 0
  · refine ⟨.nrgba64 ⟨0, 0, 0, 0⟩, .nrgba64 ⟨0, 0, 0, 0⟩, ?_, ?_, ?_⟩
    · rw [compositeNormal, if_pos h]; rfl
    · rw [compositeNormal, if_pos (by rw [← hb2, ← ht2]; exact h)]; rfl
    · refine carries_nrgba ?_ rfl
      cases k <;> cases k' <;> rfl
  · have h' : ¬(b'.a = 0 ∧ t'.a = 0) := by rw [← hb2, ← ht2]; exact h
    obtain ⟨c, hc, -⟩ := compositeNormal_eq b t h
    obtain ⟨c', hc', -⟩ := compositeNormal_eq b' t' h'
    obtain ⟨e1, e2⟩ := normal_of b t c h hc k
    obtain ⟨e1', e2'⟩ := normal_of b' t' c' h' hc' k'
    refine ⟨.nrgba64 c, .nrgba64 c', by rw [hc]; rfl, by rw [hc']; rfl, carries_nrgba (UInt16.toNat_inj.1 ?_) (UInt16.toNat_inj.1 ?_)⟩
    · rw [e1, e1', hb1, hb2, ht1, ht2]
    · rw [e2, e2', hb2, ht2]

/-- modes that treat all channels alike: all but the separable ones and Hue, Saturation, Color, Value and Luminosity -/
def Spec.Alikely (m : Mode) : Prop := m ∉ separable ∧ m ∉ ([11, 12, 13, 14, 22] : List UInt32)

/-- modes in which red does not depend on green and blue: all but Hue, Saturation, Color, Value and Luminosity -/
def Spec.Redly (m : Mode) : Prop := m ∉ ([11, 12, 13, 14, 22] : List UInt32)

theorem carries_alikely (d : UInt16) {k k' : Chan} {m : Mode} (hm : Alikely m) {b b' t t' : Color} (hb : Carries k k' b b') (ht : Carries k k' t t') :
    ∃ c c', composite d m b t = some c ∧ composite d m b' t' = some c' ∧ Carries k k' c c' := by
  by_cases ho : m ∈ ownArithmetic
  · have all : ∀ m ∈ ownArithmetic, m ∉ separable → m ∉ ([11, 12, 13, 14, 22] : List UInt32) → m = Mode.dissolve ∨ m = Mode.behind ∨ m = Mode.destinationAtop := by decide
    rcases all m ho hm.1 hm.2 with rfl | rfl | rfl
    · have e : ∀ b t, composite d Mode.dissolve b t = some (.nrgba64 (compositeDissolve d b.toNRGBA t.toNRGBA)) := fun _ _ => rfl
      refine ⟨_, _, e b t, e b' t', ?_⟩
      unfold compositeDissolve
      rw [hb.1.2]
      split
      · refine carries_nrgba ?_ rfl
        exact (of_alpha ..).trans (ht.1.1.trans (of_alpha ..).symm)
      · exact carries_nrgba hb.1.1 hb.1.2
    · have e : ∀ b t, composite d Mode.behind b t = some (.nrgba64 b.toNRGBA) := fun _ _ => rfl
      exact ⟨_, _, e b t, e b' t', carries_nrgba hb.1.1 hb.1.2⟩
    · rw [(C11_as_normal_partial d b t).2.2.2.2, (C11_as_normal_partial d b' t').2.2.2.2]
      exact carries_normal d ht hb
  · rw [C12_undefined_is_normal d m ho, C12_undefined_is_normal d m ho]
    exact carries_normal d hb ht

theorem carries_redly (d : UInt16) {m : Mode} (hm : Redly m) {b b' t t' : Color} (hb : Carries .red .red b b') (ht : Carries .red .red t t') :
    ∃ c c', composite d m b t = some c ∧ composite d m b' t' = some c' ∧ Carries .red .red c c' := by
  by_cases hs : m ∈ separable
  · obtain ⟨f, hf⟩ := separable_func hs
    rw [composite_channels hf, composite_channels hf]
    obtain ⟨⟨hb1, hb2⟩, -⟩ := hb
    obtain ⟨⟨ht1, ht2⟩, -⟩ := ht
    change b.toNRGBA.r = b'.toNRGBA.r at hb1
    change t.toNRGBA.r = t'.toNRGBA.r at ht1
    by_cases h : b.toNRGBA.a = 0
    · refine ⟨.nrgba 0 0 0 0, .nrgba 0 0 0 0, by rw [compositeChannels, if_pos h], by rw [compositeChannels, if_pos (by rw [← hb2]; exact h)], ?_⟩
      exact ⟨⟨rfl, rfl⟩, rfl, rfl⟩
    · obtain ⟨c, hc, ha, hr, -⟩ := compositeChannels_eq f b.toNRGBA t.toNRGBA h
      obtain ⟨c', hc', ha', hr', -⟩ := compositeChannels_eq f b'.toNRGBA t'.toNRGBA (by rw [← hb2]; exact h)
      refine ⟨_, _, hc, hc', carries_nrgba (UInt16.toNat_inj.1 ?_) (by rw [ha, ha', hb2])⟩
      show c.r.toNat = c'.r.toNat
      rw [hr, hr', hb1, hb2, ht1, ht2]
  · exact carries_alikely d ⟨hs, hm⟩ hb ht

theorem carries_kept {k k' : Chan} {M : Mode → Prop}
    (hM : ∀ (d : UInt16) {m : Mode}, M m → ∀ {b b' t t' : Color}, Carries k k' b b' → Carries k k' t t' →
      ∃ c c', composite d m b t = some c ∧ composite d m b' t' = some c' ∧ Carries k k' c c') : Kept (Carries k k') M where
  nothing := by cases k <;> cases k' <;> exact ⟨⟨rfl, rfl⟩, rfl, rfl⟩
  transparency o h := carries_transparency o h
  solid h := ⟨h.1.2, carries_nrgba ((of_alpha ..).trans (h.1.1.trans (of_alpha ..).symm)) rfl⟩
  composite := hM

/-- **C131**: in pictures of layers with modes other than the separable ones and Hue, Saturation, Color, Value and Luminosity, each channel depends on that
channel and the alpha of the images only, and all channels in the same way: if channel `k` of all pixels of all images is channel `k'` of those of another
picture, so it is in the picture.  Missing: the separable modes, for green and blue (refuted below). -/
theorem C131_channels_partial (k k' : Chan) (ρ : Nat → UInt16) (i j : Img) (h : Paired (Carries k k') Alikely i j) (p : Pt) (n : Nat) (c : Color) (m : Nat)
    (hc : i.at ρ p n = some (c, m)) : ∃ c', j.at ρ p n = some (c', m) ∧ Carries k k' c c' :=
  at_paired (carries_kept fun d _ hm _ _ _ _ hb ht => carries_alikely d hm hb ht) ρ i j h p n c m hc

/-- a layer over another, both of one colour -/
def twoCoats (m : Mode) (t b : Color) : Img :=
  .group [⟨[], ⟨0, 0, 4, 4⟩, m, false, 0, plainLeaf t .other⟩, ⟨[], ⟨0, 0, 4, 4⟩, Mode.normal, false, 30, plainLeaf b .other⟩]

theorem twoCoats_paired {R : Color → Color → Prop} {M : Mode → Prop} {m : Mode} (hm : M m) (hn : M Mode.normal) {t t' b b' : Color} (ht : R t t') (hb : R b b') :
    Paired R M (twoCoats m t b) (twoCoats m t' b') := by
  have leaf : ∀ c c', R c c' → Paired R M (plainLeaf c .other) (plainLeaf c' .other) := by
    intro c c' h
    unfold plainLeaf
    rw [Paired]
    exact ⟨_, rfl, rfl, fun p x hx => by cases hx; exact ⟨c', rfl, h⟩⟩
  unfold twoCoats
  rw [Paired]
  refine ⟨_, rfl, ?_⟩
  rw [PairedLayers]
  refine ⟨_, _, rfl, rfl, rfl, rfl, rfl, hm, leaf _ _ ht, ?_⟩
  rw [PairedLayers]
  refine ⟨_, _, rfl, rfl, rfl, rfl, rfl, hn, leaf _ _ hb, ?_⟩
  rw [PairedLayers]

-- the blue channel of one picture is the red channel of the other
example : Paired (Carries .blue .red) Alikely (twoCoats Mode.dissolve (.nrgba 1 2 3 100) (.lrgb 4 5 6)) (twoCoats Mode.dissolve (.nrgba 3 9 7 100) (.gray 6)) ∧
    ∃ c m, (twoCoats Mode.dissolve (.nrgba 1 2 3 100) (.lrgb 4 5 6)).at (fun _ => 7) ⟨1, 1⟩ 0 = some (c, m) :=
  ⟨twoCoats_paired (by unfold Alikely; decide) (by unfold Alikely; decide) ⟨⟨rfl, rfl⟩, rfl, rfl⟩ ⟨⟨by decide, by decide⟩, by decide, by decide⟩, _, _, by cbv⟩

/-- **C131**: the red channel of a picture does not depend on green and blue in the separable modes either. -/
theorem C131_red_partial (ρ : Nat → UInt16) (i j : Img) (h : Paired (Carries .red .red) Redly i j) (p : Pt) (n : Nat) (c : Color) (m : Nat)
    (hc : i.at ρ p n = some (c, m)) : ∃ c', j.at ρ p n = some (c', m) ∧ Carries .red .red c c' :=
  at_paired (carries_kept fun d _ hm _ _ _ _ hb ht => carries_redly d hm hb ht) ρ i j h p n c m hc

-- the same red
example : Paired (Carries .red .red) Redly (twoCoats Mode.multiply (.nrgba 1 2 3 100) (.lrgb 4 5 6)) (twoCoats Mode.multiply (.nrgba 1 9 7 100) (.gray 4)) :=
  twoCoats_paired (by unfold Redly; decide) (by unfold Redly; decide) ⟨⟨rfl, rfl⟩, rfl, rfl⟩ ⟨⟨by decide, by decide⟩, by decide, by decide⟩

/-- the claim in full: also in the separable modes each channel of a picture depends on that channel of its images only -/
def Spec.ChannelsApart : Prop := ∀ (k k' : Chan) (ρ : Nat → UInt16) (i j : Img), Paired (Carries k k') Redly i j → ∀ (p : Pt) (n : Nat) (c : Color) (m : Nat),
  i.at ρ p n = some (c, m) → ∃ c', j.at ρ p n = some (c', m) ∧ Carries k k' c c'

/-- **C131**: the claim is false: in mode Multiply the green of the picture depends on the red of the lower layer. -/
theorem C131_refuted : ¬ChannelsApart := by
  intro h
  have hp : Paired (Carries .green .green) Redly (twoCoats Mode.multiply (.gray 255) (.lrgb 0 255 0)) (twoCoats Mode.multiply (.gray 255) (.lrgb 255 255 0)) :=
    twoCoats_paired (by unfold Redly; decide) (by unfold Redly; decide) ⟨⟨rfl, rfl⟩, rfl, rfl⟩ ⟨⟨rfl, rfl⟩, rfl, rfl⟩
  have e : ∃ c, (twoCoats Mode.multiply (.gray 255) (.lrgb 0 255 0)).at (fun _ => 0) ⟨0, 0⟩ 0 = some (c, 0) ∧ c.toNRGBA.g.toNat < 65535 := ⟨_, by cbv, by decide⟩
  have e' : ∃ c, (twoCoats Mode.multiply (.gray 255) (.lrgb 255 255 0)).at (fun _ => 0) ⟨0, 0⟩ 0 = some (c, 0) ∧ c.toNRGBA.g = 65535 := ⟨_, by cbv, by decide⟩
  obtain ⟨c, hc, hg⟩ := e
  obtain ⟨c', hc', hg'⟩ := e'
  obtain ⟨c'', h1, h2⟩ := h _ _ _ _ _ hp _ _ _ _ hc
  rw [hc'] at h1
  cases h1
  have := h2.1.1
  change c.toNRGBA.g = c'.toNRGBA.g at this
  rw [this, hg'] at hg
  exact absurd hg (by decide)

/-! ## Grey -/

theorem grey_of_nrgba {n : NRGBA64} (hg : n.g = n.r) (hb : n.b = n.r) : Grey (.nrgba64 n) := by
  refine ⟨⟨hg, hb⟩, ?_, ?_⟩
  · show n.g.toUInt32 * n.a.toUInt32 / 0xffff = n.r.toUInt32 * n.a.toUInt32 / 0xffff
    rw [hg]
  · show n.b.toUInt32 * n.a.toUInt32 / 0xffff = n.r.toUInt32 * n.a.toUInt32 / 0xffff
    rw [hb]

theorem grey_hsv {n : NRGBA64} (hg : n.g = n.r) (hb : n.b = n.r) : ∃ h, rgbToHSV n = some h ∧ h.s = 0 := by
  obtain ⟨r, g, b, a⟩ := n
  dsimp only at hg hb
  subst hg hb
  have hmx := goMax3 b b b
  have hmn := goMin3 b b b
  unfold rgbToHSV
  dsimp only
  generalize goMax [b, b, b] = mx at *
  generalize goMin [b, b, b] = mn at *
  have e1 : mx = b := UInt16.toNat_inj.1 (by omega)
  have e2 : mn = b := UInt16.toNat_inj.1 (by omega)
  rw [e1, e2, if_pos (by simp)]
  exact ⟨_, rfl, rfl⟩

theorem grey_hsl {n : NRGBA64} (hg : n.g = n.r) (hb : n.b = n.r) : ∃ h, rgbToHSL n = some h ∧ h.s = 0 := by
  obtain ⟨r, g, b, a⟩ := n
  dsimp only at hg hb
  subst hg hb
  have hmx := goMax3 b b b
  have hmn := goMin3 b b b
  unfold rgbToHSL
  dsimp only
  generalize goMax [b, b, b] = mx at *
  generalize goMin [b, b, b] = mn at *
  have e1 : mx = b := UInt16.toNat_inj.1 (by omega)
  have e2 : mn = b := UInt16.toNat_inj.1 (by omega)
  rw [e1, e2, if_pos (by simp)]
  exact ⟨_, rfl, rfl⟩

theorem grey_hsva (h v a : UInt16) : Grey (.hsva h 0 v a) := by
  have e : (HSVA.mk h 0 v a).toNRGBA = ⟨v, v, v, a⟩ := by unfold HSVA.toNRGBA; rw [if_pos rfl]
  unfold Grey Color.toNRGBA Color.rgba32
  rw [e]
  exact ⟨⟨rfl, rfl⟩, rfl, rfl⟩

theorem grey_hsla (h l a : UInt16) : Grey (.hsla h 0 l a) := by
  have e : (HSLA.mk h 0 l a).toNRGBA = ⟨l, l, l, a⟩ := by unfold HSLA.toNRGBA; rw [if_pos rfl]
  unfold Grey Color.toNRGBA Color.rgba32
  rw [e]
  exact ⟨⟨rfl, rfl⟩, rfl, rfl⟩

theorem grey_normal (d : UInt16) {b t : Color} (hb : Grey b) (ht : Grey t) : ∃ c, composite d Mode.normal b t = some c ∧ Grey c := by
  rw [composite_normal]
  by_cases h : b.toNRGBA.a = 0 ∧ t.toNRGBA.a = 0
  · exact ⟨.nrgba64 ⟨0, 0, 0, 0⟩, by rw [compositeNormal, if_pos h]; rfl, grey_of_nrgba rfl rfl⟩
  · obtain ⟨c, hc, h1, h2, h3, -⟩ := compositeNormal_eq _ _ h
    refine ⟨.nrgba64 c, by rw [hc]; rfl, grey_of_nrgba (UInt16.toNat_inj.1 ?_) (UInt16.toNat_inj.1 ?_)⟩
    · rw [h1, h2, hb.1.1, ht.1.1]
    · rw [h1, h3, hb.1.2, ht.1.2]

theorem grey_composite (d : UInt16) (m : Mode) {b t : Color} (hb : Grey b) (ht : Grey t) : ∃ c, composite d m b t = some c ∧ Grey c := by
  by_cases hs : m ∈ separable
  · obtain ⟨f, hf⟩ := separable_func hs
    rw [composite_channels hf]
    by_cases h : b.toNRGBA.a = 0
    · exact ⟨.nrgba 0 0 0 0, by rw [compositeChannels, if_pos h], ⟨rfl, rfl⟩, rfl, rfl⟩
    · obtain ⟨c, hc, -, hr, hg, hbl⟩ := compositeChannels_eq f b.toNRGBA t.toNRGBA h
      refine ⟨_, hc, grey_of_nrgba (UInt16.toNat_inj.1 ?_) (UInt16.toNat_inj.1 ?_)⟩
      · rw [hr, hg, hb.1.1, ht.1.1]
      · rw [hr, hbl, hb.1.2, ht.1.2]
  by_cases ho : m ∈ ownArithmetic
  · have all : ∀ m ∈ ownArithmetic, m ∉ separable → m = Mode.dissolve ∨ m = Mode.behind ∨ m = Mode.hue ∨ m = Mode.saturation ∨ m = Mode.value ∨
        m = Mode.luminosity ∨ m = Mode.destinationAtop ∨ m = Mode.color := by decide
    obtain ⟨hv, ehv, sv⟩ := grey_hsv hb.1.1 hb.1.2
    obtain ⟨hv', ehv', sv'⟩ := grey_hsv ht.1.1 ht.1.2
    obtain ⟨hl, ehl, sl⟩ := grey_hsl hb.1.1 hb.1.2
    obtain ⟨hl', ehl', sl'⟩ := grey_hsl ht.1.1 ht.1.2
    rcases all m ho hs with rfl | rfl | rfl | rfl | rfl | rfl | rfl | rfl
    · have e : composite d Mode.dissolve b t = some (.nrgba64 (compositeDissolve d b.toNRGBA t.toNRGBA)) := rfl
      refine ⟨_, e, ?_⟩
      unfold compositeDissolve
      split
      · exact grey_of_nrgba ht.1.1 ht.1.2
      · exact grey_of_nrgba hb.1.1 hb.1.2
    · have e : composite d Mode.behind b t = some (.nrgba64 b.toNRGBA) := rfl
      exact ⟨_, e, grey_of_nrgba hb.1.1 hb.1.2⟩
    · have e : composite d Mode.hue b t = compositeHue b.toNRGBA t.toNRGBA := rfl
      refine ⟨.nrgba64 b.toNRGBA, ?_, grey_of_nrgba hb.1.1 hb.1.2⟩
      rw [e]
      unfold compositeHue
      dsimp only
      rw [if_pos]
      unfold NRGBA64.rgba
      rw [ht.1.1, ht.1.2]
      exact ⟨rfl, rfl⟩
    · have e : composite d Mode.saturation b t = compositeSaturation b.toNRGBA t.toNRGBA := rfl
      refine ⟨.hsva hv.h hv'.s hv.v hv.a, by rw [e]; unfold compositeSaturation; rw [ehv, ehv']; rfl, ?_⟩
      rw [sv']
      exact grey_hsva _ _ _
    · have e : composite d Mode.value b t = compositeValue b.toNRGBA t.toNRGBA := rfl
      refine ⟨.hsva hv.h hv.s hv'.v hv.a, by rw [e]; unfold compositeValue; rw [ehv, ehv']; rfl, ?_⟩
      rw [sv]
      exact grey_hsva _ _ _
    · have e : composite d Mode.luminosity b t = compositeColor t.toNRGBA b.toNRGBA := rfl
      refine ⟨.hsla hl.h hl.s hl'.l hl.a, by rw [e]; unfold compositeColor; rw [ehl, ehl']; rfl, ?_⟩
      rw [sl]
      exact grey_hsla _ _ _
    · rw [(C11_as_normal_partial d b t).2.2.2.2]
      exact grey_normal d ht hb
    · have e : composite d Mode.color b t = compositeColor b.toNRGBA t.toNRGBA := rfl
      refine ⟨.hsla hl'.h hl'.s hl.l hl'.a, by rw [e]; unfold compositeColor; rw [ehl, ehl']; rfl, ?_⟩
      rw [sl']
      exact grey_hsla _ _ _
  · rw [C12_undefined_is_normal d m ho]
    exact grey_normal d hb ht

theorem grey_transparency {c : Color} (o : UInt8) (h : Grey c) : Grey (transparency c o) := by
  unfold transparency
  split
  · exact h
  · split
    · exact grey_of_nrgba rfl rfl
    · exact grey_of_nrgba h.1.1 h.1.2

theorem grey_kept : Kept (fun c c' => Grey c ∧ c = c') fun _ => True where
  nothing := ⟨⟨⟨rfl, rfl⟩, rfl, rfl⟩, rfl⟩
  transparency o h := ⟨grey_transparency o h.1, by rw [h.2]⟩
  solid h := ⟨by rw [h.2], grey_of_nrgba h.1.1.1 h.1.1.2, by rw [h.2]⟩
  composite d m _ b b' t t' hb ht := by
    obtain ⟨c, hc, hg⟩ := grey_composite d m hb.1 ht.1
    rw [← hb.2, ← ht.2]
    exact ⟨c, c, hc, hc, hg, rfl⟩

mutual
/-- all pixels of all images in it are grey -/
def Spec.GreyImage (i : Img) : Prop :=
  match i with
  | .leaf L => ∀ p c, L.pixel p = some c → Grey c
  | .nil => True
  | .text i _ => GreyImage i
  | .masked i _ => GreyImage i
  | .group g => GreyLayers g
termination_by structural i

/-- the images of all layers are grey -/
def Spec.GreyLayers (g : List Layer) : Prop :=
  match g with
  | [] => True
  | ⟨_, _, _, _, _, im⟩ :: rest => GreyImage im ∧ GreyLayers rest
termination_by structural g
end

mutual
theorem grey_paired (i : Img) (h : GreyImage i) : Paired (fun c c' => Grey c ∧ c = c') (fun _ => True) i i := by
  match i with
  | .leaf L =>
    rw [GreyImage] at h
    rw [Paired]
    exact ⟨L, rfl, rfl, fun p c hc => ⟨c, hc, h p c hc, rfl⟩⟩
  | .nil => rw [Paired]
  | .text i t =>
    rw [GreyImage] at h
    rw [Paired]
    exact ⟨i, t, rfl, grey_paired i h⟩
  | .masked i m =>
    rw [GreyImage] at h
    rw [Paired]
    exact ⟨i, rfl, grey_paired i h⟩
  | .group g =>
    rw [GreyImage] at h
    rw [Paired]
    exact ⟨g, rfl, greyLayers_paired g h⟩
termination_by structural i

theorem greyLayers_paired (g : List Layer) (h : GreyLayers g) : PairedLayers (fun c c' => Grey c ∧ c = c') (fun _ => True) g g := by
  match g with
  | [] => rw [PairedLayers]
  | ⟨nm, b, mode, inv, tr, im⟩ :: rest =>
    rw [GreyLayers] at h
    rw [PairedLayers]
    exact ⟨_, _, rfl, rfl, rfl, rfl, rfl, trivial, grey_paired im h.1, greyLayers_paired rest h.2⟩
termination_by structural g
end

/-- **C130**: if all pixels of all images in a picture are grey, all pixels of the picture are, in all modes. -/
theorem C130_grey (ρ : Nat → UInt16) (i : Img) (h : GreyImage i) (p : Pt) (n : Nat) (c : Color) (m : Nat) (hc : i.at ρ p n = some (c, m)) :
    c.rgba32.g = c.rgba32.r ∧ c.rgba32.b = c.rgba32.r := by
  obtain ⟨c', -, hg, -⟩ := at_paired grey_kept ρ i i (grey_paired i h) p n c m hc
  exact hg.2

-- two grey layers
example : GreyImage (twoCoats Mode.hue (.grayAlpha 7 100) (.gray 9)) ∧
    ∃ c m, (twoCoats Mode.hue (.grayAlpha 7 100) (.gray 9)).at (fun _ => 7) ⟨1, 1⟩ 0 = some (c, m) := by
  refine ⟨?_, _, _, by cbv⟩
  have leaf : ∀ c, Grey c → GreyImage (plainLeaf c .other) := by
    intro c h
    unfold plainLeaf
    rw [GreyImage]
    intro p x hx
    cases hx
    exact h
  unfold twoCoats
  rw [GreyImage, GreyLayers, GreyLayers, GreyLayers]
  exact ⟨leaf _ ⟨⟨by decide, by decide⟩, by decide, by decide⟩, leaf _ ⟨⟨by decide, by decide⟩, by decide, by decide⟩, trivial⟩

end Limage
