import Verif.Props.Coverage
/-!
# C138: layers in lightening modes lighten what is below and those in darkening modes darken it
-/
namespace Limage
open Spec

namespace Spec
/-- the modes that are to lighten, by number: Screen, Addition, Lighten Only, Divide and Dodge -/
def lightening : List UInt32 := [4, 7, 10, 15, 16]
/-- those that are to darken: Multiply, Subtract and Darken Only (for Burn see C08) -/
def darkening : List UInt32 := [3, 8, 9]
end Spec

theorem lightening_func {m : Mode} (h : m ∈ lightening) : ∃ f, channelFunc m = some f ∧ ∀ x y, x.toNat ≤ (f x y).toNat := by
  simp only [lightening, List.mem_cons, List.not_mem_nil, or_false] at h
  rcases h with rfl | rfl | rfl | rfl | rfl
  · refine ⟨_, rfl, fun x y => ?_⟩
    rw [screen_nat]
    have hx := u16_le x
    have := prod_div_le' (a := 65535 - x.toNat) (b := 65535 - y.toNat) (by omega)
    omega
  · refine ⟨_, rfl, fun x y => ?_⟩
    have hx := u16_le x
    rw [addition_nat]
    omega
  · refine ⟨_, rfl, fun x y => ?_⟩
    unfold compositeLightenOnly
    rw [goMax2]
    omega
  · refine ⟨_, rfl, fun x y => ?_⟩
    have hx := u16_le x
    have hy := u16_le y
    unfold compositeDivide
    by_cases h0 : y = 0
    · rw [if_pos h0]
      split
      · rename_i h; rw [h]
      · exact hx
    · rw [if_neg h0, clamp_nat, UInt32.toNat_div, mul32 _ _ (by rw [ffff32, toNat_16_32]; omega), ffff32, toNat_16_32, toNat_16_32]
      refine Nat.le_min.2 ⟨hx, ?_⟩
      rw [Nat.le_div_iff_mul_le (by have := u16_ne_nat h0; simp at this; omega), Nat.mul_comm]
      exact Nat.mul_le_mul_right _ hy
  · refine ⟨_, rfl, fun x y => ?_⟩
    have hx := u16_le x
    have hy := u16_le y
    unfold compositeDodge
    by_cases h0 : y = 0xffff
    · rw [if_pos h0]
      split
      · rename_i h; rw [h]
      · exact hx
    · rw [if_neg h0, clamp_nat, UInt32.toNat_div, mul32 _ _ (by rw [ffff32, toNat_16_32]; omega), ffff32, inv32, toNat_16_32]
      refine Nat.le_min.2 ⟨hx, ?_⟩
      rw [Nat.le_div_iff_mul_le (by have := u16_ne_nat h0; simp at this; omega), Nat.mul_comm]
      exact Nat.mul_le_mul_right _ (by omega)

theorem darkening_func {m : Mode} (h : m ∈ darkening) : ∃ f, channelFunc m = some f ∧ ∀ x y, (f x y).toNat ≤ x.toNat := by
  simp only [darkening, List.mem_cons, List.not_mem_nil, or_false] at h
  rcases h with rfl | rfl | rfl
  · refine ⟨_, rfl, fun x y => ?_⟩
    rw [multiply_nat]
    exact prod_div_le' (u16_le y)
  · refine ⟨_, rfl, fun x y => ?_⟩
    unfold compositeSubtract
    split
    · simp
    · rename_i h
      rw [gt_iff_lt, UInt16.lt_iff_toNat_lt] at h
      rw [sub16 _ _ (by omega)]
      omega
  · refine ⟨_, rfl, fun x y => ?_⟩
    unfold compositeDarkenOnly
    rw [goMin2]
    omega

/-- C138 as one would like it: a layer in a lightening mode makes no channel darker. -/
def Lightens : Prop := ∀ (m : Mode) (b t : NRGBA64), m ∈ lightening → b.a ≠ 0 →
  ∃ c, composite 0 m (.nrgba64 b) (.nrgba64 t) = some (.nrgba64 c) ∧ b.r ≤ c.r ∧ b.g ≤ c.g ∧ b.b ≤ c.b

/-- C138 as one would like it: a layer in a darkening mode makes no channel lighter. -/
def Darkens : Prop := ∀ (m : Mode) (b t : NRGBA64), m ∈ darkening → b.a ≠ 0 →
  ∃ c, composite 0 m (.nrgba64 b) (.nrgba64 t) = some (.nrgba64 c) ∧ c.r ≤ b.r ∧ c.g ≤ b.g ∧ c.b ≤ b.b

/-- **C138** is false of the lightening modes: Lighten Only makes black out of green below black, as the red of what is below is used for all channels
(composite.go:171-176). -/
theorem C138_lightens_refuted : ¬ Lightens := by
  intro h
  obtain ⟨c, hc, -, hg, -⟩ := h 10 ⟨0, 0xffff, 0, 0xffff⟩ ⟨0, 0, 0, 0xffff⟩ (by decide) (by decide)
  have : composite 0 10 (.nrgba64 ⟨0, 0xffff, 0, 0xffff⟩) (.nrgba64 ⟨0, 0, 0, 0xffff⟩) = some (.nrgba64 ⟨0, 0, 0, 0xffff⟩) := by decide
  rw [this] at hc
  injection hc with hc; injection hc with hc
  rw [← hc] at hg
  exact absurd hg (by decide)

/-- **C138** is false of the darkening modes: Darken Only makes white out of red below white. -/
theorem C138_darkens_refuted : ¬ Darkens := by
  intro h
  obtain ⟨c, hc, -, hg, -⟩ := h 9 ⟨0xffff, 0, 0, 0xffff⟩ ⟨0xffff, 0xffff, 0xffff, 0xffff⟩ (by decide) (by decide)
  have : composite 0 9 (.nrgba64 ⟨0xffff, 0, 0, 0xffff⟩) (.nrgba64 ⟨0xffff, 0xffff, 0xffff, 0xffff⟩) = some (.nrgba64 ⟨0xffff, 0xffff, 0xffff, 0xffff⟩) := by
    decide
  rw [this] at hc
  injection hc with hc; injection hc with hc
  rw [← hc] at hg
  exact absurd hg (by decide)

/-- **C138**: and a layer that covers half, in mode Lighten Only, of the very grey that is below, makes it darker by one, as the two parts of `blend` are
rounded down each. -/
theorem C138_by_one_refuted : ∃ (b t c : NRGBA64), b.a = 0xffff ∧ composite 0 Mode.lightenOnly (.nrgba64 b) (.nrgba64 t) = some (.nrgba64 c) ∧
    t.r = b.r ∧ c.r < b.r :=
  ⟨⟨0x101, 0x101, 0x101, 0xffff⟩, ⟨0x101, 0x101, 0x101, 0x8080⟩, ⟨0x100, 0x100, 0x100, 0xffff⟩, by decide⟩

theorem blendNat_lighter {a1 x1 a2 x2 : Nat} (h1 : a1 ≤ 65535) (h2 : a2 ≤ 65535) (h : x1 ≤ x2) : x1 ≤ blendNat a1 x1 a2 x2 + 1 := by
  have := min_le_mix (x1 := x1) (x2 := x2) (mixK_le h1 h2)
  rw [Nat.min_eq_left h] at this
  exact this

theorem blendNat_darker {a1 x1 a2 x2 : Nat} (h1 : a1 ≤ 65535) (h2 : a2 ≤ 65535) (h : x2 ≤ x1) : blendNat a1 x1 a2 x2 ≤ x1 := by
  have := blendNat_le a1 x1 a2 x2 h1 h2
  rw [Nat.max_eq_left h] at this
  exact this

/-- **C138**, the part that holds of the lightening modes: where there is something below, its red gets darker by one at most, and not at all if the layer
is opaque; the same holds of green and blue where they are as red below.  Missing: green and blue elsewhere. -/
theorem C138_lightens_partial (draw : UInt16) (m : Mode) (hm : m ∈ lightening) (b t : Color) (hb : b.toNRGBA.a ≠ 0) :
    ∃ c, composite draw m b t = some (.nrgba64 c) ∧ c.a = b.toNRGBA.a ∧ b.toNRGBA.r.toNat ≤ c.r.toNat + 1 ∧
      (b.toNRGBA.g = b.toNRGBA.r → b.toNRGBA.g.toNat ≤ c.g.toNat + 1) ∧ (b.toNRGBA.b = b.toNRGBA.r → b.toNRGBA.b.toNat ≤ c.b.toNat + 1) ∧
      (b.toNRGBA.a = 0xffff → t.toNRGBA.a = 0xffff → b.toNRGBA.r ≤ c.r ∧ (b.toNRGBA.g = b.toNRGBA.r → b.toNRGBA.g ≤ c.g) ∧
        (b.toNRGBA.b = b.toNRGBA.r → b.toNRGBA.b ≤ c.b)) := by
  obtain ⟨f, hf, hle⟩ := lightening_func hm
  rw [composite_channels hf]
  obtain ⟨c, hc, ha, hr, hg, hbl⟩ := compositeChannels_eq f b.toNRGBA t.toNRGBA hb
  have h1 := u16_le b.toNRGBA.a
  have h2 : min b.toNRGBA.a.toNat t.toNRGBA.a.toNat ≤ 65535 := by omega
  refine ⟨c, hc, ha, ?_, fun e => ?_, fun e => ?_, fun ea et => ⟨?_, fun e => ?_, fun e => ?_⟩⟩
  · rw [hr]; exact blendNat_lighter h1 h2 (hle _ _)
  · rw [hg]; rw [e]; exact blendNat_lighter h1 h2 (hle _ _)
  · rw [hbl]; rw [e]; exact blendNat_lighter h1 h2 (hle _ _)
  · rw [UInt16.le_iff_toNat_le, hr, ea, et]
    simp only [ffff16, Nat.min_self, blendNat_topFull]
    exact hle _ _
  · rw [UInt16.le_iff_toNat_le, hg, ea, et, e]
    simp only [ffff16, Nat.min_self, blendNat_topFull]
    exact hle _ _
  · rw [UInt16.le_iff_toNat_le, hbl, ea, et, e]
    simp only [ffff16, Nat.min_self, blendNat_topFull]
    exact hle _ _

/-- Screen, half transparent, on a grey -/
example : Mode.screen ∈ lightening ∧ composite 0 Mode.screen (.nrgba64 ⟨0x4000, 0x4000, 0x4000, 0xffff⟩) (.nrgba64 ⟨0x8000, 0x8000, 0x8000, 0x8000⟩) ≠ none := by decide

/-- **C138**, the part that holds of the darkening modes: where there is something below, its red gets no lighter; the same holds of green and blue where they
are as red below.  Missing: green and blue elsewhere. -/
theorem C138_darkens_partial (draw : UInt16) (m : Mode) (hm : m ∈ darkening) (b t : Color) (hb : b.toNRGBA.a ≠ 0) :
    ∃ c, composite draw m b t = some (.nrgba64 c) ∧ c.a = b.toNRGBA.a ∧ c.r ≤ b.toNRGBA.r ∧
      (b.toNRGBA.g = b.toNRGBA.r → c.g ≤ b.toNRGBA.g) ∧ (b.toNRGBA.b = b.toNRGBA.r → c.b ≤ b.toNRGBA.b) := by
  obtain ⟨f, hf, hle⟩ := darkening_func hm
  rw [composite_channels hf]
  obtain ⟨c, hc, ha, hr, hg, hbl⟩ := compositeChannels_eq f b.toNRGBA t.toNRGBA hb
  have h1 := u16_le b.toNRGBA.a
  have h2 : min b.toNRGBA.a.toNat t.toNRGBA.a.toNat ≤ 65535 := by omega
  refine ⟨c, hc, ha, ?_, fun e => ?_, fun e => ?_⟩ <;> rw [UInt16.le_iff_toNat_le]
  · rw [hr]; exact blendNat_darker h1 h2 (hle _ _)
  · rw [hg]; rw [e]; exact blendNat_darker h1 h2 (hle _ _)
  · rw [hbl]; rw [e]; exact blendNat_darker h1 h2 (hle _ _)

example : Mode.dodge ∈ lightening ∧ Mode.subtract ∈ darkening ∧ (Color.grayAlpha 7 100).toNRGBA.a ≠ 0 := by decide
-- half a Screen layer lightens, half a Multiply layer darkens
example : composite 0 Mode.screen (.gray 100) (.grayAlpha 50 128) = some (.nrgba64 ⟨29620, 29620, 29620, 0xffff⟩) ∧
    composite 0 Mode.multiply (.gray 100) (.grayAlpha 50 128) = some (.nrgba64 ⟨15328, 15328, 15328, 0xffff⟩) := by decide

/-- what drawing a layer in a separable mode does, in an image that is not indexed -/
theorem drawLayer_separable {ρ : Nat → UInt16} {cm : Option ColorModel} {l : Layer} {p : Pt} {c c' : Color} {n n' : Nat} (hs : shows p l)
    (hcm : ∀ pal, cm ≠ some (.palette pal)) (hm : l.mode ≠ Mode.dissolve) (h : drawLayer ρ cm l p c n = some (c', n')) :
    ∃ t, composite 0 l.mode c t = some c' := by
  rw [drawLayer_shows _ _ hs] at h
  cases cm with
  | none => cases h
  | some cm =>
    rw [Option.bind_some] at h
    obtain ⟨⟨t, n1⟩, -, h⟩ := Option.bind_eq_some_iff.1 h
    dsimp only at h
    have hp : cm.isPalette = false := by
      cases cm <;> first | rfl | exact absurd rfl (hcm _)
    rw [if_neg (by simp [hp]), if_neg hm] at h
    obtain ⟨d, hd, h⟩ := Option.map_eq_some_iff.1 h
    injection h with h _
    exact ⟨t, by rw [hd, h]⟩

/-- whether the picture has a palette is all that matters of its colour model -/
theorem layersAt_flag {ρ : Nat → UInt16} {cm cm' : Option ColorModel} (g : List Layer) {p : Pt} {n : Nat}
    (he : cm.map ColorModel.isPalette = cm'.map ColorModel.isPalette) : layersAt ρ cm g p n = layersAt ρ cm' g p n := by
  induction g with
  | nil => rw [layersAt_nil, layersAt_nil]
  | cons a g ih =>
    rw [layersAt_cons, layersAt_cons, ih]
    refine congrArg _ (funext fun x => ?_)
    unfold drawLayer
    cases cm <;> cases cm' <;> simp at he
    · rfl
    · simp only [Option.bind_some, he]

/-- what every upper layer keeps, with the number of layers -/
theorem stack_keeps {ρ : Nat → UInt16} {upper lower : List Layer} {p : Pt} {n : Nat} (P : Nat → Color → Prop)
    (up : ∀ k c, P k c → P (k + 1) c)
    (hcm : groupModel (upper ++ lower) ≠ none → (groupModel (upper ++ lower)).map ColorModel.isPalette = some false)
    (hlow : (groupModel (upper ++ lower)).map ColorModel.isPalette = (groupModel lower).map ColorModel.isPalette)
    (hm : ∀ l ∈ upper, shows p l → l.mode ≠ Mode.dissolve)
    (step : ∀ l ∈ upper, shows p l → ∀ k b t c, P k b → composite 0 l.mode b t = some c → P (k + 1) c)
    (c0 : Color) (n0 : Nat) (h0 : Img.at ρ (.group lower) p n = some (c0, n0)) (start : P 0 c0)
    (c : Color) (n' : Nat) (h : Img.at ρ (.group (upper ++ lower)) p n = some (c, n')) : P upper.length c := by
  rw [at_group] at h
  rw [at_group, layersAt_flag lower hlow.symm] at h0
  generalize groupModel (upper ++ lower) = cm at h h0 hcm
  clear hlow
  have hpal : ∀ pal, cm ≠ some (.palette pal) := by
    rintro pal rfl
    have := hcm (by simp)
    simp [ColorModel.isPalette] at this
  induction upper generalizing c n' with
  | nil =>
    rw [List.nil_append, h0] at h
    injection h with h; injection h with h _
    rw [← h]; exact start
  | cons a g ih =>
    rw [List.cons_append, layersAt_cons] at h
    obtain ⟨⟨c1, n1⟩, h1, h⟩ := Option.bind_eq_some_iff.1 h
    have hP := ih (fun l hl => hm l (List.mem_cons_of_mem _ hl)) (fun l hl => step l (List.mem_cons_of_mem _ hl)) c1 n1 h1
    dsimp only at h
    rw [List.length_cons]
    by_cases hs : shows p a
    · obtain ⟨t, ht⟩ := drawLayer_separable hs hpal (hm a (List.mem_cons_self ..) hs) h
      exact step a (List.mem_cons_self ..) hs _ _ _ _ hP ht
    · rw [drawLayer_hidden _ _ hs] at h
      injection h with h; injection h with h _
      rw [← h]; exact up _ _ hP

/-- **C138**, for whole images: if the upper layers that show at a pixel are all in lightening modes, and there is something below, the pixel has the red of
the image without them, or is lighter, or is darker by one per layer at most; and it is covered as without them. -/
theorem C138_stack_lightens_partial (ρ : Nat → UInt16) (upper lower : List Layer) (p : Pt) (n : Nat)
    (hmode : ∀ l ∈ upper, shows p l → l.mode ∈ lightening)
    (hcm : (groupModel (upper ++ lower)).map ColorModel.isPalette = some false) (hlow : (groupModel lower).map ColorModel.isPalette = some false)
    (c0 : Color) (n0 : Nat) (h0 : Img.at ρ (.group lower) p n = some (c0, n0)) (hc0 : c0.toNRGBA.a ≠ 0)
    (c : Color) (n' : Nat) (h : Img.at ρ (.group (upper ++ lower)) p n = some (c, n')) :
    c.toNRGBA.a = c0.toNRGBA.a ∧ c0.toNRGBA.r.toNat ≤ c.toNRGBA.r.toNat + upper.length := by
  refine stack_keeps (fun k c => c.toNRGBA.a = c0.toNRGBA.a ∧ c0.toNRGBA.r.toNat ≤ c.toNRGBA.r.toNat + k)
    (fun k c h => ⟨h.1, by omega⟩) (fun _ => hcm) (hcm.trans hlow.symm) ?_ ?_ c0 n0 h0 ⟨rfl, Nat.le_refl _⟩ c n' h
  · intro l hl hs e
    have := hmode l hl hs
    rw [e] at this
    revert this
    decide
  · rintro l hl hs k b t d ⟨ha, hr⟩ hd
    obtain ⟨d', hd', ha', hr', -⟩ := C138_lightens_partial 0 l.mode (hmode l hl hs) b t (by rw [ha]; exact hc0)
    rw [hd'] at hd
    injection hd with hd
    rw [← hd]
    exact ⟨ha'.trans ha, by show _ ≤ d'.r.toNat + _; omega⟩

/-- **C138**, for whole images: if they are all in darkening modes, the pixel has no more red than that of the image without them. -/
theorem C138_stack_darkens_partial (ρ : Nat → UInt16) (upper lower : List Layer) (p : Pt) (n : Nat)
    (hmode : ∀ l ∈ upper, shows p l → l.mode ∈ darkening)
    (hcm : (groupModel (upper ++ lower)).map ColorModel.isPalette = some false) (hlow : (groupModel lower).map ColorModel.isPalette = some false)
    (c0 : Color) (n0 : Nat) (h0 : Img.at ρ (.group lower) p n = some (c0, n0)) (hc0 : c0.toNRGBA.a ≠ 0)
    (c : Color) (n' : Nat) (h : Img.at ρ (.group (upper ++ lower)) p n = some (c, n')) :
    c.toNRGBA.a = c0.toNRGBA.a ∧ c.toNRGBA.r ≤ c0.toNRGBA.r := by
  refine stack_keeps (fun _ c => c.toNRGBA.a = c0.toNRGBA.a ∧ c.toNRGBA.r ≤ c0.toNRGBA.r)
    (fun k c h => h) (fun _ => hcm) (hcm.trans hlow.symm) ?_ ?_ c0 n0 h0 ⟨rfl, UInt16.le_refl _⟩ c n' h
  · intro l hl hs e
    have := hmode l hl hs
    rw [e] at this
    revert this
    decide
  · rintro l hl hs k b t d ⟨ha, hr⟩ hd
    obtain ⟨d', hd', ha', hr', -⟩ := C138_darkens_partial 0 l.mode (hmode l hl hs) b t (by rw [ha]; exact hc0)
    rw [hd'] at hd
    injection hd with hd
    rw [← hd]
    exact ⟨ha'.trans ha, UInt16.le_trans hr' hr⟩

/-- two layers over a third -/
def threeCoats (m m' : Mode) : List Layer :=
  [⟨[], ⟨0, 0, 4, 4⟩, m, false, 20, plainLeaf (.lrgb 9 80 200) .other⟩, ⟨[], ⟨0, 0, 2, 2⟩, m', false, 100, plainLeaf (.grayAlpha 77 200) .other⟩]

example : (∀ l ∈ threeCoats Mode.screen Mode.dodge, shows ⟨1, 1⟩ l → l.mode ∈ lightening) ∧
    (∀ l ∈ threeCoats Mode.multiply Mode.subtract, shows ⟨1, 1⟩ l → l.mode ∈ darkening) ∧
    (∀ m m', (groupModel (threeCoats m m' ++ faintLayer)).map ColorModel.isPalette = some false) ∧
    (groupModel faintLayer).map ColorModel.isPalette = some false ∧
    (∃ c0 n0, Img.at (fun _ => 3) (.group faintLayer) ⟨1, 1⟩ 0 = some (c0, n0) ∧ c0.toNRGBA.a ≠ 0) ∧
    (∃ c n, Img.at (fun _ => 3) (.group (threeCoats Mode.screen Mode.dodge ++ faintLayer)) ⟨1, 1⟩ 0 = some (c, n)) ∧
    (∃ c n, Img.at (fun _ => 3) (.group (threeCoats Mode.multiply Mode.subtract ++ faintLayer)) ⟨1, 1⟩ 0 = some (c, n)) := by
  refine ⟨?_, ?_, ?_, ?_, ⟨_, _, by cbv, by decide⟩, ⟨_, _, by cbv⟩, ⟨_, _, by cbv⟩⟩
  · intro l hl _
    simp only [threeCoats, List.mem_cons, List.not_mem_nil, or_false] at hl
    rcases hl with rfl | rfl <;> decide
  · intro l hl _
    simp only [threeCoats, List.mem_cons, List.not_mem_nil, or_false] at hl
    rcases hl with rfl | rfl <;> decide
  · intro m m'
    unfold threeCoats plainLeaf
    rw [List.cons_append, groupModel_cons, Img.colorModel]
    rfl
  · unfold faintLayer plainLeaf
    rw [groupModel_cons, Img.colorModel]
    rfl

end Limage
