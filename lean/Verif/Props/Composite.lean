import Verif.Proofs.Hsv
import Mathlib.Tactic.IntervalCases
/-!
# Properties of `Composite.Composite` (C01–C14)

`composite draw m b t` is the model of `m.Composite(b, t)`; `c.toNRGBA` is the colour's value as
non-premultiplied 16-bit channels (internal.ColourToNRGBA).
-/
namespace Limage
open Spec

theorem composite_normal (draw : UInt16) (b t : Color) :
    composite draw Mode.normal b t = (compositeNormal b.toNRGBA t.toNRGBA).map .nrgba64 := rfl

theorem u16_ne_nat {x y : UInt16} (h : x ≠ y) : x.toNat ≠ y.toNat :=
  fun e => h (UInt16.toNat_inj.1 e)

theorem u16_zero_nat {x : UInt16} : x = 0 ↔ x.toNat = 0 :=
  ⟨fun h => by subst h; rfl, fun h => UInt16.toNat_inj.1 (by simpa using h)⟩

theorem u16_full_nat {x : UInt16} : x = 0xffff ↔ x.toNat = 65535 :=
  ⟨fun h => by subst h; rfl, fun h => UInt16.toNat_inj.1 (by simpa using h)⟩

/-- the closed form of Normal used below -/
theorem compositeNormal_eq (b t : NRGBA64) (h : ¬ (b.a = 0 ∧ t.a = 0)) :
    ∃ c, compositeNormal b t = some c ∧
      c.r.toNat = blendNat b.a.toNat b.r.toNat t.a.toNat t.r.toNat ∧
      c.g.toNat = blendNat b.a.toNat b.g.toNat t.a.toNat t.g.toNat ∧
      c.b.toNat = blendNat b.a.toNat b.b.toNat t.a.toNat t.b.toNat ∧
      c.a.toNat = cover b.a.toNat t.a.toNat := by
  obtain ⟨r, hr, er⟩ := blend_some b.a b.r t.a t.r h
  obtain ⟨g, hg, eg⟩ := blend_some b.a b.g t.a t.g h
  obtain ⟨bl, hb, eb⟩ := blend_some b.a b.b t.a t.b h
  refine ⟨⟨r, g, bl, (0xffff - (0xffff - b.a.toUInt32) * (0xffff - t.a.toUInt32) / 0xffff).toUInt16⟩,
    ?_, er, eg, eb, ?_⟩
  · unfold compositeNormal; rw [if_neg h, hr, hg, hb]; rfl
  · simp only []
    rw [to16, cover32]
    rw [cover32]; exact cover_le

theorem NRGBA64.ext_nat {c d : NRGBA64} (hr : c.r.toNat = d.r.toNat) (hg : c.g.toNat = d.g.toNat)
    (hb : c.b.toNat = d.b.toNat) (ha : c.a.toNat = d.a.toNat) : c = d := by
  cases c; cases d
  simp only [NRGBA64.mk.injEq]
  exact ⟨UInt16.toNat_inj.1 hr, UInt16.toNat_inj.1 hg, UInt16.toNat_inj.1 hb, UInt16.toNat_inj.1 ha⟩

/-! ## C01 -/

/-- C01, first part: an opaque top colour replaces whatever is beneath. -/
theorem C01_opaque_top (draw : UInt16) (b t : Color) (h : t.toNRGBA.a = 0xffff) :
    composite draw Mode.normal b t = some (.nrgba64 t.toNRGBA) := by
  rw [composite_normal]
  obtain ⟨c, hc, hr, hg, hb, ha⟩ := compositeNormal_eq b.toNRGBA t.toNRGBA (by
    rintro ⟨_, h2⟩; rw [h2] at h; exact absurd h (by decide))
  rw [hc]
  rw [h, ffff16, blendNat_topFull] at hr hg hb
  rw [h, ffff16] at ha
  have : c = t.toNRGBA := NRGBA64.ext_nat hr hg hb (by rw [ha, h]; simp [cover])
  rw [this]; rfl

example : (Color.lrgb 1 2 3).toNRGBA.a = 0xffff := by decide

/-- C01, second part: a transparent top colour leaves a visible bottom colour as it is. -/
theorem C01_transparent_top (draw : UInt16) (b t : Color) (h : t.toNRGBA.a = 0)
    (hb0 : b.toNRGBA.a ≠ 0) : composite draw Mode.normal b t = some (.nrgba64 b.toNRGBA) := by
  rw [composite_normal]
  obtain ⟨c, hc, hr, hg, hb, ha⟩ := compositeNormal_eq b.toNRGBA t.toNRGBA (fun e => hb0 e.1)
  rw [hc]
  rw [h] at hr hg hb ha
  simp only [UInt16.toNat_zero] at hr hg hb ha
  rw [blendNat_top0] at hr hg hb
  have hle := u16_le b.toNRGBA.a
  have : c = b.toNRGBA := NRGBA64.ext_nat hr hg hb (by rw [ha]; simp [cover]; omega)
  rw [this]; rfl

example : (Color.nrgba 9 9 9 0).toNRGBA.a = 0 ∧ (Color.nrgba 1 2 3 4).toNRGBA.a ≠ 0 := by decide

/-- C01, third part: nothing over nothing is nothing. -/
theorem C01_both_transparent (draw : UInt16) (b t : Color) (h : t.toNRGBA.a = 0)
    (hb : b.toNRGBA.a = 0) : composite draw Mode.normal b t = some (.nrgba64 ⟨0, 0, 0, 0⟩) := by
  rw [composite_normal, compositeNormal, if_pos ⟨hb, h⟩]; rfl

example : (Color.alpha 0).toNRGBA.a = 0 := by decide

/-! ## C02 -/

/-- C02: the alpha of Normal is the union coverage, rounded up (so it is exact whenever the union
is representable). -/
theorem C02_alpha_union (draw : UInt16) (b t : Color) :
    ∃ c, composite draw Mode.normal b t = some (.nrgba64 c) ∧
      (c.a.toNat : ℤ) = up (union (unit b.toNRGBA.a) (unit t.toNRGBA.a)) := by
  rw [composite_normal]
  by_cases h : b.toNRGBA.a = 0 ∧ t.toNRGBA.a = 0
  · refine ⟨⟨0, 0, 0, 0⟩, by rw [compositeNormal, if_pos h]; rfl, ?_⟩
    rw [h.1, h.2]
    simp [up, union, unit]
  · obtain ⟨c, hc, -, -, -, ha⟩ := compositeNormal_eq _ _ h
    refine ⟨c, by rw [hc]; rfl, ?_⟩
    rw [ha, cover_up]
    congr 1
    unfold union; ring

/-- a half over a half covers three quarters -/
example : (composite 0 Mode.normal (.nrgba64 ⟨1, 2, 3, 0x8000⟩) (.nrgba64 ⟨1, 2, 3, 0x8000⟩)).map (·.toNRGBA.a) = some 0xc000 := by decide

/-- C02: consequences: the alpha is at least each input alpha, is zero only for two transparent
inputs, is full when one input is, and is the same with the operands exchanged. -/
theorem C02_alpha_bounds (draw : UInt16) (b t : Color) :
    ∃ c c', composite draw Mode.normal b t = some (.nrgba64 c) ∧
      composite draw Mode.normal t b = some (.nrgba64 c') ∧
      b.toNRGBA.a ≤ c.a ∧ t.toNRGBA.a ≤ c.a ∧
      (c.a = 0 ↔ b.toNRGBA.a = 0 ∧ t.toNRGBA.a = 0) ∧
      (b.toNRGBA.a = 0xffff ∨ t.toNRGBA.a = 0xffff → c.a = 0xffff) ∧
      c'.a = c.a := by
  rw [composite_normal, composite_normal]
  by_cases h : b.toNRGBA.a = 0 ∧ t.toNRGBA.a = 0
  · refine ⟨⟨0, 0, 0, 0⟩, ⟨0, 0, 0, 0⟩, by rw [compositeNormal, if_pos h]; rfl,
      by rw [compositeNormal, if_pos ⟨h.2, h.1⟩]; rfl, ?_⟩
    rw [h.1, h.2]
    decide
  · obtain ⟨c, hc, -, -, -, ha⟩ := compositeNormal_eq _ _ h
    obtain ⟨c', hc', -, -, -, ha'⟩ := compositeNormal_eq t.toNRGBA b.toNRGBA (fun e => h ⟨e.2, e.1⟩)
    have h1 := u16_le b.toNRGBA.a
    have h2 := u16_le t.toNRGBA.a
    refine ⟨c, c', by rw [hc]; rfl, by rw [hc']; rfl, ?_, ?_, ?_, ?_, ?_⟩
    · rw [UInt16.le_iff_toNat_le, ha]; exact cover_ge_left h1 h2
    · rw [UInt16.le_iff_toNat_le, ha]; exact cover_ge_right h1 h2
    · rw [u16_zero_nat, u16_zero_nat, u16_zero_nat, ha]; exact cover_eq_zero h1 h2
    · rw [u16_full_nat, u16_full_nat, u16_full_nat, ha]
      rintro (e | e) <;> simp [e, cover]
    · apply UInt16.toNat_inj.1
      rw [ha, ha', cover, cover, Nat.mul_comm]

/-- an instance where the union is properly larger than both -/
example : ∃ c, composite 0 Mode.normal (.nrgba64 ⟨0, 0, 0, 0x8000⟩) (.nrgba64 ⟨0, 0, 0, 0x8000⟩)
    = some (.nrgba64 c) ∧ c.a = 0xc000 := ⟨⟨0, 0, 0, 0xc000⟩, by decide, rfl⟩

/-! ## C03 -/

/-- C03: every channel of a Normal composite lies between the two input channels, up to one unit
of rounding downwards. -/
theorem C03_between (draw : UInt16) (b t : Color) (h : ¬ (b.toNRGBA.a = 0 ∧ t.toNRGBA.a = 0)) :
    ∃ c, composite draw Mode.normal b t = some (.nrgba64 c) ∧
      (min b.toNRGBA.r.toNat t.toNRGBA.r.toNat ≤ c.r.toNat + 1 ∧
        c.r.toNat ≤ max b.toNRGBA.r.toNat t.toNRGBA.r.toNat) ∧
      (min b.toNRGBA.g.toNat t.toNRGBA.g.toNat ≤ c.g.toNat + 1 ∧
        c.g.toNat ≤ max b.toNRGBA.g.toNat t.toNRGBA.g.toNat) ∧
      (min b.toNRGBA.b.toNat t.toNRGBA.b.toNat ≤ c.b.toNat + 1 ∧
        c.b.toNat ≤ max b.toNRGBA.b.toNat t.toNRGBA.b.toNat) := by
  rw [composite_normal]
  obtain ⟨c, hc, hr, hg, hb, -⟩ := compositeNormal_eq _ _ h
  have hk := mixK_le (u16_le b.toNRGBA.a) (u16_le t.toNRGBA.a)
  refine ⟨c, by rw [hc]; rfl, ?_, ?_, ?_⟩
  · rw [hr]; exact ⟨min_le_mix hk, mix_le_max hk⟩
  · rw [hg]; exact ⟨min_le_mix hk, mix_le_max hk⟩
  · rw [hb]; exact ⟨min_le_mix hk, mix_le_max hk⟩

example : ¬ ((Color.nrgba 1 2 3 4).toNRGBA.a = 0 ∧ (Color.alpha 0).toNRGBA.a = 0) := by decide

/-! ## C04 -/

theorem compositeNormal_isSome (b t : NRGBA64) : (compositeNormal b t).isSome := by
  by_cases h : b.a = 0 ∧ t.a = 0
  · rw [compositeNormal, if_pos h]; rfl
  · obtain ⟨c, hc, -⟩ := compositeNormal_eq b t h
    rw [hc]; rfl

theorem compositeChannels_isSome (f) (b t : NRGBA64) : (compositeChannels f b t).isSome := by
  unfold compositeChannels
  split
  · rfl
  · rename_i h
    dsimp only
    rw [blend_eq _ _ _ _ (fun e => h e.1), blend_eq _ _ _ _ (fun e => h e.1),
      blend_eq _ _ _ _ (fun e => h e.1)]
    rfl

theorem compositeColor_isSome (b t : NRGBA64) : (compositeColor b t).isSome := by
  obtain ⟨x, hx, -⟩ := rgbToHSL_some b
  obtain ⟨y, hy, -⟩ := rgbToHSL_some t
  rw [compositeColor, hx, hy]; rfl

theorem compositeHue_isSome (b t : NRGBA64) : (compositeHue b t).isSome := by
  obtain ⟨x, hx, -⟩ := rgbToHSV_some b
  obtain ⟨y, hy, -⟩ := rgbToHSV_some t
  rw [compositeHue, hx, hy]; split <;> rfl

theorem compositeSaturation_isSome (b t : NRGBA64) : (compositeSaturation b t).isSome := by
  obtain ⟨x, hx, -⟩ := rgbToHSV_some b
  obtain ⟨y, hy, -⟩ := rgbToHSV_some t
  rw [compositeSaturation, hx, hy]; rfl

theorem compositeValue_isSome (b t : NRGBA64) : (compositeValue b t).isSome := by
  obtain ⟨x, hx, -⟩ := rgbToHSV_some b
  obtain ⟨y, hy, -⟩ := rgbToHSV_some t
  rw [compositeValue, hx, hy]; rfl

theorem isSome_ite {α} {p : Prop} [Decidable p] {a b : Option α} (ha : a.isSome) (hb : b.isSome) :
    (if p then a else b).isSome := by split <;> assumption

/-- C04: `Composite` returns a colour for every mode number, every pair of colours and every
random draw: no division by zero. -/
theorem C04_never_panics (draw : UInt16) (m : Mode) (b t : Color) :
    (composite draw m b t).isSome := by
  have hn : ∀ x y : NRGBA64, ((compositeNormal x y).map Color.nrgba64).isSome := fun x y => by
    rw [Option.isSome_map]; exact compositeNormal_isSome x y
  unfold composite
  dsimp only
  split
  · exact compositeChannels_isSome ..
  · refine isSome_ite rfl <| isSome_ite rfl <| isSome_ite (compositeHue_isSome ..) <|
      isSome_ite (compositeSaturation_isSome ..) <| isSome_ite (compositeColor_isSome ..) <|
      isSome_ite (compositeValue_isSome ..) <| isSome_ite (compositeColor_isSome ..) <|
      isSome_ite (hn ..) <| isSome_ite (hn ..) <| isSome_ite (hn ..) <| isSome_ite (hn ..) <|
      isSome_ite (hn ..) (hn ..)

/-- the cases in which something is divided by nothing -/
example : (composite 0 Mode.divide (.alpha 0) (.alpha 0)).isSome ∧ (composite 0 Mode.burn (.gray 255) (.gray 0)).isSome ∧
    (composite 0 0xdeadbeef (.gray 1) (.gray 2)).isSome := ⟨C04_never_panics .., C04_never_panics .., C04_never_panics ..⟩

/-! ## C05 -/

/-- The fifteen per-channel modes by number, as listed in the property (spec side). -/
def separable : List UInt32 := [3, 4, 5, 6, 7, 8, 9, 10, 15, 16, 17, 18, 19, 20, 21]

theorem separable_func {m : Mode} (h : m ∈ separable) : ∃ f, channelFunc m = some f := by
  simp only [separable, List.mem_cons, List.not_mem_nil, or_false] at h
  rcases h with h | h | h | h | h | h | h | h | h | h | h | h | h | h | h <;> subst h <;>
    exact ⟨_, rfl⟩

theorem composite_channels {m : Mode} {f} (h : channelFunc m = some f) (draw : UInt16) (b t : Color) :
    composite draw m b t = compositeChannels f b.toNRGBA t.toNRGBA := by
  unfold composite; rw [h]

/-- closed form of the separable modes -/
theorem compositeChannels_eq (f) (b t : NRGBA64) (h : b.a ≠ 0) :
    ∃ c, compositeChannels f b t = some (.nrgba64 c) ∧ c.a = b.a ∧
      c.r.toNat = blendNat b.a.toNat b.r.toNat (min b.a.toNat t.a.toNat) (f b.r t.r).toNat ∧
      c.g.toNat = blendNat b.a.toNat b.g.toNat (min b.a.toNat t.a.toNat) (f b.r t.g).toNat ∧
      c.b.toNat = blendNat b.a.toNat b.b.toNat (min b.a.toNat t.a.toNat) (f b.r t.b).toNat := by
  obtain ⟨r, hr, er⟩ := blend_some b.a b.r (goMin [b.a, t.a]) (f b.r t.r) (fun e => h e.1)
  obtain ⟨g, hg, eg⟩ := blend_some b.a b.g (goMin [b.a, t.a]) (f b.r t.g) (fun e => h e.1)
  obtain ⟨bl, hb, eb⟩ := blend_some b.a b.b (goMin [b.a, t.a]) (f b.r t.b) (fun e => h e.1)
  rw [goMin2] at er eg eb
  refine ⟨⟨r, g, bl, b.a⟩, ?_, rfl, er, eg, eb⟩
  unfold compositeChannels
  rw [if_neg h]
  simp only [hr, hg, hb]
  rfl

/-- C05: the result of a separable mode has the bottom's alpha. -/
theorem C05_keeps_alpha (draw : UInt16) (m : Mode) (hm : m ∈ separable) (b t : Color) :
    ∃ c, composite draw m b t = some c ∧ c.toNRGBA.a = b.toNRGBA.a := by
  obtain ⟨f, hf⟩ := separable_func hm
  rw [composite_channels hf]
  by_cases h : b.toNRGBA.a = 0
  · refine ⟨.nrgba 0 0 0 0, by rw [compositeChannels, if_pos h], ?_⟩
    rw [h]; decide
  · obtain ⟨c, hc, ha, -⟩ := compositeChannels_eq f _ t.toNRGBA h
    exact ⟨_, hc, ha⟩

example : Mode.burn ∈ separable ∧ (composite 0 Mode.burn (.nrgba 9 9 9 128) (.nrgba 200 100 50 77)).map (·.toNRGBA.a) = some 0x8080 := by decide

/-- C05: a fully transparent bottom gives the zero colour. -/
theorem C05_transparent_bottom (draw : UInt16) (m : Mode) (hm : m ∈ separable) (b t : Color)
    (h : b.toNRGBA.a = 0) : composite draw m b t = some (.nrgba 0 0 0 0) := by
  obtain ⟨f, hf⟩ := separable_func hm
  rw [composite_channels hf, compositeChannels, if_pos h]

example : Mode.burn ∈ separable ∧ (Color.alpha 0).toNRGBA.a = 0 := by decide

/-- C05: a fully transparent top leaves the bottom as it is. -/
theorem C05_transparent_top (draw : UInt16) (m : Mode) (hm : m ∈ separable) (b t : Color)
    (h : t.toNRGBA.a = 0) (hb : b.toNRGBA.a ≠ 0) :
    composite draw m b t = some (.nrgba64 b.toNRGBA) := by
  obtain ⟨f, hf⟩ := separable_func hm
  rw [composite_channels hf]
  obtain ⟨c, hc, ha, hr, hg, hbl⟩ := compositeChannels_eq f _ t.toNRGBA hb
  rw [hc]
  rw [h] at hr hg hbl
  simp only [UInt16.toNat_zero, Nat.min_zero] at hr hg hbl
  rw [blendNat_top0] at hr hg hbl
  have : c = b.toNRGBA := NRGBA64.ext_nat hr hg hbl (by rw [ha])
  rw [this]

example : Mode.divide ∈ separable ∧ (Color.nrgba 1 1 1 0).toNRGBA.a = 0 ∧
    (Color.gray 7).toNRGBA.a ≠ 0 := by decide

/-! ## C06 -/

/-- C06 as stated (for green): the green of the result depends only on the greens and alphas. -/
def GreenLocal (m : Mode) : Prop :=
  ∀ (b t b' t' c c' : NRGBA64), b.g = b'.g → t.g = t'.g → b.a = b'.a → t.a = t'.a →
    composite 0 m (.nrgba64 b) (.nrgba64 t) = some (.nrgba64 c) →
    composite 0 m (.nrgba64 b') (.nrgba64 t') = some (.nrgba64 c') → c.g = c'.g

/-- C06 is false: composite.go:171-176 passes the bottom's red to every channel, so Multiply's
green depends on red. -/
theorem C06_green_local_refuted : ¬ GreenLocal Mode.multiply := by
  intro h
  have := h ⟨0, 0xffff, 0, 0xffff⟩ ⟨0xffff, 0xffff, 0xffff, 0xffff⟩
    ⟨0xffff, 0xffff, 0, 0xffff⟩ ⟨0xffff, 0xffff, 0xffff, 0xffff⟩
    ⟨0, 0, 0, 0xffff⟩ ⟨0xffff, 0xffff, 0xffff, 0xffff⟩ rfl rfl rfl rfl (by decide) (by decide)
  exact absurd this (by decide)

/-- C06, the part that holds: red depends only on the reds and the alphas.  Missing from C06: the
same for green and blue (false, see `C06_green_local_refuted`). -/
theorem C06_red_local_partial (m : Mode) (hm : m ∈ separable) (b t b' t' : NRGBA64)
    (hb : b.r = b'.r) (ht : t.r = t'.r) (hba : b.a = b'.a) (hta : t.a = t'.a) (h0 : b.a ≠ 0) :
    ∃ c c', composite 0 m (.nrgba64 b) (.nrgba64 t) = some (.nrgba64 c) ∧
      composite 0 m (.nrgba64 b') (.nrgba64 t') = some (.nrgba64 c') ∧ c.r = c'.r := by
  obtain ⟨f, hf⟩ := separable_func hm
  rw [composite_channels hf, composite_channels hf]
  obtain ⟨c, hc, -, hr, -⟩ := compositeChannels_eq f b t h0
  obtain ⟨c', hc', -, hr', -⟩ := compositeChannels_eq f b' t' (hba ▸ h0)
  refine ⟨c, c', hc, hc', ?_⟩
  apply UInt16.toNat_inj.1
  rw [hr, hr', hb, ht, hba, hta]

example : Mode.screen ∈ separable ∧ (⟨1, 2, 3, 4⟩ : NRGBA64).a ≠ 0 := by decide

/-- C06, what the code does: each channel is the mode's function of the bottom's *red* and the
top's channel, mixed with the bottom's channel; so over a grey bottom it is channel by channel:
permuting the top's channels permutes the result's. -/
theorem C06_grey_bottom_partial (m : Mode) (hm : m ∈ separable) (y a : UInt16) (r g b ta : UInt16)
    (h0 : a ≠ 0) :
    ∃ c c', composite 0 m (.nrgba64 ⟨y, y, y, a⟩) (.nrgba64 ⟨r, g, b, ta⟩) = some (.nrgba64 c) ∧
      composite 0 m (.nrgba64 ⟨y, y, y, a⟩) (.nrgba64 ⟨g, b, r, ta⟩) = some (.nrgba64 c') ∧
      c'.r = c.g ∧ c'.g = c.b ∧ c'.b = c.r := by
  obtain ⟨f, hf⟩ := separable_func hm
  rw [composite_channels hf, composite_channels hf]
  obtain ⟨c, hc, -, hr, hg, hb⟩ := compositeChannels_eq f ⟨y, y, y, a⟩ ⟨r, g, b, ta⟩ h0
  obtain ⟨c', hc', -, hr', hg', hb'⟩ := compositeChannels_eq f ⟨y, y, y, a⟩ ⟨g, b, r, ta⟩ h0
  refine ⟨c, c', hc, hc', ?_, ?_, ?_⟩ <;> apply UInt16.toNat_inj.1
  · rw [hr', hg]
  · rw [hg', hb]
  · rw [hb', hr]

example : Mode.grainMerge ∈ separable ∧ (7 : UInt16) ≠ 0 := by decide

/-! ## C07 -/

/-- The modes of C07 with their definition over the rationals and the direction of rounding
(`true` = up). -/
def channelSpec : List (UInt32 × (ℚ → ℚ → ℚ) × Bool) :=
  [(3, multiply, false), (4, screen, true), (6, difference, false), (7, addition, false),
   (8, subtract, false), (9, darken, false), (10, lighten, false), (15, divide, false),
   (16, dodge, false), (20, grainExtract, false)]

theorem channelSpec_ok {m : Mode} {s rnd} (h : (m, s, rnd) ∈ channelSpec) :
    ∃ f, channelFunc m = some f ∧
      ∀ x y, ((f x y).toNat : ℤ) = (if rnd then up else down) (s (unit x) (unit y)) := by
  simp only [channelSpec, List.mem_cons, List.not_mem_nil, or_false, Prod.mk.injEq] at h
  rcases h with h | h | h | h | h | h | h | h | h | h <;> obtain ⟨rfl, rfl, rfl⟩ := h
  · exact ⟨_, rfl, multiply_spec⟩
  · exact ⟨_, rfl, screen_spec⟩
  · exact ⟨_, rfl, difference_spec⟩
  · exact ⟨_, rfl, addition_spec⟩
  · exact ⟨_, rfl, subtract_spec⟩
  · exact ⟨_, rfl, darken_spec⟩
  · exact ⟨_, rfl, lighten_spec⟩
  · exact ⟨_, rfl, divide_spec⟩
  · exact ⟨_, rfl, dodge_spec⟩
  · exact ⟨_, rfl, grainExtract_spec⟩

/-- opaque colours: the result channels are the mode's function of the inputs -/
theorem composite_opaque {m : Mode} {f} (hf : channelFunc m = some f) (draw : UInt16)
    (b t : Color) (hb : b.toNRGBA.a = 0xffff) (ht : t.toNRGBA.a = 0xffff) :
    composite draw m b t = some (.nrgba64 ⟨f b.toNRGBA.r t.toNRGBA.r, f b.toNRGBA.r t.toNRGBA.g,
      f b.toNRGBA.r t.toNRGBA.b, 0xffff⟩) := by
  rw [composite_channels hf]
  obtain ⟨c, hc, ha, hr, hg, hbl⟩ := compositeChannels_eq f b.toNRGBA t.toNRGBA
    (by rw [hb]; decide)
  rw [hc]
  rw [hb, ht] at hr hg hbl
  simp only [ffff16, Nat.min_self, blendNat_topFull] at hr hg hbl
  congr 2
  exact NRGBA64.ext_nat hr hg hbl (by rw [ha, hb])

/-- C07: for opaque colours, each channel is the exact value of the mode's formula over the
rationals, rounded, of the top's channel and of the channel the code takes from the bottom: the
red one, for all three (C06).  So the red channel always is the formula of the two red channels, and
green and blue are that of the two green and the two blue channels where the bottom's are as its
red. -/
theorem C07_formula (draw : UInt16) (m : Mode) (s : ℚ → ℚ → ℚ) (rnd : Bool)
    (hm : (m, s, rnd) ∈ channelSpec) (b t : Color)
    (hb : b.toNRGBA.a = 0xffff) (ht : t.toNRGBA.a = 0xffff) :
    ∃ c, composite draw m b t = some (.nrgba64 c) ∧ c.a = 0xffff ∧
      (c.r.toNat : ℤ) = (if rnd then up else down) (s (unit b.toNRGBA.r) (unit t.toNRGBA.r)) ∧
      (c.g.toNat : ℤ) = (if rnd then up else down) (s (unit b.toNRGBA.r) (unit t.toNRGBA.g)) ∧
      (c.b.toNat : ℤ) = (if rnd then up else down) (s (unit b.toNRGBA.r) (unit t.toNRGBA.b)) ∧
      (b.toNRGBA.g = b.toNRGBA.r → (c.g.toNat : ℤ) =
        (if rnd then up else down) (s (unit b.toNRGBA.g) (unit t.toNRGBA.g))) ∧
      (b.toNRGBA.b = b.toNRGBA.r → (c.b.toNat : ℤ) =
        (if rnd then up else down) (s (unit b.toNRGBA.b) (unit t.toNRGBA.b))) := by
  obtain ⟨f, hf, hs⟩ := channelSpec_ok hm
  refine ⟨_, composite_opaque hf draw b t hb ht, rfl, hs _ _, hs _ _, hs _ _, ?_, ?_⟩
  · intro e; rw [e]; exact hs _ _
  · intro e; rw [e]; exact hs _ _

example : ((15 : UInt32), divide, false) ∈ channelSpec ∧ (Color.gray 200).toNRGBA.a = 0xffff := by
  refine ⟨by simp [channelSpec], by decide⟩

/-- a non-trivial value: 0x4000 divided by 0x8000 is half -/
example : composite 0 Mode.divide (.nrgba64 ⟨0x4000, 0x4000, 0x4000, 0xffff⟩)
    (.nrgba64 ⟨0x8000, 0x8000, 0x8000, 0xffff⟩)
    = some (.nrgba64 ⟨0x7fff, 0x7fff, 0x7fff, 0xffff⟩) := by decide

/-! ## C08 -/

theorem burn_nat (x y : UInt16) (hy : y ≠ 0)
    (h : 65535 * (65535 - x.toNat) / y.toNat ≤ 65535) :
    (compositeBurn x y).toNat = 65535 - 65535 * (65535 - x.toNat) / y.toNat := by
  unfold compositeBurn
  rw [if_neg hy, clamp_nat]
  have hm : (0xffff * (0xffff - x.toUInt32)).toNat = 65535 * (65535 - x.toNat) := by
    have := u16_le x
    rw [mul32] <;> rw [inv32, ffff32]; omega
  rw [sub32] <;> rw [UInt32.toNat_div, hm, toNat_16_32, ffff32]
  · exact Nat.min_eq_right (Nat.sub_le _ _)
  · exact h

/-- C08 as stated, for opaque greys at channel level: never brighter, and the clamped quotient. -/
def BurnDarkens : Prop := ∀ x y : UInt16, ∃ c,
  composite 0 Mode.burn (.nrgba64 ⟨x, x, x, 0xffff⟩) (.nrgba64 ⟨y, y, y, 0xffff⟩)
    = some (.nrgba64 c) ∧ c.r ≤ x ∧ (c.r.toNat : ℤ) = up (burn (unit x) (unit y))

/-- C08 is false: black burnt with mid grey becomes white (the subtraction underflows and is then
clamped, composite.go:280), and the branch for y = 0 returns black for white and white otherwise. -/
theorem C08_burn_refuted : ¬ BurnDarkens := by
  intro h
  obtain ⟨c, hc, hle, -⟩ := h 0 0x8000
  have : composite 0 Mode.burn (.nrgba64 ⟨0, 0, 0, 0xffff⟩) (.nrgba64 ⟨0x8000, 0x8000, 0x8000, 0xffff⟩)
    = some (.nrgba64 ⟨0xffff, 0xffff, 0xffff, 0xffff⟩) := by decide
  rw [this] at hc
  injection hc with hc
  injection hc with hc
  subst hc
  exact absurd hle (by decide)

/-- C08, the part that holds: when the bottom and top channels add up to at least full intensity,
burn computes 1-(1-x)/y, rounded up, and never brightens.  Missing: the remaining inputs, where the
claim is false. -/
theorem C08_burn_partial (draw : UInt16) (b t : Color) (hb : b.toNRGBA.a = 0xffff)
    (ht : t.toNRGBA.a = 0xffff) (hy : t.toNRGBA.r ≠ 0)
    (h : 65535 ≤ b.toNRGBA.r.toNat + t.toNRGBA.r.toNat) :
    ∃ c, composite draw Mode.burn b t = some (.nrgba64 c) ∧ c.r ≤ b.toNRGBA.r ∧
      (c.r.toNat : ℤ) = up (burn (unit b.toNRGBA.r) (unit t.toNRGBA.r)) := by
  refine ⟨_, composite_opaque (f := compositeBurn) rfl draw b t hb ht, ?_, ?_⟩
  all_goals simp only []
  all_goals
    generalize b.toNRGBA.r = x at *
    generalize t.toNRGBA.r = y at *
    have hx := u16_le x
    have hyl := u16_le y
    have hy0 : 0 < y.toNat := by
      have := u16_ne_nat hy; simp at this; omega
    have hq : 65535 * (65535 - x.toNat) / y.toNat ≤ 65535 := by
      apply Nat.div_le_of_le_mul
      rw [Nat.mul_comm]; exact Nat.mul_le_mul_right _ (by omega)
  · rw [UInt16.le_iff_toNat_le, burn_nat _ _ hy hq]
    have : 65535 - x.toNat ≤ 65535 * (65535 - x.toNat) / y.toNat := by
      rw [Nat.le_div_iff_mul_le hy0, Nat.mul_comm]
      exact Nat.mul_le_mul_right _ hyl
    omega
  · rw [burn_nat _ _ hy hq]
    unfold burn
    have hyq : (y.toNat : ℚ) ≠ 0 := by exact_mod_cast hy0.ne'
    have hu : unit y ≠ 0 := by rw [Ne, unit_eq_zero]; exact hy
    rw [if_neg hu]
    have hnn : 0 ≤ 1 - (1 - unit x) / unit y := by
      rw [sub_nonneg, div_le_one (lt_of_le_of_ne (unit_nonneg y) (Ne.symm hu))]
      unfold unit
      rw [sub_le_iff_le_add, ← add_div, le_div_iff₀ (by norm_num)]
      have : (65535 : ℚ) ≤ x.toNat + y.toNat := by exact_mod_cast h
      linarith
    rw [max_eq_right hnn, up_sub_div 65535 (65535 * (65535 - x.toNat)) y.toNat]
    · omega
    · rw [Nat.cast_mul, cast_inv]
      unfold unit
      push_cast
      field_simp

example : (Color.gray 200).toNRGBA.a = 0xffff ∧ (Color.gray 200).toNRGBA.r ≠ 0 ∧
    65535 ≤ (Color.gray 200).toNRGBA.r.toNat + (Color.gray 200).toNRGBA.r.toNat := by decide

/-- C08, what happens for a black top: white becomes black and everything else white. -/
theorem C08_black_top (x : UInt16) :
    composite 0 Mode.burn (.nrgba64 ⟨x, x, x, 0xffff⟩) (.nrgba64 ⟨0, 0, 0, 0xffff⟩)
      = some (.nrgba64 (if x = 0xffff then ⟨0, 0, 0, 0xffff⟩ else ⟨0xffff, 0xffff, 0xffff, 0xffff⟩)) := by
  rw [composite_opaque (f := compositeBurn) rfl 0 _ _ rfl rfl]
  have hw : compositeBurn x 0 = if x = 0xffff then 0 else 0xffff := by
    unfold compositeBurn
    rw [if_pos rfl]
  dsimp only [Color.toNRGBA]
  rw [hw]
  split <;> rfl

example : composite 0 Mode.burn (.nrgba64 ⟨0x1234, 0x1234, 0x1234, 0xffff⟩) (.nrgba64 ⟨0, 0, 0, 0xffff⟩)
    = some (.nrgba64 ⟨0xffff, 0xffff, 0xffff, 0xffff⟩) := by decide

/-- C08, what happens otherwise: when (1-x)/y exceeds one by at least a unit the result is white. -/
theorem C08_underflow_is_white (x y : UInt16) (hy : y ≠ 0)
    (h : 65536 * y.toNat ≤ 65535 * (65535 - x.toNat)) :
    composite 0 Mode.burn (.nrgba64 ⟨x, x, x, 0xffff⟩) (.nrgba64 ⟨y, y, y, 0xffff⟩)
      = some (.nrgba64 ⟨0xffff, 0xffff, 0xffff, 0xffff⟩) := by
  rw [composite_opaque (f := compositeBurn) rfl 0 _ _ rfl rfl]
  have hw : compositeBurn x y = 0xffff := by
    unfold compositeBurn
    rw [if_neg hy]
    apply UInt16.toNat_inj.1
    rw [clamp_nat]
    have hx := u16_le x
    have hm : (0xffff * (0xffff - x.toUInt32)).toNat = 65535 * (65535 - x.toNat) := by
      rw [mul32] <;> rw [inv32, ffff32]; omega
    have hy0 : 0 < y.toNat := by
      have := u16_ne_nat hy; simp at this; omega
    have h1 : 65536 ≤ 65535 * (65535 - x.toNat) / y.toNat := by
      rw [Nat.le_div_iff_mul_le hy0]; exact h
    have h2 : 65535 * (65535 - x.toNat) / y.toNat ≤ 65535 * (65535 - x.toNat) := Nat.div_le_self ..
    rw [UInt32.toNat_sub, UInt32.toNat_div, hm, toNat_16_32, ffff32, ffff16]
    omega
  show some (Color.nrgba64 ⟨compositeBurn x y, compositeBurn x y, compositeBurn x y, 0xffff⟩) = _
  rw [hw]

example : (0x7000 : UInt16) ≠ 0 ∧
    65536 * (0x7000 : UInt16).toNat ≤ 65535 * (65535 - (0x1000 : UInt16).toNat) := by decide

/-! ## C09 -/

/-- C09 as stated. -/
def HardLightCorrect : Prop := ∀ x y : UInt16,
  composite 0 Mode.hardLight (.nrgba64 ⟨x, x, x, 0xffff⟩) (.nrgba64 ⟨y, y, y, 0xffff⟩) ≠
    some (.nrgba64 ⟨0xffff, 0xffff, 0xffff, 0xffff⟩) ∨ x ≠ 0

/-- C09 is false: black under the mid grey 0x7fff turns white (composite.go:284 compares with `<`
and the screen branch then subtracts more than 0xffff). -/
theorem C09_hardlight_refuted : ¬ HardLightCorrect := by
  intro h
  have := h 0 0x7fff
  revert this; decide

theorem hardLight_low (x y : UInt16) (h : y.toNat < 32767) :
    (compositeHardLight x y).toNat = x.toNat * (2 * y.toNat) / 65535 := by
  unfold compositeHardLight
  have hx := u16_le x
  have hlt : y < 0x7fff := by rw [UInt16.lt_iff_toNat_lt]; exact h
  simp only []
  rw [if_pos hlt]
  have h2 : (y.toUInt32 <<< 1).toNat = 2 * y.toNat := by
    rw [UInt32.toNat_shiftLeft]; simp [Nat.shiftLeft_eq]; omega
  have hm : (x.toUInt32 * (y.toUInt32 <<< 1) / 0xffff).toNat = x.toNat * (2 * y.toNat) / 65535 := by
    rw [UInt32.toNat_div, mul32] <;> rw [h2, toNat_16_32]
    · rfl
    · have := mul_le_sq (a := x.toNat) (b := 2 * y.toNat) hx (by omega)
      omega
  rw [to16, hm]
  rw [hm]
  have := prod_div_le (a := x.toNat) (b := 2 * y.toNat) hx
  omega

theorem hardLight_high (x y : UInt16) (h : 32768 ≤ y.toNat) :
    (compositeHardLight x y).toNat =
      65535 - (65535 - x.toNat) * (131070 - 2 * y.toNat) / 65535 := by
  unfold compositeHardLight
  have hx := u16_le x
  have hyl := u16_le y
  have hlt : ¬ y < 0x7fff := by
    rw [UInt16.lt_iff_toNat_lt]
    have : (0x7fff : UInt16).toNat = 32767 := rfl
    omega
  simp only []
  rw [if_neg hlt]
  have h2 : (y.toUInt32 <<< 1).toNat = 2 * y.toNat := by
    rw [UInt32.toNat_shiftLeft]; simp [Nat.shiftLeft_eq]; omega
  generalize (y.toUInt32 <<< 1 : UInt32) = y2 at h2 ⊢
  have h3 : (0x1fffe - y2).toNat = 131070 - 2 * y.toNat := by
    have e : (0x1fffe : UInt32).toNat = 131070 := rfl
    rw [sub32] <;> rw [h2, e]; omega
  have hm : ((0xffff - x.toUInt32) * (0x1fffe - y2) / 0xffff).toNat
      = (65535 - x.toNat) * (131070 - 2 * y.toNat) / 65535 := by
    rw [UInt32.toNat_div, mul32] <;> rw [h3, inv32]
    · rfl
    · have := mul_le_sq (a := 65535 - x.toNat) (b := 131070 - 2 * y.toNat) (by omega) (by omega)
      omega
  have := prod_div_le (a := 65535 - x.toNat) (b := 131070 - 2 * y.toNat) (by omega)
  have hs : (0xffff - (0xffff - x.toUInt32) * (0x1fffe - y2) / 0xffff).toNat =
      65535 - (65535 - x.toNat) * (131070 - 2 * y.toNat) / 65535 := by
    rw [sub32] <;> rw [hm, ffff32]; omega
  rw [to16, hs]
  rw [hs]; exact Nat.sub_le _ _

/-- C09, the part that holds: every top channel except 0x7fff gives exactly the formula, rounded
down below the midpoint and up above it.  Missing: the row y = 0x7fff, where it is false. -/
theorem C09_hardlight_partial (draw : UInt16) (b t : Color) (hb : b.toNRGBA.a = 0xffff)
    (ht : t.toNRGBA.a = 0xffff) (hy : t.toNRGBA.r ≠ 0x7fff) :
    ∃ c, composite draw Mode.hardLight b t = some (.nrgba64 c) ∧
      (c.r.toNat : ℤ) = (if unit t.toNRGBA.r ≤ 1 / 2 then down else up)
        (hardLight (unit b.toNRGBA.r) (unit t.toNRGBA.r)) := by
  refine ⟨_, composite_opaque (f := compositeHardLight) rfl draw b t hb ht, ?_⟩
  simp only []
  generalize b.toNRGBA.r = x at *
  generalize t.toNRGBA.r = y at *
  have hx := u16_le x
  have hyl := u16_le y
  have hyn : y.toNat ≠ 32767 := fun e => hy (UInt16.toNat_inj.1 e)
  have hhalf : unit y ≤ 1 / 2 ↔ y.toNat < 32767 := by
    unfold unit
    rw [div_le_iff₀ (by norm_num)]
    constructor
    · intro h
      have h : (2 * y.toNat : ℚ) ≤ 65535 := by linarith
      have : 2 * y.toNat ≤ 65535 := by exact_mod_cast h
      omega
    · intro h
      have : ((y.toNat : Nat) : ℚ) < 32767 := by exact_mod_cast h
      linarith
  by_cases h : y.toNat < 32767
  · rw [if_pos (hhalf.2 h), hardLight, if_pos (hhalf.2 h), hardLight_low x y h,
      down_div (x.toNat * (2 * y.toNat)) 65535]
    unfold multiply unit; push_cast; field_simp
  · rw [if_neg (fun e => h (hhalf.1 e)), hardLight, if_neg (fun e => h (hhalf.1 e)),
      hardLight_high x y (by omega),
      up_sub_div 65535 ((65535 - x.toNat) * (131070 - 2 * y.toNat)) 65535]
    · have := prod_div_le (a := 65535 - x.toNat) (b := 131070 - 2 * y.toNat) (by omega)
      omega
    · rw [Nat.cast_mul, cast_inv, Nat.cast_sub (by omega)]
      unfold screen unit; push_cast; field_simp; ring

example : (Color.gray 9).toNRGBA.a = 0xffff ∧ (Color.gray 9).toNRGBA.r ≠ 0x7fff := by decide

/-! ## C10 -/

theorem overlay_nat (x y : UInt16) : (compositeOverlay x y).toNat =
    (65535 - y.toNat) * (x.toNat * x.toNat / 65535) / 65535 +
      y.toNat * (65535 - (65535 - y.toNat) * (65535 - y.toNat) / 65535) / 65535 := by
  unfold compositeOverlay
  simp only []
  have hx := u16_le x
  have hy := u16_le y
  have e1 : (x.toUInt32 * x.toUInt32 / 0xffff).toNat = x.toNat * x.toNat / 65535 := by
    rw [UInt32.toNat_div, mul16, ffff32]
  have b1 : x.toNat * x.toNat / 65535 ≤ x.toNat := prod_div_le hx
  have e2 : ((0xffff - y.toUInt32) * (x.toUInt32 * x.toUInt32 / 0xffff) / 0xffff).toNat =
      (65535 - y.toNat) * (x.toNat * x.toNat / 65535) / 65535 := by
    rw [UInt32.toNat_div, mul32] <;> rw [inv32, e1]
    · rfl
    · have := mul_le_sq (a := 65535 - y.toNat) (b := x.toNat * x.toNat / 65535)
        (by omega) (by omega)
      omega
  have e3 : ((0xffff - y.toUInt32) * (0xffff - y.toUInt32) / 0xffff).toNat =
      (65535 - y.toNat) * (65535 - y.toNat) / 65535 := by
    rw [UInt32.toNat_div, mul32] <;> rw [inv32]
    · rfl
    · have := mul_le_sq (a := 65535 - y.toNat) (b := 65535 - y.toNat) (by omega) (by omega)
      omega
  have b3 := prod_div_le (a := 65535 - y.toNat) (b := 65535 - y.toNat) (by omega)
  have e4 : (0xffff - ((0xffff - y.toUInt32) * (0xffff - y.toUInt32) / 0xffff)).toNat =
      65535 - (65535 - y.toNat) * (65535 - y.toNat) / 65535 := by
    rw [sub32] <;> rw [e3, ffff32]; omega
  have e5 : (y.toUInt32 * (0xffff - ((0xffff - y.toUInt32) * (0xffff - y.toUInt32) / 0xffff))
      / 0xffff).toNat = y.toNat * (65535 - (65535 - y.toNat) * (65535 - y.toNat) / 65535) / 65535 := by
    rw [UInt32.toNat_div, mul32] <;> rw [e4, toNat_16_32]
    · rfl
    · have := mul_le_sq (a := y.toNat)
        (b := 65535 - (65535 - y.toNat) * (65535 - y.toNat) / 65535) (by omega) (by omega)
      omega
  have b2 := prod_div_le' (a := 65535 - y.toNat) (b := x.toNat * x.toNat / 65535) (by omega)
  have b5 := prod_div_le' (a := y.toNat)
    (b := 65535 - (65535 - y.toNat) * (65535 - y.toNat) / 65535) (by omega)
  have e6 := add32 ((0xffff - y.toUInt32) * (x.toUInt32 * x.toUInt32 / 0xffff) / 0xffff)
    (y.toUInt32 * (0xffff - ((0xffff - y.toUInt32) * (0xffff - y.toUInt32) / 0xffff)) / 0xffff)
    (by rw [e2, e5]; omega)
  rw [to16, e6, e2, e5]
  rw [e6, e2, e5]; omega

/-- C10 as stated: Overlay keeps black black and white white. -/
def OverlayFixes : Prop := ∀ y : UInt16,
  composite 0 Mode.overlay (.nrgba64 ⟨0, 0, 0, 0xffff⟩) (.nrgba64 ⟨y, y, y, 0xffff⟩)
    = some (.nrgba64 ⟨0, 0, 0, 0xffff⟩) ∧
  composite 0 Mode.overlay (.nrgba64 ⟨0xffff, 0xffff, 0xffff, 0xffff⟩) (.nrgba64 ⟨y, y, y, 0xffff⟩)
    = some (.nrgba64 ⟨0xffff, 0xffff, 0xffff, 0xffff⟩)

/-- C10's first half is false: composite.go:214 squares 1-y where the formula has 1-x, so overlaying
white on black gives white. -/
theorem C10_fixes_refuted : ¬ OverlayFixes := by
  intro h
  have := (h 0xffff).1
  revert this; decide

/-- Neither end is fixed: white under mid grey is darkened. -/
theorem C10_white_refuted :
    composite 0 Mode.overlay (.nrgba64 ⟨0xffff, 0xffff, 0xffff, 0xffff⟩)
      (.nrgba64 ⟨0x8000, 0x8000, 0x8000, 0xffff⟩) =
      some (.nrgba64 ⟨0xdfff, 0xdfff, 0xdfff, 0xffff⟩) := by decide

/-- C10, the part that holds: Overlay and Soft Light never decrease when the bottom channel
increases.  Missing: fixing black and white (false). -/
theorem C10_monotone_partial (draw : UInt16) (m : Mode) (hm : m = Mode.overlay ∨ m = Mode.softLight)
    (b b' t : Color) (hb : b.toNRGBA.a = 0xffff) (hb' : b'.toNRGBA.a = 0xffff)
    (ht : t.toNRGBA.a = 0xffff) (hle : b.toNRGBA.r ≤ b'.toNRGBA.r) :
    ∃ c c', composite draw m b t = some (.nrgba64 c) ∧ composite draw m b' t = some (.nrgba64 c') ∧
      c.r ≤ c'.r ∧ c.g ≤ c'.g ∧ c.b ≤ c'.b := by
  have hf : channelFunc m = some compositeOverlay := by rcases hm with rfl | rfl <;> rfl
  have mono : ∀ y, compositeOverlay b.toNRGBA.r y ≤ compositeOverlay b'.toNRGBA.r y := by
    intro y
    rw [UInt16.le_iff_toNat_le, overlay_nat, overlay_nat]
    rw [UInt16.le_iff_toNat_le] at hle
    apply Nat.add_le_add_right
    apply Nat.div_le_div_right
    apply Nat.mul_le_mul_left
    apply Nat.div_le_div_right
    exact Nat.mul_le_mul hle hle
  exact ⟨_, _, composite_opaque hf draw b t hb ht, composite_opaque hf draw b' t hb' ht,
    mono _, mono _, mono _⟩

example : (Color.gray 9).toNRGBA.a = 0xffff ∧ (Color.gray 10).toNRGBA.a = 0xffff ∧
    (Color.gray 9).toNRGBA.r ≤ (Color.gray 10).toNRGBA.r := by decide

/-- C10, what the code computes, with no wrap-around: (1-y)x² + y(1-(1-y)²), within three units
(rounded down three times). -/
theorem C10_formula (draw : UInt16) (m : Mode) (hm : m = Mode.overlay ∨ m = Mode.softLight)
    (b t : Color) (hb : b.toNRGBA.a = 0xffff) (ht : t.toNRGBA.a = 0xffff) :
    ∃ c, composite draw m b t = some (.nrgba64 c) ∧
      |(c.r.toNat : ℚ) - 65535 * ((1 - unit t.toNRGBA.r) * (unit b.toNRGBA.r) ^ 2
        + unit t.toNRGBA.r * (1 - (1 - unit t.toNRGBA.r) ^ 2))| ≤ 3 := by
  have hf : channelFunc m = some compositeOverlay := by rcases hm with rfl | rfl <;> rfl
  refine ⟨_, composite_opaque hf draw b t hb ht, ?_⟩
  simp only []
  generalize b.toNRGBA.r = x at *
  generalize t.toNRGBA.r = y at *
  have hx := u16_le x
  have hy := u16_le y
  rw [overlay_nat]
  have key : ∀ n : Nat, ((n / 65535 : Nat) : ℚ) ≤ (n : ℚ) / 65535 ∧
      (n : ℚ) / 65535 - 1 ≤ ((n / 65535 : Nat) : ℚ) := by
    intro n
    constructor
    · rw [le_div_iff₀ (by norm_num)]
      have : n / 65535 * 65535 ≤ n := by omega
      exact_mod_cast this
    · rw [sub_le_iff_le_add, div_le_iff₀ (by norm_num)]
      have : n ≤ (n / 65535 + 1) * 65535 := by omega
      exact_mod_cast this
  have k1 := key (x.toNat * x.toNat)
  have k2 := key ((65535 - y.toNat) * (x.toNat * x.toNat / 65535))
  have k3 := key ((65535 - y.toNat) * (65535 - y.toNat))
  have k4 := key (y.toNat * (65535 - (65535 - y.toNat) * (65535 - y.toNat) / 65535))
  have b3 := prod_div_le (a := 65535 - y.toNat) (b := 65535 - y.toNat) (by omega)
  rw [Nat.cast_add]
  rw [Nat.cast_mul] at k1
  rw [Nat.cast_mul, cast_inv] at k2
  rw [Nat.cast_mul, cast_inv] at k3
  rw [Nat.cast_mul, Nat.cast_sub (by omega : _ ≤ 65535)] at k4
  generalize ((65535 - y.toNat) * (x.toNat * x.toNat / 65535) / 65535 : Nat) = A at *
  generalize (y.toNat * (65535 - (65535 - y.toNat) * (65535 - y.toNat) / 65535) / 65535 : Nat) = B at *
  generalize (x.toNat * x.toNat / 65535 : Nat) = C at *
  generalize ((65535 - y.toNat) * (65535 - y.toNat) / 65535 : Nat) = D at *
  have ux : (x.toNat : ℚ) = 65535 * unit x := by unfold unit; field_simp
  have uy : (y.toNat : ℚ) = 65535 * unit y := by unfold unit; field_simp
  have u0 := unit_nonneg y
  have u1 := unit_le_one y
  rw [ux] at k1
  rw [uy] at k2 k3 k4
  generalize unit x = X at *
  generalize unit y = Y at *
  push_cast at k4
  have f1 : 65535 * X * (65535 * X) / 65535 = 65535 * X ^ 2 := by ring
  have f2 : (65535 - 65535 * Y) * (C : ℚ) / 65535 = (1 - Y) * C := by ring
  have f3 : (65535 - 65535 * Y) * (65535 - 65535 * Y) / 65535 = 65535 * (1 - Y) ^ 2 := by ring
  have f4 : 65535 * Y * (65535 - (D : ℚ)) / 65535 = Y * (65535 - D) := by ring
  rw [f1] at k1; rw [f2] at k2; rw [f3] at k3; rw [f4] at k4
  have g1 : (1 - Y) * (C : ℚ) ≤ (1 - Y) * (65535 * X ^ 2) :=
    mul_le_mul_of_nonneg_left k1.1 (by linarith)
  have g2 : (1 - Y) * (65535 * X ^ 2 - 1) ≤ (1 - Y) * (C : ℚ) :=
    mul_le_mul_of_nonneg_left k1.2 (by linarith)
  have g3 : Y * (D : ℚ) ≤ Y * (65535 * (1 - Y) ^ 2) := mul_le_mul_of_nonneg_left k3.1 u0
  have g4 : Y * (65535 * (1 - Y) ^ 2 - 1) ≤ Y * (D : ℚ) := mul_le_mul_of_nonneg_left k3.2 u0
  rw [abs_le]
  constructor <;> nlinarith

example : Mode.overlay = Mode.overlay ∨ Mode.overlay = Mode.softLight := Or.inl rfl

/-! ## C11 -/

/-- C11 as stated, for Destination In: the result's coverage is the product of the coverages. -/
def DstInProduct : Prop := ∀ b t : NRGBA64, ∃ c,
  composite 0 Mode.destinationIn (.nrgba64 b) (.nrgba64 t) = some c ∧
    (t.a = 0 → c.toNRGBA.a = 0)
/-- C11 as stated, for Destination Out. -/
def DstOutComplement : Prop := ∀ b t : NRGBA64, ∃ c,
  composite 0 Mode.destinationOut (.nrgba64 b) (.nrgba64 t) = some c ∧
    (t.a = 0xffff → c.toNRGBA.a = 0)
/-- C11 as stated, for Source Atop. -/
def SrcAtopKeeps : Prop := ∀ b t : NRGBA64, ∃ c,
  composite 0 Mode.sourceAtop (.nrgba64 b) (.nrgba64 t) = some c ∧ c.toNRGBA.a = b.a
/-- C11 as stated, for Destination Atop. -/
def DstAtopKeeps : Prop := ∀ b t : NRGBA64, ∃ c,
  composite 0 Mode.destinationAtop (.nrgba64 b) (.nrgba64 t) = some c ∧ c.toNRGBA.a = t.a

/-- C11 is false: composite.go:347-361 implements these modes as Normal. -/
theorem C11_porter_duff_refuted :
    ¬ DstInProduct ∧ ¬ DstOutComplement ∧ ¬ SrcAtopKeeps ∧ ¬ DstAtopKeeps := by
  refine ⟨?_, ?_, ?_, ?_⟩
  · intro h
    obtain ⟨c, hc, h2⟩ := h ⟨0, 0, 0, 0xffff⟩ ⟨0, 0, 0, 0⟩
    rw [C01_transparent_top 0 (.nrgba64 ⟨0, 0, 0, 0xffff⟩) (.nrgba64 ⟨0, 0, 0, 0⟩) rfl (by decide)
      |>.symm.trans hc |> Option.some.inj |>.symm] at h2
    exact absurd (h2 rfl) (by decide)
  · intro h
    obtain ⟨c, hc, h2⟩ := h ⟨0, 0, 0, 0xffff⟩ ⟨0, 0, 0, 0xffff⟩
    rw [C01_opaque_top 0 (.nrgba64 ⟨0, 0, 0, 0xffff⟩) (.nrgba64 ⟨0, 0, 0, 0xffff⟩) rfl
      |>.symm.trans hc |> Option.some.inj |>.symm] at h2
    exact absurd (h2 rfl) (by decide)
  · intro h
    obtain ⟨c, hc, h2⟩ := h ⟨0, 0, 0, 0⟩ ⟨0, 0, 0, 0xffff⟩
    rw [C01_opaque_top 0 (.nrgba64 ⟨0, 0, 0, 0⟩) (.nrgba64 ⟨0, 0, 0, 0xffff⟩) rfl
      |>.symm.trans hc |> Option.some.inj |>.symm] at h2
    exact absurd h2 (by decide)
  · intro h
    obtain ⟨c, hc, h2⟩ := h ⟨0, 0, 0, 0xffff⟩ ⟨0, 0, 0, 0⟩
    rw [C01_opaque_top 0 (.nrgba64 ⟨0, 0, 0, 0⟩) (.nrgba64 ⟨0, 0, 0, 0xffff⟩) rfl
      |>.symm.trans hc |> Option.some.inj |>.symm] at h2
    exact absurd h2 (by decide)

/-! ## C12 -/

/-- The mode numbers with their own arithmetic: 1-22 and 27. -/
def ownArithmetic : List UInt32 :=
  [1, 2, 3, 4, 5, 6, 7, 8, 9, 10, 11, 12, 13, 14, 15, 16, 17, 18, 19, 20, 21, 22, 27]

/-- C12: every other mode number behaves as Normal. -/
theorem C12_undefined_is_normal (draw : UInt16) (m : Mode) (h : m ∉ ownArithmetic) (b t : Color) :
    composite draw m b t = composite draw Mode.normal b t := by
  simp only [ownArithmetic, List.mem_cons, List.not_mem_nil, or_false, not_or] at h
  obtain ⟨h1, h2, h3, h4, h5, h6, h7, h8, h9, h10, h11, h12, h13, h14, h15, h16, h17, h18, h19,
    h20, h21, h22, h27⟩ := h
  have hf : channelFunc m = none := by
    unfold channelFunc
    simp only [Mode.multiply, Mode.screen, Mode.overlay, Mode.difference, Mode.addition,
      Mode.subtract, Mode.darkenOnly, Mode.lightenOnly, Mode.divide, Mode.dodge, Mode.burn,
      Mode.hardLight, Mode.softLight, Mode.grainExtract, Mode.grainMerge, h3, h4, h5, h6, h7, h8,
      h9, h10, h15, h16, h17, h18, h19, h20, h21, if_false]
  rw [composite_normal]
  unfold composite
  simp only [hf]
  simp only [Mode.behind, Mode.dissolve, Mode.hue, Mode.saturation, Mode.color, Mode.value,
    Mode.luminosity, Mode.destinationAtop, h2, h1, h11, h12, h13, h14, h22, h27, if_false,
    compositePlus, compositeDstIn, compositeDstOut, compositeAtop, ite_self]

example : (0xdeadbeef : UInt32) ∉ ownArithmetic ∧ Mode.vividLight ∉ ownArithmetic := by decide

/-- C12: `String` returns a name for every mode value: the listed one below 28 and Normal's above. -/
theorem C12_string_total (m : Mode) : ∃ s, compositeString m = some s ∧
    (m.toNat < 28 → compositeNames[m.toNat]? = some s) ∧ (28 ≤ m.toNat → s = "Normal") := by
  unfold compositeString
  have hl : compositeNames.length = 28 := rfl
  split
  · rename_i h
    refine ⟨compositeNames[m.toNat], List.getElem?_eq_getElem h, fun _ => List.getElem?_eq_getElem h, ?_⟩
    intro h2; omega
  · rename_i h
    exact ⟨"Normal", rfl, fun h2 => absurd h2 (by omega), fun _ => rfl⟩

example : (18 : Mode).toNat < 28 ∧ 28 ≤ (41 : Mode).toNat := by decide

/-- The name of each named mode, by the meaning of its number (composite.go:17-44). -/
def modeNames : List (UInt32 × String) :=
  [(Mode.normal, "Normal"), (Mode.dissolve, "Dissolve"), (Mode.behind, "Behind"), (Mode.multiply, "Multiply"),
   (Mode.screen, "Screen"), (Mode.overlay, "Overlay"), (Mode.difference, "Difference"), (Mode.addition, "Addition"),
   (Mode.subtract, "Subtract"), (Mode.darkenOnly, "Darken Only"), (Mode.lightenOnly, "Lighten Only"),
   (Mode.hue, "Hue"), (Mode.saturation, "Saturation"), (Mode.color, "Color"), (Mode.value, "Value"),
   (Mode.divide, "Divide"), (Mode.dodge, "Dodge"), (Mode.burn, "Burn"), (Mode.hardLight, "Hard Light"),
   (Mode.softLight, "Soft Light"), (Mode.grainExtract, "Grain Extract"), (Mode.grainMerge, "Grain Merge"),
   (Mode.luminosity, "Luminosity"), (Mode.plus, "Plus"), (Mode.destinationIn, "Destination In"),
   (Mode.destinationOut, "Destination Out"), (Mode.sourceAtop, "Source Atop"),
   (Mode.destinationAtop, "Destination Atop")]

/-- C12: every named mode has its own name and every other mode value has Normal's. -/
theorem C12_names (m : Mode) :
    compositeString m = some (((modeNames.find? fun p => p.1 = m).map (·.2)).getD "Normal") := by
  by_cases h : m.toNat < 28
  · have hm : m ∈ (List.range 28).map UInt32.ofNat :=
      List.mem_map.2 ⟨m.toNat, List.mem_range.2 h, by simp⟩
    have all : ∀ m ∈ (List.range 28).map UInt32.ofNat,
        compositeString m = some (((modeNames.find? fun p => p.1 = m).map (·.2)).getD "Normal") := by decide +kernel
    exact all m hm
  · obtain ⟨s, h1, _, h2⟩ := C12_string_total m
    rw [h1, h2 (by omega)]
    have : modeNames.find? (fun p => p.1 = m) = none := by
      rw [List.find?_eq_none]
      intro p hp
      have hlt : ∀ p ∈ modeNames, p.1.toNat < 28 := by decide
      have := hlt p hp
      simp only [decide_eq_true_eq]
      intro e
      rw [e] at this
      exact h this
    rw [this]
    rfl

example : compositeString 18 = some "Hard Light" ∧ compositeString 41 = some "Normal" :=
  ⟨C12_names 18, C12_names 41⟩

/-! ## C11, continued -/

theorem composite_dstAtop (draw : UInt16) (b t : Color) :
    composite draw Mode.destinationAtop b t = composite draw Mode.normal t b := by
  rw [composite_normal]
  have hf : channelFunc Mode.destinationAtop = none := by decide
  unfold composite
  simp only [hf]
  repeat rw [if_neg (by decide)]
  simp only [if_true]
  rfl

/-- C11, what the code does: Plus, Destination In, Destination Out and Source Atop are Normal;
Destination Atop is Normal with the operands exchanged.  Missing: the Porter-Duff coverages (false). -/
theorem C11_as_normal_partial (draw : UInt16) (b t : Color) :
    composite draw Mode.plus b t = composite draw Mode.normal b t ∧
    composite draw Mode.destinationIn b t = composite draw Mode.normal b t ∧
    composite draw Mode.destinationOut b t = composite draw Mode.normal b t ∧
    composite draw Mode.sourceAtop b t = composite draw Mode.normal b t ∧
    composite draw Mode.destinationAtop b t = composite draw Mode.normal t b :=
  ⟨C12_undefined_is_normal draw _ (by decide) b t, C12_undefined_is_normal draw _ (by decide) b t,
   C12_undefined_is_normal draw _ (by decide) b t, C12_undefined_is_normal draw _ (by decide) b t,
   composite_dstAtop draw b t⟩

/-- Source Atop outside of the bottom shows the top, as Normal does -/
example : composite 0 Mode.sourceAtop (.alpha 0) (.gray 7) = some (.nrgba64 (Color.gray 7).toNRGBA) := by decide

/-! ## C13 -/

/-- C13, first half: Dissolve shows the bottom unchanged or the top made opaque, for every draw. -/
theorem C13_one_of_inputs (draw : UInt16) (b t : Color) :
    composite draw Mode.dissolve b t = some (.nrgba64 b.toNRGBA) ∨
    composite draw Mode.dissolve b t = some (.nrgba64 { t.toNRGBA with a := 0xffff }) := by
  show some (Color.nrgba64 (compositeDissolve draw _ _)) = _ ∨
    some (Color.nrgba64 (compositeDissolve draw _ _)) = _
  unfold compositeDissolve
  split
  · exact Or.inr rfl
  · exact Or.inl rfl

example : composite 0x4000 Mode.dissolve (.nrgba64 ⟨9, 9, 9, 0x8000⟩) (.nrgba64 ⟨1, 2, 3, 0x7000⟩) = some (.nrgba64 ⟨1, 2, 3, 0xffff⟩) ∧
    composite 0x9000 Mode.dissolve (.nrgba64 ⟨9, 9, 9, 0x8000⟩) (.nrgba64 ⟨1, 2, 3, 0x7000⟩) = some (.nrgba64 ⟨9, 9, 9, 0x8000⟩) := by decide

/-- C13, second half as stated: a transparent top is never shown and an opaque top always is
(draws are below 0xffff). -/
def DissolveFollowsTop : Prop := ∀ (draw : UInt16) (b t : NRGBA64), draw < 0xffff →
  (t.a = 0 → composite draw Mode.dissolve (.nrgba64 b) (.nrgba64 t) = some (.nrgba64 b)) ∧
  (t.a = 0xffff → composite draw Mode.dissolve (.nrgba64 b) (.nrgba64 t) = some (.nrgba64 t))

/-- C13's second half is false in both directions: composite.go:194 compares the draw with the
bottom's alpha. -/
theorem C13_follows_top_refuted : ¬ DissolveFollowsTop ∧
    composite 0 Mode.dissolve (.nrgba64 ⟨1, 1, 1, 0xffff⟩) (.nrgba64 ⟨2, 2, 2, 0⟩)
      = some (.nrgba64 ⟨2, 2, 2, 0xffff⟩) ∧
    composite 0 Mode.dissolve (.nrgba64 ⟨1, 1, 1, 0⟩) (.nrgba64 ⟨2, 2, 2, 0xffff⟩)
      = some (.nrgba64 ⟨1, 1, 1, 0⟩) := by
  refine ⟨?_, by decide, by decide⟩
  intro h
  have := (h 0 ⟨1, 1, 1, 0xffff⟩ ⟨2, 2, 2, 0⟩ (by decide)).1 rfl
  revert this; decide

/-- C13, what the code does: the top is shown exactly when the draw is below the *bottom*'s alpha,
so always over an opaque bottom and never over a transparent one. -/
theorem C13_follows_bottom_partial (draw : UInt16) (hd : draw < 0xffff) (b t : Color) :
    (b.toNRGBA.a = 0xffff →
      composite draw Mode.dissolve b t = some (.nrgba64 { t.toNRGBA with a := 0xffff })) ∧
    (b.toNRGBA.a = 0 → composite draw Mode.dissolve b t = some (.nrgba64 b.toNRGBA)) := by
  constructor
  · intro h
    show some (Color.nrgba64 (compositeDissolve draw _ _)) = _
    rw [compositeDissolve, h, if_pos hd]
  · intro h
    show some (Color.nrgba64 (compositeDissolve draw _ _)) = _
    rw [compositeDissolve, h, if_neg]
    rw [UInt16.lt_iff_toNat_lt]; simp

example : (0xfffe : UInt16) < 0xffff := by decide

/-! ## C14 -/

/-- C14: Hue, Saturation and Value keep the bottom's alpha, Color takes the top's and Luminosity
the bottom's. -/
theorem C14_alpha (draw : UInt16) (b t : Color) :
    (∃ c, composite draw Mode.hue b t = some c ∧ c.toNRGBA.a = b.toNRGBA.a) ∧
    (∃ c, composite draw Mode.saturation b t = some c ∧ c.toNRGBA.a = b.toNRGBA.a) ∧
    (∃ c, composite draw Mode.value b t = some c ∧ c.toNRGBA.a = b.toNRGBA.a) ∧
    (∃ c, composite draw Mode.color b t = some c ∧ c.toNRGBA.a = t.toNRGBA.a) ∧
    (∃ c, composite draw Mode.luminosity b t = some c ∧ c.toNRGBA.a = b.toNRGBA.a) := by
  obtain ⟨x, hx, xa, -⟩ := rgbToHSV_some b.toNRGBA
  obtain ⟨y, hy, ya, -⟩ := rgbToHSV_some t.toNRGBA
  obtain ⟨p, hp, pa⟩ := rgbToHSL_some b.toNRGBA
  obtain ⟨q, hq, qa⟩ := rgbToHSL_some t.toNRGBA
  refine ⟨?_, ?_, ?_, ?_, ?_⟩
  · show ∃ c, compositeHue _ _ = some c ∧ _
    unfold compositeHue
    simp only []
    split
    · exact ⟨_, rfl, rfl⟩
    · rw [hx, hy]
      exact ⟨_, rfl, by rw [← xa]; exact HSVA.toNRGBA_a _⟩
  · show ∃ c, compositeSaturation _ _ = some c ∧ _
    rw [compositeSaturation, hx, hy]
    exact ⟨_, rfl, by rw [← xa]; exact HSVA.toNRGBA_a _⟩
  · show ∃ c, compositeValue _ _ = some c ∧ _
    rw [compositeValue, hx, hy]
    exact ⟨_, rfl, by rw [← xa]; exact HSVA.toNRGBA_a _⟩
  · show ∃ c, compositeColor _ _ = some c ∧ _
    rw [compositeColor, hp, hq]
    exact ⟨_, rfl, by rw [← qa]; exact HSLA.toNRGBA_a _⟩
  · show ∃ c, compositeColor _ _ = some c ∧ _
    rw [compositeColor, hp, hq]
    exact ⟨_, rfl, by rw [← pa]; exact HSLA.toNRGBA_a _⟩

example : (composite 0 Mode.color (.nrgba 1 2 3 128) (.nrgba 30 20 10 64)).map (·.toNRGBA.a) = some 0x4040 ∧
    (composite 0 Mode.hue (.nrgba 1 2 3 128) (.nrgba 30 20 10 64)).map (·.toNRGBA.a) = some 0x8080 := by decide

/-- C14: Hue with a grey top returns the bottom unchanged. -/
theorem C14_hue_grey (draw : UInt16) (b t : Color) (hg : t.toNRGBA.g = t.toNRGBA.r)
    (hb : t.toNRGBA.b = t.toNRGBA.r) :
    composite draw Mode.hue b t = some (.nrgba64 b.toNRGBA) := by
  show compositeHue _ _ = _
  unfold compositeHue
  simp only []
  rw [if_pos]
  simp [NRGBA64.rgba, hg, hb]

example : (Color.gray 5).toNRGBA.g = (Color.gray 5).toNRGBA.r ∧
    (Color.gray 5).toNRGBA.b = (Color.gray 5).toNRGBA.r := by decide

/-! ## C68 -/

/-- C68 as stated: merging the grain undoes extracting it whenever nothing was clamped. -/
def GrainInverse : Prop := ∀ (x y : UInt16) (c : NRGBA64),
  grainMerge (unit x) (unit y) = unit x + unit y - mid →
  composite 0 Mode.grainMerge (.nrgba64 ⟨x, x, x, 0xffff⟩) (.nrgba64 ⟨y, y, y, 0xffff⟩)
    = some (.nrgba64 c) → (c.r.toNat : ℤ) = down (grainMerge (unit x) (unit y))

/-- C68 is false: composite.go:307 adds the mid grey instead of subtracting it. -/
theorem C68_grain_merge_refuted : ¬ GrainInverse := by
  intro h
  have hx : unit 0x7fff = mid := by
    unfold unit mid
    have : (0x7fff : UInt16).toNat = 32767 := rfl
    rw [this]; norm_num
  have hs : grainMerge (unit 0x7fff) (unit 0x7fff) = unit 0x7fff + unit 0x7fff - mid := by
    rw [hx]; unfold grainMerge mid; norm_num
  have := h 0x7fff 0x7fff ⟨0xffff, 0xffff, 0xffff, 0xffff⟩ hs (by decide)
  rw [hs, hx, down_int 32767] at this
  · revert this; decide
  · unfold mid; norm_num

/-- C68, what the code does: min(1, x + y + mid), so it is never darker than either input and is
white as soon as the inputs add up to the mid grey 0x8000. -/
theorem C68_grain_merge_partial (draw : UInt16) (b t : Color) (hb : b.toNRGBA.a = 0xffff)
    (ht : t.toNRGBA.a = 0xffff) :
    ∃ c, composite draw Mode.grainMerge b t = some (.nrgba64 c) ∧
      (c.r.toNat : ℤ) = down (min 1 (unit b.toNRGBA.r + unit t.toNRGBA.r + mid)) := by
  refine ⟨_, composite_opaque (f := compositeGrainMerge) rfl draw b t hb ht, ?_⟩
  dsimp only
  rw [grainMerge_nat, down_int (min 65535 ((b.toNRGBA.r.toNat : ℤ) + t.toNRGBA.r.toNat + 32767))]
  · omega
  · rw [mul_min_of_nonneg _ _ (by norm_num)]
    unfold unit mid
    push_cast
    congr 1
    · ring
    · ring

example : (Color.gray 9).toNRGBA.a = 0xffff := by decide

end Limage
