import Verif.Props.Carried
/-!
# C145: making layers brighter makes the picture brighter
-/
namespace Limage

namespace Spec

/-- the second colour covers as much as the first, and no channel of it is darker -/
def Brighter (c c' : Color) : Prop :=
  (c.toNRGBA.a = c'.toNRGBA.a ∧ c.toNRGBA.r ≤ c'.toNRGBA.r ∧ c.toNRGBA.g ≤ c'.toNRGBA.g ∧ c.toNRGBA.b ≤ c'.toNRGBA.b) ∧
  c.rgba32.a = c'.rgba32.a ∧ c.rgba32.r ≤ c'.rgba32.r ∧ c.rgba32.g ≤ c'.rgba32.g ∧ c.rgba32.b ≤ c'.rgba32.b

/-- separable modes whose definition grows with both colours -/
def growing : List UInt32 := [3, 4, 5, 7, 9, 10, 16, 17, 18, 19, 21]

/-- those of them for which the code does so, too: Multiply, Screen, Addition, Darken Only, Lighten Only, Dodge and Grain Merge -/
def growingModes : List UInt32 := [3, 4, 7, 9, 10, 16, 21]

/-- modes in which bright colours make bright pictures: the above, and all that are neither separable nor Hue, Saturation, Color, Value or Luminosity -/
def Brightly (m : Mode) : Prop := m ∈ growingModes ∨ Alikely m

end Spec
open Spec

theorem brighter_nrgba {n n' : NRGBA64} (ha : n.a = n'.a) (hr : n.r.toNat ≤ n'.r.toNat) (hg : n.g.toNat ≤ n'.g.toNat) (hb : n.b.toNat ≤ n'.b.toNat) :
    Brighter (.nrgba64 n) (.nrgba64 n') := by
  have key : ∀ x y a : UInt16, x.toNat ≤ y.toNat → x.toUInt32 * a.toUInt32 / 0xffff ≤ y.toUInt32 * a.toUInt32 / 0xffff := by
    intro x y a h
    have hx := u16_le x
    have hy := u16_le y
    have ha := u16_le a
    have hm : ∀ z : UInt16, (z.toUInt32 * a.toUInt32).toNat = z.toNat * a.toNat := by
      intro z
      have hz := u16_le z
      have : z.toNat * a.toNat ≤ 65535 * 65535 := Nat.mul_le_mul hz ha
      rw [mul32 _ _ (by rw [toNat_16_32, toNat_16_32]; omega), toNat_16_32, toNat_16_32]
    rw [UInt32.le_iff_toNat_le, UInt32.toNat_div, UInt32.toNat_div, hm, hm]
    exact Nat.div_le_div_right (Nat.mul_le_mul_right _ h)
  refine ⟨⟨ha, UInt16.le_iff_toNat_le.2 hr, UInt16.le_iff_toNat_le.2 hg, UInt16.le_iff_toNat_le.2 hb⟩, ?_, ?_, ?_, ?_⟩
  · show n.a.toUInt32 = n'.a.toUInt32
    rw [ha]
  · show n.r.toUInt32 * n.a.toUInt32 / 0xffff ≤ n'.r.toUInt32 * n'.a.toUInt32 / 0xffff
    rw [← ha]; exact key _ _ _ hr
  · show n.g.toUInt32 * n.a.toUInt32 / 0xffff ≤ n'.g.toUInt32 * n'.a.toUInt32 / 0xffff
    rw [← ha]; exact key _ _ _ hg
  · show n.b.toUInt32 * n.a.toUInt32 / 0xffff ≤ n'.b.toUInt32 * n'.a.toUInt32 / 0xffff
    rw [← ha]; exact key _ _ _ hb

theorem blendNat_grows {a1 a2 x x' y y' : Nat} (hx : x ≤ x') (hy : y ≤ y') : blendNat a1 x a2 y ≤ blendNat a1 x' a2 y' := by
  unfold blendNat
  exact Nat.add_le_add (Nat.div_le_div_right (Nat.mul_le_mul_left _ hx)) (Nat.div_le_div_right (Nat.mul_le_mul_left _ hy))

theorem growing_func {m : Mode} (h : m ∈ growingModes) : ∃ f, channelFunc m = some f ∧
    ∀ x x' y y' : UInt16, x.toNat ≤ x'.toNat → y.toNat ≤ y'.toNat → (f x y).toNat ≤ (f x' y').toNat := by
  simp only [growingModes, List.mem_cons, List.not_mem_nil, or_false] at h
  rcases h with rfl | rfl | rfl | rfl | rfl | rfl | rfl
  · refine ⟨_, rfl, fun x x' y y' hx hy => ?_⟩
    rw [multiply_nat, multiply_nat]
    exact Nat.div_le_div_right (Nat.mul_le_mul hx hy)
  · refine ⟨_, rfl, fun x x' y y' hx hy => ?_⟩
    rw [screen_nat, screen_nat]
    have := Nat.div_le_div_right (c := 65535) (Nat.mul_le_mul (Nat.sub_le_sub_left hx 65535) (Nat.sub_le_sub_left hy 65535))
    omega
  · refine ⟨_, rfl, fun x x' y y' hx hy => ?_⟩
    rw [addition_nat, addition_nat]
    omega
  · refine ⟨_, rfl, fun x x' y y' hx hy => ?_⟩
    unfold compositeDarkenOnly
    rw [goMin2, goMin2]
    omega
  · refine ⟨_, rfl, fun x x' y y' hx hy => ?_⟩
    unfold compositeLightenOnly
    rw [goMax2, goMax2]
    omega
  · refine ⟨_, rfl, fun x x' y y' hx hy => ?_⟩
    have dodge : ∀ x y : UInt16, (compositeDodge x y).toNat =
        if y.toNat = 65535 then (if x.toNat = 0 then 0 else 65535) else min 65535 (65535 * x.toNat / (65535 - y.toNat)) := by
      intro x y
      have hx := u16_le x
      unfold compositeDodge
      by_cases h0 : y = 0xffff
      · rw [if_pos h0, if_pos (u16_full_nat.1 h0)]
        by_cases h1 : x = 0
        · rw [if_pos h1, if_pos (u16_zero_nat.1 h1)]; rfl
        · rw [if_neg h1, if_neg (fun h => h1 (u16_zero_nat.2 h))]; rfl
      · rw [if_neg h0, if_neg (fun h => h0 (u16_full_nat.2 h)), clamp_nat, UInt32.toNat_div, mul32 _ _ (by rw [ffff32, toNat_16_32]; omega), ffff32, inv32,
          toNat_16_32]
    rw [dodge, dodge]
    have hx' := u16_le x'
    have hy' := u16_le y'
    by_cases h1 : y'.toNat = 65535
    · rw [if_pos h1]
      by_cases h2 : x'.toNat = 0
      · rw [if_pos h2]
        have h3 : x.toNat = 0 := by omega
        rw [h3]
        split <;> simp
      · rw [if_neg h2]
        split
        · split <;> omega
        · exact Nat.min_le_left _ _
    · rw [if_neg h1, if_neg (by omega)]
      have h2 : 65535 * x.toNat / (65535 - y.toNat) ≤ 65535 * x'.toNat / (65535 - y'.toNat) :=
        (Nat.div_le_div_right (Nat.mul_le_mul_left _ hx)).trans (Nat.div_le_div_left (by omega) (by omega))
      omega
  · refine ⟨_, rfl, fun x x' y y' hx hy => ?_⟩
    rw [grainMerge_nat, grainMerge_nat]
    omega

theorem brighter_normal (d : UInt16) {b b' t t' : Color} (hb : Brighter b b') (ht : Brighter t t') :
    ∃ c c', composite d Mode.normal b t = some c ∧ composite d Mode.normal b' t' = some c' ∧ Brighter c c' := by
  rw [composite_normal, composite_normal]
  obtain ⟨⟨ba, br, bg, bb⟩, -⟩ := hb
  obtain ⟨⟨ta, tr, tg, tb⟩, -⟩ := ht
  rw [UInt16.le_iff_toNat_le] at br bg bb tr tg tb
  generalize b.toNRGBA = b at *
  generalize t.toNRGBA = t at *
  generalize b'.toNRGBA = b' at *
  generalize t'.toNRGBA = t' at *
  by_cases h : b.a = 0 ∧ t.a = 0
  · refine ⟨.nrgba64 ⟨0, 0, 0, 0⟩, .nrgba64 ⟨0, 0, 0, 0⟩, ?_, ?_, brighter_nrgba rfl le_rfl le_rfl le_rfl⟩
    · rw [compositeNormal, if_pos h]; rfl
    · rw [compositeNormal, if_pos (by rw [← ba, ← ta]; exact h)]; rfl
  · have h' : ¬(b'.a = 0 ∧ t'.a = 0) := by rw [← ba, ← ta]; exact h
    obtain ⟨c, hc, h1, h2, h3, h4⟩ := compositeNormal_eq b t h
    obtain ⟨c', hc', h1', h2', h3', h4'⟩ := compositeNormal_eq b' t' h'
    rw [← ba, ← ta] at h1' h2' h3' h4'
    refine ⟨.nrgba64 c, .nrgba64 c', by rw [hc]; rfl, by rw [hc']; rfl, brighter_nrgba (UInt16.toNat_inj.1 (h4.trans h4'.symm)) ?_ ?_ ?_⟩
    · rw [h1, h1']; exact blendNat_grows br tr
    · rw [h2, h2']; exact blendNat_grows bg tg
    · rw [h3, h3']; exact blendNat_grows bb tb

/-- **C145**: in these modes two brighter colours give a brighter one. -/
theorem C145_pair_partial (d : UInt16) (m : Mode) (hm : Brightly m) (b b' t t' : Color) (hb : Brighter b b') (ht : Brighter t t') :
    ∃ c c', composite d m b t = some c ∧ composite d m b' t' = some c' ∧ Brighter c c' := by
  rcases hm with hm | hm
  · obtain ⟨f, hf, hmono⟩ := growing_func hm
    rw [composite_channels hf, composite_channels hf]
    obtain ⟨⟨ba, br, bg, bb⟩, -⟩ := hb
    obtain ⟨⟨ta, tr, tg, tb⟩, -⟩ := ht
    rw [UInt16.le_iff_toNat_le] at br bg bb tr tg tb
    by_cases h : b.toNRGBA.a = 0
    · exact ⟨.nrgba 0 0 0 0, .nrgba 0 0 0 0, by rw [compositeChannels, if_pos h], by rw [compositeChannels, if_pos (by rw [← ba]; exact h)],
        ⟨rfl, by decide, by decide, by decide⟩, rfl, by decide, by decide, by decide⟩
    · obtain ⟨c, hc, h4, h1, h2, h3⟩ := compositeChannels_eq f b.toNRGBA t.toNRGBA h
      obtain ⟨c', hc', h4', h1', h2', h3'⟩ := compositeChannels_eq f b'.toNRGBA t'.toNRGBA (by rw [← ba]; exact h)
      rw [← ba] at h1' h2' h3' h4'
      rw [← ta] at h1' h2' h3'
      refine ⟨_, _, hc, hc', brighter_nrgba (h4.trans h4'.symm) ?_ ?_ ?_⟩
      · rw [h1, h1']; exact blendNat_grows br (hmono _ _ _ _ br tr)
      · rw [h2, h2']; exact blendNat_grows bg (hmono _ _ _ _ br tg)
      · rw [h3, h3']; exact blendNat_grows bb (hmono _ _ _ _ br tb)
  by_cases ho : m ∈ ownArithmetic
  · have all : ∀ m ∈ ownArithmetic, m ∉ separable → m ∉ ([11, 12, 13, 14, 22] : List UInt32) → m = Mode.dissolve ∨ m = Mode.behind ∨ m = Mode.destinationAtop := by decide
    rcases all m ho hm.1 hm.2 with rfl | rfl | rfl
    · have e : ∀ b t, composite d Mode.dissolve b t = some (.nrgba64 (compositeDissolve d b.toNRGBA t.toNRGBA)) := fun _ _ => rfl
      refine ⟨_, _, e b t, e b' t', ?_⟩
      unfold compositeDissolve
      rw [hb.1.1]
      obtain ⟨⟨ba, br, bg, bb⟩, -⟩ := hb
      obtain ⟨⟨ta, tr, tg, tb⟩, -⟩ := ht
      rw [UInt16.le_iff_toNat_le] at br bg bb tr tg tb
      split
      · exact brighter_nrgba rfl tr tg tb
      · exact brighter_nrgba ba br bg bb
    · have e : ∀ b t, composite d Mode.behind b t = some (.nrgba64 b.toNRGBA) := fun _ _ => rfl
      obtain ⟨⟨ba, br, bg, bb⟩, -⟩ := hb
      rw [UInt16.le_iff_toNat_le] at br bg bb
      exact ⟨_, _, e b t, e b' t', brighter_nrgba ba br bg bb⟩
    · rw [(C11_as_normal_partial d b t).2.2.2.2, (C11_as_normal_partial d b' t').2.2.2.2]
      exact brighter_normal d ht hb
  · rw [C12_undefined_is_normal d m ho, C12_undefined_is_normal d m ho]
    exact brighter_normal d hb ht

-- half a Dodge layer of two oranges over two greens
example : Brightly Mode.dodge ∧ Brighter (.nrgba 0 200 0 255) (.nrgba 5 200 9 255) ∧ Brighter (.nrgba 200 100 0 128) (.nrgba 250 100 1 128) := by
  unfold Brightly Brighter Alikely
  decide +kernel

theorem brighter_kept : Kept Brighter Brightly where
  nothing := ⟨⟨rfl, by decide, by decide, by decide⟩, rfl, by decide, by decide, by decide⟩
  transparency {c c'} o h := by
    obtain ⟨⟨ha, hr, hg, hb⟩, hl⟩ := id h
    rw [UInt16.le_iff_toNat_le] at hr hg hb
    unfold transparency
    split
    · exact h
    · split
      · exact brighter_nrgba rfl le_rfl le_rfl le_rfl
      · exact brighter_nrgba (by dsimp only; rw [ha]) hr hg hb
  solid {c c'} h := by
    obtain ⟨⟨ha, hr, hg, hb⟩, hl⟩ := h
    rw [UInt16.le_iff_toNat_le] at hr hg hb
    exact ⟨ha, brighter_nrgba rfl hr hg hb⟩
  composite d _ hm _ _ _ _ hb ht := C145_pair_partial d _ hm _ _ _ _ hb ht

/-- **C145**: if no pixel of an image in a picture is darker than that of another picture of the same layers with the same coverage, no pixel of the picture
is.  Missing: the modes Overlay, Burn, Hard Light and Soft Light, whose definitions grow with both colours as well (refuted below). -/
theorem C145_picture_partial (ρ : Nat → UInt16) (i j : Img) (h : Paired Brighter Brightly i j) (p : Pt) (n : Nat) (c : Color) (k : Nat)
    (hc : i.at ρ p n = some (c, k)) : ∃ c', j.at ρ p n = some (c', k) ∧ Brighter c c' :=
  at_paired brighter_kept ρ i j h p n c k hc

example : Paired Brighter Brightly (twoCoats Mode.screen (.nrgba 1 2 3 100) (.lrgb 4 5 6)) (twoCoats Mode.screen (.nrgba 1 9 7 100) (.gray 77)) ∧
    ∃ c m, (twoCoats Mode.screen (.nrgba 1 2 3 100) (.lrgb 4 5 6)).at (fun _ => 7) ⟨1, 1⟩ 0 = some (c, m) :=
  ⟨twoCoats_paired (by unfold Brightly Alikely; decide) (by unfold Brightly Alikely; decide) (by unfold Brighter; decide +kernel) (by unfold Brighter; decide +kernel),
    _, _, by cbv⟩

/-- the claim in full: also in the other modes whose definitions grow with both colours -/
def Spec.GrowsWithBoth : Prop := ∀ m ∈ growing, ∀ b b' t t' : Color, Brighter b b' → Brighter t t' →
  ∃ c c', composite 0 m b t = some c ∧ composite 0 m b' t' = some c' ∧ Brighter c c'

/-- grey that is opaque -/
def evenGrey (y : UInt16) : Color := .nrgba64 ⟨y, y, y, 0xffff⟩

/-- **C145**: the claim is false of each of the four other modes: over the same grey, the brighter of two greys gives a darker one. -/
theorem C145_refuted : ¬GrowsWithBoth ∧ ∀ m ∈ growing, m ∉ growingModes → ∃ b t t' c c' : UInt16, t < t' ∧
    composite 0 m (evenGrey b) (evenGrey t) = some (evenGrey c) ∧ composite 0 m (evenGrey b) (evenGrey t') = some (evenGrey c') ∧ c' < c := by
  have h : ∀ m ∈ growing, m ∉ growingModes → ∃ b t t' c c' : UInt16, t < t' ∧
      composite 0 m (evenGrey b) (evenGrey t) = some (evenGrey c) ∧ composite 0 m (evenGrey b) (evenGrey t') = some (evenGrey c') ∧ c' < c := by
    intro m hm hn
    simp only [growing, List.mem_cons, List.not_mem_nil, or_false] at hm
    rcases hm with rfl | rfl | rfl | rfl | rfl | rfl | rfl | rfl | rfl | rfl | rfl
    · exact absurd (by decide) hn
    · exact absurd (by decide) hn
    · exact ⟨0xffff, 0, 0x4000, 0xffff, 0xdbff, by decide, by decide, by decide, by decide⟩
    · exact absurd (by decide) hn
    · exact absurd (by decide) hn
    · exact absurd (by decide) hn
    · exact absurd (by decide) hn
    · exact ⟨0x7fff, 0, 0xffff, 0xffff, 0x7fff, by decide, by decide, by decide, by decide⟩
    · exact ⟨0, 0x7fff, 0x8000, 0xffff, 1, by decide, by decide, by decide, by decide⟩
    · exact ⟨0xffff, 0, 0x4000, 0xffff, 0xdbff, by decide, by decide, by decide, by decide⟩
    · exact absurd (by decide) hn
  refine ⟨fun hg => ?_, h⟩
  obtain ⟨b, t, t', c, c', ht, e1, e2, hc⟩ := h 5 (by decide) (by decide)
  obtain ⟨x, x', h1, h2, ⟨-, h3, -⟩, -⟩ := hg 5 (by decide) (evenGrey b) (evenGrey b) (evenGrey t) (evenGrey t')
    (brighter_nrgba rfl le_rfl le_rfl le_rfl)
    (brighter_nrgba rfl (UInt16.le_iff_toNat_le.1 (UInt16.le_of_lt ht)) (UInt16.le_iff_toNat_le.1 (UInt16.le_of_lt ht)) (UInt16.le_iff_toNat_le.1 (UInt16.le_of_lt ht)))
  rw [e1] at h1
  rw [e2] at h2
  cases h1
  cases h2
  exact absurd h3 (UInt16.not_le.2 hc)

end Limage
