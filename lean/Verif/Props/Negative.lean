import Verif.Props.Composite
import Verif.Props.Grouping
/-!
# C142: the negative of a picture
-/
namespace Limage

namespace Spec

/-- the negative of a colour -/
def negative (c : NRGBA64) : NRGBA64 := ⟨0xffff - c.r, 0xffff - c.g, 0xffff - c.b, c.a⟩

/-- Multiply and Screen, Darken only and Lighten only: the modes that do to negatives what the other does to positives -/
def opposites : List (UInt32 × UInt32) := [(3, 4), (4, 3), (9, 10), (10, 9)]

/-- with Normal, Dissolve and Behind, which treat all colours alike -/
def photographic : List (UInt32 × UInt32) := [(0, 0), (1, 1), (2, 2)] ++ opposites

end Spec
open Spec

theorem negative_a (c : NRGBA64) : (negative c).a = c.a := by unfold negative; exact rfl

theorem screen_negative (x y : UInt16) : compositeScreen (0xffff - x) (0xffff - y) = 0xffff - compositeMultiply x y := by
  refine UInt16.toNat_inj.1 ?_
  have hx := u16_le x
  have hy := u16_le y
  rw [screen_nat, inv16, inv16, inv16, multiply_nat]
  rw [show 65535 - (65535 - x.toNat) = x.toNat by omega, show 65535 - (65535 - y.toNat) = y.toNat by omega]

theorem multiply_negative (x y : UInt16) : compositeMultiply (0xffff - x) (0xffff - y) = 0xffff - compositeScreen x y := by
  refine UInt16.toNat_inj.1 ?_
  have hx := u16_le x
  have hy := u16_le y
  rw [multiply_nat, inv16, inv16, inv16, screen_nat]
  have := prod_div_le (a := 65535 - x.toNat) (b := 65535 - y.toNat) (by omega)
  omega

theorem darken_negative (x y : UInt16) : compositeDarkenOnly (0xffff - x) (0xffff - y) = 0xffff - compositeLightenOnly x y := by
  refine UInt16.toNat_inj.1 ?_
  have hx := u16_le x
  have hy := u16_le y
  unfold compositeDarkenOnly compositeLightenOnly
  rw [goMin2, inv16, inv16, inv16, goMax2]
  omega

theorem lighten_negative (x y : UInt16) : compositeLightenOnly (0xffff - x) (0xffff - y) = 0xffff - compositeDarkenOnly x y := by
  refine UInt16.toNat_inj.1 ?_
  have hx := u16_le x
  have hy := u16_le y
  unfold compositeDarkenOnly compositeLightenOnly
  rw [goMax2, inv16, inv16, inv16, goMin2]
  omega

theorem difference_negative (x y : UInt16) : compositeDifference (0xffff - x) (0xffff - y) = compositeDifference x y := by
  have hx := u16_le x
  have hy := u16_le y
  refine UInt16.toNat_inj.1 ?_
  unfold compositeDifference
  have h1 := inv16 x
  have h2 := inv16 y
  simp only [GT.gt, UInt16.lt_iff_toNat_lt]
  rw [h1, h2]
  by_cases a : y.toNat < x.toNat
  · rw [if_pos a, if_neg (by omega), sub16 (0xffff - y) (0xffff - x), sub16 x y, h1, h2] <;> omega
  · rw [if_neg a]
    by_cases b : x.toNat < y.toNat
    · rw [if_pos (by omega), sub16 (0xffff - x) (0xffff - y), sub16 y x, h1, h2] <;> omega
    · have e : x = y := UInt16.toNat_inj.1 (by omega)
      subst e
      rw [if_neg (by omega)]; simp

theorem hardLight_negative (x y : UInt16) (h : y ≠ 0x7fff) (h' : y ≠ 0x8000) :
    compositeHardLight (0xffff - x) (0xffff - y) = 0xffff - compositeHardLight x y := by
  have hx := u16_le x
  have hy := u16_le y
  refine UInt16.toNat_inj.1 ?_
  have n1 := u16_ne_nat h
  have n2 := u16_ne_nat h'
  rw [show (0x7fff : UInt16).toNat = 32767 from rfl] at n1
  rw [show (0x8000 : UInt16).toNat = 32768 from rfl] at n2
  rw [inv16]
  by_cases hl : y.toNat < 32767
  · rw [hardLight_low x y hl, hardLight_high _ _ (by rw [inv16]; omega), inv16, inv16]
    rw [show 65535 - (65535 - x.toNat) = x.toNat by omega, show 131070 - 2 * (65535 - y.toNat) = 2 * y.toNat by omega]
  · rw [hardLight_high x y (by omega), hardLight_low _ _ (by rw [inv16]; omega), inv16, inv16]
    rw [show 2 * (65535 - y.toNat) = 131070 - 2 * y.toNat by omega]
    have := prod_div_le (a := 65535 - x.toNat) (b := 131070 - 2 * y.toNat) (by omega)
    have : (65535 - x.toNat) * (131070 - 2 * y.toNat) / 65535 ≤ 65535 := by omega
    omega

theorem opposite_funcs {m m' : UInt32} (h : (m, m') ∈ opposites) :
    ∃ f f', channelFunc m = some f ∧ channelFunc m' = some f' ∧ ∀ x y, f' (0xffff - x) (0xffff - y) = 0xffff - f x y := by
  simp only [opposites, List.mem_cons, List.not_mem_nil, or_false, Prod.mk.injEq] at h
  rcases h with h | h | h | h <;> obtain ⟨rfl, rfl⟩ := h
  · exact ⟨_, _, rfl, rfl, screen_negative⟩
  · exact ⟨_, _, rfl, rfl, multiply_negative⟩
  · exact ⟨_, _, rfl, rfl, lighten_negative⟩
  · exact ⟨_, _, rfl, rfl, darken_negative⟩

/-- **C142**: of two opaque colours, the negatives give the negative, in the opposite mode: Multiply and Screen, Darken only and
Lighten only are each other's opposite and Normal, Dissolve and Behind their own. -/
theorem C142_opaque (draw : UInt16) (m m' : UInt32) (hm : (m, m') ∈ photographic) (b t : Color) (hb : b.toNRGBA.a = 0xffff) (ht : t.toNRGBA.a = 0xffff)
    (b' t' : Color) (hb' : b'.toNRGBA = negative b.toNRGBA) (ht' : t'.toNRGBA = negative t.toNRGBA) :
    ∃ c, composite draw m b t = some (.nrgba64 c) ∧ c.a = 0xffff ∧ composite draw m' b' t' = some (.nrgba64 (negative c)) := by
  have hba : b'.toNRGBA.a = 0xffff := by rw [hb', negative_a]; exact hb
  have hta : t'.toNRGBA.a = 0xffff := by rw [ht', negative_a]; exact ht
  rcases List.mem_append.1 hm with hm | hm
  · simp only [List.mem_cons, List.not_mem_nil, or_false, Prod.mk.injEq] at hm
    rcases hm with h | h | h <;> obtain ⟨rfl, rfl⟩ := h
    · refine ⟨_, C01_opaque_top draw b t ht, ht, ?_⟩
      rw [← ht']; exact C01_opaque_top draw b' t' hta
    · show ∃ c, some (Color.nrgba64 (compositeDissolve draw b.toNRGBA t.toNRGBA)) = _ ∧ _ ∧ some (Color.nrgba64 (compositeDissolve draw b'.toNRGBA t'.toNRGBA)) = _
      unfold compositeDissolve
      rw [hba, hb]
      split
      · refine ⟨_, rfl, rfl, ?_⟩
        rw [ht']; rfl
      · refine ⟨_, rfl, hb, ?_⟩
        rw [hb']
    · refine ⟨b.toNRGBA, rfl, hb, ?_⟩
      rw [← hb']; rfl
  · obtain ⟨f, f', hf, hf', hff⟩ := opposite_funcs hm
    refine ⟨_, composite_opaque hf draw b t hb ht, rfl, ?_⟩
    rw [composite_opaque hf' draw b' t' hba hta, hb', ht']
    simp only [negative, hff]

example : ((4 : UInt32), (3 : UInt32)) ∈ photographic ∧ (Color.nrgba64 ⟨1, 2, 3, 0xffff⟩).toNRGBA.a = 0xffff ∧
    (Color.nrgba64 ⟨0xfffe, 0xfffd, 0xfffc, 0xffff⟩).toNRGBA = negative (Color.nrgba64 ⟨1, 2, 3, 0xffff⟩).toNRGBA := by decide

theorem blendNat_negative {a1 x1 a2 x2 : Nat} (h1 : a1 ≤ 65535) (h2 : a2 ≤ 65535) (hx1 : x1 ≤ 65535) (hx2 : x2 ≤ 65535) :
    blendNat a1 (65535 - x1) a2 (65535 - x2) ≤ 65535 - blendNat a1 x1 a2 x2 ∧
    65535 - blendNat a1 x1 a2 x2 ≤ blendNat a1 (65535 - x1) a2 (65535 - x2) + 2 := by
  have hk := mixK_le h1 h2
  unfold blendNat
  generalize mixK a1 a2 = k at *
  have e1 : (65535 - k) * (65535 - x1) + (65535 - k) * x1 = (65535 - k) * 65535 := by rw [← Nat.mul_add]; congr 1; omega
  have e2 : k * (65535 - x2) + k * x2 = k * 65535 := by rw [← Nat.mul_add]; congr 1; omega
  omega

/-- **C142**: whatever the alphas are, over a colour that is not clear the negatives in the opposite mode give the negative with at
most two steps less in a channel, and the same alpha. -/
theorem C142_any (draw : UInt16) (m m' : UInt32) (hm : (m, m') ∈ (0, 0) :: opposites) (b t : Color) (hb : b.toNRGBA.a ≠ 0)
    (b' t' : Color) (hb' : b'.toNRGBA = negative b.toNRGBA) (ht' : t'.toNRGBA = negative t.toNRGBA) :
    ∃ c c', composite draw m b t = some (.nrgba64 c) ∧ composite draw m' b' t' = some (.nrgba64 c') ∧ c'.a = c.a ∧
      (c'.r.toNat ≤ 65535 - c.r.toNat ∧ 65535 - c.r.toNat ≤ c'.r.toNat + 2) ∧
      (c'.g.toNat ≤ 65535 - c.g.toNat ∧ 65535 - c.g.toNat ≤ c'.g.toNat + 2) ∧
      (c'.b.toNat ≤ 65535 - c.b.toNat ∧ 65535 - c.b.toNat ≤ c'.b.toNat + 2) := by
  have la := u16_le b.toNRGBA.a
  have lt := u16_le t.toNRGBA.a
  rcases List.mem_cons.1 hm with hm | hm
  · obtain ⟨rfl, rfl⟩ := Prod.mk.inj hm
    obtain ⟨c, hc, hr, hg, hbl, ha⟩ := compositeNormal_eq b.toNRGBA t.toNRGBA fun e => hb e.1
    obtain ⟨c', hc', hr', hg', hbl', ha'⟩ := compositeNormal_eq b'.toNRGBA t'.toNRGBA fun e => hb (by rw [hb', negative_a] at e; exact e.1)
    refine ⟨c, c', ?_, ?_, UInt16.toNat_inj.1 ?_, ?_, ?_, ?_⟩
    · show (compositeNormal b.toNRGBA t.toNRGBA).map _ = _
      rw [hc]; rfl
    · show (compositeNormal b'.toNRGBA t'.toNRGBA).map _ = _
      rw [hc']; rfl
    · rw [ha, ha', hb', ht', negative_a, negative_a]
    · rw [hr, hr', hb', ht']; dsimp only [negative]; rw [inv16, inv16]; exact blendNat_negative la lt (u16_le _) (u16_le _)
    · rw [hg, hg', hb', ht']; dsimp only [negative]; rw [inv16, inv16]; exact blendNat_negative la lt (u16_le _) (u16_le _)
    · rw [hbl, hbl', hb', ht']; dsimp only [negative]; rw [inv16, inv16]; exact blendNat_negative la lt (u16_le _) (u16_le _)
  · obtain ⟨f, f', hf, hf', hff⟩ := opposite_funcs hm
    obtain ⟨c, hc, ha, hr, hg, hbl⟩ := compositeChannels_eq f b.toNRGBA t.toNRGBA hb
    obtain ⟨c', hc', ha', hr', hg', hbl'⟩ := compositeChannels_eq f' b'.toNRGBA t'.toNRGBA (by rw [hb', negative_a]; exact hb)
    refine ⟨c, c', ?_, ?_, ?_, ?_, ?_, ?_⟩
    · rw [composite_channels hf, hc]
    · rw [composite_channels hf', hc']
    · rw [ha, ha', hb', negative_a]
    · rw [hr, hr', hb', ht']; dsimp only [negative]; rw [hff, inv16, inv16]; exact blendNat_negative la (by omega) (u16_le _) (u16_le _)
    · rw [hg, hg', hb', ht']; dsimp only [negative]; rw [hff, inv16, inv16]; exact blendNat_negative la (by omega) (u16_le _) (u16_le _)
    · rw [hbl, hbl', hb', ht']; dsimp only [negative]; rw [hff, inv16, inv16]; exact blendNat_negative la (by omega) (u16_le _) (u16_le _)

example : ((9 : UInt32), (10 : UInt32)) ∈ ((0, 0) :: opposites : List (UInt32 × UInt32)) ∧ (Color.nrgba64 ⟨1, 2, 3, 4⟩).toNRGBA.a ≠ 0 ∧
    (Color.nrgba64 ⟨0xfffe, 0xfffd, 0xfffc, 4⟩).toNRGBA = negative (Color.nrgba64 ⟨1, 2, 3, 4⟩).toNRGBA := by decide

/-- **C142**: the difference of two opaque colours is that of their negatives. -/
theorem C142_difference (draw : UInt16) (b t : Color) (hb : b.toNRGBA.a = 0xffff) (ht : t.toNRGBA.a = 0xffff)
    (b' t' : Color) (hb' : b'.toNRGBA = negative b.toNRGBA) (ht' : t'.toNRGBA = negative t.toNRGBA) :
    composite draw Mode.difference b' t' = composite draw Mode.difference b t := by
  rw [composite_opaque (f := compositeDifference) rfl draw b t hb ht,
    composite_opaque (f := compositeDifference) rfl draw b' t' (by rw [hb', negative_a]; exact hb) (by rw [ht', negative_a]; exact ht), hb', ht']
  simp only [negative, difference_negative]

example : (Color.gray 200).toNRGBA.a = 0xffff ∧ (Color.gray 55).toNRGBA = negative (Color.gray 200).toNRGBA := by decide

/-- **C142**: Hard Light is its own opposite, where no channel of the top is one of the two values in the middle.  Missing: these two
values, for which it is false (`C142_refuted`). -/
theorem C142_hardlight_partial (draw : UInt16) (b t : Color) (hb : b.toNRGBA.a = 0xffff) (ht : t.toNRGBA.a = 0xffff)
    (hmid : ∀ y ∈ [t.toNRGBA.r, t.toNRGBA.g, t.toNRGBA.b], y ≠ 0x7fff ∧ y ≠ 0x8000)
    (b' t' : Color) (hb' : b'.toNRGBA = negative b.toNRGBA) (ht' : t'.toNRGBA = negative t.toNRGBA) :
    ∃ c, composite draw Mode.hardLight b t = some (.nrgba64 c) ∧ composite draw Mode.hardLight b' t' = some (.nrgba64 (negative c)) := by
  refine ⟨_, composite_opaque (f := compositeHardLight) rfl draw b t hb ht, ?_⟩
  rw [composite_opaque (f := compositeHardLight) rfl draw b' t' (by rw [hb', negative_a]; exact hb) (by rw [ht', negative_a]; exact ht), hb', ht']
  simp only [List.mem_cons, List.not_mem_nil, or_false, forall_eq_or_imp, forall_eq] at hmid
  obtain ⟨⟨h1, h2⟩, ⟨h3, h4⟩, h5, h6⟩ := hmid
  simp only [negative]
  rw [hardLight_negative _ _ h1 h2, hardLight_negative _ _ h3 h4, hardLight_negative _ _ h5 h6]

example : (Color.gray 200).toNRGBA.a = 0xffff ∧
    ∀ y ∈ [(Color.gray 200).toNRGBA.r, (Color.gray 200).toNRGBA.g, (Color.gray 200).toNRGBA.b], y ≠ 0x7fff ∧ y ≠ 0x8000 := by decide

theorem burn_negative (x y : UInt16) (hy : y ≠ 0xffff) (h : x.toNat + y.toNat ≤ 65535) :
    compositeBurn (0xffff - x) (0xffff - y) = 0xffff - compositeDodge x y := by
  have hx := u16_le x
  have hyl := u16_le y
  have hn := u16_ne_nat hy
  rw [ffff16] at hn
  have e : 65535 - (65535 - x.toNat) = x.toNat := by omega
  have hq : 65535 * x.toNat / (65535 - y.toNat) ≤ 65535 := by
    apply Nat.div_le_of_le_mul
    rw [Nat.mul_comm]; exact Nat.mul_le_mul_right _ (by omega)
  refine UInt16.toNat_inj.1 ?_
  rw [burn_nat _ _ (fun e => by
      have := congrArg UInt16.toNat e
      rw [inv16, UInt16.toNat_zero] at this
      omega) (by rw [inv16, inv16, e]; exact hq), inv16, inv16, inv16, e]
  unfold compositeDodge
  rw [if_neg hy, clamp_nat, UInt32.toNat_div, full_mul, inv32]
  omega

/-- **C142**: Burn is the opposite of Dodge, where red of the bottom and each channel of the top add up to no more than white and the top
has no full channel.  Missing: the other colours, for which it is false (`C142_refuted`). -/
theorem C142_burn_partial (draw : UInt16) (b t : Color) (hb : b.toNRGBA.a = 0xffff) (ht : t.toNRGBA.a = 0xffff)
    (hsum : ∀ y ∈ [t.toNRGBA.r, t.toNRGBA.g, t.toNRGBA.b], y ≠ 0xffff ∧ b.toNRGBA.r.toNat + y.toNat ≤ 65535)
    (b' t' : Color) (hb' : b'.toNRGBA = negative b.toNRGBA) (ht' : t'.toNRGBA = negative t.toNRGBA) :
    ∃ c, composite draw Mode.dodge b t = some (.nrgba64 c) ∧ composite draw Mode.burn b' t' = some (.nrgba64 (negative c)) := by
  refine ⟨_, composite_opaque (f := compositeDodge) rfl draw b t hb ht, ?_⟩
  rw [composite_opaque (f := compositeBurn) rfl draw b' t' (by rw [hb', negative_a]; exact hb) (by rw [ht', negative_a]; exact ht), hb', ht']
  simp only [List.mem_cons, List.not_mem_nil, or_false, forall_eq_or_imp, forall_eq] at hsum
  obtain ⟨⟨h1, h2⟩, ⟨h3, h4⟩, h5, h6⟩ := hsum
  simp only [negative]
  rw [burn_negative _ _ h1 h2, burn_negative _ _ h3 h4, burn_negative _ _ h5 h6]

example : (Color.gray 200).toNRGBA.a = 0xffff ∧ ∀ y ∈ [(Color.gray 50).toNRGBA.r, (Color.gray 50).toNRGBA.g, (Color.gray 50).toNRGBA.b],
    y ≠ 0xffff ∧ (Color.gray 200).toNRGBA.r.toNat + y.toNat ≤ 65535 := by decide

/-- **C142**, what does not hold: Burn is not the opposite of Dodge (dark grey over dark grey gets white in both), and Hard Light not its
own opposite for a top of middle grey. -/
theorem C142_refuted :
    (composite 0 Mode.dodge (.nrgba64 ⟨0x8000, 0x8000, 0x8000, 0xffff⟩) (.nrgba64 ⟨0xc000, 0xc000, 0xc000, 0xffff⟩) =
        some (.nrgba64 ⟨0xffff, 0xffff, 0xffff, 0xffff⟩) ∧
      composite 0 Mode.burn (.nrgba64 (negative ⟨0x8000, 0x8000, 0x8000, 0xffff⟩)) (.nrgba64 (negative ⟨0xc000, 0xc000, 0xc000, 0xffff⟩)) =
        some (.nrgba64 ⟨0xffff, 0xffff, 0xffff, 0xffff⟩)) ∧
    ∃ c c', composite 0 Mode.hardLight (.nrgba64 ⟨0, 0, 0, 0xffff⟩) (.nrgba64 ⟨0x7fff, 0x7fff, 0x7fff, 0xffff⟩) = some (.nrgba64 c) ∧
      composite 0 Mode.hardLight (.nrgba64 (negative ⟨0, 0, 0, 0xffff⟩)) (.nrgba64 (negative ⟨0x7fff, 0x7fff, 0x7fff, 0xffff⟩)) = some (.nrgba64 c') ∧
      c' ≠ negative c := by
  refine ⟨⟨by decide, by decide⟩, _, _, rfl, rfl, by decide⟩

namespace Spec

/-- at the point the two layers show opaque colours that are each other's negative, in modes that are each other's opposite; or neither
shows -/
structure Negatives (ρ : Nat → UInt16) (p : Pt) (l l' : Layer) : Prop where
  sees : shows p l' ↔ shows p l
  mode : (l.mode, l'.mode) ∈ photographic
  color : shows p l → ∀ n, ∃ t t' k, layerAt ρ l p n = some (t, k) ∧ layerAt ρ l' p n = some (t', k) ∧ t.toNRGBA.a = 0xffff ∧
    t'.toNRGBA = negative t.toNRGBA

end Spec

theorem drawLayer_known {ρ : Nat → UInt16} {cm : ColorModel} {l : Layer} {p : Pt} {n k : Nat} {t : Color} (hs : shows p l)
    (ht : layerAt ρ l p n = some (t, k)) (c : Color) : drawLayer ρ (some cm) l p c n =
      if l.mode ≠ Mode.dissolve && cm.isPalette then
        if t.toNRGBA.a > 0x7fff then some (.nrgba64 { t.toNRGBA with a := 0xffff }, k) else some (c, k)
      else if l.mode = Mode.dissolve then (composite (ρ k) l.mode c t).map fun c => (c, k + 1)
      else (composite 0 l.mode c t).map fun c => (c, k) := by
  rw [drawLayer_shows _ _ hs, ht]; rfl

theorem toNRGBA_64 (c : NRGBA64) : (Color.nrgba64 c).toNRGBA = c := rfl

theorem negatives_draw {ρ : Nat → UInt16} {p : Pt} {l l' : Layer} (h : Negatives ρ p l l') (cm cm' : ColorModel)
    (hcm : cm.isPalette = cm'.isPalette) {b b' : Color} (hb : b.toNRGBA.a = 0xffff) (hb' : b'.toNRGBA = negative b.toNRGBA) (n : Nat) :
    ∃ c c' k, drawLayer ρ (some cm) l p b n = some (c, k) ∧ drawLayer ρ (some cm') l' p b' n = some (c', k) ∧ c.toNRGBA.a = 0xffff ∧
      c'.toNRGBA = negative c.toNRGBA := by
  by_cases hs : shows p l
  · obtain ⟨t, t', k, ht, ht', ha, hn⟩ := h.color hs n
    have hmm : l.mode = Mode.dissolve ↔ l'.mode = Mode.dissolve := by
      have := h.mode
      simp only [photographic, opposites, List.cons_append, List.nil_append, List.mem_cons, List.not_mem_nil, or_false, Prod.mk.injEq] at this
      rcases this with ⟨e, e'⟩ | ⟨e, e'⟩ | ⟨e, e'⟩ | ⟨e, e'⟩ | ⟨e, e'⟩ | ⟨e, e'⟩ | ⟨e, e'⟩ <;> rw [e, e'] <;> decide
    rw [drawLayer_known hs ht, drawLayer_known (h.sees.2 hs) ht', hcm]
    by_cases hd : l.mode = Mode.dissolve
    · have hd' := hmm.1 hd
      rw [hd, hd']
      simp only [ne_eq, not_true_eq_false, decide_false, Bool.false_and, Bool.false_eq_true, if_false, if_true]
      obtain ⟨c, h1, h2, h3⟩ := C142_opaque (ρ k) 1 1 (by decide) b t hb ha b' t' hb' hn
      refine ⟨.nrgba64 c, .nrgba64 (negative c), k + 1, ?_, ?_, by rw [toNRGBA_64]; exact h2, by rw [toNRGBA_64, toNRGBA_64]⟩
      · show (composite (ρ k) 1 b t).map _ = _
        rw [h1]; rfl
      · show (composite (ρ k) 1 b' t').map _ = _
        rw [h3]; rfl
    · have hd' : ¬ l'.mode = Mode.dissolve := fun e => hd (hmm.2 e)
      simp only [ne_eq, hd, hd', not_false_eq_true, decide_true, Bool.true_and, if_false]
      have hn' : t'.toNRGBA.a = 0xffff := by rw [hn, negative_a]; exact ha
      by_cases hp : cm'.isPalette = true
      · rw [if_pos hp, if_pos hp, if_pos (by rw [ha]; decide), if_pos (by rw [hn']; decide)]
        refine ⟨_, _, k, rfl, rfl, rfl, ?_⟩
        show { t'.toNRGBA with a := 0xffff } = _
        rw [hn]; rfl
      · rw [if_neg hp, if_neg hp]
        obtain ⟨c, h1, h2, h3⟩ := C142_opaque 0 l.mode l'.mode h.mode b t hb ha b' t' hb' hn
        refine ⟨_, _, k, by rw [h1]; rfl, by rw [h3]; rfl, by rw [toNRGBA_64]; exact h2, by rw [toNRGBA_64, toNRGBA_64]⟩
  · refine ⟨b, b', n, drawLayer_hidden _ _ hs, drawLayer_hidden _ _ fun hc => hs (h.sees.1 hc), hb, hb'⟩

theorem negatives_layers {ρ : Nat → UInt16} {p : Pt} (cm cm' : ColorModel) (hcm : cm.isPalette = cm'.isPalette) {r r' : List Layer} {n : Nat}
    (hr : ∃ c c' k, layersAt ρ (some cm) r p n = some (c, k) ∧ layersAt ρ (some cm') r' p n = some (c', k) ∧ c.toNRGBA.a = 0xffff ∧
      c'.toNRGBA = negative c.toNRGBA) : ∀ {g g' : List Layer}, List.Forall₂ (Negatives ρ p) g g' →
    ∃ c c' k, layersAt ρ (some cm) (g ++ r) p n = some (c, k) ∧ layersAt ρ (some cm') (g' ++ r') p n = some (c', k) ∧ c.toNRGBA.a = 0xffff ∧
      c'.toNRGBA = negative c.toNRGBA
  | _, _, .nil => hr
  | _, _, .cons h hs => by
    obtain ⟨b, b', k, h1, h2, h3, h4⟩ := negatives_layers cm cm' hcm hr hs
    rw [List.cons_append, List.cons_append, layersAt_cons, layersAt_cons, h1, h2, Option.bind_some, Option.bind_some]
    exact negatives_draw h cm cm' hcm h3 h4 k

/-- **C142**: a picture of opaque layers over an opaque background in mode Normal, and one with the negatives of the layers in the
opposite modes: the second is the negative of the first. -/
theorem C142_picture (ρ : Nat → UInt16) (p : Pt) (n : Nat) (g g' : List Layer) (l l' : Layer) (hg : List.Forall₂ (Negatives ρ p) g g')
    (hl : Negatives ρ p l l') (hs : shows p l) (hm : l.mode = Mode.normal) (cm cm' : ColorModel)
    (hcm : groupModel (g ++ [l]) = some cm) (hcm' : groupModel (g' ++ [l']) = some cm') (hp : cm.isPalette = cm'.isPalette) :
    ∃ c c' k, Img.at ρ (.group (g ++ [l])) p n = some (c, k) ∧ Img.at ρ (.group (g' ++ [l'])) p n = some (c', k) ∧ c.toNRGBA.a = 0xffff ∧
      c'.toNRGBA = negative c.toNRGBA := by
  rw [at_group, at_group, hcm, hcm']
  refine negatives_layers cm cm' hp ?_ hg
  have hm' : l'.mode = Mode.normal := by
    have := hl.mode
    rw [hm] at this
    simp only [photographic, opposites, List.cons_append, List.nil_append, List.mem_cons, List.not_mem_nil, or_false, Prod.mk.injEq] at this
    rcases this with ⟨e, e'⟩ | ⟨e, e'⟩ | ⟨e, e'⟩ | ⟨e, e'⟩ | ⟨e, e'⟩ | ⟨e, e'⟩ | ⟨e, e'⟩ <;> first | exact e' | exact absurd e (by decide)
  obtain ⟨t, t', k, ht, ht', ha, hn⟩ := hl.color hs n
  have hn' : t'.toNRGBA.a = 0xffff := by rw [hn, negative_a]; exact ha
  rw [layersAt_cons, layersAt_cons, layersAt_nil, layersAt_nil, Option.bind_some, Option.bind_some]
  dsimp only
  rw [drawLayer_known hs ht, drawLayer_known (hl.sees.2 hs) ht', hm, hm', hp]
  have e0 : decide (Mode.normal ≠ Mode.dissolve) = true := by decide
  rw [e0, Bool.true_and, if_neg (show ¬ Mode.normal = Mode.dissolve by decide), if_neg (show ¬ Mode.normal = Mode.dissolve by decide)]
  by_cases hq : cm'.isPalette = true
  · rw [if_pos hq, if_pos hq, if_pos (by rw [ha]; decide), if_pos (by rw [hn']; decide)]
    refine ⟨_, _, k, rfl, rfl, rfl, ?_⟩
    show { t'.toNRGBA with a := 0xffff } = _
    rw [hn]; rfl
  · rw [if_neg hq, if_neg hq, C01_opaque_top 0 _ t ha, C01_opaque_top 0 _ t' hn']
    exact ⟨_, _, k, rfl, rfl, ha, hn⟩

namespace Spec

/-- a layer of one grey -/
def greyLayer (m : Mode) (x : UInt8) : Layer := ⟨[], ⟨0, 0, 1, 1⟩, m, false, 0, .leaf ⟨⟨0, 0, 1, 1⟩, .gray, fun _ => some (.gray x)⟩⟩

end Spec

theorem greyLayer_negatives (ρ : Nat → UInt16) {m m' : Mode} (hm : (m, m') ∈ photographic) {x y : UInt8}
    (h : (Color.gray y).toNRGBA = negative (Color.gray x).toNRGBA) : Negatives ρ ⟨0, 0⟩ (greyLayer m x) (greyLayer m' y) :=
  ⟨Iff.rfl, hm, fun _ n => ⟨.gray x, .gray y, n, by simp [layerAt, greyLayer, Img.at, transparency], by simp [layerAt, greyLayer, Img.at, transparency],
    by rfl, h⟩⟩

example : List.Forall₂ (Negatives (fun _ => 0) ⟨0, 0⟩) [greyLayer Mode.multiply 200] [greyLayer Mode.screen 55] ∧
    Negatives (fun _ => 0) ⟨0, 0⟩ (greyLayer Mode.normal 100) (greyLayer Mode.normal 155) ∧ shows ⟨0, 0⟩ (greyLayer Mode.normal 100) ∧
    groupModel ([greyLayer Mode.multiply 200] ++ [greyLayer Mode.normal 100]) = some .gray ∧
    groupModel ([greyLayer Mode.screen 55] ++ [greyLayer Mode.normal 155]) = some .gray := by
  refine ⟨.cons (greyLayer_negatives _ (by decide) (by decide)) .nil, greyLayer_negatives _ (by decide) (by decide), ⟨rfl, by simp [inRect, greyLayer]⟩, ?_, ?_⟩ <;>
    rfl

end Limage
