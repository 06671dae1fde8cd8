import Verif.Props.Composite
/-!
# C105: neutral layers, modes that do not care which layer is on top, and layers put on themselves
-/
namespace Limage

namespace Spec

/-- the grey that leaves what is below it in each mode: white for Multiply, Darken Only, Divide and Burn, black for Screen, Difference, Addition,
Subtract, Lighten Only and Dodge, half grey for Grain Extract -/
def neutrals : List (UInt32 × UInt16) :=
  [(3, 0xffff), (4, 0), (6, 0), (7, 0), (8, 0), (9, 0xffff), (10, 0), (15, 0xffff), (16, 0), (17, 0xffff), (20, 0x7fff)]

/-- the modes in which both layers play the same part: Multiply, Screen, Difference, Addition, Darken Only, Lighten Only -/
def symmetricModes : List UInt32 := [3, 4, 6, 7, 9, 10]

/-- an opaque grey -/
def grey (y : UInt16) : Color := .nrgba64 ⟨y, y, y, 0xffff⟩

/-- Full statement of the first part: an opaque layer of the neutral grey leaves every opaque colour below. -/
def NeutralKeeps : Prop := ∀ m e, (m, e) ∈ neutrals → ∀ (d : UInt16) (b : Color), b.toNRGBA.a = 0xffff →
  ∃ c, composite d m b (grey e) = some c ∧ c.toNRGBA = b.toNRGBA

/-- Full statement of the second part: opaque colours can be exchanged. -/
def Symmetric : Prop := ∀ m ∈ symmetricModes, ∀ (d : UInt16) (b t : Color), b.toNRGBA.a = 0xffff → t.toNRGBA.a = 0xffff →
  composite d m b t = composite d m t b

end Spec
open Spec

theorem grey_nrgba (y : UInt16) : (grey y).toNRGBA = ⟨y, y, y, 0xffff⟩ := rfl

theorem neutral_ok {m : Mode} {e : UInt16} (h : (m, e) ∈ neutrals) : ∃ f, channelFunc m = some f ∧ ∀ x, f x e = x := by
  have le := u16_le
  have zero : (0 : UInt16).toNat = 0 := rfl
  have half : (0x7fff : UInt16).toNat = 32767 := rfl
  simp only [neutrals, List.mem_cons, List.not_mem_nil, or_false, Prod.mk.injEq] at h
  rcases h with h | h | h | h | h | h | h | h | h | h | h <;> obtain ⟨rfl, rfl⟩ := h <;>
    refine ⟨_, rfl, fun x => UInt16.toNat_inj.1 ?_⟩ <;> have := le x
  · rw [multiply_nat, ffff16]; omega
  · rw [screen_nat, zero]; omega
  · unfold compositeDifference
    split
    · rw [sub16 _ _ (by rw [zero]; omega), zero]; omega
    · rename_i h
      rw [gt_iff_lt, UInt16.lt_iff_toNat_lt, zero] at h
      rw [sub16 _ _ (by rw [zero]; omega), zero]; omega
  · rw [addition_nat, zero]; omega
  · unfold compositeSubtract
    rw [if_neg (by rw [gt_iff_lt, UInt16.lt_iff_toNat_lt, zero]; omega), sub16 _ _ (by rw [zero]; omega), zero]; omega
  · show (goMin [x, 0xffff]).toNat = _
    rw [goMin2, ffff16]; omega
  · show (goMax [x, 0]).toNat = _
    rw [goMax2, zero]; omega
  · unfold compositeDivide
    rw [if_neg (by decide), clamp_nat, UInt32.toNat_div, full_mul, toNat_16_32, ffff16]; omega
  · unfold compositeDodge
    rw [if_neg (by decide), clamp_nat, UInt32.toNat_div, full_mul, inv32, zero]; omega
  · rw [burn_nat _ _ (by decide) (by rw [ffff16]; omega), ffff16]; omega
  · have := grainExtract_nat x 0x7fff
    rw [half] at this
    omega

/-- the functions do not care about the order -/
theorem symmetric_ok {m : Mode} (h : m ∈ symmetricModes) : ∃ f, channelFunc m = some f ∧ ∀ x y, f x y = f y x := by
  simp only [symmetricModes, List.mem_cons, List.not_mem_nil, or_false] at h
  rcases h with h | h | h | h | h | h <;> subst h <;> refine ⟨_, rfl, fun x y => UInt16.toNat_inj.1 ?_⟩
  · rw [multiply_nat, multiply_nat, Nat.mul_comm]
  · rw [screen_nat, screen_nat, Nat.mul_comm]
  · unfold compositeDifference
    by_cases h : x > y
    · rw [if_pos h, if_neg (fun h' => absurd (UInt16.lt_trans h h') (UInt16.lt_irrefl _))]
    · rw [if_neg h]
      by_cases h' : y > x
      · rw [if_pos h']
      · rw [if_neg h']
        rw [gt_iff_lt, UInt16.lt_iff_toNat_lt] at h h'
        rw [UInt16.toNat_inj.1 (show x.toNat = y.toNat by omega)]
  · rw [addition_nat, addition_nat, Nat.add_comm]
  · show (goMin [x, y]).toNat = (goMin [y, x]).toNat
    rw [goMin2, goMin2, Nat.min_comm]
  · show (goMax [x, y]).toNat = (goMax [y, x]).toNat
    rw [goMax2, goMax2, Nat.max_comm]

/-- **C105**: an opaque layer of a neutral grey leaves every opaque grey below, and of every opaque colour the red. -/
theorem C105_neutral_partial (m : Mode) (e : UInt16) (h : (m, e) ∈ neutrals) (d : UInt16) (b : Color) (hb : b.toNRGBA.a = 0xffff) :
    ∃ c, composite d m b (grey e) = some c ∧ c.toNRGBA.r = b.toNRGBA.r ∧ c.toNRGBA.a = 0xffff ∧
      (b.toNRGBA.g = b.toNRGBA.r → b.toNRGBA.b = b.toNRGBA.r → c.toNRGBA = b.toNRGBA) := by
  obtain ⟨f, hf, he⟩ := neutral_ok h
  refine ⟨_, composite_opaque hf d b (grey e) hb rfl, ?_, rfl, fun hg hbl => ?_⟩
  · exact he _
  · show NRGBA64.mk (f b.toNRGBA.r e) (f b.toNRGBA.r e) (f b.toNRGBA.r e) 0xffff = _
    rw [he]
    refine NRGBA64.ext_nat rfl (by rw [hg]) (by rw [hbl]) (by rw [hb])

example : ((17 : UInt32), (0xffff : UInt16)) ∈ neutrals ∧ (Color.gray 77).toNRGBA.a = 0xffff ∧ (Color.gray 77).toNRGBA.g = (Color.gray 77).toNRGBA.r := by
  decide +kernel

/-- C105 is false for colours: an opaque white layer in mode Multiply turns red into white. -/
theorem C105_neutral_refuted : ¬NeutralKeeps := by
  intro h
  obtain ⟨c, hc, he⟩ := h 3 0xffff (by decide) 0 (.nrgba 255 0 0 255) (by decide +kernel)
  have h1 : (composite 0 3 (.nrgba 255 0 0 255) (grey 0xffff)).map Color.toNRGBA = some ⟨0xffff, 0xffff, 0xffff, 0xffff⟩ := by decide +kernel
  rw [hc, Option.map_some, he] at h1
  revert h1
  decide +kernel

/-- **C105**: opaque greys can be exchanged, and the red of opaque colours does not depend on the order. -/
theorem C105_symmetric_partial (m : Mode) (h : m ∈ symmetricModes) (d : UInt16) (b t : Color) (hb : b.toNRGBA.a = 0xffff) (ht : t.toNRGBA.a = 0xffff) :
    ∃ c c', composite d m b t = some (.nrgba64 c) ∧ composite d m t b = some (.nrgba64 c') ∧ c.r = c'.r ∧ c.a = c'.a ∧
      (b.toNRGBA.g = b.toNRGBA.r → b.toNRGBA.b = b.toNRGBA.r → t.toNRGBA.g = t.toNRGBA.r → t.toNRGBA.b = t.toNRGBA.r → c = c') := by
  obtain ⟨f, hf, he⟩ := symmetric_ok h
  refine ⟨_, _, composite_opaque hf d b t hb ht, composite_opaque hf d t b ht hb, he _ _, rfl, fun h1 h2 h3 h4 => ?_⟩
  rw [h1, h2, h3, h4, he]

example : (9 : UInt32) ∈ symmetricModes ∧ (Color.gray 77).toNRGBA.a = 0xffff ∧ (Color.nrgba 1 2 3 255).toNRGBA.a = 0xffff := by decide +kernel

/-- C105 is false for colours: red multiplied by green is green, green multiplied by red is black. -/
theorem C105_symmetric_refuted : ¬Symmetric := by
  intro h
  have h1 : (composite 0 3 (.nrgba 255 0 0 255) (.nrgba 0 255 0 255)).map Color.toNRGBA = some ⟨0, 0xffff, 0, 0xffff⟩ := by decide +kernel
  have h2 : (composite 0 3 (.nrgba 0 255 0 255) (.nrgba 255 0 0 255)).map Color.toNRGBA = some ⟨0, 0, 0, 0xffff⟩ := by decide +kernel
  rw [h 3 (by decide) 0 _ _ (by decide +kernel) (by decide +kernel), h2] at h1
  revert h1
  decide +kernel

/-- **C105**: a layer put on itself: Darken Only and Lighten Only show it, Difference and Subtract black (opaque greys). -/
theorem C105_self (d : UInt16) (y : UInt16) :
    composite d Mode.darkenOnly (grey y) (grey y) = some (grey y) ∧ composite d Mode.lightenOnly (grey y) (grey y) = some (grey y) ∧
    composite d Mode.difference (grey y) (grey y) = some (grey 0) ∧ composite d Mode.subtract (grey y) (grey y) = some (grey 0) := by
  have h : ∀ (m : Mode) (f : UInt16 → UInt16 → UInt16) (z : UInt16), channelFunc m = some f → f y y = z → composite d m (grey y) (grey y) = some (grey z) := by
    intro m f z hf hz
    rw [composite_opaque hf d (grey y) (grey y) rfl rfl, ← hz]
    rfl
  refine ⟨h _ _ _ rfl (UInt16.toNat_inj.1 ?_), h _ _ _ rfl (UInt16.toNat_inj.1 ?_), h _ _ _ rfl ?_, h _ _ _ rfl ?_⟩
  · show (goMin [y, y]).toNat = _
    rw [goMin2, Nat.min_self]
  · show (goMax [y, y]).toNat = _
    rw [goMax2, Nat.max_self]
  · unfold compositeDifference
    rw [if_neg (UInt16.lt_irrefl _), UInt16.sub_self]
  · unfold compositeSubtract
    rw [if_neg (UInt16.lt_irrefl _), UInt16.sub_self]

example : composite 0 Mode.difference (grey 0x1234) (grey 0x1234) = some (grey 0) := by decide

end Limage
