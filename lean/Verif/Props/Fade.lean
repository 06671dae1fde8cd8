import Verif.Props.Lighten
import Verif.Props.Masks
/-!
# C146: opacity fades a layer in
-/
namespace Limage

namespace Spec

/-- Where a layer of opacity `o` stands between nothing and all of it: `x` is shown without the layer and `w` with it at full opacity; `v` is less than three
steps from the point at `o / 255` of the way from `x` to `w`. -/
def OnTheWay (o x w v : Nat) : Prop := 255 * v < (255 - o) * x + o * w + 3 * 255 ∧ (255 - o) * x + o * w < 255 * v + 3 * 255

/-- the same, where no more than the rounding down of two numbers is allowed -/
def RightOnTheWay (o x w v : Nat) : Prop := 255 * v ≤ (255 - o) * x + o * w ∧ (255 - o) * x + o * w < 255 * v + 2 * 255

/-- a relation of numbers, of all three channels -/
def OfChannels (R : Nat → Nat → Nat → Prop) (b w c : NRGBA64) : Prop :=
  R b.r.toNat w.r.toNat c.r.toNat ∧ R b.g.toNat w.g.toNat c.g.toNat ∧ R b.b.toNat w.b.toNat c.b.toNat

/-- `v'` is further on the way from `x` to `w` than `v`, or one step behind at most -/
def NotBack (x w v v' : Nat) : Prop := (x ≤ w → v ≤ v' + 1) ∧ (w + 1 < x → v' ≤ v + 1)

/-- the modes that do not fade: Dissolve, Hue, Saturation, Color, Value and Luminosity -/
def unfading : List UInt32 := [1, 11, 12, 13, 14, 22]

/-- layers in this mode are faded by their opacity, over whatever is opaque -/
def Fades (m : Mode) : Prop := ∀ (draw : UInt16) (b t : Color) (o : UInt8), b.toNRGBA.a = 0xffff →
  ∃ c w, composite draw m b (transparency t o) = some c ∧ composite draw m b t = some w ∧ c.toNRGBA.a = 0xffff ∧
    OfChannels (OnTheWay o.toNat) b.toNRGBA w.toNRGBA c.toNRGBA

end Spec
open Spec

theorem fade_bounds (a x y : Nat) (ha : a ≤ 65535) : 65535 * (blendNat 65535 x a y : Int) ≤ 65535 * x + a * ((y : Int) - x) ∧
    65535 * (x : Int) + a * ((y : Int) - x) ≤ 65535 * (blendNat 65535 x a y : Int) + 2 * 65534 := by
  have hk : mixK 65535 a = a := by
    have : cover 65535 a = 65535 := by simp [cover]
    rw [mixK, this]
    exact Nat.mul_div_cancel_left a (by decide)
  unfold blendNat
  rw [hk]
  have e : (((65535 - a) * x : Nat) : Int) + ((a * y : Nat) : Int) = 65535 * x + a * ((y : Int) - x) := by
    rw [Nat.cast_mul, Nat.cast_mul, Nat.cast_sub ha]
    push_cast
    ring
  rw [← e]
  generalize (65535 - a) * x = u
  generalize a * y = v
  omega

/-- on the way to the colour that is blended in -/
theorem fade_onTheWay {o A a x y : Nat} (ho : o ≤ 255) (hA : A ≤ 65535) (hx : x ≤ 65535) (hy : y ≤ 65535) (ha : a = o * A / 255) :
    OnTheWay o x (blendNat 65535 x A y) (blendNat 65535 x a y) := by
  have haA : a ≤ A := by
    rw [ha]
    exact Nat.div_le_of_le_mul (Nat.mul_le_mul_right _ ho)
  obtain ⟨v1, v2⟩ := fade_bounds a x y (haA.trans hA)
  obtain ⟨w1, w2⟩ := fade_bounds A x y hA
  generalize blendNat 65535 x A y = w at *
  generalize blendNat 65535 x a y = v at *
  obtain ⟨D, hD, hD'⟩ : ∃ D : Nat, o * A = 255 * a + D ∧ D ≤ 254 := ⟨o * A % 255, by omega, by omega⟩
  have hDi : (o : Int) * A = 255 * a + D := by exact_mod_cast hD
  obtain ⟨k, hk⟩ : ∃ k : Nat, 255 = o + k := ⟨255 - o, by omega⟩
  have hk' : 255 - o = k := by omega
  have o0 : (0 : Int) ≤ o := Int.natCast_nonneg o
  have ow1 := mul_le_mul_of_nonneg_left w1 o0
  have ow2 := mul_le_mul_of_nonneg_left w2 o0
  have D0 : (0 : Int) ≤ D := Int.natCast_nonneg D
  have e : (o : Int) * (A * ((y : Int) - x)) = 255 * (a * ((y : Int) - x)) + D * ((y : Int) - x) := by
    rw [← mul_assoc, hDi]; ring
  have d1 : (D : Int) * ((y : Int) - x) ≤ 254 * 65535 := by
    have h1 : (D : Int) * ((y : Int) - x) ≤ D * 65535 := mul_le_mul_of_nonneg_left (by omega) D0
    omega
  have d2 : -(254 * 65535) ≤ (D : Int) * ((y : Int) - x) := by
    have h1 : (D : Int) * (-65535) ≤ D * ((y : Int) - x) := mul_le_mul_of_nonneg_left (by omega) D0
    omega
  unfold OnTheWay
  rw [hk']
  have kx : (k : Int) * x = 255 * x - o * x := by
    have : (k : Int) = 255 - o := by omega
    rw [this]; ring
  have e1 : (o : Int) * (65535 * (w : Int)) = 65535 * (o * w) := by ring
  have e2 : (o : Int) * (65535 * (x : Int) + A * ((y : Int) - x)) = 65535 * (o * x) + o * (A * ((y : Int) - x)) := by ring
  have e3 : (o : Int) * (65535 * (w : Int) + 2 * 65534) = 65535 * (o * w) + 131068 * o := by ring
  rw [e1, e2, e] at ow1
  rw [e2, e, e3] at ow2
  zify
  rw [kx]
  generalize (o : Int) * x = ox at *
  generalize (o : Int) * w = oww at *
  generalize (a : Int) * ((y : Int) - x) = ad at *
  generalize (D : Int) * ((y : Int) - x) = dd at *
  omega

/-- where the layer is opaque itself -/
theorem fade_rightOnTheWay {o x y : Nat} (ho : o ≤ 255) :
    RightOnTheWay o x y (blendNat 65535 x (o * 65535 / 255) y) := by
  have ha : o * 65535 / 255 = 257 * o := by omega
  rw [ha]
  obtain ⟨v1, v2⟩ := fade_bounds (257 * o) x y (by omega)
  generalize blendNat 65535 x (257 * o) y = v at *
  obtain ⟨k, hk⟩ : ∃ k : Nat, 255 = o + k := ⟨255 - o, by omega⟩
  have hk' : 255 - o = k := by omega
  unfold RightOnTheWay
  rw [hk']
  have kx : (k : Int) * x = 255 * x - o * x := by
    have : (k : Int) = 255 - o := by omega
    rw [this]; ring
  have e : ((257 * o : Nat) : Int) * ((y : Int) - x) = 257 * (o * y - o * x) := by push_cast; ring
  rw [e] at v1 v2
  zify
  rw [kx]
  generalize (o : Int) * x = ox at *
  generalize (o : Int) * y = oy at *
  omega

theorem fade_notBack {a a' A x y : Nat} (h : a ≤ a') (h' : a' ≤ A) (hA : A ≤ 65535) :
    NotBack x (blendNat 65535 x A y) (blendNat 65535 x a y) (blendNat 65535 x a' y) := by
  obtain ⟨v1, v2⟩ := fade_bounds a x y (h.trans (h'.trans hA))
  obtain ⟨u1, u2⟩ := fade_bounds a' x y (h'.trans hA)
  obtain ⟨w1, w2⟩ := fade_bounds A x y hA
  generalize blendNat 65535 x A y = w at *
  generalize blendNat 65535 x a y = v at *
  generalize blendNat 65535 x a' y = u at *
  have n1 : (a : Int) ≤ a' := by exact_mod_cast h
  have n2 : (a' : Int) ≤ A := by exact_mod_cast h'
  have n0 : (0 : Int) ≤ a := Int.natCast_nonneg a
  by_cases hxy : x ≤ y
  · have hd : (0 : Int) ≤ (y : Int) - x := by omega
    have m0 := mul_nonneg n0 hd
    have m1 := mul_le_mul_of_nonneg_right n1 hd
    have m2 := mul_le_mul_of_nonneg_right n2 hd
    generalize (a : Int) * ((y : Int) - x) = ad at *
    generalize (a' : Int) * ((y : Int) - x) = ad' at *
    generalize (A : Int) * ((y : Int) - x) = aD at *
    constructor <;> intro <;> omega
  · have hd : (y : Int) - x ≤ 0 := by omega
    have m0 := mul_nonpos_of_nonneg_of_nonpos n0 hd
    have m1 := mul_le_mul_of_nonpos_right n1 hd
    have m2 := mul_le_mul_of_nonpos_right n2 hd
    generalize (a : Int) * ((y : Int) - x) = ad at *
    generalize (a' : Int) * ((y : Int) - x) = ad' at *
    generalize (A : Int) * ((y : Int) - x) = aD at *
    constructor <;> intro <;> omega

/-- what is shown does not change, or it is a blend of what is below with something that does not depend on the opacity -/
theorem fade_form (m : Mode) (hm : m ∉ unfading) (b : Color) (hb : b.toNRGBA.a = 0xffff) :
    (∀ draw t, composite draw m b t = some (.nrgba64 b.toNRGBA)) ∨
    ∃ f : UInt16 → UInt16 → UInt16, ∀ draw t, ∃ c, composite draw m b t = some (.nrgba64 c) ∧ c.a = 0xffff ∧
      c.r.toNat = blendNat 65535 b.toNRGBA.r.toNat t.toNRGBA.a.toNat (f b.toNRGBA.r t.toNRGBA.r).toNat ∧
      c.g.toNat = blendNat 65535 b.toNRGBA.g.toNat t.toNRGBA.a.toNat (f b.toNRGBA.r t.toNRGBA.g).toNat ∧
      c.b.toNat = blendNat 65535 b.toNRGBA.b.toNat t.toNRGBA.a.toNat (f b.toNRGBA.r t.toNRGBA.b).toNat := by
  have hb' : b.toNRGBA.a.toNat = 65535 := u16_full_nat.1 hb
  have hb0 : b.toNRGBA.a ≠ 0 := by rw [hb]; decide
  by_cases hs : m ∈ separable
  · right
    obtain ⟨f, hf⟩ := separable_func hs
    refine ⟨f, fun draw t => ?_⟩
    rw [composite_channels hf]
    obtain ⟨c, hc, ha, hr, hg, hbl⟩ := compositeChannels_eq f b.toNRGBA t.toNRGBA hb0
    have ht := u16_le t.toNRGBA.a
    rw [hb', Nat.min_eq_right ht] at hr hg hbl
    exact ⟨c, hc, ha.trans hb, hr, hg, hbl⟩
  · by_cases ho : m ∈ ownArithmetic
    · left
      have all : ∀ m ∈ ownArithmetic, m ∉ separable → m ∉ unfading → m = Mode.behind ∨ m = Mode.destinationAtop := by decide
      rcases all m ho hs hm with rfl | rfl
      · exact fun draw t => rfl
      · intro draw t
        rw [(C11_as_normal_partial draw b t).2.2.2.2, composite_normal]
        obtain ⟨c, hc, h1, h2, h3, h4⟩ := compositeNormal_eq t.toNRGBA b.toNRGBA (fun h => hb0 h.2)
        rw [hb'] at h1 h2 h3 h4
        rw [blendNat_topFull, UInt16.toNat_inj] at h1 h2 h3
        have h5 : c.a = b.toNRGBA.a := UInt16.toNat_inj.1 (by rw [h4, hb']; simp [cover])
        rw [hc]
        obtain ⟨r, g, bl, a⟩ := c
        generalize b.toNRGBA = n at *
        obtain ⟨r', g', bl', a'⟩ := n
        dsimp only at h1 h2 h3 h5
        subst h1 h2 h3 h5
        rfl
    · right
      refine ⟨fun _ y => y, fun draw t => ?_⟩
      rw [C12_undefined_is_normal draw m ho, composite_normal]
      obtain ⟨c, hc, h1, h2, h3, h4⟩ := compositeNormal_eq b.toNRGBA t.toNRGBA (fun h => hb0 h.1)
      rw [hb'] at h1 h2 h3 h4
      exact ⟨c, by rw [hc]; rfl, u16_full_nat.2 (by rw [h4]; simp [cover]), h1, h2, h3⟩

/-- blending with an opacity, in one channel -/
theorem fade_channel (t : Color) (o : UInt8) (x : Nat) (g : NRGBA64 → UInt16) (hg : o ≠ 0 → g (transparency t o).toNRGBA = g t.toNRGBA) (f : UInt16 → UInt16) :
    blendNat 65535 x (transparency t o).toNRGBA.a.toNat (f (g (transparency t o).toNRGBA)).toNat =
    blendNat 65535 x (o.toNat * t.toNRGBA.a.toNat / 255) (f (g t.toNRGBA)).toNat := by
  rw [transparency_alpha]
  by_cases h : o = 0
  · rw [h]
    have : (0 : UInt8).toNat = 0 := rfl
    rw [this, Nat.zero_mul, Nat.zero_div]
    simp [blendNat, mixK]
  · rw [hg h]

theorem same_onTheWay {o x : Nat} (ho : o ≤ 255) : OnTheWay o x x x ∧ RightOnTheWay o x x x := by
  obtain ⟨k, hk⟩ : ∃ k : Nat, 255 = o + k := ⟨255 - o, by omega⟩
  have hk' : 255 - o = k := by omega
  unfold OnTheWay RightOnTheWay
  rw [hk', ← Nat.add_mul, Nat.add_comm k o, ← hk]
  omega

/-- **C146**: over something opaque, a colour of any alpha, put there with opacity `o`, shows at `o / 255` of the way from what is below to what it shows with
full opacity, up to three steps, and two if it is opaque; and with more opacity it goes on the same way, up to one step.  Missing: six modes (refuted below). -/
theorem C146_pair_partial (draw : UInt16) (m : Mode) (hm : m ∉ unfading) (b t : Color) (hb : b.toNRGBA.a = 0xffff) (o o' : UInt8) (hoo : o ≤ o') :
    ∃ c c' w, composite draw m b (transparency t o) = some (.nrgba64 c) ∧ composite draw m b (transparency t o') = some (.nrgba64 c') ∧
      composite draw m b t = some (.nrgba64 w) ∧ c.a = 0xffff ∧ w.a = 0xffff ∧
      OfChannels (OnTheWay o.toNat) b.toNRGBA w c ∧ (t.toNRGBA.a = 0xffff → OfChannels (RightOnTheWay o.toNat) b.toNRGBA w c) ∧
      NotBack b.toNRGBA.r.toNat w.r.toNat c.r.toNat c'.r.toNat ∧ NotBack b.toNRGBA.g.toNat w.g.toNat c.g.toNat c'.g.toNat ∧
      NotBack b.toNRGBA.b.toNat w.b.toNat c.b.toNat c'.b.toNat := by
  have ho : o.toNat ≤ 255 := u8_le o
  have ho' : o'.toNat ≤ 255 := u8_le o'
  have hA := u16_le t.toNRGBA.a
  rcases fade_form m hm b hb with h | ⟨f, h⟩
  · refine ⟨_, _, _, h _ _, h _ _, h _ _, hb, hb, ⟨(same_onTheWay ho).1, (same_onTheWay ho).1, (same_onTheWay ho).1⟩,
      fun _ => ⟨(same_onTheWay ho).2, (same_onTheWay ho).2, (same_onTheWay ho).2⟩, ?_, ?_, ?_⟩ <;> constructor <;> intro <;> omega
  · obtain ⟨c, hc, ca, cr, cg, cb⟩ := h draw (transparency t o)
    obtain ⟨c', hc', -, cr', cg', cb'⟩ := h draw (transparency t o')
    obtain ⟨w, hw, wa, wr, wg, wb⟩ := h draw t
    have S := fun o => transparency_shade t o
    rw [fade_channel t o _ NRGBA64.r (fun h => (S o h).1) (f b.toNRGBA.r)] at cr
    rw [fade_channel t o _ NRGBA64.g (fun h => (S o h).2.1) (f b.toNRGBA.r)] at cg
    rw [fade_channel t o _ NRGBA64.b (fun h => (S o h).2.2) (f b.toNRGBA.r)] at cb
    rw [fade_channel t o' _ NRGBA64.r (fun h => (S o' h).1) (f b.toNRGBA.r)] at cr'
    rw [fade_channel t o' _ NRGBA64.g (fun h => (S o' h).2.1) (f b.toNRGBA.r)] at cg'
    rw [fade_channel t o' _ NRGBA64.b (fun h => (S o' h).2.2) (f b.toNRGBA.r)] at cb'
    have l1 : o.toNat * t.toNRGBA.a.toNat / 255 ≤ o'.toNat * t.toNRGBA.a.toNat / 255 :=
      Nat.div_le_div_right (Nat.mul_le_mul_right _ (UInt8.le_iff_toNat_le.1 hoo))
    have l2 : o'.toNat * t.toNRGBA.a.toNat / 255 ≤ t.toNRGBA.a.toNat := Nat.div_le_of_le_mul (Nat.mul_le_mul_right _ ho')
    refine ⟨c, c', w, hc, hc', hw, ca, wa, ⟨?_, ?_, ?_⟩, fun ht => ⟨?_, ?_, ?_⟩, ?_, ?_, ?_⟩
    · rw [cr, wr]; exact fade_onTheWay ho hA (u16_le _) (u16_le _) rfl
    · rw [cg, wg]; exact fade_onTheWay ho hA (u16_le _) (u16_le _) rfl
    · rw [cb, wb]; exact fade_onTheWay ho hA (u16_le _) (u16_le _) rfl
    · rw [cr, wr, u16_full_nat.1 ht, blendNat_topFull]; exact fade_rightOnTheWay ho
    · rw [cg, wg, u16_full_nat.1 ht, blendNat_topFull]; exact fade_rightOnTheWay ho
    · rw [cb, wb, u16_full_nat.1 ht, blendNat_topFull]; exact fade_rightOnTheWay ho
    · rw [cr, cr', wr]; exact fade_notBack l1 l2 hA
    · rw [cg, cg', wg]; exact fade_notBack l1 l2 hA
    · rw [cb, cb', wb]; exact fade_notBack l1 l2 hA

example : Mode.burn ∉ unfading ∧ (Color.lrgb 10 200 30).toNRGBA.a = 0xffff ∧ (100 : UInt8) ≤ 101 := by decide
-- a fifth of a Screen layer
example : composite 0 Mode.screen (.gray 100) (.gray 200) = some (.nrgba64 ⟨56944, 56944, 56944, 0xffff⟩) ∧
    composite 0 Mode.screen (.gray 100) (transparency (.gray 200) 51) = some (.nrgba64 ⟨31948, 31948, 31948, 0xffff⟩) ∧
    (Color.gray 100).toNRGBA.r = 25700 ∧ 51 * 5 = 255 ∧ (4 * 25700 + 56944) / 5 = 31948 := by decide

/-- all modes but six fade -/
theorem C146_fades_partial (m : Mode) (hm : m ∉ unfading) : Fades m := by
  intro draw b t o hb
  obtain ⟨c, -, w, h1, -, h2, h3, -, h4, -⟩ := C146_pair_partial draw m hm b t hb o o (UInt8.le_refl o)
  exact ⟨_, _, h1, h2, h3, h4⟩

example : Mode.multiply ∉ unfading ∧ (77 : Mode) ∉ unfading := by decide

theorem unfade {m : Mode} {b t c w : Color} (hb : b.toNRGBA.a = 0xffff) (hc : composite 0 m b (transparency t 128) = some c)
    (hw : composite 0 m b t = some w) (h : c.toNRGBA.a = 0xffff → ¬ OnTheWay 128 b.toNRGBA.r.toNat w.toNRGBA.r.toNat c.toNRGBA.r.toNat) : ¬ Fades m := by
  intro hf
  obtain ⟨c', w', h1, h2, h3, h4, -⟩ := hf 0 b t 128 hb
  rw [hc] at h1
  rw [hw] at h2
  injection h1 with h1
  injection h2 with h2
  rw [← h1] at h3 h4
  rw [← h2] at h4
  exact h h3 h4

/-- **C146** is false of the other six modes: half of a Dissolve layer over something opaque is all of it; so it is with a hue, a saturation, a value and a
luminosity, and half of a Color layer makes a hole in what is below. -/
theorem C146_refuted : ∀ m ∈ unfading, ¬ Fades m := by
  intro m hm
  simp only [unfading, List.mem_cons, List.not_mem_nil, or_false] at hm
  rcases hm with rfl | rfl | rfl | rfl | rfl | rfl
  · exact unfade (b := .gray 255) (t := .gray 0) (c := .nrgba64 ⟨0, 0, 0, 65535⟩) (w := .nrgba64 ⟨0, 0, 0, 65535⟩) (by decide) (by decide) (by decide)
      (by unfold OnTheWay; decide)
  · exact unfade (b := .lrgb 255 0 0) (t := .lrgb 0 255 0) (c := .hsva 21845 65535 65535 65535) (w := .hsva 21845 65535 65535 65535) (by decide) (by decide)
      (by decide) (by unfold OnTheWay; decide)
  · exact unfade (b := .lrgb 0 255 0) (t := .gray 255) (c := .hsva 21845 0 65535 65535) (w := .hsva 21845 0 65535 65535) (by decide) (by decide) (by decide)
      (by unfold OnTheWay; decide)
  · exact unfade (b := .gray 255) (t := .gray 0) (c := .hsla 0 0 65535 32896) (w := .hsla 0 0 65535 65535) (by decide) (by decide) (by decide)
      (by unfold OnTheWay; decide)
  · exact unfade (b := .gray 255) (t := .gray 0) (c := .hsva 0 0 0 65535) (w := .hsva 0 0 0 65535) (by decide) (by decide) (by decide)
      (by unfold OnTheWay; decide)
  · exact unfade (b := .gray 255) (t := .gray 0) (c := .hsla 0 0 0 65535) (w := .hsla 0 0 0 65535) (by decide) (by decide) (by decide)
      (by unfold OnTheWay; decide)

/-- the layer with this opacity -/
def Spec.withOpacity (l : Layer) (o : UInt8) : Layer := { l with transparency := 255 - o }

theorem layerAt_opacity (ρ : Nat → UInt16) (l : Layer) (o : UInt8) (p : Pt) (n : Nat) :
    layerAt ρ (withOpacity l o) p n = (layerAt ρ (withOpacity l 255) p n).map fun (c, k) => (transparency c o, k) := by
  have e : ∀ o : UInt8, 255 - (255 - o) = o := by
    intro o
    have ho := u8_le o
    have h1 : (255 - o).toNat = 255 - o.toNat := UInt8.toNat_sub_of_le _ _ (UInt8.le_iff_toNat_le.2 ho)
    apply UInt8.toNat_inj.1
    rw [UInt8.toNat_sub_of_le _ _ (UInt8.le_iff_toNat_le.2 (by rw [h1]; exact Nat.sub_le 255 _)), h1]
    show 255 - (255 - o.toNat) = o.toNat
    omega
  unfold layerAt withOpacity
  dsimp only
  rw [e, e]
  cases l.image.at ρ ⟨p.x - l.bounds.x0, p.y - l.bounds.y0⟩ n with
  | none => rfl
  | some x =>
    obtain ⟨c, k⟩ := x
    show some (transparency c o, k) = some (transparency (transparency c 255) o, k)
    rw [(C20_opacity c 255).1 rfl]

/-- **C146**, for pictures: where the layers below make something opaque, the top layer is faded in by its opacity: the pixel is at `o / 255` of the way from
the one without the layer to the one with the layer at full opacity.  Missing: the six modes. -/
theorem C146_picture_partial (ρ : Nat → UInt16) (l : Layer) (g : List Layer) (p : Pt) (n : Nat) (o : UInt8) (hm : l.mode ∉ unfading) (hs : shows p l)
    (hcm : (groupModel (l :: g)).map ColorModel.isPalette = some false)
    (c0 : Color) (n0 : Nat) (h0 : Img.at ρ (.group ({ l with invisible := true } :: g)) p n = some (c0, n0)) (hc0 : c0.toNRGBA.a = 0xffff)
    (c1 : Color) (n1 : Nat) (h1 : Img.at ρ (.group (withOpacity l 255 :: g)) p n = some (c1, n1)) :
    ∃ c, Img.at ρ (.group (withOpacity l o :: g)) p n = some (c, n1) ∧ c.toNRGBA.a = 0xffff ∧
      OfChannels (OnTheWay o.toNat) c0.toNRGBA c1.toNRGBA c.toNRGBA := by
  have e0 : groupModel ({ l with invisible := true } :: g) = groupModel (l :: g) := by rw [groupModel_cons, groupModel_cons]
  have e1 : ∀ o, groupModel (withOpacity l o :: g) = groupModel (l :: g) := by intro o; rw [groupModel_cons, groupModel_cons]; rfl
  rw [at_group, e0, layersAt_cons] at h0
  rw [at_group, e1, layersAt_cons] at h1
  rw [at_group, e1, layersAt_cons]
  obtain ⟨⟨b, k⟩, hb, h0⟩ := Option.bind_eq_some_iff.1 h0
  rw [hb, Option.bind_some] at h1 ⊢
  dsimp only at h0 h1 ⊢
  rw [drawLayer_hidden _ _ (fun h => Bool.noConfusion h.1)] at h0
  injection h0 with h0
  injection h0 with h0 _
  subst h0
  have hd : l.mode ≠ Mode.dissolve := fun h => hm (by rw [h]; decide)
  have draw : ∀ o, drawLayer ρ (groupModel (l :: g)) (withOpacity l o) p b k =
      (layerAt ρ (withOpacity l o) p k).bind fun (t, n) => (composite 0 l.mode b t).map fun c => (c, n) := by
    intro o
    rw [drawLayer_shows _ _ (show shows p (withOpacity l o) from hs)]
    cases hg : groupModel (l :: g) with
    | none => rw [hg] at hcm; cases hcm
    | some cm =>
      rw [hg] at hcm
      have hp : cm.isPalette = false := by simpa using hcm
      rw [Option.bind_some]
      refine congrArg _ (funext fun x => ?_)
      obtain ⟨t, n⟩ := x
      dsimp only
      rw [if_neg (by simp [hp])]
      exact if_neg hd
  rw [draw] at h1 ⊢
  rw [layerAt_opacity]
  obtain ⟨⟨t, k'⟩, ht, h1⟩ := Option.bind_eq_some_iff.1 h1
  rw [ht, Option.map_some, Option.bind_some]
  dsimp only at h1 ⊢
  obtain ⟨c, w, hc, hw, ha, hch⟩ := C146_fades_partial l.mode hm 0 b t o hc0
  rw [hw] at h1
  injection h1 with h1
  injection h1 with h1 h2
  subst h1 h2
  rw [hc]
  exact ⟨c, rfl, ha, hch⟩

/-- a Burn layer, to be faded in -/
def fadedLayer : Layer := ⟨[], ⟨0, 0, 4, 4⟩, Mode.burn, false, 20, plainLeaf (.nrgba 9 80 200 99) .other⟩

/-- an opaque layer below it -/
def belowFaded : List Layer := [⟨[], ⟨0, 0, 4, 4⟩, Mode.normal, false, 0, plainLeaf (.lrgb 100 120 130) .other⟩]

example : fadedLayer.mode ∉ unfading ∧ shows ⟨1, 1⟩ fadedLayer ∧ (groupModel (fadedLayer :: belowFaded)).map ColorModel.isPalette = some false ∧
    (∃ c n, Img.at (fun _ => 3) (.group ({ fadedLayer with invisible := true } :: belowFaded)) ⟨1, 1⟩ 0 = some (c, n) ∧ c.toNRGBA.a = 0xffff) ∧
    (∃ c n, Img.at (fun _ => 3) (.group (withOpacity fadedLayer 255 :: belowFaded)) ⟨1, 1⟩ 0 = some (c, n)) := by
  refine ⟨by decide, ⟨rfl, by unfold inRect; decide⟩, ?_, ⟨_, _, by cbv, by decide⟩, ⟨_, _, by cbv⟩⟩
  rw [groupModel_cons]
  unfold fadedLayer plainLeaf
  rw [Img.colorModel]
  rfl

end Limage
