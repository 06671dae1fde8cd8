import Verif.Props.Image
import Verif.Props.Composite
/-!
# C84: putting layers on top never uncovers what is below
-/
namespace Limage
open Spec

/-- C84 as one would like it: no layer put on top takes coverage away, whatever its mode. -/
def NeverUncovers : Prop := ∀ (draw : UInt16) (m : Mode) (b t : Color),
  ∃ c, composite draw m b t = some c ∧ b.toNRGBA.a ≤ c.toNRGBA.a

/-- **C84** is false: a Color layer gives the pixel its own alpha (composite.go:336). -/
theorem C84_refuted : ¬ NeverUncovers := by
  intro h
  obtain ⟨c, hc, ha⟩ := h 0 Mode.color (.gray 7) (.nrgba 1 2 3 0)
  obtain ⟨-, -, -, ⟨d, hd, hda⟩, -⟩ := C14_alpha 0 (.gray 7) (.nrgba 1 2 3 0)
  rw [hc] at hd
  injection hd with hd
  rw [hd, hda] at ha
  revert ha
  decide

/-- **C84**, for every mode but Color: the alpha of the result is at least the alpha of what is below. -/
theorem C84_pair_partial (draw : UInt16) (m : Mode) (hm : m ≠ Mode.color) (b t : Color) :
    ∃ c, composite draw m b t = some c ∧ b.toNRGBA.a ≤ c.toNRGBA.a := by
  have keep : (∃ c, composite draw m b t = some c ∧ c.toNRGBA.a = b.toNRGBA.a) →
      ∃ c, composite draw m b t = some c ∧ b.toNRGBA.a ≤ c.toNRGBA.a := by
    rintro ⟨c, hc, ha⟩
    exact ⟨c, hc, by rw [ha]; exact UInt16.le_refl _⟩
  have normal : ∃ c, composite draw Mode.normal b t = some c ∧ b.toNRGBA.a ≤ c.toNRGBA.a := by
    obtain ⟨c, -, hc, -, ha, -⟩ := C02_alpha_bounds draw b t
    exact ⟨_, hc, ha⟩
  by_cases hs : m ∈ separable
  · exact keep (C05_keeps_alpha draw m hs b t)
  by_cases ho : m ∈ ownArithmetic
  · obtain ⟨h1, h2, h3, -, h5⟩ := C14_alpha draw b t
    have : m = Mode.dissolve ∨ m = Mode.behind ∨ m = Mode.hue ∨ m = Mode.saturation ∨ m = Mode.value ∨
        m = Mode.luminosity ∨ m = Mode.destinationAtop := by
      have all : ∀ m ∈ ownArithmetic, m ∉ separable → m ≠ Mode.color → m = Mode.dissolve ∨ m = Mode.behind ∨
          m = Mode.hue ∨ m = Mode.saturation ∨ m = Mode.value ∨ m = Mode.luminosity ∨ m = Mode.destinationAtop := by
        decide
      exact all m ho hs hm
    rcases this with rfl | rfl | rfl | rfl | rfl | rfl | rfl
    · rcases C13_one_of_inputs draw b t with h | h
      · exact ⟨_, h, UInt16.le_refl _⟩
      · refine ⟨_, h, ?_⟩
        show b.toNRGBA.a ≤ 0xffff
        rw [UInt16.le_iff_toNat_le]
        exact u16_le _
    · exact ⟨_, rfl, UInt16.le_refl _⟩
    · exact keep h1
    · exact keep h2
    · exact keep h3
    · exact keep h5
    · obtain ⟨c0, c, -, hc, ha, -, -, -, he⟩ := C02_alpha_bounds draw b t
      refine ⟨.nrgba64 c, ?_, by show b.toNRGBA.a ≤ c.a; rw [he]; exact ha⟩
      rw [← hc, composite_normal]
      rfl
  · rw [C12_undefined_is_normal draw m ho]
    exact normal

/-- a half transparent Multiply layer on a half transparent red -/
example : Mode.multiply ≠ Mode.color ∧
    (composite 0 Mode.multiply (.nrgba64 ⟨0xffff, 0, 0, 0x8000⟩) (.nrgba64 ⟨0xffff, 0, 0, 0x4000⟩)).map (·.toNRGBA.a) = some 0x8000 := by decide

theorem drawLayer_covers {ρ : Nat → UInt16} {cm : Option ColorModel} {l : Layer} {p : Pt} {c c' : Color} {n n' : Nat}
    (hm : l.mode ≠ Mode.color ∨ ∃ pal, cm = some (.palette pal))
    (h : drawLayer ρ cm l p c n = some (c', n')) : c.toNRGBA.a ≤ c'.toNRGBA.a := by
  by_cases hs : shows p l
  · rw [drawLayer_shows _ _ hs] at h
    cases cm with
    | none => cases h
    | some cm =>
    rw [Option.bind_some] at h
    obtain ⟨⟨t, n1⟩, -, h⟩ := Option.bind_eq_some_iff.1 h
    dsimp only at h
    by_cases hp : (decide (l.mode ≠ Mode.dissolve) && cm.isPalette) = true
    · rw [if_pos hp] at h
      by_cases ha : t.toNRGBA.a > 0x7fff
      · rw [if_pos ha] at h
        injection h with h; injection h with h _
        rw [← h]
        show _ ≤ (0xffff : UInt16)
        rw [UInt16.le_iff_toNat_le]
        exact u16_le _
      · rw [if_neg ha] at h
        injection h with h; injection h with h _
        rw [← h]
        exact UInt16.le_refl _
    · rw [if_neg hp] at h
      have hm : l.mode ≠ Mode.color := by
        rcases hm with hm | ⟨pal, hpal⟩
        · exact hm
        · injection hpal with hpal
          intro he
          apply hp
          rw [hpal, he]
          rfl
      by_cases hd : l.mode = Mode.dissolve
      · rw [if_pos hd] at h
        obtain ⟨d, hd, ha⟩ := C84_pair_partial (ρ n1) l.mode hm c t
        rw [hd] at h
        injection h with h; injection h with h _
        rw [← h]; exact ha
      · rw [if_neg hd] at h
        obtain ⟨d, hd, ha⟩ := C84_pair_partial 0 l.mode hm c t
        rw [hd] at h
        injection h with h; injection h with h _
        rw [← h]; exact ha
  · rw [drawLayer_hidden _ _ hs] at h
    injection h with h; injection h with h _
    rw [← h]; exact UInt16.le_refl _

/-- **C84**, for whole images: every pixel of an image is covered at least as much as the same pixel of the image without
its upper layers, if none of those that show there has mode Color and both images are indexed or neither is. -/
theorem C84_stack_partial (ρ : Nat → UInt16) (upper lower : List Layer) (p : Pt) (n : Nat)
    (hmode : ∀ l ∈ upper, shows p l → l.mode ≠ Mode.color)
    (hcm : (groupModel (upper ++ lower)).map ColorModel.isPalette = (groupModel lower).map ColorModel.isPalette)
    (c : Color) (n' : Nat) (h : Img.at ρ (.group (upper ++ lower)) p n = some (c, n')) :
    ∃ c0 n0, Img.at ρ (.group lower) p n = some (c0, n0) ∧ c0.toNRGBA.a ≤ c.toNRGBA.a := by
  have same : ∀ (cm cm' : Option ColorModel) (g : List Layer), cm.map ColorModel.isPalette = cm'.map ColorModel.isPalette →
      layersAt ρ cm g p n = layersAt ρ cm' g p n := by
    intro cm cm' g he
    induction g with
    | nil => rw [layersAt_nil, layersAt_nil]
    | cons a g ih =>
      rw [layersAt_cons, layersAt_cons, ih]
      refine congrArg _ (funext fun x => ?_)
      unfold drawLayer
      cases cm <;> cases cm' <;> simp at he
      · rfl
      · simp only [Option.bind_some, he]
  rw [at_group] at h
  rw [at_group, same (groupModel lower) (groupModel (upper ++ lower)) lower hcm.symm]
  generalize groupModel (upper ++ lower) = cm at h
  clear hcm same
  induction upper generalizing c n' with
  | nil => exact ⟨c, n', h, UInt16.le_refl _⟩
  | cons a g ih =>
    rw [List.cons_append, layersAt_cons] at h
    obtain ⟨⟨c1, n1⟩, h1, h⟩ := Option.bind_eq_some_iff.1 h
    obtain ⟨c0, n0, h0, hle⟩ := ih (fun l hl => hmode l (List.mem_cons_of_mem _ hl)) c1 n1 h1
    refine ⟨c0, n0, h0, UInt16.le_trans hle ?_⟩
    dsimp only at h
    by_cases hs : shows p a
    · exact drawLayer_covers (Or.inl (hmode a (List.mem_cons_self ..) hs)) h
    · rw [drawLayer_hidden _ _ hs] at h
      injection h with h; injection h with h _
      rw [← h]; exact UInt16.le_refl _

/-- a leaf of one colour -/
def plainLeaf (c : Color) (m : ColorModel) : Img := .leaf ⟨⟨0, 0, 4, 4⟩, m, fun _ => some c⟩
/-- a Difference layer, a Normal one and a Dissolve one -/
def mixedStack : List Layer :=
  [⟨[], ⟨0, 0, 4, 4⟩, Mode.difference, false, 0, plainLeaf (.gray 9) .other⟩,
   ⟨[], ⟨0, 0, 2, 2⟩, Mode.normal, false, 100, plainLeaf (.lrgb 255 0 0) .other⟩,
   ⟨[], ⟨0, 0, 4, 4⟩, Mode.dissolve, false, 0, plainLeaf (.nrgba 7 8 9 100) .other⟩]
/-- a faint layer -/
def faintLayer : List Layer := [⟨[], ⟨0, 0, 4, 4⟩, Mode.normal, false, 191, plainLeaf (.lrgb 1 2 3) .other⟩]

example : (∀ l ∈ mixedStack, shows ⟨1, 1⟩ l → l.mode ≠ Mode.color) ∧
    (groupModel (mixedStack ++ faintLayer)).map ColorModel.isPalette = (groupModel faintLayer).map ColorModel.isPalette ∧
    ∃ c n, Img.at (fun _ => 3) (.group (mixedStack ++ faintLayer)) ⟨1, 1⟩ 0 = some (c, n) := by
  refine ⟨?_, ?_, _, _, by cbv⟩
  · intro l hl _
    simp only [mixedStack, List.mem_cons, List.not_mem_nil, or_false] at hl
    rcases hl with rfl | rfl | rfl <;> decide
  · unfold mixedStack faintLayer plainLeaf
    rw [List.cons_append, groupModel_cons, groupModel_cons, Img.colorModel, Img.colorModel]

/-- **C84**: the last condition is needed: below a layer with a palette, even one that shows nothing there, a pixel that is
covered by less than half is lost (image.go:50-56). -/
theorem C84_stack_refuted : ∃ (upper lower : List Layer) (p : Pt) (c c0 : Color),
    (∀ l ∈ upper, l.mode = Mode.normal) ∧ (∀ l ∈ upper, ¬ shows p l) ∧ (∀ l ∈ lower, l.mode = Mode.normal) ∧
    (∀ ρ, Img.at ρ (.group lower) p 0 = some (c0, 0)) ∧
    (∀ ρ, Img.at ρ (.group (upper ++ lower)) p 0 = some (c, 0)) ∧ c0.toNRGBA.a = 0x4040 ∧ c.toNRGBA.a = 0 := by
  refine ⟨[⟨[], ⟨2, 2, 4, 4⟩, Mode.normal, false, 0, plainLeaf (.gray 9) (.palette [.gray 9])⟩], faintLayer, ⟨1, 1⟩, _, _,
    ?_, ?_, ?_, fun ρ => by cbv, fun ρ => by cbv, by decide, by decide⟩
  · intro l hl
    rw [List.mem_singleton.1 hl]
  · intro l hl
    rw [List.mem_singleton.1 hl]
    simp [shows, inRect]
  · intro l hl
    rw [List.mem_singleton.1 hl]

/-- **C84**: and a pixel where the top layer shows in Normal mode is covered at least as much as that layer covers it
(images that are not indexed). -/
theorem C84_own (ρ : Nat → UInt16) (l : Layer) (g : List Layer) (p : Pt) (n : Nat) (hs : shows p l)
    (hm : l.mode = Mode.normal) (hcm : ∀ pal, l.image.colorModel ≠ some (.palette pal))
    (c : Color) (n' : Nat) (h : Img.at ρ (.group (l :: g)) p n = some (c, n')) :
    ∃ t n1, layerAt ρ l p n1 = some (t, n') ∧ t.toNRGBA.a ≤ c.toNRGBA.a := by
  rw [at_group, layersAt_cons, groupModel_cons] at h
  obtain ⟨⟨c0, n0⟩, -, h⟩ := Option.bind_eq_some_iff.1 h
  dsimp only at h
  rw [drawLayer_shows _ _ hs] at h
  cases hc : l.image.colorModel with
  | none => rw [hc] at h; cases h
  | some cm =>
    rw [hc, Option.bind_some] at h
    obtain ⟨⟨t, n1⟩, ht, h⟩ := Option.bind_eq_some_iff.1 h
    dsimp only at h
    have hp : cm.isPalette = false := by
      cases cm <;> first | rfl | exact absurd hc (hcm _)
    rw [if_neg (by simp [hp]), if_neg (by rw [hm]; decide), hm] at h
    obtain ⟨d, -, hd, -, -, ha, -⟩ := C02_alpha_bounds 0 c0 t
    rw [hd] at h
    injection h with h; injection h with he hn
    exact ⟨t, n0, by rw [ht, hn], by rw [← he]; exact ha⟩

example : (∀ l ∈ faintLayer, shows ⟨1, 1⟩ l ∧ l.mode = Mode.normal ∧ ∀ pal, l.image.colorModel ≠ some (.palette pal)) ∧
    ∃ c n, Img.at (fun _ => 3) (.group (faintLayer ++ mixedStack)) ⟨1, 1⟩ 0 = some (c, n) := by
  refine ⟨?_, _, _, by cbv⟩
  intro l hl
  rw [List.mem_singleton.1 hl]
  refine ⟨by simp [shows, inRect], rfl, ?_⟩
  intro pal
  unfold plainLeaf
  rw [Img.colorModel]
  simp

end Limage
