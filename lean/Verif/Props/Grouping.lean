import Verif.Props.Image
import Verif.Props.Composite
import Verif.Props.Coverage
/-!
# C93: putting the lowest layers of a picture into a group
-/
namespace Limage

/-! ## Specification -/

namespace Spec

/-- two colours that look the same: they are the same, or both are fully transparent -/
def Looks (c c' : Color) : Prop := c.toNRGBA = c'.toNRGBA ∨ c.toNRGBA.a = 0 ∧ c'.toNRGBA.a = 0

/-- the same outcome of `At`: a panic in both, or colours that look the same after the same number of random draws -/
def SameOutcome : Option (Color × Nat) → Option (Color × Nat) → Prop
  | none, none => True
  | some (c, n), some (c', n') => n = n' ∧ Looks c c'
  | _, _ => False

/-- an opaque, visible group in mode Normal with the given place, holding the layers where they were -/
def grouped (name : GoString) (b : Rect) (g : List Layer) : Layer :=
  ⟨name, b, Mode.normal, false, 0, .group (g.map (move · ⟨-b.x0, -b.y0⟩))⟩

end Spec
open Spec

theorem Spec.Looks.refl (c : Color) : Looks c c := .inl rfl

theorem SameOutcome.refl : ∀ x, SameOutcome x x
  | none => trivial
  | some (_, _) => ⟨rfl, .inl rfl⟩

/-! ## Drawing on colours that look the same -/

theorem normal_clear (d : UInt16) {b : Color} (t : Color) (hb : b.toNRGBA.a = 0) :
    ∃ c, composite d Mode.normal b t = some c ∧ Looks t c := by
  by_cases ht : t.toNRGBA.a = 0
  · exact ⟨_, C01_both_transparent d b t ht hb, .inr ⟨ht, rfl⟩⟩
  · obtain ⟨c, hc, h1, h2, h3, h4⟩ := compositeNormal_eq b.toNRGBA t.toNRGBA (fun h => ht h.2)
    have hp : 0 < t.toNRGBA.a.toNat := Nat.pos_of_ne_zero fun h => ht (UInt16.toNat_inj.1 h)
    have hl := u16_le t.toNRGBA.a
    rw [hb, UInt16.toNat_zero, blendNat_bot0 _ _ _ hp hl] at h1 h2 h3
    rw [hb, UInt16.toNat_zero] at h4
    refine ⟨.nrgba64 c, by rw [composite_normal, hc]; rfl, .inl ?_⟩
    show t.toNRGBA = c
    exact NRGBA64.ext_nat h1.symm h2.symm h3.symm (by rw [h4]; simp [cover]; omega)

theorem over_clear (d : UInt16) (m : Mode) (hm : m ≠ Mode.color) (t : Color) :
    (∀ b : Color, b.toNRGBA.a = 0 → ∃ c, composite d m b t = some c ∧ c.toNRGBA.a = 0) ∨
    ∀ b : Color, b.toNRGBA.a = 0 → ∃ c, composite d m b t = some c ∧ Looks t c := by
  have keep : (∀ b, ∃ c, composite d m b t = some c ∧ c.toNRGBA.a = b.toNRGBA.a) →
      ∀ b : Color, b.toNRGBA.a = 0 → ∃ c, composite d m b t = some c ∧ c.toNRGBA.a = 0 := by
    intro h b hb
    obtain ⟨c, hc, ha⟩ := h b
    exact ⟨c, hc, by rw [ha, hb]⟩
  by_cases hs : m ∈ separable
  · exact .inl (keep (C05_keeps_alpha d m hs · t))
  by_cases ho : m ∈ ownArithmetic
  · have : m = Mode.dissolve ∨ m = Mode.behind ∨ m = Mode.hue ∨ m = Mode.saturation ∨ m = Mode.value ∨
        m = Mode.luminosity ∨ m = Mode.destinationAtop := by
      have all : ∀ m ∈ ownArithmetic, m ∉ separable → m ≠ Mode.color → m = Mode.dissolve ∨ m = Mode.behind ∨
          m = Mode.hue ∨ m = Mode.saturation ∨ m = Mode.value ∨ m = Mode.luminosity ∨ m = Mode.destinationAtop := by
        decide
      exact all m ho hs hm
    rcases this with rfl | rfl | rfl | rfl | rfl | rfl | rfl
    · refine .inl fun b hb => ⟨.nrgba64 (compositeDissolve d b.toNRGBA t.toNRGBA), rfl, ?_⟩
      unfold compositeDissolve
      rw [hb, if_neg (by rw [UInt16.lt_iff_toNat_lt]; simp)]
      exact hb
    · exact .inl fun b hb => ⟨_, rfl, hb⟩
    · exact .inl (keep fun b => (C14_alpha d b t).1)
    · exact .inl (keep fun b => (C14_alpha d b t).2.1)
    · exact .inl (keep fun b => (C14_alpha d b t).2.2.1)
    · exact .inl (keep fun b => (C14_alpha d b t).2.2.2.2)
    · refine .inr fun b hb => ?_
      by_cases ht : t.toNRGBA.a = 0
      · refine ⟨.nrgba64 ⟨0, 0, 0, 0⟩, ?_, .inr ⟨ht, rfl⟩⟩
        show (compositeAtop t.toNRGBA b.toNRGBA).map Color.nrgba64 = _
        unfold compositeAtop compositeNormal
        rw [if_pos ⟨ht, hb⟩]
        rfl
      · have h := C01_transparent_top d t b hb ht
        rw [composite_normal] at h
        exact ⟨_, h, .inl rfl⟩
  · refine .inr fun b hb => ?_
    rw [C12_undefined_is_normal d m ho]
    exact normal_clear d t hb

theorem looks_trans {a b c : Color} (h : Looks a b) (h' : Looks b c) : Looks a c := by
  rcases h with h | ⟨h1, h2⟩
  · rcases h' with h' | ⟨h3, h4⟩
    · exact .inl (h.trans h')
    · exact .inr ⟨by rw [h]; exact h3, h4⟩
  · rcases h' with h' | ⟨h3, h4⟩
    · exact .inr ⟨h1, by rw [← h']; exact h2⟩
    · exact .inr ⟨h1, h4⟩

theorem looks_symm {a b : Color} (h : Looks a b) : Looks b a := h.elim (fun h => .inl h.symm) fun h => .inr ⟨h.2, h.1⟩

/-- colours that look the same below give colours that look the same, in every mode but Color -/
theorem composite_looks (d : UInt16) (m : Mode) (hm : m ≠ Mode.color) {b b' : Color} (h : Looks b b') (t : Color) :
    ∃ c c', composite d m b t = some c ∧ composite d m b' t = some c' ∧ Looks c c' := by
  rcases h with h | ⟨h1, h2⟩
  · obtain ⟨c, hc, -⟩ := C84_pair_partial d m hm b t
    refine ⟨c, c, hc, ?_, .inl rfl⟩
    rw [← hc]
    unfold composite
    rw [h]
  · rcases over_clear d m hm t with h | h
    · obtain ⟨c, hc, ha⟩ := h b h1
      obtain ⟨c', hc', ha'⟩ := h b' h2
      exact ⟨c, c', hc, hc', .inr ⟨ha, ha'⟩⟩
    · obtain ⟨c, hc, ha⟩ := h b h1
      obtain ⟨c', hc', ha'⟩ := h b' h2
      exact ⟨c, c', hc, hc', looks_trans (looks_symm ha) ha'⟩

theorem drawLayer_looks (ρ : Nat → UInt16) (cm : Option ColorModel) (l : Layer) (p : Pt) {c c' : Color} (n : Nat) (h : Looks c c')
    (hm : shows p l → l.mode ≠ Mode.color) : SameOutcome (drawLayer ρ cm l p c n) (drawLayer ρ cm l p c' n) := by
  by_cases hs : shows p l
  · have hm := hm hs
    rw [drawLayer_shows _ _ hs, drawLayer_shows _ _ hs]
    cases cm with
    | none => trivial
    | some cm =>
    rw [Option.bind_some, Option.bind_some]
    cases layerAt ρ l p n with
    | none => trivial
    | some x =>
    obtain ⟨t, k⟩ := x
    rw [Option.bind_some, Option.bind_some]
    dsimp only
    by_cases hp : (decide (l.mode ≠ Mode.dissolve) && cm.isPalette) = true
    · rw [if_pos hp, if_pos hp]
      by_cases ha : t.toNRGBA.a > 0x7fff
      · rw [if_pos ha, if_pos ha]; exact SameOutcome.refl _
      · rw [if_neg ha, if_neg ha]; exact ⟨rfl, h⟩
    · rw [if_neg hp, if_neg hp]
      by_cases hd : l.mode = Mode.dissolve
      · rw [if_pos hd, if_pos hd]
        obtain ⟨x, y, hx, hy, hxy⟩ := composite_looks (ρ k) l.mode hm h t
        rw [hx, hy]
        exact ⟨rfl, hxy⟩
      · rw [if_neg hd, if_neg hd]
        obtain ⟨x, y, hx, hy, hxy⟩ := composite_looks 0 l.mode hm h t
        rw [hx, hy]
        exact ⟨rfl, hxy⟩
  · rw [drawLayer_hidden _ _ hs, drawLayer_hidden _ _ hs]
    exact ⟨rfl, h⟩

/-- the layers on top of what looks the same -/
theorem layersAt_looks (ρ : Nat → UInt16) (cm : Option ColorModel) (h h' : List Layer) (p : Pt) (n : Nat)
    (hl : SameOutcome (layersAt ρ cm h p n) (layersAt ρ cm h' p n)) :
    ∀ g : List Layer, (∀ l ∈ g, shows p l → l.mode ≠ Mode.color) → SameOutcome (layersAt ρ cm (g ++ h) p n) (layersAt ρ cm (g ++ h') p n)
  | [], _ => hl
  | l :: g, hg => by
    have ih := layersAt_looks ρ cm h h' p n hl g fun x hx => hg x (List.mem_cons_of_mem _ hx)
    rw [List.cons_append, List.cons_append, layersAt_cons, layersAt_cons]
    generalize layersAt ρ cm (g ++ h) p n = x at ih
    generalize layersAt ρ cm (g ++ h') p n = y at ih
    match x, y, ih with
    | none, none, _ => trivial
    | some (c, k), some (c', k'), ih =>
      obtain ⟨e, ih⟩ := ih
      subst e
      exact drawLayer_looks ρ cm l p k ih (hg l List.mem_cons_self)

/-! ## The group -/

/-- in an image with a palette coverage is all or nothing, Dissolve or not -/
theorem palette_all_or_nothing (ρ : Nat → UInt16) {cm : ColorModel} (hc : cm.isPalette = true) (p : Pt) (n : Nat) :
    ∀ (g : List Layer) (c : Color) (k : Nat), layersAt ρ (some cm) g p n = some (c, k) → c.toNRGBA.a = 0 ∨ c.toNRGBA.a = 0xffff
  | [], c, k, h => by
    rw [layersAt_nil] at h
    cases h
    exact .inl (by decide)
  | l :: g, c, k, h => by
    rw [layersAt_cons] at h
    obtain ⟨⟨c0, k0⟩, h0, h⟩ := Option.bind_eq_some_iff.1 h
    have ih := palette_all_or_nothing ρ hc p n g c0 k0 h0
    dsimp only at h
    by_cases hs : shows p l
    · rw [drawLayer_shows _ _ hs, Option.bind_some] at h
      obtain ⟨⟨t, k1⟩, -, h⟩ := Option.bind_eq_some_iff.1 h
      dsimp only at h
      by_cases hd : l.mode = Mode.dissolve
      · rw [if_neg (by simp [hd]), if_pos hd, hd] at h
        have h : some (Color.nrgba64 (compositeDissolve (ρ k1) c0.toNRGBA t.toNRGBA), k1 + 1) = some (c, k) := h
        cases h
        show (compositeDissolve (ρ k1) c0.toNRGBA t.toNRGBA).a = 0 ∨ (compositeDissolve (ρ k1) c0.toNRGBA t.toNRGBA).a = 0xffff
        unfold compositeDissolve
        split
        · exact .inr rfl
        · exact ih
      · rw [if_pos (by simp [hd, hc])] at h
        split at h
        · cases h; exact .inr rfl
        · cases h; exact ih
    · rw [drawLayer_hidden _ _ hs] at h
      cases h
      exact ih

theorem groupModel_move (g : List Layer) (d : Pt) : groupModel (g.map (move · d)) = groupModel g := by
  cases g with
  | nil => rfl
  | cons a g => rw [List.map_cons, groupModel_cons, groupModel_cons]; rfl

theorem drawLayer_model (ρ : Nat → UInt16) {cm ch : ColorModel} (hp : cm.isPalette = ch.isPalette) (l : Layer) (p : Pt) (c : Color) (n : Nat) :
    drawLayer ρ (some cm) l p c n = drawLayer ρ (some ch) l p c n := by
  unfold drawLayer
  simp only [Option.bind_some, hp]

theorem layersAt_model (ρ : Nat → UInt16) {cm ch : ColorModel} (hp : cm.isPalette = ch.isPalette) (p : Pt) (n : Nat) :
    ∀ g : List Layer, layersAt ρ (some cm) g p n = layersAt ρ (some ch) g p n
  | [] => by rw [layersAt_nil, layersAt_nil]
  | l :: g => by
    rw [layersAt_cons, layersAt_cons, layersAt_model ρ hp p n g]
    exact congrArg _ (funext fun x => drawLayer_model ρ hp l p x.1 x.2)

/-- the group alone -/
theorem grouped_alone (ρ : Nat → UInt16) (name : GoString) (b : Rect) (g : List Layer) (hin : ∀ l ∈ g, inside l.bounds b) {cm ch : ColorModel}
    (hc : groupModel g = some ch) (hp : cm.isPalette = ch.isPalette) (p : Pt) (n : Nat) :
    SameOutcome (layersAt ρ (some cm) g p n) (layersAt ρ (some cm) [grouped name b g] p n) := by
  rw [layersAt_cons, layersAt_nil, Option.bind_some]
  dsimp only
  by_cases hb : inRect b p
  · have hs : shows p (grouped name b g) := ⟨rfl, hb⟩
    rw [drawLayer_shows _ _ hs, Option.bind_some]
    have hat : layerAt ρ (grouped name b g) p n = layersAt ρ (some cm) g p n := by
      have h1 := C27_move_image ρ g ⟨-b.x0, -b.y0⟩ p n
      rw [at_group ρ g, hc] at h1
      have h2 : layerAt ρ (grouped name b g) p n = ((Img.group (g.map (move · ⟨-b.x0, -b.y0⟩))).at ρ ⟨p.x - b.x0, p.y - b.y0⟩ n).bind
          fun x => some (transparency x.1 (255 - 0), x.2) := rfl
      rw [h2, show (⟨p.x - b.x0, p.y - b.y0⟩ : Pt) = ⟨p.x + -b.x0, p.y + -b.y0⟩ from rfl, h1, layersAt_model ρ hp]
      cases layersAt ρ (some ch) g p n with
      | none => rfl
      | some x => rfl
    rw [hat]
    cases hx : layersAt ρ (some cm) g p n with
    | none => trivial
    | some x =>
    obtain ⟨t, k⟩ := x
    rw [Option.bind_some]
    dsimp only
    by_cases hpal : cm.isPalette = true
    · rw [if_pos (by rw [hpal]; rfl)]
      rcases palette_all_or_nothing ρ hpal p n g t k hx with h | h
      · rw [if_neg (by rw [h]; decide)]
        exact ⟨rfl, .inr ⟨h, by decide⟩⟩
      · rw [if_pos (by rw [h]; decide)]
        refine ⟨rfl, .inl ?_⟩
        show t.toNRGBA = { t.toNRGBA with a := 0xffff }
        rw [← h]
    · rw [if_neg (by rw [Bool.and_eq_true]; exact fun h => hpal h.2), if_neg (by show Mode.normal ≠ Mode.dissolve; decide)]
      obtain ⟨c, h1, h2⟩ := normal_clear 0 (b := .alpha 0) t (by decide)
      show SameOutcome (some (t, k)) (Option.map (fun c => (c, k)) (composite 0 Mode.normal (.alpha 0) t))
      rw [h1]
      exact ⟨rfl, h2⟩
  · rw [drawLayer_hidden _ _ (fun h => hb h.2)]
    have h := C25_nothing_shows ρ g p n fun l hl hs => hb (hin l hl p hs.2)
    rw [at_group, hc, ← layersAt_model ρ hp] at h
    rw [h]
    exact ⟨rfl, .inl rfl⟩

theorem groupModel_append (g : List Layer) {h h' : List Layer} (e : groupModel h = groupModel h') : groupModel (g ++ h) = groupModel (g ++ h') := by
  cases g with
  | nil => exact e
  | cons a g => rw [List.cons_append, List.cons_append, groupModel_cons, groupModel_cons]

/-! ## C93: putting the lowest layers into a group does not change the picture -/

/-- Full statement: putting the lowest layers of a picture into an opaque group in mode Normal that is large enough changes no pixel.  What is missing
are layers in mode Color above the group (`C93_refuted`) and groups with a palette in pictures without or the other way round (`C93_mixed_refuted`). -/
theorem C93_lowest_partial (ρ : Nat → UInt16) (g h : List Layer) (name : GoString) (b : Rect) (hin : ∀ l ∈ h, inside l.bounds b) (cm ch : ColorModel)
    (hcm : groupModel (g ++ h) = some cm) (hch : groupModel h = some ch) (hp : cm.isPalette = ch.isPalette) (p : Pt) (n : Nat)
    (hmode : ∀ l ∈ g, shows p l → l.mode ≠ Mode.color) :
    SameOutcome (Img.at ρ (.group (g ++ h)) p n) (Img.at ρ (.group (g ++ [grouped name b h])) p n) := by
  have hm : groupModel (g ++ [grouped name b h]) = some cm := by
    rw [← hcm]
    refine groupModel_append g ?_
    rw [groupModel_cons]
    show groupModel (h.map (move · ⟨-b.x0, -b.y0⟩)) = _
    exact groupModel_move h _
  rw [at_group, at_group, hm, hcm]
  exact layersAt_looks ρ (some cm) h _ p n (grouped_alone ρ name b h hin hch hp p n) g hmode

/-- A whole picture can be put into a group, whatever the modes of its layers. -/
theorem C93_whole (ρ : Nat → UInt16) (g : List Layer) (name : GoString) (b : Rect) (hin : ∀ l ∈ g, inside l.bounds b) (cm : ColorModel)
    (hcm : groupModel g = some cm) (p : Pt) (n : Nat) :
    SameOutcome (Img.at ρ (.group g) p n) (Img.at ρ (.group [grouped name b g]) p n) :=
  C93_lowest_partial ρ [] g name b hin cm cm hcm hcm rfl p n fun _ hl => absurd hl List.not_mem_nil

/-- two layers in a group of the size of the picture -/
example : (∀ l ∈ ([⟨[], ⟨1, 1, 3, 4⟩, Mode.multiply, false, 0, .leaf ⟨⟨0, 0, 2, 3⟩, .other, fun _ => some (.gray 9)⟩⟩,
    ⟨[], ⟨0, 0, 4, 4⟩, Mode.normal, false, 50, .leaf ⟨⟨0, 0, 4, 4⟩, .other, fun _ => some (.gray 99)⟩⟩] : List Layer), inside l.bounds ⟨0, 0, 4, 4⟩) ∧
    groupModel ([⟨[], ⟨1, 1, 3, 4⟩, Mode.multiply, false, 0, .leaf ⟨⟨0, 0, 2, 3⟩, .other, fun _ => some (.gray 9)⟩⟩,
    ⟨[], ⟨0, 0, 4, 4⟩, Mode.normal, false, 50, .leaf ⟨⟨0, 0, 4, 4⟩, .other, fun _ => some (.gray 99)⟩⟩] : List Layer) = some .other := by
  refine ⟨?_, rfl⟩
  intro l hl
  simp only [List.mem_cons, List.not_mem_nil, or_false] at hl
  rcases hl with rfl | rfl <;> simp only [inside] <;> intro p hp <;> simp only [inRect] at hp ⊢ <;> omega

/-- a layer of one pixel -/
def pixelLayer (c : Color) (cm : ColorModel) (m : Mode) : Layer := ⟨[], ⟨0, 0, 1, 1⟩, m, false, 0, .leaf ⟨⟨0, 0, 1, 1⟩, cm, fun _ => some c⟩⟩

/-- red and alpha of a result -/
def redAlpha (x : Option (Color × Nat)) : Option (UInt16 × UInt16) := x.map fun x => (x.1.toNRGBA.r, x.1.toNRGBA.a)

theorem sameOutcome_red {x y : Option (Color × Nat)} {r a r' a' : UInt16} (hx : redAlpha x = some (r, a)) (hy : redAlpha y = some (r', a')) (ha : a ≠ 0)
    (h : SameOutcome x y) : r = r' := by
  match x, y, h with
  | some (c, n), some (c', n'), h =>
    have hx : some (c.toNRGBA.r, c.toNRGBA.a) = some (r, a) := hx
    have hy : some (c'.toNRGBA.r, c'.toNRGBA.a) = some (r', a') := hy
    cases hx
    cases hy
    rcases h.2 with h | h
    · rw [h]
    · exact absurd h.1 ha

/-- C93 is false under layers in mode Color: such a layer has the lightness of the pixel below even where that is fully transparent, and a layer in
mode Value leaves one there. -/
theorem C93_refuted : ∃ (g h : List Layer) (b : Rect) (p : Pt), (∀ l ∈ h, inside l.bounds b) ∧ groupModel (g ++ h) = some .other ∧
    groupModel h = some .other ∧ ¬SameOutcome (Img.at (fun _ => 0) (.group (g ++ h)) p 0) (Img.at (fun _ => 0) (.group (g ++ [grouped [] b h])) p 0) := by
  refine ⟨[pixelLayer (.nrgba 255 0 0 255) .other Mode.color], [pixelLayer (.gray 128) .other Mode.value], ⟨0, 0, 1, 1⟩, ⟨0, 0⟩, ?_, rfl, rfl, ?_⟩
  · intro l hl
    rw [List.mem_singleton] at hl
    subst hl
    exact fun _ h => h
  · intro h
    have := sameOutcome_red (r := 33087) (a := 65535) (r' := 49149) (a' := 65535) (by decide +kernel) (by decide +kernel) (by decide) h
    revert this
    decide

/-- C93 is false when only the upper layers have a palette: two layers that cover 100/255 each are not drawn, the group of both is. -/
theorem C93_mixed_refuted : ∃ (g h : List Layer) (b : Rect) (p : Pt), (∀ l ∈ g, l.mode = Mode.normal) ∧ (∀ l ∈ h, inside l.bounds b) ∧
    groupModel (g ++ h) = some (.palette []) ∧ groupModel h = some .other ∧
    ¬SameOutcome (Img.at (fun _ => 0) (.group (g ++ h)) p 0) (Img.at (fun _ => 0) (.group (g ++ [grouped [] b h])) p 0) := by
  refine ⟨[pixelLayer (.nrgba 0 0 0 0) (.palette []) Mode.normal],
    [pixelLayer (.nrgba 255 0 0 100) .other Mode.normal, pixelLayer (.nrgba 255 0 0 100) .other Mode.normal], ⟨0, 0, 1, 1⟩, ⟨0, 0⟩, ?_, ?_, rfl, rfl, ?_⟩
  · intro l hl
    rw [List.mem_singleton] at hl
    subst hl
    rfl
  · intro l hl
    rw [List.mem_cons, List.mem_singleton] at hl
    rcases hl with rfl | rfl <;> exact fun _ h => h
  · have h1 : redAlpha (Img.at (fun _ => 0) (.group ([pixelLayer (.nrgba 0 0 0 0) (.palette []) Mode.normal] ++
        [pixelLayer (.nrgba 255 0 0 100) .other Mode.normal, pixelLayer (.nrgba 255 0 0 100) .other Mode.normal])) ⟨0, 0⟩ 0) = some (0, 0) := by decide +kernel
    have h2 : redAlpha (Img.at (fun _ => 0) (.group ([pixelLayer (.nrgba 0 0 0 0) (.palette []) Mode.normal] ++
        [grouped [] ⟨0, 0, 1, 1⟩ [pixelLayer (.nrgba 255 0 0 100) .other Mode.normal, pixelLayer (.nrgba 255 0 0 100) .other Mode.normal]])) ⟨0, 0⟩ 0) =
        some (0xffff, 0xffff) := by decide +kernel
    intro h
    generalize Img.at _ _ _ _ = x at h1 h
    generalize Img.at _ _ _ _ = y at h2 h
    match x, y, h with
    | some (c, n), some (c', n'), h =>
      have h1 : some (c.toNRGBA.r, c.toNRGBA.a) = some (0, 0) := h1
      have h2 : some (c'.toNRGBA.r, c'.toNRGBA.a) = some (0xffff, 0xffff) := h2
      simp only [Option.some.injEq, Prod.mk.injEq] at h1 h2
      rcases h.2 with h | h
      · rw [h, h2.2] at h1; exact absurd h1.2 (by decide)
      · rw [h2.2] at h; exact absurd h.2 (by decide)

/-- a Multiply layer over two layers in other modes, which go into a group -/
example : let g := [pixelLayer (.gray 9) .other Mode.multiply]
    let h := [pixelLayer (.nrgba 1 2 3 4) .other Mode.screen, pixelLayer (.gray 200) .other Mode.dissolve]
    (∀ l ∈ h, inside l.bounds ⟨-1, -1, 5, 5⟩) ∧ groupModel (g ++ h) = some .other ∧ groupModel h = some .other ∧
      ∀ l ∈ g, shows ⟨0, 0⟩ l → l.mode ≠ Mode.color := by
  refine ⟨?_, rfl, rfl, ?_⟩
  · intro l hl
    rw [List.mem_cons, List.mem_singleton] at hl
    rcases hl with rfl | rfl
    all_goals
      rintro p ⟨h1, h2, h3, h4⟩
      have h1 : (0 : Int) ≤ p.x := h1
      have h2 : p.x < 1 := h2
      have h3 : (0 : Int) ≤ p.y := h3
      have h4 : p.y < 1 := h4
      refine ⟨?_, ?_, ?_, ?_⟩ <;> dsimp only <;> omega
  · intro l hl
    rw [List.mem_singleton] at hl
    subst hl
    intro _
    show Mode.multiply ≠ Mode.color
    decide

end Limage
