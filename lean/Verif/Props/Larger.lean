import Verif.Props.Spread
/-! # The size of a group (C165) -/
namespace Limage
open Spec

/-! ## Specification -/

namespace Spec

/-- C165 as stated: the place of a group does not matter as long as all its layers fit in. -/
def SizeFree : Prop := ∀ (ρ : Nat → UInt16) (upper g lower : List Layer) (name : GoString) (b b' : Rect) (m : Mode) (o : UInt8),
  (∀ l ∈ g, inside l.bounds b) → (∀ l ∈ g, inside l.bounds b') → (∀ l ∈ upper, l.mode ≠ Mode.color) → ∀ (p : Pt) (n : Nat),
  Img.at ρ (.group (upper ++ [groupedIn name b m o g] ++ lower)) p n ≠ none → Img.at ρ (.group (upper ++ [groupedIn name b' m o g] ++ lower)) p n ≠ none →
  SameOutcome (Img.at ρ (.group (upper ++ [groupedIn name b m o g] ++ lower)) p n) (Img.at ρ (.group (upper ++ [groupedIn name b' m o g] ++ lower)) p n)

end Spec

/-! ## Proofs -/

theorem SameOutcome.symm : ∀ {x y}, SameOutcome x y → SameOutcome y x
  | none, none, _ => trivial
  | some (_, _), some (_, _), h => ⟨h.1.symm, looks_symm h.2⟩

/-- where none of its layers shows a group leaves what is below -/
theorem groupedIn_clear (ρ : Nat → UInt16) (g : List Layer) (name : GoString) (b : Rect) (m : Mode) (o : UInt8) (hm : m ∉ sensitive) (cm : ColorModel) (p : Pt)
    (hno : ∀ l ∈ g, ¬ shows p l) (c : Color) (n : Nat) : SameOutcome (drawLayer ρ (some cm) (groupedIn name b m o g) p c n) (some (c, n)) := by
  have hd : m ≠ Mode.dissolve := fun e => hm (by rw [e]; decide)
  by_cases hb : inRect b p
  · have hs : shows p (groupedIn name b m o g) := ⟨rfl, hb⟩
    have ha : (transparency (.alpha 0) (255 - o)).toNRGBA.a = 0 := transparency_of_clear _ _ (by decide)
    rw [drawLayer_shows _ _ hs, groupedIn_at, layersAt_behind ρ _ p n g hno, Option.bind_some, Option.bind_some, Option.bind_some]
    dsimp only
    split
    · rw [if_neg (by rw [ha]; decide)]
      exact SameOutcome.refl _
    · rw [if_neg (show ¬ (groupedIn name b m o g).mode = Mode.dissolve from hd)]
      obtain ⟨v, h2, h3⟩ := clear_top 0 m hm c _ ha
      show SameOutcome ((composite 0 m c (transparency (.alpha 0) (255 - o))).map fun c => (c, n)) _
      rw [h2]
      exact ⟨rfl, h3⟩
  · rw [drawLayer_hidden _ _ (fun h => hb h.2)]
    exact SameOutcome.refl _

theorem SameOutcome.trans : ∀ {x y z}, SameOutcome x y → SameOutcome y z → SameOutcome x z
  | none, none, none, _, _ => trivial
  | some (_, _), some (_, _), some (_, _), h, h' => ⟨h.1.trans h'.1, looks_trans h.2 h'.2⟩

/-- **C165**, for every mode that is not `sensitive`: groups of any layers in pictures with and without palettes look the same whatever their place, if it
holds all the layers.  Full statement: `SizeFree`, with every mode; `C165_refuted` shows that it is false. -/
theorem C165_larger_partial (ρ : Nat → UInt16) (upper g lower : List Layer) (name : GoString) (b b' : Rect) (m : Mode) (o : UInt8) (hm : m ∉ sensitive)
    (hin : ∀ l ∈ g, inside l.bounds b) (hin' : ∀ l ∈ g, inside l.bounds b') (cm : ColorModel)
    (hcm : groupModel (upper ++ [groupedIn name b m o g] ++ lower) = some cm) (p : Pt) (n : Nat) (hup : ∀ l ∈ upper, shows p l → l.mode ≠ Mode.color) :
    SameOutcome (Img.at ρ (.group (upper ++ [groupedIn name b m o g] ++ lower)) p n)
      (Img.at ρ (.group (upper ++ [groupedIn name b' m o g] ++ lower)) p n) := by
  have hcm' : groupModel (upper ++ [groupedIn name b' m o g] ++ lower) = some cm := by
    rw [← hcm, List.append_assoc, List.append_assoc]
    refine groupModel_append upper ?_
    rw [List.singleton_append, List.singleton_append, groupModel_cons, groupModel_cons]
    exact (groupModel_move g _).trans (groupModel_move g _).symm
  rw [at_group, at_group, hcm, hcm', List.append_assoc, List.append_assoc]
  refine layersAt_looks ρ (some cm) _ _ p n ?_ upper hup
  rw [List.singleton_append, List.singleton_append, layersAt_cons, layersAt_cons]
  cases layersAt ρ (some cm) lower p n with
  | none => trivial
  | some x =>
  obtain ⟨c, k⟩ := x
  rw [Option.bind_some, Option.bind_some]
  dsimp only
  by_cases h : inRect b p ∧ inRect b' p
  · have hs : shows p (groupedIn name b m o g) := ⟨rfl, h.1⟩
    have hs' : shows p (groupedIn name b' m o g) := ⟨rfl, h.2⟩
    rw [drawLayer_shows _ _ hs, drawLayer_shows _ _ hs', groupedIn_at, groupedIn_at]
    exact SameOutcome.refl _
  · have hno : ∀ l ∈ g, ¬ shows p l := fun l hl hs => h ⟨hin l hl p hs.2, hin' l hl p hs.2⟩
    exact SameOutcome.trans (groupedIn_clear ρ g name b m o hm cm p hno c k) (SameOutcome.symm (groupedIn_clear ρ g name b' m o hm cm p hno c k))

-- two overlapping layers in a half transparent group in mode Hue, in 2 by 1 and in 9 by 9 pixels
example (p : Pt) :
    let g := [pixelLayer (.nrgba 9 80 200 99) .other Mode.screen, { pixelLayer (.gray 30) .other Mode.normal with bounds := ⟨0, 0, 2, 1⟩ }]
    let low := [pixelLayer (.gray 200) .other Mode.normal]
    SameOutcome (Img.at (fun _ => 0) (.group ([] ++ [groupedIn [] ⟨0, 0, 2, 1⟩ Mode.hue 127 g] ++ low)) p 0)
      (Img.at (fun _ => 0) (.group ([] ++ [groupedIn [] ⟨-4, -4, 5, 5⟩ Mode.hue 127 g] ++ low)) p 0) := by
  refine C165_larger_partial _ [] _ _ _ _ _ _ _ (by decide) ?_ ?_ .other rfl p 0 (by simp) <;>
  · intro l hl p hp
    rcases List.mem_cons.1 hl with rfl | hl
    · simp only [inRect, pixelLayer] at hp ⊢; omega
    · cases List.mem_singleton.1 hl
      simp only [inRect] at hp ⊢; omega

/-- C165 is false for each of the five modes: a larger group changes more of what is below it. -/
theorem C165_modes_refuted : ∀ m ∈ sensitive, ¬ SameOutcome
    (Img.at (fun _ => 0) (.group ([] ++ [groupedIn [] ⟨1, 0, 2, 1⟩ m 0 rightHalf] ++ [pixelLayer (.nrgba 40 200 10 255) .other Mode.normal])) ⟨0, 0⟩ 0)
    (Img.at (fun _ => 0) (.group ([] ++ [groupedIn [] ⟨0, 0, 2, 1⟩ m 0 rightHalf] ++ [pixelLayer (.nrgba 40 200 10 255) .other Mode.normal])) ⟨0, 0⟩ 0) := by
  intro m hm h
  have h1 : ∀ m ∈ sensitive, (redAlpha (Img.at (fun _ => 0)
      (.group ([] ++ [groupedIn [] ⟨1, 0, 2, 1⟩ m 0 rightHalf] ++ [pixelLayer (.nrgba 40 200 10 255) .other Mode.normal])) ⟨0, 0⟩ 0)).map Prod.snd = some 65535 := by
    decide +kernel
  have h2 : ∀ m ∈ sensitive, (redAlpha (Img.at (fun _ => 0)
      (.group ([] ++ [groupedIn [] ⟨1, 0, 2, 1⟩ m 0 rightHalf] ++ [pixelLayer (.nrgba 40 200 10 255) .other Mode.normal])) ⟨0, 0⟩ 0)).map Prod.fst ≠
      (redAlpha (Img.at (fun _ => 0)
        (.group ([] ++ [groupedIn [] ⟨0, 0, 2, 1⟩ m 0 rightHalf] ++ [pixelLayer (.nrgba 40 200 10 255) .other Mode.normal])) ⟨0, 0⟩ 0)).map Prod.fst := by
    decide +kernel
  exact h2 m hm (sameOutcome_reds (h1 m hm) (by decide) h)

/-- C165 is false. -/
theorem C165_refuted : ¬ SizeFree := fun h => C165_modes_refuted Mode.value (by decide)
  (h (fun _ => 0) [] rightHalf [pixelLayer (.nrgba 40 200 10 255) .other Mode.normal] [] ⟨1, 0, 2, 1⟩ ⟨0, 0, 2, 1⟩ Mode.value 0
    rightHalf_inside.1 rightHalf_inside.2 (by simp) ⟨0, 0⟩ 0
    (fun e => absurd (congrArg redAlpha e) (by decide +kernel)) (fun e => absurd (congrArg redAlpha e) (by decide +kernel)))

end Limage
