import Verif.Props.Larger
import Verif.Props.Flatten
/-! # Images that look the same (C166) -/
namespace Limage
open Spec

/-! ## Specification -/

namespace Spec

/-- images of which every pixel looks the same: after as many random numbers the same colour, or two that are fully transparent, or a panic in both; and
both are indexed or none -/
def LooksAlike (i j : Img) : Prop :=
  i.colorModel.map ColorModel.isPalette = j.colorModel.map ColorModel.isPalette ∧ ∀ ρ p n, SameOutcome (i.at ρ p n) (j.at ρ p n)

/-- the layer the place is in (the innermost of those around it) -/
def Spot.holder : Spot → Option Layer
  | .here => none
  | .text _ P => P.holder
  | .masked _ P => P.holder
  | .layer _ l _ P => P.holder.or (some l)

/-- C166 as stated: anywhere in a picture an image can be exchanged for one that looks the same. -/
def SeenOnly : Prop := ∀ (P : Spot) (i j : Img), LooksAlike i j → LooksAlike (P.fill i) (P.fill j)

end Spec

/-! ## Proofs -/

theorem layersAt_sameKind (ρ : Nat → UInt16) {cm cm' : Option ColorModel} (h : cm.map ColorModel.isPalette = cm'.map ColorModel.isPalette) (g : List Layer) (p : Pt)
    (n : Nat) : layersAt ρ cm g p n = layersAt ρ cm' g p n := by
  match cm, cm', h with
  | none, none, _ => rfl
  | some cm, some cm', h => exact layersAt_model ρ (Option.some.inj h) p n g

theorem layerAt_looks (ρ : Nat → UInt16) (l : Layer) {i j : Img} (h : ∀ p n, SameOutcome (i.at ρ p n) (j.at ρ p n)) (p : Pt) (n : Nat) :
    SameOutcome (layerAt ρ { l with image := i } p n) (layerAt ρ { l with image := j } p n) := by
  have h := h ⟨p.x - l.bounds.x0, p.y - l.bounds.y0⟩ n
  unfold layerAt
  dsimp only
  generalize i.at ρ ⟨p.x - l.bounds.x0, p.y - l.bounds.y0⟩ n = x at *
  generalize j.at ρ ⟨p.x - l.bounds.x0, p.y - l.bounds.y0⟩ n = y at *
  match x, y, h with
  | none, none, _ => trivial
  | some (_, _), some (_, _), ⟨hk, h⟩ => exact ⟨hk, transparency_looks h _⟩

theorem groupModel_kind (above below : List Layer) (l : Layer) {i j : Img} (h : i.colorModel.map ColorModel.isPalette = j.colorModel.map ColorModel.isPalette) :
    (groupModel (above ++ { l with image := i } :: below)).map ColorModel.isPalette =
      (groupModel (above ++ { l with image := j } :: below)).map ColorModel.isPalette := by
  cases above with
  | nil => rw [List.nil_append, List.nil_append, groupModel_cons, groupModel_cons]; exact h
  | cons a above => rw [List.cons_append, List.cons_append, groupModel_cons, groupModel_cons]

/-- in a layer that is not in one of the modes an image can be exchanged for one that looks the same, and no pixel changes -/
theorem layer_looksAlike (ρ : Nat → UInt16) (above below : List Layer) {l : Layer} (hl : l.mode ∉ sensitive) {i j : Img} (h : LooksAlike i j) (p : Pt) (n : Nat) :
    (Img.group (above ++ { l with image := i } :: below)).at ρ p n = (Img.group (above ++ { l with image := j } :: below)).at ρ p n := by
  rw [at_group, at_group, layersAt_sameKind ρ (groupModel_kind above below l h.1)]
  refine layersAt_above ?_ above
  rw [layersAt_cons, layersAt_cons]
  cases layersAt ρ (groupModel (above ++ { l with image := j } :: below)) below p n with
  | none => rfl
  | some x =>
  obtain ⟨c, k⟩ := x
  rw [Option.bind_some, Option.bind_some]
  dsimp only
  by_cases hs : shows p l
  · have hi : shows p { l with image := i } := hs
    have hj : shows p { l with image := j } := hs
    exact (drawLayer_tops (l := { l with image := i }) hi hj rfl hl k (layerAt_looks ρ l (h.2 ρ) p k) c).symm
  · have hi : ¬ shows p { l with image := i } := hs
    have hj : ¬ shows p { l with image := j } := hs
    rw [drawLayer_hidden _ _ hi, drawLayer_hidden _ _ hj]

theorem fill_kind (P : Spot) {i j : Img} (h : i.colorModel.map ColorModel.isPalette = j.colorModel.map ColorModel.isPalette) :
    (P.fill i).colorModel.map ColorModel.isPalette = (P.fill j).colorModel.map ColorModel.isPalette := by
  induction P with
  | here => exact h
  | text t P ih => rw [Spot.fill, Spot.fill, Img.colorModel, Img.colorModel]; exact ih
  | masked m P ih => rw [Spot.fill, Spot.fill, Img.colorModel, Img.colorModel]; exact ih
  | layer above l below P ih => rw [Spot.fill, Spot.fill, Img.colorModel, Img.colorModel]; exact groupModel_kind above below l ih

/-- a place in no layer, only behind masks and in text layers -/
theorem C166_masked (P : Spot) (hP : P.holder = none) (i j : Img) (h : LooksAlike i j) : LooksAlike (P.fill i) (P.fill j) := by
  refine ⟨fill_kind P h.1, fun ρ p n => ?_⟩
  induction P with
  | here => exact h.2 ρ p n
  | text t P ih =>
    rw [Spot.fill, Spot.fill, Img.at, Img.at]
    exact ih hP
  | masked m P ih =>
    have h2 := ih hP
    rw [Spot.fill, Spot.fill, Img.at, Img.at]
    generalize (P.fill i).at ρ p n = x at *
    generalize (P.fill j).at ρ p n = y at *
    match x, y, h2 with
    | none, none, _ => trivial
    | some (_, _), some (_, _), ⟨hk, h⟩ =>
      cases m with
      | none => trivial
      | some m => exact ⟨hk, transparency_looks h _⟩
  | layer above l below P ih =>
    rw [Spot.holder] at hP
    cases hq : P.holder <;> rw [hq] at hP <;> cases hP

theorem alike_of_eq {i j : Img} (hk : i.colorModel.map ColorModel.isPalette = j.colorModel.map ColorModel.isPalette)
    (h : ∀ ρ p n, i.at ρ p n = j.at ρ p n) : LooksAlike i j := ⟨hk, fun ρ p n => by rw [h]; exact SameOutcome.refl _⟩

/-- **C166**, for places in a layer that is not in a `sensitive` mode: any image there can be exchanged for one that looks the same, and no pixel of the
picture changes, whatever the modes of the other layers above, below and around are (Dissolve and Color included), at any depth, behind masks and in text
layers.  Full statement: `SeenOnly`; `C166_refuted` shows that it is false. -/
theorem C166_seen_partial (P : Spot) (l : Layer) (hP : P.holder = some l) (hl : l.mode ∉ sensitive) (i j : Img) (h : LooksAlike i j)
    (ρ : Nat → UInt16) (p : Pt) (n : Nat) : (P.fill i).at ρ p n = (P.fill j).at ρ p n := by
  induction P generalizing ρ p n with
  | here => cases hP
  | text t P ih =>
    rw [Spot.fill, Spot.fill, Img.at, Img.at]
    exact ih hP ρ p n
  | masked m P ih =>
    rw [Spot.fill, Spot.fill, Img.at, Img.at, ih hP ρ p n]
  | layer above l' below P ih =>
    rw [Spot.holder] at hP
    rw [Spot.fill, Spot.fill]
    cases hq : P.holder with
    | none =>
      rw [hq] at hP
      cases hP
      exact layer_looksAlike ρ above below hl (C166_masked P hq i j h) p n
    | some k =>
      rw [hq] at hP
      cases hP
      have e := ih hq
      have hx : ∀ p n, layerAt ρ { l' with image := P.fill i } p n = layerAt ρ { l' with image := P.fill j } p n := by
        intro p n
        unfold layerAt
        dsimp only
        rw [e]
      rw [at_group, at_group, layersAt_sameKind ρ (groupModel_kind above below l' (fill_kind P h.1))]
      refine layersAt_above ?_ above
      rw [layersAt_cons, layersAt_cons]
      congr 1
      funext x
      obtain ⟨c, k⟩ := x
      dsimp only
      by_cases hs : shows p l'
      · have hi : shows p { l' with image := P.fill i } := hs
        have hj : shows p { l' with image := P.fill j } := hs
        rw [drawLayer_shows _ _ hi, drawLayer_shows _ _ hj, hx]
      · have hi : ¬ shows p { l' with image := P.fill i } := hs
        have hj : ¬ shows p { l' with image := P.fill j } := hs
        rw [drawLayer_hidden _ _ hi, drawLayer_hidden _ _ hj]

/-- a layer in mode `m` over an opaque green one -/
def overGreen (m : Mode) : Spot := .layer [] (pixelLayer (.gray 0) .other m) [pixelLayer (.nrgba 40 200 10 255) .other Mode.normal] .here

/-- a place in such a picture, behind a mask in a group in mode Value below a layer in mode Dissolve -/
def valueSpot : Spot := .layer [pixelLayer (.gray 7) .other Mode.dissolve] (pixelLayer (.gray 0) .other Mode.value) []
  (.masked (some ⟨⟨0, 0, 1, 1⟩, fun _ => 7⟩) (overGreen Mode.screen))

/-- a picture of one fully transparent pixel with the red component `r` -/
def clearRed (r : UInt16) : Img := .leaf ⟨⟨0, 0, 1, 1⟩, .other, fun _ => some (.nrgba64 ⟨r, 0, 0, 0⟩)⟩

theorem clearRed_alike (r r' : UInt16) : LooksAlike (clearRed r) (clearRed r') :=
  ⟨rfl, fun ρ p n => by rw [clearRed, clearRed, Img.at, Img.at]; exact ⟨rfl, .inr ⟨rfl, rfl⟩⟩⟩

-- transparent red for transparent black
example (ρ : Nat → UInt16) (p : Pt) (n : Nat) : (valueSpot.fill (clearRed 65535)).at ρ p n = (valueSpot.fill (clearRed 0)).at ρ p n :=
  C166_seen_partial valueSpot _ rfl (by decide) _ _ (clearRed_alike _ _) ρ p n

/-- the layer in mode Color shows nothing where it is transparent, so only what it leaves has another colour -/
theorem color_tops (d : UInt16) (b : Color) {t t' : Color} (h : Looks t t') :
    ∃ c c', composite d Mode.color b t = some c ∧ composite d Mode.color b t' = some c' ∧ Looks c c' := by
  rcases h with h | ⟨h1, h2⟩
  · obtain ⟨c, hc, -⟩ := (C14_alpha d b t).2.2.2.1
    exact ⟨c, c, hc, by rw [composite_top_eq d _ b h] at hc; exact hc, .inl rfl⟩
  · obtain ⟨c, hc, ha⟩ := (C14_alpha d b t).2.2.2.1
    obtain ⟨c', hc', ha'⟩ := (C14_alpha d b t').2.2.2.1
    exact ⟨c, c', hc, hc', .inr ⟨ha.trans h1, ha'.trans h2⟩⟩

/-- **C166** for places in a layer in mode Color, if no layer above it is in that mode. -/
theorem C166_color_partial (above below : List Layer) (ha : ∀ a ∈ above, a.mode ≠ Mode.color) (l : Layer) (hl : l.mode = Mode.color) (i j : Img)
    (h : LooksAlike i j) : LooksAlike (.group (above ++ { l with image := i } :: below)) (.group (above ++ { l with image := j } :: below)) := by
  have hm := groupModel_kind above below l h.1
  refine ⟨by rw [Img.colorModel, Img.colorModel]; exact hm, fun ρ p n => ?_⟩
  rw [at_group, at_group, layersAt_sameKind ρ hm]
  refine layersAt_looks ρ _ _ _ p n ?_ above fun a h _ => ha a h
  rw [layersAt_cons, layersAt_cons]
  cases layersAt ρ (groupModel (above ++ { l with image := j } :: below)) below p n with
  | none => trivial
  | some x =>
  obtain ⟨c, k⟩ := x
  rw [Option.bind_some, Option.bind_some]
  dsimp only
  by_cases hs : shows p l
  · have hi : shows p { l with image := i } := hs
    have hj : shows p { l with image := j } := hs
    have hx := layerAt_looks ρ l (h.2 ρ) p k
    rw [drawLayer_shows _ _ hi, drawLayer_shows _ _ hj]
    cases groupModel (above ++ { l with image := j } :: below) with
    | none => trivial
    | some cm =>
    rw [Option.bind_some, Option.bind_some]
    generalize layerAt ρ { l with image := i } p k = x at *
    generalize layerAt ρ { l with image := j } p k = y at *
    match x, y, hx with
    | none, none, _ => trivial
    | some (t, k), some (t', k'), ⟨hk, h⟩ =>
      subst hk
      rw [Option.bind_some, Option.bind_some]
      dsimp only
      rw [hl]
      cases cm.isPalette with
      | true =>
        have e : (decide (Mode.color ≠ Mode.dissolve) && true) = true := by decide
        rw [if_pos e, if_pos e]
        rcases h with h | ⟨h1, h2⟩
        · rw [h]
          exact SameOutcome.refl _
        · rw [h1, h2]
          exact SameOutcome.refl _
      | false =>
        have e : ¬ (decide (Mode.color ≠ Mode.dissolve) && false) = true := by decide
        have e' : ¬ Mode.color = Mode.dissolve := by decide
        rw [if_neg e, if_neg e, if_neg e', if_neg e']
        obtain ⟨c1, c2, e1, e2, hc⟩ := color_tops 0 c h
        rw [e1, e2]
        exact ⟨rfl, hc⟩
  · have hi : ¬ shows p { l with image := i } := hs
    have hj : ¬ shows p { l with image := j } := hs
    rw [drawLayer_hidden _ _ hi, drawLayer_hidden _ _ hj]
    exact SameOutcome.refl _

example : LooksAlike ((overGreen Mode.color).fill (clearRed 65535)) ((overGreen Mode.color).fill (clearRed 0)) :=
  C166_color_partial [] _ (by simp) _ rfl _ _ (clearRed_alike _ _)

/-- C166 is false in each of the other modes: Dissolve, Saturation, Value and Luminosity show what colour a fully transparent pixel has. -/
theorem C166_modes_refuted : ∀ m ∈ unveiling,
    ¬ LooksAlike ((overGreen m).fill (clearRed 65535)) ((overGreen m).fill (clearRed 0)) := by
  intro m hm h
  have h := h.2 (fun _ => 0) ⟨0, 0⟩ 0
  have key : ∀ m ∈ unveiling, ∃ r r', redAlpha (Img.at (fun _ => 0) ((overGreen m).fill (clearRed 65535)) ⟨0, 0⟩ 0) = some (r, 65535) ∧
      redAlpha (Img.at (fun _ => 0) ((overGreen m).fill (clearRed 0)) ⟨0, 0⟩ 0) = some (r', 65535) ∧ r ≠ r' := by
    intro m hm
    simp only [unveiling, List.mem_cons, List.not_mem_nil, or_false] at hm
    rcases hm with rfl | rfl | rfl | rfl
    · exact ⟨65535, 0, by decide +kernel, by decide +kernel, by decide⟩
    · exact ⟨8117, 51400, by decide +kernel, by decide +kernel, by decide⟩
    · exact ⟨13109, 0, by decide +kernel, by decide +kernel, by decide⟩
    · exact ⟨27308, 60651, by decide +kernel, by decide +kernel, by decide⟩
  obtain ⟨r, r', h1, h2, h3⟩ := key m hm
  exact h3 (sameOutcome_red h1 h2 (by decide) h)

/-- C166 is false in mode Color below another layer in mode Color. -/
theorem C166_color_refuted : ¬ LooksAlike
    (.group ([pixelLayer (.nrgba 255 0 0 255) .other Mode.color] ++
      { pixelLayer (.gray 0) .other Mode.color with image := clearRed 65535 } :: [pixelLayer (.gray 128) .other Mode.value]))
    (.group ([pixelLayer (.nrgba 255 0 0 255) .other Mode.color] ++
      { pixelLayer (.gray 0) .other Mode.color with image := clearRed 0 } :: [pixelLayer (.gray 128) .other Mode.value])) := by
  intro h
  have h := h.2 (fun _ => 0) ⟨0, 0⟩ 0
  have := sameOutcome_red (r := 33247) (a := 65535) (r' := 33087) (a' := 65535) (by decide +kernel) (by decide +kernel) (by decide) h
  revert this
  decide

/-- C166 is false. -/
theorem C166_refuted : ¬ SeenOnly := fun h => C166_modes_refuted Mode.value (by decide) (h (overGreen Mode.value) _ _ (clearRed_alike 65535 0))

end Limage
