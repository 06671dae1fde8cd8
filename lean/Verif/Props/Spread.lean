import Verif.Props.Wrap
import Verif.Props.Pieces
import Verif.Props.Through
/-! # Groups of layers that do not overlap (C164) -/
namespace Limage
open Spec

/-! ## Specification -/

namespace Spec

/-- a visible group with the given place, mode and transparency, holding the layers where they were -/
def groupedIn (name : GoString) (b : Rect) (m : Mode) (o : UInt8) (g : List Layer) : Layer := { grouped name b g with mode := m, transparency := o }

/-- the layers, each with the given mode and transparency -/
def spread (m : Mode) (o : UInt8) (g : List Layer) : List Layer := g.map fun l => { l with mode := m, transparency := o }

/-- layers that can be taken out of a group: opaque, in mode Normal and nowhere two at the same point -/
structure SideBySide (g : List Layer) : Prop where
  mode : ∀ l ∈ g, l.mode = Mode.normal
  full : ∀ l ∈ g, l.transparency = 0
  apart : g.Pairwise fun a b => ∀ p, ¬ (shows p a ∧ shows p b)

/-- C164 as stated: a group of such layers can be replaced by the layers with the mode and the transparency of the group. -/
def SpreadsOut : Prop := ∀ (ρ : Nat → UInt16) (upper g lower : List Layer) (name : GoString) (b : Rect) (m : Mode) (o : UInt8), g ≠ [] → SideBySide g →
  (∀ l ∈ g, inside l.bounds b) → (groupModel (upper ++ g ++ lower)).map ColorModel.isPalette = some false →
  (groupModel g).map ColorModel.isPalette = some false → (∀ l ∈ upper, l.mode ≠ Mode.color) → ∀ (p : Pt) (n : Nat),
  SameOutcome (Img.at ρ (.group (upper ++ [groupedIn name b m o g] ++ lower)) p n) (Img.at ρ (.group (upper ++ spread m o g ++ lower)) p n)

end Spec

/-! ## Proofs -/

theorem groupedIn_models (upper g lower : List Layer) (name : GoString) (b : Rect) (m : Mode) (o : UInt8) (hne : g ≠ []) :
    groupModel (upper ++ [groupedIn name b m o g] ++ lower) = groupModel (upper ++ g ++ lower) := by
  rw [← groupModel_through upper g lower name b hne, List.append_assoc, List.append_assoc]
  refine groupModel_append upper ?_
  rw [List.singleton_append, List.singleton_append, groupModel_cons, groupModel_cons]
  rfl

theorem spread_models (upper g lower : List Layer) (m : Mode) (o : UInt8) (hne : g ≠ []) :
    groupModel (upper ++ spread m o g ++ lower) = groupModel (upper ++ g ++ lower) := by
  rw [List.append_assoc, List.append_assoc]
  refine groupModel_append upper ?_
  obtain ⟨l, g, rfl⟩ := List.exists_cons_of_ne_nil hne
  rw [List.cons_append, groupModel_cons, spread, List.map_cons, List.cons_append, groupModel_cons]

/-- the only layer that shows is the only one drawn -/
theorem layersAt_only {ρ : Nat → UInt16} {cm : Option ColorModel} {p : Pt} (n : Nat) (lower : List Layer) {a c : List Layer} {l : Layer}
    (ha : ∀ q ∈ a, ¬ shows p q) (hc : ∀ q ∈ c, ¬ shows p q) : layersAt ρ cm (a ++ l :: c ++ lower) p n = layersAt ρ cm (l :: lower) p n := by
  rw [List.append_assoc, layersAt_pieces_none p n _ a ha, List.cons_append, layersAt_cons, layersAt_pieces_none p n _ c hc, layersAt_cons]

/-- layers that show the same in the same mode draw the same -/
theorem drawLayer_tops {ρ : Nat → UInt16} {cm : Option ColorModel} {l l' : Layer} {p : Pt} (hs : shows p l) (hs' : shows p l') (hmo : l'.mode = l.mode)
    (hm : l.mode ∉ sensitive) (n : Nat) (h : SameOutcome (layerAt ρ l p n) (layerAt ρ l' p n)) (c : Color) :
    drawLayer ρ cm l' p c n = drawLayer ρ cm l p c n := by
  rw [drawLayer_shows _ _ hs, drawLayer_shows _ _ hs', hmo]
  cases cm with
  | none => rfl
  | some cm =>
  rw [Option.bind_some, Option.bind_some]
  generalize layerAt ρ l p n = x at *
  generalize layerAt ρ l' p n = y at *
  match x, y, h with
  | none, none, _ => rfl
  | some (t, k), some (t', k'), ⟨hk, h⟩ =>
    subst hk
    rw [Option.bind_some, Option.bind_some]
    dsimp only
    rcases h with h | ⟨h1, h2⟩
    · rw [h]
      have e := fun d => composite_top_eq d l.mode c h
      rw [e, e]
    · have e := fun d => clear_top_same d l.mode hm c h2 h1
      rw [h1, h2, e, e]
      rfl

/-- what a group shows is what its layers show where they were -/
theorem groupedIn_at (ρ : Nat → UInt16) (name : GoString) (b : Rect) (m : Mode) (o : UInt8) (g : List Layer) (p : Pt) (n : Nat) :
    layerAt ρ (groupedIn name b m o g) p n = (layersAt ρ (groupModel g) g p n).bind fun x => some (transparency x.1 (255 - o), x.2) := by
  have h1 := C27_move_image ρ g ⟨-b.x0, -b.y0⟩ p n
  rw [at_group ρ g] at h1
  have h2 : layerAt ρ (groupedIn name b m o g) p n = ((Img.group (g.map (move · ⟨-b.x0, -b.y0⟩))).at ρ ⟨p.x - b.x0, p.y - b.y0⟩ n).bind
      fun x => some (transparency x.1 (255 - o), x.2) := rfl
  rw [h2, show (⟨p.x - b.x0, p.y - b.y0⟩ : Pt) = ⟨p.x + -b.x0, p.y + -b.y0⟩ from rfl, h1]

theorem transparency_of_clear (t : Color) (o : UInt8) (h : t.toNRGBA.a = 0) : (transparency t o).toNRGBA.a = 0 := by
  unfold transparency
  split
  · exact h
  · split
    · rfl
    · show ((o.toUInt32 ||| o.toUInt32 <<< 8) * t.toNRGBA.a.toUInt32 / 0xffff).toUInt16 = 0
      rw [h]; simp

/-- the layers below are drawn on by the group as by its layers -/
theorem spread_drawn (ρ : Nat → UInt16) (g lower : List Layer) (name : GoString) (b : Rect) (m : Mode) (o : UInt8) (hg : SideBySide g)
    (hin : ∀ l ∈ g, inside l.bounds b) (hm : m ∉ sensitive) (cm ch : ColorModel) (hcm : cm.isPalette = false) (hch : groupModel g = some ch)
    (hnp : ch.isPalette = false) (p : Pt) (n : Nat) :
    SameOutcome (layersAt ρ (some cm) (groupedIn name b m o g :: lower) p n) (layersAt ρ (some cm) (spread m o g ++ lower) p n) := by
  have hd : m ≠ Mode.dissolve := fun e => hm (by rw [e]; decide)
  by_cases hx : ∃ l ∈ g, shows p l
  · obtain ⟨l, hl, hs⟩ := hx
    have hb : inRect b p := hin l hl p hs.2
    obtain ⟨a, c, rfl⟩ := List.append_of_mem hl
    have hap := List.pairwise_append.1 hg.apart
    have ha : ∀ q ∈ a, ¬ shows p q := fun q hq h => hap.2.2 q hq l List.mem_cons_self p ⟨h, hs⟩
    have hc : ∀ q ∈ c, ¬ shows p q := fun q hq h => (List.pairwise_cons.1 hap.2.1).1 q hq p ⟨hs, h⟩
    have none' : ∀ a : List Layer, (∀ q ∈ a, ¬ shows p q) → ∀ q ∈ spread m o a, ¬ shows p q := by
      intro a ha q hq h
      obtain ⟨q', hq', rfl⟩ := List.mem_map.1 hq
      exact ha q' hq' h
    have e : spread m o (a ++ l :: c) = spread m o a ++ { l with mode := m, transparency := o } :: spread m o c := by
      simp only [spread, List.map_append, List.map_cons]
    rw [e, layersAt_only n lower (none' a ha) (none' c hc), layersAt_cons, layersAt_cons]
    cases layersAt ρ (some cm) lower p n with
    | none => trivial
    | some x =>
    obtain ⟨u, k⟩ := x
    rw [Option.bind_some, Option.bind_some]
    have hs' : shows p (groupedIn name b m o (a ++ l :: c)) := ⟨rfl, hb⟩
    have hs'' : shows p { l with mode := m, transparency := o } := hs
    dsimp only
    rw [drawLayer_tops (l := { l with mode := m, transparency := o }) hs'' hs' rfl hm k ?_ u]
    · exact SameOutcome.refl _
    · rw [groupedIn_at, hch]
      have h1 : layersAt ρ (some ch) (a ++ l :: c) p k = drawLayer ρ (some ch) l p (.alpha 0) k := by
        have := layersAt_only (ρ := ρ) (cm := some ch) k [] ha hc (l := l)
        rw [List.append_nil] at this
        rw [this, layersAt_cons, layersAt_nil, Option.bind_some]
      have hd' : ¬ l.mode = Mode.dissolve := by rw [hg.mode l hl]; decide
      rw [h1, drawLayer_shows _ _ hs, Option.bind_some]
      unfold layerAt
      dsimp only
      rw [hg.full l hl, hg.mode l hl]
      cases l.image.at ρ ⟨p.x - l.bounds.x0, p.y - l.bounds.y0⟩ k with
      | none => trivial
      | some y =>
      obtain ⟨t, j⟩ := y
      show SameOutcome (some (transparency t (255 - o), j)) ((if Mode.normal ≠ Mode.dissolve && ch.isPalette then _ else
        if Mode.normal = Mode.dissolve then _ else (composite 0 Mode.normal (.alpha 0) (transparency t (255 - 0))).map fun c => (c, j)).bind _)
      rw [hnp, Bool.and_false, if_neg (by decide), if_neg (by decide), (C20_opacity t (255 - 0)).1 (by decide)]
      obtain ⟨v, h2, h3⟩ := normal_clear 0 (b := .alpha 0) t (by decide)
      rw [h2]
      exact ⟨rfl, transparency_looks h3 _⟩
  · have hno : ∀ q ∈ g, ¬ shows p q := fun q hq h => hx ⟨q, hq, h⟩
    have hno' : ∀ q ∈ spread m o g, ¬ shows p q := by
      intro q hq h
      obtain ⟨q', hq', rfl⟩ := List.mem_map.1 hq
      exact hno q' hq' h
    rw [layersAt_pieces_none p n lower _ hno', layersAt_cons]
    cases layersAt ρ (some cm) lower p n with
    | none => trivial
    | some x =>
    obtain ⟨u, k⟩ := x
    rw [Option.bind_some]
    dsimp only
    by_cases hb : inRect b p
    · have hs' : shows p (groupedIn name b m o g) := ⟨rfl, hb⟩
      rw [drawLayer_shows _ _ hs', groupedIn_at, layersAt_behind ρ _ p k g hno, Option.bind_some, Option.bind_some, Option.bind_some]
      dsimp only
      rw [hcm, Bool.and_false, if_neg (by decide), if_neg (show ¬ (groupedIn name b m o g).mode = Mode.dissolve from hd)]
      obtain ⟨v, h2, h3⟩ := clear_top 0 m hm u (transparency (.alpha 0) (255 - o)) (transparency_of_clear _ _ (by decide))
      show SameOutcome ((composite 0 m u (transparency (.alpha 0) (255 - o))).map fun c => (c, k)) _
      rw [h2]
      exact ⟨rfl, h3⟩
    · rw [drawLayer_hidden _ _ (fun h => hb h.2)]
      exact SameOutcome.refl _

/-- **C164**, for every mode that is not `sensitive`: a group of layers side by side can be replaced by the layers with the mode and the opacity of the
group.  Full statement: `SpreadsOut`, with every mode; `C164_refuted` shows that it is false. -/
theorem C164_spread_partial (ρ : Nat → UInt16) (upper g lower : List Layer) (name : GoString) (b : Rect) (m : Mode) (o : UInt8) (hm : m ∉ sensitive)
    (hne : g ≠ []) (hg : SideBySide g) (hin : ∀ l ∈ g, inside l.bounds b)
    (hcm : (groupModel (upper ++ g ++ lower)).map ColorModel.isPalette = some false) (hch : (groupModel g).map ColorModel.isPalette = some false)
    (p : Pt) (n : Nat) (hup : ∀ l ∈ upper, shows p l → l.mode ≠ Mode.color) :
    SameOutcome (Img.at ρ (.group (upper ++ [groupedIn name b m o g] ++ lower)) p n) (Img.at ρ (.group (upper ++ spread m o g ++ lower)) p n) := by
  obtain ⟨cm, h1, h2⟩ := Option.map_eq_some_iff.1 hcm
  obtain ⟨ch, h3, h4⟩ := Option.map_eq_some_iff.1 hch
  rw [at_group, at_group, groupedIn_models _ _ _ _ _ _ _ hne, spread_models _ _ _ _ _ hne, h1, List.append_assoc, List.append_assoc]
  exact layersAt_looks ρ (some cm) _ _ p n (spread_drawn ρ g lower name b m o hg hin hm cm ch h2 h3 h4 p n) upper hup

-- two layers side by side in a half transparent group in mode Multiply over a third one
example (p : Pt) :
    let g := [pixelLayer (.nrgba 9 80 200 99) .other Mode.normal, { pixelLayer (.gray 30) .other Mode.normal with bounds := ⟨1, 0, 2, 1⟩ }]
    let low := [pixelLayer (.gray 200) .other Mode.normal]
    SameOutcome (Img.at (fun _ => 0) (.group ([] ++ [groupedIn [] ⟨0, 0, 2, 1⟩ Mode.multiply 127 g] ++ low)) p 0)
      (Img.at (fun _ => 0) (.group ([] ++ spread Mode.multiply 127 g ++ low)) p 0) := by
  refine C164_spread_partial _ [] _ _ _ _ _ _ (by decide) (by simp) ⟨?_, ?_, ?_⟩ ?_ rfl rfl p 0 (by simp)
  · intro l hl
    rcases List.mem_cons.1 hl with rfl | hl
    · rfl
    · cases List.mem_singleton.1 hl; rfl
  · intro l hl
    rcases List.mem_cons.1 hl with rfl | hl
    · rfl
    · cases List.mem_singleton.1 hl; rfl
  · refine List.pairwise_pair.2 fun p h => ?_
    obtain ⟨⟨-, h1⟩, -, h2⟩ := h
    simp only [inRect, pixelLayer] at h1 h2
    omega
  · intro l hl p hp
    rcases List.mem_cons.1 hl with rfl | hl
    · simp only [inRect, pixelLayer] at hp ⊢; omega
    · cases List.mem_singleton.1 hl
      simp only [inRect] at hp ⊢; omega

/-- a layer that fills the right half of a group of two pixels, over one that fills both -/
def rightHalf : List Layer := [{ pixelLayer (.gray 30) .other Mode.normal with bounds := ⟨1, 0, 2, 1⟩ }]

theorem rightHalf_inside : (∀ l ∈ rightHalf, inside l.bounds ⟨1, 0, 2, 1⟩) ∧ ∀ l ∈ rightHalf, inside l.bounds ⟨0, 0, 2, 1⟩ := by
  constructor <;>
  · intro l hl p hp
    cases List.mem_singleton.1 hl
    simp only [inRect] at hp ⊢
    omega

/-- C164 is false for each of the five modes: a group changes what is below it where it has no layer. -/
theorem C164_modes_refuted : ∀ m ∈ sensitive, ¬ SameOutcome
    (Img.at (fun _ => 0) (.group ([] ++ spread m 0 rightHalf ++ [pixelLayer (.nrgba 40 200 10 255) .other Mode.normal])) ⟨0, 0⟩ 0)
    (Img.at (fun _ => 0) (.group ([] ++ [groupedIn [] ⟨0, 0, 2, 1⟩ m 0 rightHalf] ++ [pixelLayer (.nrgba 40 200 10 255) .other Mode.normal])) ⟨0, 0⟩ 0) := by
  intro m hm h
  have h1 : ∀ m ∈ sensitive, (redAlpha
      (Img.at (fun _ => 0) (.group ([] ++ spread m 0 rightHalf ++ [pixelLayer (.nrgba 40 200 10 255) .other Mode.normal])) ⟨0, 0⟩ 0)).map Prod.snd = some 65535 := by
    decide +kernel
  have h2 : ∀ m ∈ sensitive, (redAlpha
      (Img.at (fun _ => 0) (.group ([] ++ spread m 0 rightHalf ++ [pixelLayer (.nrgba 40 200 10 255) .other Mode.normal])) ⟨0, 0⟩ 0)).map Prod.fst ≠
      (redAlpha
        (Img.at (fun _ => 0) (.group ([] ++ [groupedIn [] ⟨0, 0, 2, 1⟩ m 0 rightHalf] ++ [pixelLayer (.nrgba 40 200 10 255) .other Mode.normal])) ⟨0, 0⟩ 0)).map Prod.fst := by
    decide +kernel
  exact h2 m hm (sameOutcome_reds (h1 m hm) (by decide) h)

/-- C164 is false. -/
theorem C164_refuted : ¬ SpreadsOut := by
  intro h
  have h := h (fun _ => 0) [] rightHalf [pixelLayer (.nrgba 40 200 10 255) .other Mode.normal] [] ⟨0, 0, 2, 1⟩ Mode.value 0 (by simp [rightHalf])
    ⟨fun l hl => by cases List.mem_singleton.1 hl; rfl, fun l hl => by cases List.mem_singleton.1 hl; rfl, List.pairwise_singleton _ _⟩
    rightHalf_inside.2 rfl rfl (by simp) ⟨0, 0⟩ 0
  have h2 : ((redAlpha
      (Img.at (fun _ => 0) (.group ([] ++ [groupedIn [] ⟨0, 0, 2, 1⟩ Mode.value 0 rightHalf] ++ [pixelLayer (.nrgba 40 200 10 255) .other Mode.normal])) ⟨0, 0⟩ 0)).map Prod.snd) = some 65535 := by
    decide +kernel
  have e := sameOutcome_reds h2 (by decide) h
  revert e
  decide +kernel

end Limage
