import Verif.Proofs.Image
import Verif.Props.Color
import Verif.Props.Composite
/-!
# Properties of layered images (C24–C28)
-/
namespace Limage
open Spec

/-! ## C24 -/

theorem union_contains (r s : Rect) (p : Pt) (h : inRect r p ∨ inRect s p) : inRect (r.union s) p := by
  unfold Rect.union
  by_cases hr : r.empty = true
  · rw [if_pos hr]
    rcases h with h | h
    · exact absurd h (not_inRect_of_empty hr p)
    · exact h
  · rw [if_neg hr]
    by_cases hs : s.empty = true
    · rw [if_pos hs]
      rcases h with h | h
      · exact h
      · exact absurd h (not_inRect_of_empty hs p)
    · rw [if_neg hs]
      rcases h with ⟨h1, h2, h3, h4⟩ | ⟨h1, h2, h3, h4⟩ <;>
        refine ⟨?_, ?_, ?_, ?_⟩ <;> dsimp only <;> omega

/-- a rectangle with a point lies inside another exactly when its corners do -/
theorem inside_iff {r : Rect} (hr : ¬ r.empty = true) (s : Rect) :
    inside r s ↔ s.x0 ≤ r.x0 ∧ s.y0 ≤ r.y0 ∧ r.x1 ≤ s.x1 ∧ r.y1 ≤ s.y1 := by
  rw [empty_iff, not_not] at hr
  constructor
  · intro h
    obtain ⟨a1, a2, a3, a4⟩ := h ⟨r.x0, r.y0⟩ ⟨by simp, by simpa using hr.1, by simp, by simpa using hr.2⟩
    obtain ⟨b1, b2, b3, b4⟩ := h ⟨r.x1 - 1, r.y1 - 1⟩
      ⟨by dsimp only; omega, by dsimp only; omega, by dsimp only; omega, by dsimp only; omega⟩
    dsimp only at *
    refine ⟨?_, ?_, ?_, ?_⟩ <;> omega
  · rintro ⟨h1, h2, h3, h4⟩ p ⟨p1, p2, p3, p4⟩
    refine ⟨?_, ?_, ?_, ?_⟩ <;> omega

theorem union_inside (r s t : Rect) (hr : inside r t) (hs : inside s t) : inside (r.union s) t := by
  unfold Rect.union
  by_cases er : r.empty = true
  · rw [if_pos er]; exact hs
  · rw [if_neg er]
    by_cases es : s.empty = true
    · rw [if_pos es]; exact hr
    · rw [if_neg es]
      rw [inside_iff er] at hr
      rw [inside_iff es] at hs
      rintro p ⟨h1, h2, h3, h4⟩
      dsimp only at *
      refine ⟨?_, ?_, ?_, ?_⟩ <;> omega

/-- an example layer: one opaque red pixel -/
def exLeaf (b : Rect) (c : Color) : Img := .leaf ⟨b, .other, fun _ => some c⟩
/-- an example layer -/
def exLayer (b : Rect) (m : Mode) (c : Color) : Layer := ⟨[], b, m, false, 0, exLeaf b c⟩

/-- **C24**: the bounds contain every layer. -/
theorem C24_contains (g : List Layer) (l : Layer) (h : l ∈ g) :
    ∃ b, Img.bounds (.group g) = some b ∧ inside l.bounds b := by
  refine ⟨_, by rw [Img.bounds], ?_⟩
  have key : ∀ (g : List Layer) (r : Rect),
      inside r (g.foldl (fun r l => r.union l.bounds) r) ∧
      ∀ l ∈ g, inside l.bounds (g.foldl (fun r l => r.union l.bounds) r) := by
    intro g
    induction g with
    | nil => intro r; exact ⟨fun p h => h, by simp⟩
    | cons a g ih =>
      intro r
      simp only [List.foldl_cons]
      obtain ⟨h1, h2⟩ := ih (r.union a.bounds)
      refine ⟨fun p hp => h1 p (union_contains _ _ _ (Or.inl hp)), ?_⟩
      intro l hl p hp
      rcases List.mem_cons.1 hl with rfl | hl
      · exact h1 p (union_contains _ _ _ (Or.inr hp))
      · exact h2 l hl p hp
  exact (key g Rect.zero).2 l h

example : exLayer ⟨2, 3, 4, 5⟩ 0 (.gray 1) ∈ [exLayer ⟨0, 0, 1, 1⟩ 0 (.gray 2), exLayer ⟨2, 3, 4, 5⟩ 0 (.gray 1)] := by simp

/-- **C24**: the bounds are inside every rectangle that contains every layer. -/
theorem C24_smallest (g : List Layer) (s : Rect) (h : ∀ l ∈ g, inside l.bounds s) :
    ∃ b, Img.bounds (.group g) = some b ∧ inside b s := by
  refine ⟨_, by rw [Img.bounds], ?_⟩
  have key : ∀ (g : List Layer) (r : Rect), inside r s → (∀ l ∈ g, inside l.bounds s) →
      inside (g.foldl (fun r l => r.union l.bounds) r) s := by
    intro g
    induction g with
    | nil => intro r h _; exact h
    | cons a g ih =>
      intro r hr hg
      exact ih _ (union_inside _ _ _ hr (hg a (List.mem_cons_self ..)))
        (fun l hl => hg l (List.mem_cons_of_mem _ hl))
  exact key g Rect.zero (fun p hp => absurd hp (not_inRect_of_empty (by decide) p)) h

/-- two layers within a rectangle -/
example : ∀ l ∈ ([⟨[], ⟨1, 1, 3, 4⟩, Mode.normal, false, 0, .nil⟩, ⟨[], ⟨-2, 0, 0, 2⟩, Mode.normal, true, 0, .nil⟩] : List Layer),
    inside l.bounds ⟨-5, 0, 3, 9⟩ := by
  intro l hl
  simp only [List.mem_cons, List.not_mem_nil, or_false] at hl
  rcases hl with rfl | rfl <;> simp only [inside] <;> intro p hp <;> simp only [inRect] at hp ⊢ <;> omega

/-- **C24**: the bounds do not depend on the order of the layers. -/
theorem C24_order (g h : List Layer) (hp : g.Perm h) :
    ∃ a b, Img.bounds (.group g) = some a ∧ Img.bounds (.group h) = some b ∧ sameRect a b := by
  have sub : ∀ g h : List Layer, g.Perm h → inside (groupBounds g) (groupBounds h) := by
    intro g h hp
    obtain ⟨b, hb, hw⟩ := C24_smallest g (groupBounds h) (by
      intro l hl
      obtain ⟨b, hb, hw⟩ := C24_contains h l (hp.mem_iff.1 hl)
      rw [Img.bounds] at hb; injection hb with hb; rw [hb]; exact hw)
    rw [Img.bounds] at hb; injection hb with hb; rw [hb]; exact hw
  refine ⟨_, _, by rw [Img.bounds], by rw [Img.bounds], ?_⟩
  have h1 := sub g h hp
  have h2 := sub h g hp.symm
  generalize groupBounds g = a at *
  generalize groupBounds h = b at *
  by_cases ea : a.empty = true
  · right
    refine ⟨not_inRect_of_empty ea, fun p hb => ?_⟩
    exact not_inRect_of_empty ea p (h2 p hb)
  · by_cases eb : b.empty = true
    · right
      exact ⟨fun p ha => not_inRect_of_empty eb p (h1 p ha), not_inRect_of_empty eb⟩
    · left
      rw [inside_iff ea] at h1
      rw [inside_iff eb] at h2
      cases a; cases b
      simp only [Rect.mk.injEq] at *
      omega

example : exLayer ⟨0, 0, 1, 1⟩ 0 (.gray 1) ∈ [exLayer ⟨0, 0, 1, 1⟩ 0 (.gray 1)] ∧
    inside (exLayer ⟨0, 0, 1, 1⟩ 0 (.gray 1)).bounds ⟨0, 0, 5, 5⟩ := by
  refine ⟨List.mem_cons_self .., ?_⟩
  intro p h
  simp [exLayer, inRect] at *
  omega

/-! ## C25 -/

/-- **C25**: a layer that is hidden or does not cover the point can be removed from (or inserted
at) any place below the first without changing the pixel or the use of the random source. -/
theorem C25_irrelevant_layer (ρ : Nat → UInt16) (g h : List Layer) (l : Layer) (p : Pt) (n : Nat)
    (hg : g ≠ []) (hl : ¬ shows p l) :
    Img.at ρ (.group (g ++ l :: h)) p n = Img.at ρ (.group (g ++ h)) p n := by
  rw [at_group, at_group, layersAt_append ρ _ g h p n l hl]
  cases g with
  | nil => exact absurd rfl hg
  | cons a g => rw [List.cons_append, List.cons_append, groupModel_cons, groupModel_cons]

example : [exLayer ⟨0, 0, 9, 9⟩ 0 (.gray 2)] ≠ [] ∧ ¬ shows ⟨5, 5⟩ (exLayer ⟨0, 0, 1, 1⟩ 0 (.gray 1)) ∧
    ¬ shows ⟨0, 0⟩ { exLayer ⟨0, 0, 1, 1⟩ 0 (.gray 1) with invisible := true } := by
  simp [shows, exLayer, inRect]

/-- **C25**, the first layer: it can be removed if the image's colour model stays the same. -/
theorem C25_irrelevant_first (ρ : Nat → UInt16) (h : List Layer) (l : Layer) (p : Pt) (n : Nat)
    (hl : ¬ shows p l) (hm : groupModel (l :: h) = groupModel h) :
    Img.at ρ (.group (l :: h)) p n = Img.at ρ (.group h) p n := by
  rw [at_group, at_group, hm]
  exact layersAt_append ρ _ [] h p n l hl

example : ¬ shows ⟨5, 5⟩ (exLayer ⟨0, 0, 1, 1⟩ 0 (.gray 1)) ∧
    groupModel (exLayer ⟨0, 0, 1, 1⟩ 0 (.gray 1) :: [exLayer ⟨0, 0, 9, 9⟩ 0 (.gray 2)]) = groupModel [exLayer ⟨0, 0, 9, 9⟩ 0 (.gray 2)] :=
  ⟨by simp [shows, exLayer, inRect], rfl⟩

/-- **C25**: with no layer showing at the point the pixel is fully transparent. -/
theorem C25_nothing_shows (ρ : Nat → UInt16) (g : List Layer) (p : Pt) (n : Nat)
    (hg : ∀ l ∈ g, ¬ shows p l) : Img.at ρ (.group g) p n = some (.alpha 0, n) := by
  rw [at_group]
  generalize groupModel g = cm
  induction g with
  | nil => exact layersAt_nil ..
  | cons a g ih =>
    have := layersAt_append ρ cm [] g p n a (hg a (List.mem_cons_self ..))
    simp only [List.nil_append] at this
    rw [this]
    exact ih (fun l hl => hg l (List.mem_cons_of_mem _ hl))

example : ∀ l ∈ [exLayer ⟨0, 0, 1, 1⟩ 0 (.gray 1), { exLayer ⟨0, 0, 9, 9⟩ 0 (.gray 1) with invisible := true }], ¬ shows ⟨5, 5⟩ l := by
  simp [shows, exLayer, inRect]

/-- **C25** at any depth: replacing a layer's image by one with the same pixels and colour model
changes nothing in the image containing it. -/
theorem C25_nested (ρ : Nat → UInt16) (g h : List Layer) (l : Layer) (i : Img)
    (hat : ∀ p n, i.at ρ p n = l.image.at ρ p n) (hm : i.colorModel = l.image.colorModel)
    (p : Pt) (n : Nat) :
    Img.at ρ (.group (g ++ { l with image := i } :: h)) p n = Img.at ρ (.group (g ++ l :: h)) p n := by
  have key : ∀ cm, layersAt ρ cm (g ++ { l with image := i } :: h) p n = layersAt ρ cm (g ++ l :: h) p n := by
    intro cm
    induction g with
    | nil =>
      simp only [List.nil_append]
      rw [layersAt_cons, layersAt_cons]
      congr 1
      funext ⟨c, n⟩
      simp only [drawLayer, layerAt, hat]
    | cons a g ih => rw [List.cons_append, List.cons_append, layersAt_cons, layersAt_cons, ih]
  rw [at_group, at_group, key]
  congr 1
  cases g with
  | nil => simp only [List.nil_append]; rw [groupModel_cons, groupModel_cons]; exact hm
  | cons a g => rw [List.cons_append, List.cons_append, groupModel_cons, groupModel_cons]

example : ¬ shows ⟨5, 5⟩ (exLayer ⟨0, 0, 1, 1⟩ 0 (.gray 1)) := by
  simp [shows, exLayer, inRect]

example : ∀ p n, Img.at (fun _ => 0) (.text (exLeaf ⟨0, 0, 1, 1⟩ (.gray 1)) []) p n =
    (exLeaf ⟨0, 0, 1, 1⟩ (.gray 1)).at (fun _ => 0) p n := by
  intro p n; rw [Img.at]

/-! ## C26 -/

theorem drawLayer_shows {ρ : Nat → UInt16} {cm : Option ColorModel} {l : Layer} {p : Pt} (c : Color)
    (n : Nat) (h : shows p l) : drawLayer ρ cm l p c n =
      cm.bind fun cm => (layerAt ρ l p n).bind fun (t, n) =>
    if l.mode ≠ Mode.dissolve && cm.isPalette then
      if t.toNRGBA.a > 0x7fff then some (.nrgba64 { t.toNRGBA with a := 0xffff }, n) else some (c, n)
    else if l.mode = Mode.dissolve then (composite (ρ n) l.mode c t).map fun c => (c, n + 1)
    else (composite 0 l.mode c t).map fun c => (c, n) := by
  unfold drawLayer
  rw [if_neg (by rw [h.1]; decide), if_neg (by rw [not_not, mem_iff]; exact h.2)]

/-- **C26**: when the layers above do not show at the point and a layer in Normal mode shows there
with an opaque pixel, the image's pixel is exactly that pixel, whatever is beneath.  (`n'` is the
state of the random source after drawing what is beneath.) -/
theorem C26_top_opaque (ρ : Nat → UInt16) (g h : List Layer) (l : Layer) (p : Pt) (n : Nat)
    (hg : ∀ a ∈ g, ¬ shows p a) (hl : shows p l) (hm : l.mode = Mode.normal) (c : Color) (n₂ : Nat)
    (hat : Img.at ρ (.group (g ++ l :: h)) p n = some (c, n₂)) :
    ∃ n₁ t, layerAt ρ l p n₁ = some (t, n₂) ∧ (t.toNRGBA.a = 0xffff → c = .nrgba64 t.toNRGBA) := by
  rw [at_group] at hat
  generalize groupModel (g ++ l :: h) = cm at hat
  have hdrop : layersAt ρ cm (g ++ l :: h) p n = layersAt ρ cm (l :: h) p n := by
    clear hat
    induction g with
    | nil => rfl
    | cons a g ih =>
      have := layersAt_append ρ cm [] (g ++ l :: h) p n a (hg a (List.mem_cons_self ..))
      simp only [List.nil_append] at this
      rw [List.cons_append, this]
      exact ih (fun b hb => hg b (List.mem_cons_of_mem _ hb))
  rw [hdrop, layersAt_cons] at hat
  obtain ⟨⟨c0, n₁⟩, -, hat⟩ := Option.bind_eq_some_iff.1 hat
  dsimp only at hat
  rw [drawLayer_shows c0 n₁ hl] at hat
  obtain ⟨cm', -, hat⟩ := Option.bind_eq_some_iff.1 hat
  obtain ⟨⟨t, n'⟩, hlay, hat⟩ := Option.bind_eq_some_iff.1 hat
  dsimp only at hat
  have hne : ¬ l.mode = Mode.dissolve := by rw [hm]; decide
  refine ⟨n₁, t, ?_⟩
  by_cases hp : cm'.isPalette = true
  · rw [if_pos (by simp [hne, hp])] at hat
    by_cases ha : t.toNRGBA.a > 0x7fff
    · rw [if_pos ha] at hat
      injection hat with hat
      injection hat with h1 h2
      rw [← h2]
      refine ⟨hlay, ?_⟩
      intro hop
      rw [← h1, ← hop]
    · rw [if_neg ha] at hat
      injection hat with hat
      injection hat with h1 h2
      rw [← h2]
      refine ⟨hlay, ?_⟩
      intro hop
      rw [hop] at ha
      exact absurd (by decide) ha
  · rw [if_neg (by simp [hp]), if_neg hne] at hat
    obtain ⟨x, hx, hat⟩ := Option.map_eq_some_iff.1 hat
    injection hat with h1 h2
    rw [← h2]
    refine ⟨hlay, ?_⟩
    intro hop
    rw [hm, C01_opaque_top 0 c0 t hop] at hx
    injection hx with hx
    rw [← h1, ← hx]

/-- an opaque layer below one that is elsewhere and above another -/
example : ∃ n₁ t, layerAt (fun _ => 0) (exLayer ⟨0, 0, 1, 1⟩ Mode.normal (.lrgb 9 8 7)) ⟨0, 0⟩ n₁ = some (t, 0) ∧
    (t.toNRGBA.a = 0xffff → ∀ c, Img.at (fun _ => 0) (.group ([exLayer ⟨3, 3, 4, 4⟩ 0 (.gray 1)] ++
      exLayer ⟨0, 0, 1, 1⟩ Mode.normal (.lrgb 9 8 7) :: [exLayer ⟨0, 0, 1, 1⟩ 0 (.gray 77)])) ⟨0, 0⟩ 0 = some (c, 0) → c = .nrgba64 t.toNRGBA) := by
  refine ⟨0, .lrgb 9 8 7, ?_, fun h c hc => ?_⟩
  · simp only [layerAt, exLayer, exLeaf]
    rw [Img.at]
    simp [transparency]
  · obtain ⟨n, t, ht, hc'⟩ := C26_top_opaque (fun _ => 0) [exLayer ⟨3, 3, 4, 4⟩ 0 (.gray 1)] [exLayer ⟨0, 0, 1, 1⟩ 0 (.gray 77)] _ ⟨0, 0⟩ 0
      (by simp [shows, exLayer, inRect]) (by simp [shows, exLayer, inRect]) rfl c 0 hc
    have : t = .lrgb 9 8 7 := by
      simp only [layerAt, exLayer, exLeaf] at ht
      rw [Img.at] at ht
      simp [transparency] at ht
      exact ht.1.symm
    subst this
    exact hc' h

/-- **C26**: in general the layers that show at the point are drawn one over the other, the first
on top (images without a palette, no Dissolve, pixels that need no random numbers). -/
theorem C26_painted_in_order (ρ : Nat → UInt16) (g : List Layer) (p : Pt) (n : Nat)
    (cm : ColorModel) (hcm : groupModel g = some cm) (hpal : cm.isPalette = false)
    (pix : Layer → Color) (hpix : ∀ l ∈ g, shows p l → ∀ n, layerAt ρ l p n = some (pix l, n))
    (hmode : ∀ l ∈ g, l.mode ≠ Mode.dissolve) :
    (Img.at ρ (.group g) p n).map Prod.fst =
      (open Classical in paint ((g.filter fun l => decide (shows p l)).map fun l => (l.mode, pix l))) := by
  rw [at_group, hcm]
  suffices h : ∀ g : List Layer, (∀ l ∈ g, shows p l → ∀ n, layerAt ρ l p n = some (pix l, n)) →
      (∀ l ∈ g, l.mode ≠ Mode.dissolve) → layersAt ρ (some cm) g p n =
        ((open Classical in
          paint ((g.filter fun l => decide (shows p l)).map fun l => (l.mode, pix l)))).map (·, n) by
    rw [h g hpix hmode, Option.map_map]
    exact Option.map_id' ..
  clear hcm hpix hmode g
  intro g hpix hmode
  induction g with
  | nil => rw [layersAt_nil]; rfl
  | cons a g ih =>
    have ih := ih (fun l hl => hpix l (List.mem_cons_of_mem _ hl))
      (fun l hl => hmode l (List.mem_cons_of_mem _ hl))
    rw [layersAt_cons, ih]
    by_cases hs : shows p a
    · rw [List.filter_cons_of_pos (by simpa using hs), List.map_cons, paint]
      rw [Option.bind_map]
      cases paint ((g.filter fun l => open Classical in decide (shows p l)).map fun l => (l.mode, pix l)) with
      | none => rfl
      | some c =>
        simp only [Option.bind_some, Function.comp]
        rw [drawLayer_shows c n hs, Option.bind_some, hpix a (List.mem_cons_self ..) hs n]
        dsimp only [Option.bind_some]
        rw [if_neg (by simp [hpal]), if_neg (hmode a (List.mem_cons_self ..))]
    · rw [List.filter_cons_of_neg (by simpa using hs)]
      rw [Option.bind_map]
      simp only [Function.comp_def, drawLayer_hidden _ _ hs]
      cases paint ((g.filter fun l => open Classical in decide (shows p l)).map fun l => (l.mode, pix l)) <;> rfl

example : shows ⟨0, 0⟩ (exLayer ⟨0, 0, 1, 1⟩ Mode.normal (.lrgb 9 8 7)) ∧
    layerAt (fun _ => 0) (exLayer ⟨0, 0, 1, 1⟩ Mode.normal (.lrgb 9 8 7)) ⟨0, 0⟩ 3 =
      some (.lrgb 9 8 7, 3) ∧ (Color.lrgb 9 8 7).toNRGBA.a = 0xffff := by
  refine ⟨by simp [shows, exLayer, inRect], ?_, by decide⟩
  simp only [layerAt, exLayer, exLeaf]
  rw [Img.at]
  simp [transparency]

/-! ## C27 -/

/-- **C27**: a layer's pixel is its image's pixel at the point minus the layer's corner, with the
same colour channels (unless fully transparent) and alpha scaled by the layer's opacity. -/
theorem C27_layer_pixel (ρ : Nat → UInt16) (l : Layer) (p : Pt) (n : Nat) (c : Color) (n' : Nat) :
    l.image.at ρ ⟨p.x - l.bounds.x0, p.y - l.bounds.y0⟩ n = some (c, n') →
    ∃ t, layerAt ρ l p n = some (t, n') ∧
      t.toNRGBA.a.toNat = opacity l * c.toNRGBA.a.toNat / 255 ∧
      (opacity l ≠ 0 → t.toNRGBA.r = c.toNRGBA.r ∧ t.toNRGBA.g = c.toNRGBA.g ∧ t.toNRGBA.b = c.toNRGBA.b) ∧
      (opacity l = 255 → t = c) := by
  intro h
  have ho : (255 - l.transparency).toNat = opacity l := by
    have := u8_le l.transparency
    rw [UInt8.toNat_sub_of_le _ _ (by rw [UInt8.le_iff_toNat_le]; exact this)]
    rfl
  refine ⟨transparency c (255 - l.transparency), ?_, ?_, ?_, ?_⟩
  · simp only [layerAt, h]; rfl
  · rw [transparency_alpha, ho]
  · intro h0
    obtain ⟨h1, h2, h3⟩ := C20_opacity c (255 - l.transparency)
    by_cases h255 : 255 - l.transparency = 255
    · rw [h1 h255]; exact ⟨rfl, rfl, rfl⟩
    · obtain ⟨m, e, er, eg, eb, -⟩ := h3 (by intro e; apply h0; rw [← ho, e]; rfl) h255
      rw [e]
      exact ⟨er, eg, eb⟩
  · intro h255
    refine (C20_opacity c (255 - l.transparency)).1 ?_
    apply UInt8.toNat_inj.1
    rw [ho, h255]; rfl

/-- a layer at (2, 3) that is three quarters transparent -/
example : ∃ t, layerAt (fun _ => 0) { exLayer ⟨2, 3, 9, 9⟩ Mode.normal (.gray 1) with transparency := 191 } ⟨4, 4⟩ 0 = some (t, 0) ∧
    t.toNRGBA.a.toNat = 64 * 65535 / 255 := by
  obtain ⟨t, ht, ha, -⟩ := C27_layer_pixel (fun _ => 0) { exLayer ⟨2, 3, 9, 9⟩ Mode.normal (.gray 1) with transparency := 191 } ⟨4, 4⟩ 0 (.gray 1) 0
    (by simp only [exLayer, exLeaf]; rw [Img.at]; rfl)
  exact ⟨t, ht, ha⟩

/-- **C27**: the pixel does not exist (the code panics) only if the image's does not. -/
theorem C27_total (ρ : Nat → UInt16) (l : Layer) (p : Pt) (n : Nat) :
    layerAt ρ l p n = none ↔ l.image.at ρ ⟨p.x - l.bounds.x0, p.y - l.bounds.y0⟩ n = none := by
  simp only [layerAt]
  cases l.image.at ρ ⟨p.x - l.bounds.x0, p.y - l.bounds.y0⟩ n <;> simp

/-- a layer whose image panics panics too -/
example : layerAt (fun _ => 0) { exLayer ⟨2, 3, 9, 9⟩ Mode.normal (.gray 1) with image := .leaf ⟨⟨0, 0, 1, 1⟩, .other, fun _ => none⟩ } ⟨4, 4⟩ 0 = none := by
  rw [C27_total, Img.at]; rfl

/-- **C27**: moving a layer moves its pixels with it, whatever it contains. -/
theorem C27_move (ρ : Nat → UInt16) (l : Layer) (d p : Pt) (n : Nat) :
    layerAt ρ (move l d) ⟨p.x + d.x, p.y + d.y⟩ n = layerAt ρ l p n ∧
    (shows ⟨p.x + d.x, p.y + d.y⟩ (move l d) ↔ shows p l) := by
  constructor
  · simp only [layerAt, move]
    rw [show p.x + d.x - (l.bounds.x0 + d.x) = p.x - l.bounds.x0 by omega,
      show p.y + d.y - (l.bounds.y0 + d.y) = p.y - l.bounds.y0 by omega]
  · simp only [shows, move, inRect]
    constructor
    · rintro ⟨h1, h2, h3, h4, h5⟩; exact ⟨h1, by omega, by omega, by omega, by omega⟩
    · rintro ⟨h1, h2, h3, h4, h5⟩; exact ⟨h1, by omega, by omega, by omega, by omega⟩

example : shows ⟨4 + 10, 4 + -3⟩ (move (exLayer ⟨2, 3, 9, 9⟩ Mode.normal (.gray 1)) ⟨10, -3⟩) := by
  rw [(C27_move (fun _ => 0) (exLayer ⟨2, 3, 9, 9⟩ Mode.normal (.gray 1)) ⟨10, -3⟩ ⟨4, 4⟩ 0).2]
  simp [shows, exLayer, inRect]

/-- **C27**, whole images: moving every layer of an image moves the image. -/
theorem C27_move_image (ρ : Nat → UInt16) (g : List Layer) (d p : Pt) (n : Nat) :
    Img.at ρ (.group (g.map (move · d))) ⟨p.x + d.x, p.y + d.y⟩ n = Img.at ρ (.group g) p n := by
  have hm : groupModel (g.map (move · d)) = groupModel g := by
    cases g with
    | nil => rfl
    | cons a g => rw [List.map_cons, groupModel_cons, groupModel_cons]; rfl
  rw [at_group, at_group, hm]
  generalize groupModel g = cm
  clear hm
  induction g with
  | nil => rw [List.map_nil, layersAt_nil, layersAt_nil]
  | cons a g ih =>
    rw [List.map_cons, layersAt_cons, layersAt_cons, ih]
    congr 1
    funext ⟨c, m⟩
    dsimp only
    obtain ⟨h1, h2⟩ := C27_move ρ a d p m
    by_cases hs : shows p a
    · rw [drawLayer_shows c m hs, drawLayer_shows c m (h2.2 hs), h1]; rfl
    · rw [drawLayer_hidden c m hs, drawLayer_hidden c m (fun h => hs (h2.1 h))]

example : (exLayer ⟨2, 3, 9, 9⟩ Mode.normal (.gray 1)).image.at (fun _ => 0) ⟨4 - 2, 4 - 3⟩ 0 =
    some (.gray 1, 0) := by
  simp only [exLayer, exLeaf]; rw [Img.at]; rfl

/-! ## C28 -/

/-- The full statement of C28: wherever the original shows something inside `r`, the sub-image
shows the same. -/
def SubImageSame : Prop :=
  ∀ (ρ : Nat → UInt16) (g : List Layer) (r : Rect) (p : Pt) (n : Nat), inRect r p →
    inRect (groupBounds g) p →
    Img.at ρ (.group (groupSubImage r g)) p n = Img.at ρ (.group g) p n

/-- **C28** is false of the code: `SubImageLayer` moves the layer's corner without moving its
pixels.  A layer (0,0)-(2,1), red at x=0 and blue at x=1, seen through (1,0)-(2,1), shows red. -/
theorem C28_subimage_refuted : ¬ SubImageSame := by
  intro h
  let im : Img := .leaf ⟨⟨0, 0, 2, 1⟩, .other,
    fun p => if p.x = 0 then some (.lrgb 255 0 0) else some (.lrgb 0 0 255)⟩
  have := h (fun _ => 0) [⟨[], ⟨0, 0, 2, 1⟩, Mode.normal, false, 0, im⟩] ⟨1, 0, 2, 1⟩ ⟨1, 0⟩ 0
    (by simp [inRect]) (by simp [groupBounds, Rect.union, Rect.empty, Rect.zero, inRect])
  revert this
  simp only [groupSubImage, List.map_cons, List.map_nil, subImageLayer, im]
  simp only [at_group, layersAt_cons, layersAt_nil, groupModel_cons, Option.bind_some]
  simp only [drawLayer, layerAt, Img.at, Img.colorModel]
  decide

/-- **C28**, what the code does: at a point of `r` inside the layer, the sub-layer shows the pixel
that the original has at the point shifted by the clipped-off amount. -/
theorem C28_shift (ρ : Nat → UInt16) (l : Layer) (r : Rect) (p : Pt) (n : Nat)
    (hr : inRect r p) (hl : inRect l.bounds p) :
    inRect (subImageLayer r l).bounds p ∧
    layerAt ρ (subImageLayer r l) p n =
      layerAt ρ l ⟨p.x - max 0 (r.x0 - l.bounds.x0), p.y - max 0 (r.y0 - l.bounds.y0)⟩ n := by
  have hin : inRect (r.inter l.bounds) p := (inRect_inter ..).2 ⟨hr, hl⟩
  refine ⟨hin, ?_⟩
  have hmin : (r.inter l.bounds).x0 = max r.x0 l.bounds.x0 ∧ (r.inter l.bounds).y0 = max r.y0 l.bounds.y0 := by
    unfold Rect.inter at hin ⊢
    dsimp only at hin ⊢
    split at hin
    · exact absurd hin (not_inRect_of_empty (by decide) p)
    · rename_i h; rw [if_neg h]; exact ⟨rfl, rfl⟩
  simp only [layerAt, subImageLayer, hmin.1, hmin.2]
  rw [show p.x - max r.x0 l.bounds.x0 = p.x - max 0 (r.x0 - l.bounds.x0) - l.bounds.x0 by omega,
    show p.y - max r.y0 l.bounds.y0 = p.y - max 0 (r.y0 - l.bounds.y0) - l.bounds.y0 by omega]

example : inRect ⟨3, 3, 6, 6⟩ ⟨4, 4⟩ ∧ inRect (exLayer ⟨2, 3, 9, 9⟩ Mode.normal (.gray 1)).bounds ⟨4, 4⟩ := by simp [exLayer, inRect]

/-- **C28**, the part that holds: an image's sub-image shows the same pixels at every point of `r`
when `r` does not cut off the left or top of any layer that shows there. -/
theorem C28_subimage_partial (ρ : Nat → UInt16) (g : List Layer) (r : Rect) (p : Pt) (n : Nat)
    (hr : inRect r p)
    (hcut : ∀ l ∈ g, shows p l → r.x0 ≤ l.bounds.x0 ∧ r.y0 ≤ l.bounds.y0) :
    Img.at ρ (.group (groupSubImage r g)) p n = Img.at ρ (.group g) p n := by
  have hm : groupModel (groupSubImage r g) = groupModel g := by
    cases g with
    | nil => rfl
    | cons a g =>
      simp only [groupSubImage, List.map_cons]
      rw [groupModel_cons, groupModel_cons]; rfl
  rw [at_group, at_group, hm]
  generalize groupModel g = cm
  clear hm
  unfold groupSubImage
  induction g with
  | nil => rfl
  | cons a g ih =>
    rw [List.map_cons, layersAt_cons, layersAt_cons, ih (fun l hl => hcut l (List.mem_cons_of_mem _ hl))]
    congr 1
    funext ⟨c, m⟩
    dsimp only
    by_cases hs : shows p a
    · obtain ⟨h1, h2⟩ := C28_shift ρ a r p m hr hs.2
      obtain ⟨k1, k2⟩ := hcut a (List.mem_cons_self ..) hs
      rw [drawLayer_shows c m hs, drawLayer_shows c m (show shows p (subImageLayer r a) from ⟨hs.1, h1⟩), h2]
      rw [show p.x - max 0 (r.x0 - a.bounds.x0) = p.x by omega,
        show p.y - max 0 (r.y0 - a.bounds.y0) = p.y by omega]
      rfl
    · rw [drawLayer_hidden c m hs, drawLayer_hidden c m]
      rintro ⟨h1, h2⟩
      exact hs ⟨h1, ((inRect_inter r a.bounds p).1 h2).2⟩

/-- a layer cut off at the right and at the bottom only -/
example : inRect ⟨0, 0, 3, 3⟩ ⟨2, 2⟩ ∧ ∀ l ∈ ([⟨[], ⟨1, 1, 8, 8⟩, Mode.normal, false, 0, .nil⟩] : List Layer), shows ⟨2, 2⟩ l →
    (⟨0, 0, 3, 3⟩ : Rect).x0 ≤ l.bounds.x0 ∧ (⟨0, 0, 3, 3⟩ : Rect).y0 ≤ l.bounds.y0 := by
  refine ⟨by simp only [inRect]; omega, ?_⟩
  intro l hl _
  simp only [List.mem_cons, List.not_mem_nil, or_false] at hl
  subst hl
  decide

/-- **C28**: bounds of a sub-image lie in `r` and in the original. -/
theorem C28_bounds (g : List Layer) (r : Rect) :
    inside (groupBounds (groupSubImage r g)) r ∧
    inside (groupBounds (groupSubImage r g)) (groupBounds g) := by
  have h : ∀ s, (∀ l ∈ g, inside (r.inter l.bounds) s) → inside (groupBounds (groupSubImage r g)) s := by
    intro s hs
    obtain ⟨b, hb, hw⟩ := C24_smallest (groupSubImage r g) s (by
      intro l hl
      obtain ⟨l', hl', rfl⟩ := List.mem_map.1 hl
      exact hs l' hl')
    rw [Img.bounds] at hb; injection hb with hb; rw [hb]; exact hw
  constructor
  · exact h _ fun l _ p hp => ((inRect_inter ..).1 hp).1
  · apply h
    intro l hl p hp
    obtain ⟨b, hb, hw⟩ := C24_contains g l hl
    rw [Img.bounds] at hb; injection hb with hb; rw [hb]
    exact hw p ((inRect_inter ..).1 hp).2

example : inRect ⟨0, 0, 3, 3⟩ ⟨1, 1⟩ ∧ ∀ l ∈ [exLayer ⟨1, 0, 9, 9⟩ 0 (.gray 1)], shows ⟨1, 1⟩ l →
    (0 : Int) ≤ l.bounds.x0 ∧ (0 : Int) ≤ l.bounds.y0 := by
  refine ⟨by simp [inRect], ?_⟩
  intro l hl _
  rw [List.mem_singleton] at hl
  subst hl
  decide

end Limage
