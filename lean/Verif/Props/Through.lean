import Verif.Props.Ideal
/-! # Pass-through groups (C162) -/
namespace Limage
open Spec

/-! ## Specification -/

namespace Spec

/-- an opaque, visible group in mode Pass-through with the given place, holding the layers where they were -/
def through (name : GoString) (b : Rect) (g : List Layer) : Layer := { grouped name b g with mode := Mode.passThrough }

/-- C162 as stated: the layers in a pass-through group are drawn as if they were not in a group. -/
def PassesThrough : Prop := ∀ (ρ : Nat → UInt16) (upper inner lower : List Layer) (name : GoString) (b : Rect), (∀ l ∈ inner, inside l.bounds b) →
  (groupModel (upper ++ inner ++ lower)).map ColorModel.isPalette = some false → (groupModel inner).map ColorModel.isPalette = some false →
  (∀ l ∈ upper, l.mode ≠ Mode.color) → ∀ (p : Pt) (n : Nat),
  SameOutcome (Img.at ρ (.group (upper ++ inner ++ lower)) p n) (Img.at ρ (.group (upper ++ [through name b inner] ++ lower)) p n)

end Spec

/-! ## A pass-through group is a Normal group -/

theorem drawLayer_through (ρ : Nat → UInt16) (cm : Option ColorModel) (name : GoString) (b : Rect) (g : List Layer) (p : Pt) (c : Color) (n : Nat) :
    drawLayer ρ cm (through name b g) p c n = drawLayer ρ cm (grouped name b g) p c n := by
  by_cases hs : shows p (grouped name b g)
  · have hs' : shows p (through name b g) := hs
    rw [drawLayer_shows _ _ hs, drawLayer_shows _ _ hs']
    refine congrArg _ (funext fun cm => ?_)
    have : layerAt ρ (through name b g) p n = layerAt ρ (grouped name b g) p n := rfl
    rw [this]
    refine congrArg _ (funext fun x => ?_)
    obtain ⟨t, k⟩ := x
    dsimp only
    have h1 : (through name b g).mode = Mode.passThrough := rfl
    have h2 : (grouped name b g).mode = Mode.normal := rfl
    rw [h1, h2, if_neg (show ¬ Mode.passThrough = Mode.dissolve by decide), if_neg (show ¬ Mode.normal = Mode.dissolve by decide),
      C12_undefined_is_normal 0 Mode.passThrough (by decide) c t]
    rfl
  · have hs' : ¬ shows p (through name b g) := hs
    rw [drawLayer_hidden _ _ hs, drawLayer_hidden _ _ hs']

theorem layersAt_behind (ρ : Nat → UInt16) (cm : Option ColorModel) (p : Pt) (n : Nat) (lower : List Layer) (h : ∀ l ∈ lower, ¬ shows p l) :
    layersAt ρ cm lower p n = some (.alpha 0, n) := by
  induction lower with
  | nil => exact layersAt_nil ..
  | cons l g ih =>
    rw [layersAt_cons, ih fun l hl => h l (List.mem_cons_of_mem _ hl), Option.bind_some]
    exact drawLayer_hidden _ _ (h l List.mem_cons_self)

theorem layersAt_over (ρ : Nat → UInt16) (cm : Option ColorModel) (p : Pt) (n : Nat) (g lower : List Layer) (h : ∀ l ∈ lower, ¬ shows p l) :
    layersAt ρ cm (g ++ lower) p n = layersAt ρ cm g p n := by
  induction g with
  | nil => rw [List.nil_append, layersAt_behind ρ cm p n lower h, layersAt_nil]
  | cons l g ih => rw [List.cons_append, layersAt_cons, layersAt_cons, ih]

theorem through_model (name : GoString) (b : Rect) (g : List Layer) : groupModel [through name b g] = groupModel g := by
  rw [groupModel_cons]
  show groupModel (g.map (move · ⟨-b.x0, -b.y0⟩)) = _
  exact groupModel_move g _

theorem groupModel_through (upper inner lower : List Layer) (name : GoString) (b : Rect) (hne : inner ≠ []) :
    groupModel (upper ++ [through name b inner] ++ lower) = groupModel (upper ++ inner ++ lower) := by
  rw [List.append_assoc, List.append_assoc]
  refine groupModel_append upper ?_
  obtain ⟨l, g, rfl⟩ := List.exists_cons_of_ne_nil hne
  have := through_model name b (l :: g)
  rw [groupModel_cons] at this
  rw [List.singleton_append, groupModel_cons, this, List.cons_append, groupModel_cons, groupModel_cons]

/-- **C162** (where nothing is below).  Where no layer below the group shows, its layers are drawn as if they were not in a group. -/
theorem C162_lowest_partial (ρ : Nat → UInt16) (upper inner lower : List Layer) (name : GoString) (b : Rect) (hne : inner ≠ [])
    (hin : ∀ l ∈ inner, inside l.bounds b) (cm ch : ColorModel)
    (hcm : groupModel (upper ++ inner ++ lower) = some cm) (hch : groupModel inner = some ch) (hp : cm.isPalette = ch.isPalette) (p : Pt) (n : Nat)
    (hmode : ∀ l ∈ upper, shows p l → l.mode ≠ Mode.color) (hlow : ∀ l ∈ lower, ¬ shows p l) :
    SameOutcome (Img.at ρ (.group (upper ++ inner ++ lower)) p n) (Img.at ρ (.group (upper ++ [through name b inner] ++ lower)) p n) := by
  rw [at_group, at_group, groupModel_through upper inner lower name b hne, hcm, layersAt_over _ _ _ _ _ _ hlow, layersAt_over _ _ _ _ _ _ hlow]
  refine layersAt_looks ρ (some cm) inner _ p n ?_ upper hmode
  have := grouped_alone ρ name b inner hin (cm := cm) hch hp p n
  rw [layersAt_cons] at this ⊢
  simp only [drawLayer_through]
  exact this

-- a pass-through group with a Multiply layer in it, beside another layer
example : let inner : List Layer := [pixelLayer (.gray 128) .other Mode.multiply]
    let lower : List Layer := [⟨[], ⟨5, 0, 6, 1⟩, Mode.normal, false, 0, .leaf ⟨⟨0, 0, 1, 1⟩, .other, fun _ => some (.gray 128)⟩⟩]
    SameOutcome (Img.at (fun _ => 0) (.group (inner ++ lower)) ⟨0, 0⟩ 0) (Img.at (fun _ => 0) (.group (through [] ⟨0, 0, 1, 1⟩ inner :: lower)) ⟨0, 0⟩ 0) := by
  refine C162_lowest_partial _ [] _ _ [] ⟨0, 0, 1, 1⟩ (by decide) ?_ .other .other rfl rfl rfl ⟨0, 0⟩ 0 (fun _ h => absurd h List.not_mem_nil) ?_
  · intro l hl
    rw [List.mem_singleton] at hl
    subst hl
    exact fun _ h => h
  · intro l hl
    rw [List.mem_singleton] at hl
    subst hl
    rintro ⟨-, h⟩
    simp only [inRect] at h
    omega

/-! ## Indexed pictures -/

/-- in an indexed picture each layer covers a pixel or does not -/
theorem layersAt_indexed (ρ : Nat → UInt16) {cm : ColorModel} (hpal : cm.isPalette = true) (p : Pt) (n : Nat) (lower : List Layer) :
    ∀ inner : List Layer, (∀ l ∈ inner, l.mode ≠ Mode.dissolve) → layersAt ρ (some cm) (inner ++ lower) p n =
      (layersAt ρ (some cm) lower p n).bind fun (c, k) => (layersAt ρ (some cm) inner p k).map fun (t, m) =>
        (if t.toNRGBA.a > 0x7fff then t else c, m)
  | [], _ => by
    rw [List.nil_append]
    cases layersAt ρ (some cm) lower p n with
    | none => rfl
    | some x =>
      obtain ⟨c, k⟩ := x
      rw [Option.bind_some]
      dsimp only
      rw [layersAt_nil]
      rfl
  | l :: inner, hd => by
    have hl : l.mode ≠ Mode.dissolve := hd l List.mem_cons_self
    rw [List.cons_append, layersAt_cons, layersAt_indexed ρ hpal p n lower inner fun l hl => hd l (List.mem_cons_of_mem _ hl)]
    cases layersAt ρ (some cm) lower p n with
    | none => rfl
    | some x =>
      obtain ⟨c, k⟩ := x
      rw [Option.bind_some, Option.bind_some]
      dsimp only
      rw [layersAt_cons]
      cases layersAt ρ (some cm) inner p k with
      | none => rfl
      | some y =>
        obtain ⟨t, m⟩ := y
        rw [Option.map_some, Option.bind_some, Option.bind_some]
        dsimp only
        by_cases hs : shows p l
        · rw [drawLayer_shows _ _ hs, drawLayer_shows _ _ hs, Option.bind_some, Option.bind_some]
          cases layerAt ρ l p m with
          | none => rfl
          | some z =>
            obtain ⟨u, j⟩ := z
            rw [Option.bind_some, Option.bind_some]
            dsimp only
            have hc : (decide (l.mode ≠ Mode.dissolve) && cm.isPalette) = true := by simp [hl, hpal]
            rw [if_pos hc, if_pos hc]
            by_cases hu : u.toNRGBA.a > 0x7fff
            · rw [if_pos hu, if_pos hu, Option.map_some]
              dsimp only
              rw [if_pos (by show (0xffff : UInt16) > 0x7fff; decide)]
            · rw [if_neg hu, if_neg hu, Option.map_some]
        · rw [drawLayer_hidden _ _ hs, drawLayer_hidden _ _ hs, Option.map_some]

/-- **C162** (indexed pictures).  In a picture with a palette the layers of a pass-through group are drawn as if they were not in a group, whatever is below, if
none of them is in mode Dissolve. -/
theorem C162_indexed_partial (ρ : Nat → UInt16) (upper inner lower : List Layer) (name : GoString) (b : Rect) (hne : inner ≠ [])
    (hin : ∀ l ∈ inner, inside l.bounds b) (hd : ∀ l ∈ inner, l.mode ≠ Mode.dissolve) (cm ch : ColorModel)
    (hcm : groupModel (upper ++ inner ++ lower) = some cm) (hch : groupModel inner = some ch) (hp : cm.isPalette = true) (hp' : ch.isPalette = true) (p : Pt)
    (n : Nat) (hmode : ∀ l ∈ upper, shows p l → l.mode ≠ Mode.color) :
    SameOutcome (Img.at ρ (.group (upper ++ inner ++ lower)) p n) (Img.at ρ (.group (upper ++ [through name b inner] ++ lower)) p n) := by
  rw [at_group, at_group, groupModel_through upper inner lower name b hne, hcm, List.append_assoc, List.append_assoc]
  refine layersAt_looks ρ (some cm) (inner ++ lower) _ p n ?_ upper hmode
  rw [layersAt_indexed ρ hp p n lower inner hd, List.singleton_append, layersAt_cons]
  cases layersAt ρ (some cm) lower p n with
  | none => trivial
  | some x =>
    obtain ⟨c, k⟩ := x
    rw [Option.bind_some, Option.bind_some]
    dsimp only
    rw [drawLayer_through]
    have alone := grouped_alone ρ name b inner hin (cm := cm) hch (hp.trans hp'.symm) p k
    have hg : drawLayer ρ (some cm) (grouped name b inner) p c k = (layersAt ρ (some cm) [grouped name b inner] p k).map fun (t, m) =>
        (if t.toNRGBA.a > 0x7fff then t else c, m) := by
      by_cases hs : shows p (grouped name b inner)
      · rw [layersAt_cons, layersAt_nil, Option.bind_some]
        dsimp only
        rw [drawLayer_shows _ _ hs, drawLayer_shows _ _ hs, Option.bind_some, Option.bind_some]
        cases layerAt ρ (grouped name b inner) p k with
        | none => rfl
        | some z =>
          obtain ⟨u, j⟩ := z
          rw [Option.bind_some, Option.bind_some]
          dsimp only
          have hc : (decide ((grouped name b inner).mode ≠ Mode.dissolve) && cm.isPalette) = true := by
            rw [hp]; rfl
          rw [if_pos hc, if_pos hc]
          by_cases hu : u.toNRGBA.a > 0x7fff
          · rw [if_pos hu, if_pos hu, Option.map_some]
            dsimp only
            rw [if_pos (by show (0xffff : UInt16) > 0x7fff; decide)]
          · rw [if_neg hu, if_neg hu, Option.map_some]
            rfl
      · rw [layersAt_cons, layersAt_nil, Option.bind_some]
        dsimp only
        rw [drawLayer_hidden _ _ hs, drawLayer_hidden _ _ hs, Option.map_some]
        rfl
    rw [hg]
    cases hx : layersAt ρ (some cm) inner p k with
    | none =>
      rw [hx] at alone
      cases hy : layersAt ρ (some cm) [grouped name b inner] p k with
      | none => trivial
      | some y => rw [hy] at alone; exact alone.elim
    | some x =>
      rw [hx] at alone
      obtain ⟨t, m⟩ := x
      cases hy : layersAt ρ (some cm) [grouped name b inner] p k with
      | none => rw [hy] at alone; exact alone.elim
      | some y =>
        rw [hy] at alone
        obtain ⟨t', m'⟩ := y
        obtain ⟨h1, h2⟩ := alone
        rw [Option.map_some, Option.map_some]
        dsimp only at h1 h2 ⊢
        refine ⟨h1, ?_⟩
        rcases h2 with h2 | ⟨h2, h3⟩
        · rw [h2]
          split
          · exact .inl h2
          · exact .inl rfl
        · rw [h2, h3]
          exact .inl rfl

-- an indexed picture: a pass-through group with a see-through Multiply layer in it, above a Normal layer
example : let pal : ColorModel := .palette [.gray 128]
    let inner : List Layer := [⟨[], ⟨0, 0, 1, 1⟩, Mode.multiply, false, 60, .leaf ⟨⟨0, 0, 1, 1⟩, pal, fun _ => some (.gray 128)⟩⟩]
    let lower : List Layer := [pixelLayer (.gray 200) pal Mode.normal]
    SameOutcome (Img.at (fun _ => 0) (.group (inner ++ lower)) ⟨0, 0⟩ 0) (Img.at (fun _ => 0) (.group (through [] ⟨0, 0, 1, 1⟩ inner :: lower)) ⟨0, 0⟩ 0) := by
  refine C162_indexed_partial _ [] _ _ [] ⟨0, 0, 1, 1⟩ (by simp) ?_ ?_ _ _ rfl rfl rfl rfl ⟨0, 0⟩ 0 (fun _ h => absurd h List.not_mem_nil)
  · intro l hl
    rw [List.mem_singleton] at hl
    subst hl
    exact fun _ h => h
  · intro l hl
    rw [List.mem_singleton] at hl
    subst hl
    show Mode.multiply ≠ Mode.dissolve
    decide

/-! ## Normal layers -/

theorem at_through (ρ : Nat → UInt16) (upper inner lower : List Layer) (name : GoString) (b : Rect) (p : Pt) (n : Nat) :
    Img.at ρ (.group (upper ++ (through name b inner :: lower))) p n = Img.at ρ (.group (upper ++ (grouped name b inner :: lower))) p n := by
  have hm : groupModel (upper ++ (through name b inner :: lower)) = groupModel (upper ++ (grouped name b inner :: lower)) :=
    groupModel_append upper (by rw [groupModel_cons, groupModel_cons]; rfl)
  rw [at_group, at_group, hm]
  generalize groupModel (upper ++ (grouped name b inner :: lower)) = cm
  clear hm
  induction upper with
  | nil =>
    rw [List.nil_append, List.nil_append, layersAt_cons, layersAt_cons]
    refine congrArg _ (funext fun x => ?_)
    exact drawLayer_through ..
  | cons l upper ih => rw [List.cons_append, List.cons_append, layersAt_cons, layersAt_cons, ih]

/-- **C162** (Normal layers).  In pictures of Normal layers a pass-through group changes no light by more than the rounding of both pictures. -/
theorem C162_normal_partial (ρ : Nat → UInt16) (upper inner lower : List Layer) (name : GoString) (b : Rect) (hin : ∀ l ∈ inner, inside l.bounds b)
    (h : Smooth (.group (upper ++ (inner ++ lower)))) (ch : ColorModel) (hch : groupModel inner = some ch) (hp : ch.isPalette = false)
    (hg : ∃ cm, groupModel (upper ++ (grouped name b inner :: lower)) = some cm ∧ cm.isPalette = false) (p : Pt) (n : Nat) :
    ∃ c c', Img.at ρ (.group (upper ++ (inner ++ lower))) p n = some (c, n) ∧
      Img.at ρ (.group (upper ++ (through name b inner :: lower))) p n = some (c', n) ∧
      NearLight (intensityError (partsOf (upper ++ (inner ++ lower))) (levelsOf (upper ++ (inner ++ lower))) +
          intensityError (partsOf (upper ++ (grouped name b inner :: lower))) (levelsOf (upper ++ (grouped name b inner :: lower))) + 2)
        (coverageError (partsOf (upper ++ (inner ++ lower))) + coverageError (partsOf (upper ++ (grouped name b inner :: lower))))
        (lightOf c.rgba32) (lightOf c'.rgba32) := by
  rw [at_through]
  exact (C108_grouped ρ upper inner lower name b hin h ch hch hp hg p n).2

-- the upper layer of `smoothPicture` put into a pass-through group
example : ∃ c c', Img.at (fun _ => 0) (.group smoothPicture) ⟨2, 1⟩ 0 = some (c, 0) ∧
    Img.at (fun _ => 0) (.group (through [] ⟨1, 1, 5, 5⟩ (smoothPicture.take 1) :: smoothPicture.drop 1)) ⟨2, 1⟩ 0 = some (c', 0) := by
  obtain ⟨c, c', h1, h2, -⟩ := C162_normal_partial (fun _ => 0) [] (smoothPicture.take 1) (smoothPicture.drop 1) [] ⟨1, 1, 5, 5⟩
    (by
      intro l hl
      rw [show smoothPicture.take 1 = [smoothPicture.head (by decide)] from rfl, List.mem_singleton] at hl
      subst hl
      exact fun _ h => h) smoothPicture_smooth .other rfl rfl ⟨.other, rfl, rfl⟩ ⟨2, 1⟩ 0
  exact ⟨c, c', h1, h2⟩

/-- C162 as stated does not hold: a pass-through group is drawn as a Normal one, so that a grey Multiply layer in it covers what is below. -/
theorem C162_refuted : ¬ PassesThrough := by
  intro h
  have h := h (fun _ => 0) [] [pixelLayer (.gray 128) .other Mode.multiply] [pixelLayer (.gray 128) .other Mode.normal] [] ⟨0, 0, 1, 1⟩
    (by
      intro l hl
      rw [List.mem_singleton] at hl
      subst hl
      exact fun _ h => h) rfl rfl (fun _ h => absurd h List.not_mem_nil) ⟨0, 0⟩ 0
  have := sameOutcome_red (r := 16512) (a := 65535) (r' := 32896) (a' := 65535) (by decide +kernel) (by decide +kernel) (by decide) h
  revert this
  decide

end Limage
