import Verif.Props.Draws
import Verif.Props.Lighten
/-! # How often Dissolve layers are seen (C160) -/
namespace Limage

/-! ## Specification -/

namespace Spec

/-- for how many of the 65535 values that `rand.Int31n(0xffff)` returns equally often `P` holds -/
def outcomes (P : UInt16 → Bool) : Nat := (List.range 65535).countP fun k => P (UInt16.ofNat k)

/-- the colour with full alpha -/
def solid (c : Color) : Color := .nrgba64 { c.toNRGBA with a := 0xffff }

/-- C160 as stated: the layer shows as often as its alpha says. -/
def DissolveByAlpha : Prop := ∀ b t : Color,
  outcomes (fun k => composite k Mode.dissolve b t = some (solid t)) = t.toNRGBA.a.toNat

end Spec
open Spec

theorem countP_below (a : Nat) : ∀ n, (List.range n).countP (fun k => decide (k < a)) = min n a := by
  intro n
  induction n with
  | zero => simp
  | succ n ih =>
    rw [List.range_succ, List.countP_append, ih, List.countP_singleton]
    by_cases h : n < a
    · simp only [h, decide_true, if_true]; omega
    · simp only [h, decide_false]
      rw [if_neg (by decide)]
      omega

theorem outcomes_below {P : UInt16 → Bool} {a : UInt16} (h : ∀ k : UInt16, k < 0xffff → (P k = true ↔ k < a)) :
    outcomes P = a.toNat := by
  unfold outcomes
  rw [List.countP_congr (p := fun k => P (UInt16.ofNat k)) (q := fun k => decide (k < a.toNat)), countP_below]
  · have := a.toNat_lt
    omega
  · intro k hk
    have hk := List.mem_range.1 hk
    have e : (UInt16.ofNat k).toNat = k := by
      rw [UInt16.toNat_ofNat']
      omega
    rw [h _ (by rw [UInt16.lt_iff_toNat_lt, e]; exact hk), UInt16.lt_iff_toNat_lt, e, decide_eq_true_iff]

theorem dissolve_iff {k : UInt16} (hk : k < 0xffff) (b t : Color) :
    composite k Mode.dissolve b t = some (solid t) ↔ k < b.toNRGBA.a := by
  have e : composite k Mode.dissolve b t = some (Color.nrgba64 (compositeDissolve k b.toNRGBA t.toNRGBA)) := rfl
  rw [e]
  unfold compositeDissolve solid
  constructor
  · intro h
    by_cases hb : k < b.toNRGBA.a
    · exact hb
    · rw [if_neg hb] at h
      injection h with h
      injection h with h
      rw [h]
      exact hk
  · intro h
    rw [if_pos h]

/-- **C160** (what the code does).  Of the values of the random source exactly as many show the layer as the alpha of what is *below* it
says; its own alpha makes no difference. -/
theorem C160_odds_partial (b t : Color) :
    outcomes (fun k => composite k Mode.dissolve b t = some (solid t)) = b.toNRGBA.a.toNat ∧
    ∀ draw t', t'.toNRGBA.r = t.toNRGBA.r → t'.toNRGBA.g = t.toNRGBA.g → t'.toNRGBA.b = t.toNRGBA.b →
      composite draw Mode.dissolve b t' = composite draw Mode.dissolve b t := by
  refine ⟨outcomes_below fun k hk => ?_, fun draw t' h1 h2 h3 => ?_⟩
  · rw [decide_eq_true_iff]
    exact dissolve_iff hk b t
  · show some (Color.nrgba64 (compositeDissolve draw b.toNRGBA t'.toNRGBA)) =
      some (Color.nrgba64 (compositeDissolve draw b.toNRGBA t.toNRGBA))
    unfold compositeDissolve
    split
    · rw [h1, h2, h3]
    · rfl

-- a faint layer over an opaque one is always seen, an opaque one over a faint one rarely
example : outcomes (fun k => composite k Mode.dissolve (.nrgba64 ⟨9, 9, 9, 0xffff⟩) (.nrgba64 ⟨1, 2, 3, 1⟩) = some (.nrgba64 ⟨1, 2, 3, 0xffff⟩)) = 65535 ∧
    outcomes (fun k => composite k Mode.dissolve (.nrgba64 ⟨9, 9, 9, 100⟩) (.nrgba64 ⟨1, 2, 3, 0xffff⟩) = some (.nrgba64 ⟨1, 2, 3, 0xffff⟩)) = 100 :=
  ⟨(C160_odds_partial (.nrgba64 ⟨9, 9, 9, 0xffff⟩) (.nrgba64 ⟨1, 2, 3, 1⟩)).1, (C160_odds_partial (.nrgba64 ⟨9, 9, 9, 100⟩) (.nrgba64 ⟨1, 2, 3, 0xffff⟩)).1⟩

/-- C160 as stated does not hold: composite.go:194 compares the random number with the alpha of the bottom. -/
theorem C160_refuted : ¬ DissolveByAlpha := by
  intro h
  have h1 := h (.nrgba64 ⟨9, 9, 9, 0xffff⟩) (.nrgba64 ⟨1, 2, 3, 1⟩)
  rw [(C160_odds_partial _ _).1] at h1
  exact absurd h1 (by decide)

/-- **C160** for pictures (what the code does).  If a Dissolve layer is put on layers that show nothing at random at a point, then the picture
shows the layer, opaque, for as many values of the random source as the alpha says that was there before. -/
theorem C160_picture_partial (L : Layer) (lower : List Layer) (p : Pt) (hm : L.mode = Mode.dissolve) (hs : shows p L)
    (indexed : Bool) (hcm : (groupModel (L :: lower)).map ColorModel.isPalette = some indexed)
    (hlow : (groupModel lower).map ColorModel.isPalette = some indexed)
    (hL : Img.dissolves L.image ⟨p.x - L.bounds.x0, p.y - L.bounds.y0⟩ = 0) (hl : dissolvesAll lower p = 0)
    (t : Color) (ht : layerAt (fun _ => 0) L p 0 = some (t, 0))
    (c : Color) (hc : Img.at (fun _ => 0) (.group lower) p 0 = some (c, 0)) :
    outcomes (fun k => Img.at (fun _ => k) (.group (L :: lower)) p 0 = some (solid t, 1)) = c.toNRGBA.a.toNat := by
  refine outcomes_below fun k hk => ?_
  rw [decide_eq_true_iff]
  have hc' : Img.at (fun _ => k) (.group lower) p 0 = some (c, 0) := by
    have := at_draws (fun _ => 0) (fun _ => k) (.group lower) p 0 0 (by rw [Img.dissolves, hl]; intro k hk; omega)
    rw [hc] at this
    cases hx : Img.at (fun _ => k) (.group lower) p 0 with
    | none => rw [hx] at this; exact this.elim
    | some x =>
      rw [hx] at this
      obtain ⟨h1, h2, h3⟩ := this
      rw [Img.dissolves, hl] at h3
      exact congrArg some (Prod.ext h1 h3)
  have ht' : layerAt (fun _ => k) L p 0 = some (t, 0) := by
    unfold layerAt at ht ⊢
    have := at_draws (fun _ => 0) (fun _ => k) L.image ⟨p.x - L.bounds.x0, p.y - L.bounds.y0⟩ 0 0 (by rw [hL]; intro k hk; omega)
    cases hy : L.image.at (fun _ => 0) ⟨p.x - L.bounds.x0, p.y - L.bounds.y0⟩ 0 with
    | none => rw [hy] at ht; cases ht
    | some y =>
      rw [hy] at ht this
      cases hx : L.image.at (fun _ => k) ⟨p.x - L.bounds.x0, p.y - L.bounds.y0⟩ 0 with
      | none => rw [hx] at this; exact this.elim
      | some x =>
        rw [hx] at this
        obtain ⟨h1, h2, h3⟩ := this
        obtain ⟨x1, x2⟩ := x
        obtain ⟨y1, y2⟩ := y
        rw [hL] at h2 h3
        dsimp only at h1 h2 h3
        subst h1 h2 h3
        exact ht
  obtain ⟨cm, hcm', -⟩ := Option.map_eq_some_iff.1 hcm
  rw [at_group] at hc' ⊢
  rw [layersAt_cons, layersAt_flag lower (hcm.trans hlow.symm), hc', Option.bind_some]
  dsimp only
  unfold drawLayer
  rw [if_neg (by rw [hs.1]; decide), if_neg (by rw [(mem_iff ..).2 hs.2]; decide), hcm', Option.bind_some, ht', Option.bind_some]
  dsimp only
  rw [hm]
  rw [if_neg (by simp), if_pos rfl]
  rw [← dissolve_iff hk c t]
  cases composite k Mode.dissolve c t with
  | none => simp
  | some x => simp

-- a Dissolve layer of opacity 155 on a layer of alpha 128: for 32896 of the 65535 values
example : outcomes (fun k => Img.at (fun _ => k) (.group
      [⟨[], ⟨0, 0, 2, 2⟩, Mode.dissolve, false, 100, .leaf ⟨⟨0, 0, 2, 2⟩, .other, fun _ => some (.nrgba 9 8 7 255)⟩⟩,
       ⟨[], ⟨0, 0, 4, 4⟩, Mode.normal, false, 0, .leaf ⟨⟨0, 0, 4, 4⟩, .other, fun _ => some (.nrgba 1 2 3 128)⟩⟩]) ⟨1, 1⟩ 0 =
    some (solid (.nrgba 9 8 7 255), 1)) = 32896 := by
  have := C160_picture_partial ⟨[], ⟨0, 0, 2, 2⟩, Mode.dissolve, false, 100, .leaf ⟨⟨0, 0, 2, 2⟩, .other, fun _ => some (.nrgba 9 8 7 255)⟩⟩
    [⟨[], ⟨0, 0, 4, 4⟩, Mode.normal, false, 0, .leaf ⟨⟨0, 0, 4, 4⟩, .other, fun _ => some (.nrgba 1 2 3 128)⟩⟩] ⟨1, 1⟩ rfl
    ⟨rfl, by unfold inRect; decide⟩ false (by decide) (by decide) (by decide) (by decide)
    (transparency (.nrgba 9 8 7 255) 155) (by decide) _ rfl
  exact this

end Limage
