import Verif.Spec.Image
import Verif.Proofs.Raster
/-! Rewriting lemmas for layered images. -/
namespace Limage
open Spec

/-- the body of the loop of `Image.At` for one layer -/
def drawLayer (ρ : Nat → UInt16) (cm : Option ColorModel) (l : Layer) (p : Pt) (c : Color) (n : Nat) :
    Option (Color × Nat) :=
  if l.invisible then some (c, n)
  else if ¬ Rect.mem p l.bounds then some (c, n)
  else cm.bind fun cm => (layerAt ρ l p n).bind fun (t, n) =>
    if l.mode ≠ Mode.dissolve && cm.isPalette then
      if t.toNRGBA.a > 0x7fff then some (.nrgba64 { t.toNRGBA with a := 0xffff }, n) else some (c, n)
    else if l.mode = Mode.dissolve then (composite (ρ n) l.mode c t).map fun c => (c, n + 1)
    else (composite 0 l.mode c t).map fun c => (c, n)

theorem layersAt_nil (ρ : Nat → UInt16) (cm : Option ColorModel) (p : Pt) (n : Nat) :
    layersAt ρ cm [] p n = some (.alpha 0, n) := by rw [layersAt]

theorem layersAt_cons (ρ : Nat → UInt16) (cm : Option ColorModel) (l : Layer) (g : List Layer) (p : Pt)
    (n : Nat) :
    layersAt ρ cm (l :: g) p n = (layersAt ρ cm g p n).bind fun (c, n) => drawLayer ρ cm l p c n := by
  obtain ⟨nm, b, mode, inv, tr, im⟩ := l
  rw [layersAt]
  rw [Option.bind_eq_bind]
  refine congrArg _ (funext fun x => ?_)
  obtain ⟨c, n⟩ := x
  dsimp only
  unfold drawLayer layerAt
  dsimp only
  by_cases h1 : inv = true
  · rw [if_pos h1, if_pos h1]; rfl
  · rw [if_neg h1, if_neg h1]
    by_cases h2 : ¬ Rect.mem p b = true
    · rw [if_pos h2, if_pos h2]; rfl
    · rw [if_neg h2, if_neg h2]
      rw [Option.bind_eq_bind]
      refine congrArg _ (funext fun cm => ?_)
      rw [Option.bind_eq_bind, Option.bind_eq_bind, Option.bind_assoc]
      refine congrArg _ (funext fun x => ?_)
      obtain ⟨t, n⟩ := x
      dsimp only
      rw [show (pure (transparency t (255 - tr), n) : Option (Color × Nat)) =
        some (transparency t (255 - tr), n) from rfl, Option.bind_some]
      dsimp only
      split
      · rfl
      · split
        · rw [Option.map_eq_bind]; rfl
        · rw [Option.map_eq_bind]; rfl

theorem drawLayer_hidden {ρ : Nat → UInt16} {cm : Option ColorModel} {l : Layer} {p : Pt} (c : Color)
    (n : Nat) (h : ¬ shows p l) : drawLayer ρ cm l p c n = some (c, n) := by
  unfold drawLayer
  unfold shows at h
  by_cases h1 : l.invisible = true
  · rw [if_pos h1]
  · rw [if_neg h1]
    rw [if_pos]
    intro h2
    exact h ⟨by simpa using h1, (mem_iff ..).1 h2⟩

theorem at_group (ρ : Nat → UInt16) (g : List Layer) (p : Pt) (n : Nat) :
    Img.at ρ (.group g) p n = layersAt ρ (groupModel g) g p n := by rw [Img.at]

theorem groupModel_cons (l : Layer) (g : List Layer) : groupModel (l :: g) = l.image.colorModel := by
  obtain ⟨nm, b, mode, inv, tr, im⟩ := l
  rw [groupModel]

theorem layersAt_append (ρ : Nat → UInt16) (cm : Option ColorModel) (g h : List Layer) (p : Pt) (n : Nat)
    (l : Layer) (hl : ¬ shows p l) :
    layersAt ρ cm (g ++ l :: h) p n = layersAt ρ cm (g ++ h) p n := by
  induction g with
  | nil =>
    simp only [List.nil_append]
    rw [layersAt_cons]
    cases layersAt ρ cm h p n with
    | none => rfl
    | some x => exact drawLayer_hidden _ _ hl
  | cons a g ih => rw [List.cons_append, List.cons_append, layersAt_cons, layersAt_cons, ih]

/-- induction over images -/
theorem Img.induct {P : Img → Prop} (leaf : ∀ l, P (.leaf l)) (nil : P .nil)
    (text : ∀ i t, P i → P (.text i t)) (masked : ∀ i m, P i → P (.masked i m))
    (group : ∀ g : List Layer, (∀ l ∈ g, P l.image) → P (.group g)) (i : Img) : P i :=
  Img.rec (motive_1 := P) (motive_2 := fun g => ∀ l ∈ g, P l.image) (motive_3 := fun l => P l.image)
    leaf nil (fun i t h => text i t h) (fun i m h => masked i m h) (fun g h => group g h)
    (fun l h => by cases h)
    (fun l g hl hg x hx => by
      rcases List.mem_cons.1 hx with rfl | hx
      · exact hl
      · exact hg x hx)
    (fun _ _ _ _ _ _ h => h) i

end Limage
