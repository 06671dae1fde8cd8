import Verif.Props.Image
/-!
# The use of the random source: C96
-/
namespace Limage

namespace Spec

mutual
/-- how many layers in mode Dissolve are seen by a call of `At` at a point: visible ones that contain it, at any depth -/
def Img.dissolves (i : Img) (p : Pt) : Nat :=
  match i with
  | .leaf _ => 0
  | .nil => 0
  | .text i _ => Img.dissolves i p
  | .masked i _ => Img.dissolves i p
  | .group g => dissolvesAll g p
termination_by structural i
/-- the same for layers -/
def dissolvesAll (g : List Layer) (p : Pt) : Nat :=
  match g with
  | [] => 0
  | ⟨_, b, mode, invisible, _, i⟩ :: ls =>
    dissolvesAll ls p + if invisible = false ∧ Rect.mem p b = true then
      Img.dissolves i ⟨p.x - b.x0, p.y - b.y0⟩ + (if mode = Mode.dissolve then 1 else 0) else 0
termination_by structural g
end

/-- two calls of `At` have the same outcome, and each takes `d` values from the random source -/
def SameDraws (d n m : Nat) (x y : Option (Color × Nat)) : Prop :=
  match x, y with
  | none, none => True
  | some (c, n'), some (c', m') => c' = c ∧ n' = n + d ∧ m' = m + d
  | _, _ => False

end Spec

open Spec

theorem SameDraws.bind {d e n m : Nat} {x y : Option (Color × Nat)} {f g : Color × Nat → Option (Color × Nat)} (h : SameDraws d n m x y)
    (hf : ∀ c, SameDraws e (n + d) (m + d) (f (c, n + d)) (g (c, m + d))) : SameDraws (d + e) n m (x.bind f) (y.bind g) := by
  match x, y, h with
  | none, none, _ => trivial
  | some (c, n'), some (c', m'), h =>
    obtain ⟨rfl, rfl, rfl⟩ := h
    have := hf c'
    rw [Option.bind_some, Option.bind_some]
    unfold SameDraws at this ⊢
    revert this
    generalize f (c', n + d) = a
    generalize g (c', m + d) = b
    intro this
    match a, b, this with
    | none, none, _ => trivial
    | some (c, n'), some (c'', m'), h => exact ⟨h.1, by have := h.2.1; omega, by have := h.2.2; omega⟩

theorem SameDraws.of {d n m : Nat} (c : Color) : SameDraws d n m (some (c, n + d)) (some (c, m + d)) := ⟨rfl, rfl, rfl⟩

theorem SameDraws.zero {n m : Nat} (c : Color) : SameDraws 0 n m (some (c, n)) (some (c, m)) := ⟨rfl, rfl, rfl⟩

theorem SameDraws.map {d n m : Nat} (x : Option Color) : SameDraws d n m (x.map fun c => (c, n + d)) (x.map fun c => (c, m + d)) := by
  cases x with
  | none => trivial
  | some c => exact ⟨rfl, rfl, rfl⟩

mutual
theorem at_draws (ρ ρ' : Nat → UInt16) (i : Img) (p : Pt) (n m : Nat) (h : ∀ k < Img.dissolves i p, ρ' (m + k) = ρ (n + k)) :
    SameDraws (Img.dissolves i p) n m (i.at ρ p n) (i.at ρ' p m) := by
  match i with
  | .leaf l =>
    rw [Img.at, Img.at, Img.dissolves]
    exact SameDraws.map (l.pixel p)
  | .nil =>
    rw [Img.at, Img.at]
    trivial
  | .text i t =>
    rw [Img.dissolves] at h ⊢
    rw [Img.at, Img.at]
    exact at_draws ρ ρ' i p n m h
  | .masked i k =>
    rw [Img.dissolves] at h ⊢
    rw [Img.at, Img.at]
    have := at_draws ρ ρ' i p n m h
    refine SameDraws.bind (e := 0) this fun c => ?_
    cases k with
    | none => trivial
    | some k => exact SameDraws.zero _
  | .group g =>
    rw [Img.dissolves] at h ⊢
    rw [Img.at, Img.at]
    exact layersAt_draws ρ ρ' (groupModel g) g p n m h
termination_by structural i

theorem layersAt_draws (ρ ρ' : Nat → UInt16) (cm : Option ColorModel) (g : List Layer) (p : Pt) (n m : Nat)
    (h : ∀ k < dissolvesAll g p, ρ' (m + k) = ρ (n + k)) :
    SameDraws (dissolvesAll g p) n m (layersAt ρ cm g p n) (layersAt ρ' cm g p m) := by
  match g with
  | [] =>
    rw [layersAt, layersAt]
    exact SameDraws.zero _
  | ⟨name, b, mode, invisible, tr, im⟩ :: ls =>
    rw [dissolvesAll] at h ⊢
    rw [layersAt_cons, layersAt_cons]
    have ih := layersAt_draws ρ ρ' cm ls p n m fun k hk => h k (Nat.lt_of_lt_of_le hk (Nat.le_add_right ..))
    refine SameDraws.bind ih fun c => ?_
    dsimp only
    by_cases hs : invisible = false ∧ Rect.mem p b = true
    · rw [if_pos hs] at h ⊢
      have hs' : shows p ⟨name, b, mode, invisible, tr, im⟩ := ⟨hs.1, (mem_iff _ _).1 hs.2⟩
      rw [drawLayer_shows _ _ hs', drawLayer_shows _ _ hs']
      cases cm with
      | none => trivial
      | some cm =>
        rw [Option.bind_some, Option.bind_some]
        have ih2 := at_draws ρ ρ' im ⟨p.x - b.x0, p.y - b.y0⟩ (n + dissolvesAll ls p) (m + dissolvesAll ls p) fun k hk => by
          have := h (dissolvesAll ls p + k) (by omega)
          rw [Nat.add_assoc, Nat.add_assoc]
          exact this
        have ih3 : SameDraws (Img.dissolves im ⟨p.x - b.x0, p.y - b.y0⟩) (n + dissolvesAll ls p) (m + dissolvesAll ls p)
            (layerAt ρ ⟨name, b, mode, invisible, tr, im⟩ p (n + dissolvesAll ls p))
            (layerAt ρ' ⟨name, b, mode, invisible, tr, im⟩ p (m + dissolvesAll ls p)) :=
          SameDraws.bind (e := 0) ih2 fun c => SameDraws.zero _
        refine SameDraws.bind ih3 fun t => ?_
        dsimp only
        by_cases hd : mode = Mode.dissolve
        · rw [if_pos hd] at h ⊢
          have e := h (dissolvesAll ls p + Img.dissolves im ⟨p.x - b.x0, p.y - b.y0⟩) (by omega)
          rw [← Nat.add_assoc, ← Nat.add_assoc] at e
          have hc : ¬(decide (mode ≠ Mode.dissolve) && cm.isPalette) = true := by simp [hd]
          rw [if_neg hc, if_neg hc, if_pos hd, if_pos hd, e]
          exact SameDraws.map _
        · rw [if_neg hd]
          by_cases hp : (decide (mode ≠ Mode.dissolve) && cm.isPalette) = true
          · rw [if_pos hp, if_pos hp]
            by_cases ha : t.toNRGBA.a > 0x7fff
            · rw [if_pos ha, if_pos ha]
              exact SameDraws.zero _
            · rw [if_neg ha, if_neg ha]
              exact SameDraws.zero _
          · rw [if_neg hp, if_neg hp, if_neg hd, if_neg hd]
            exact SameDraws.map _
    · rw [if_neg hs]
      have hs' : ¬shows p ⟨name, b, mode, invisible, tr, im⟩ := fun h => hs ⟨h.1, (mem_iff _ _).2 h.2⟩
      rw [drawLayer_hidden _ _ hs', drawLayer_hidden _ _ hs']
      exact SameDraws.zero _
termination_by structural g
end

/-! ## C96: only layers in mode Dissolve make a picture random -/

/-- C96: A call of `At` takes exactly one value from the random source for every Dissolve layer it sees, at any depth, and depends on nothing else of the
source: with sources that agree on these values, at whatever state, it has the same outcome, a colour or a panic. -/
theorem C96_draws (ρ ρ' : Nat → UInt16) (i : Img) (p : Pt) (n m : Nat) (h : ∀ k < Img.dissolves i p, ρ' (m + k) = ρ (n + k)) :
    SameDraws (Img.dissolves i p) n m (i.at ρ p n) (i.at ρ' p m) := at_draws ρ ρ' i p n m h

/-- a Dissolve layer over another layer is seen where it is and nowhere else -/
example : let g : Img := .group [⟨[], ⟨0, 0, 2, 2⟩, Mode.dissolve, false, 100, .leaf ⟨⟨0, 0, 2, 2⟩, .other, fun _ => some (.nrgba 9 8 7 255)⟩⟩,
      ⟨[], ⟨0, 0, 4, 4⟩, Mode.normal, false, 0, .leaf ⟨⟨0, 0, 4, 4⟩, .other, fun _ => some (.nrgba 1 2 3 255)⟩⟩]
    Img.dissolves g ⟨1, 1⟩ = 1 ∧ Img.dissolves g ⟨3, 3⟩ = 0 := by decide

/-- A picture without Dissolve layers at a point always shows the same colour there. -/
theorem C96_steady (i : Img) (p : Pt) (h : Img.dissolves i p = 0) :
    (∀ ρ n, i.at ρ p n = none) ∨ ∃ c, ∀ ρ n, i.at ρ p n = some (c, n) := by
  have key : ∀ ρ n, SameDraws 0 0 n (i.at (fun _ => 0) p 0) (i.at ρ p n) := by
    intro ρ n
    have := at_draws (fun _ => 0) ρ i p 0 n fun k hk => by rw [h] at hk; omega
    rw [h] at this
    exact this
  cases hx : i.at (fun _ => 0) p 0 with
  | none =>
    refine .inl fun ρ n => ?_
    have := key ρ n
    rw [hx] at this
    cases hy : i.at ρ p n with
    | none => rfl
    | some y => rw [hy] at this; exact this.elim
  | some x =>
    obtain ⟨c, k⟩ := x
    refine .inr ⟨c, fun ρ n => ?_⟩
    have := key ρ n
    rw [hx] at this
    cases hy : i.at ρ p n with
    | none => rw [hy] at this; exact this.elim
    | some y =>
      rw [hy] at this
      obtain ⟨c', m⟩ := y
      obtain ⟨rfl, -, rfl⟩ := this
      rfl

/-- a Dissolve layer in a group in a picture with another: two values are taken -/
def dissolving : Img :=
  .group [⟨[], ⟨0, 0, 2, 2⟩, Mode.dissolve, false, 0, .leaf ⟨⟨0, 0, 2, 2⟩, .other, fun _ => some (.nrgba 255 0 0 255)⟩⟩,
    ⟨[], ⟨1, 0, 2, 2⟩, Mode.normal, false, 0, .group [⟨[], ⟨0, 0, 1, 2⟩, Mode.dissolve, false, 0, .leaf ⟨⟨0, 0, 1, 2⟩, .other, fun _ => some (.nrgba 0 0 255 255)⟩⟩]⟩,
    ⟨[], ⟨0, 0, 2, 2⟩, Mode.normal, false, 127, .leaf ⟨⟨0, 0, 2, 2⟩, .other, fun _ => some (.nrgba 0 255 0 255)⟩⟩]

-- the number of values depends on the point, and the colour on the values
example : Img.dissolves dissolving ⟨0, 0⟩ = 1 ∧ Img.dissolves dissolving ⟨1, 1⟩ = 2 ∧ Img.dissolves dissolving ⟨2, 1⟩ = 0 ∧
    (dissolving.at (fun _ => 0) ⟨0, 0⟩ 0).map (fun x => (x.1.toNRGBA.r, x.2)) = some (0xffff, 1) ∧
    (dissolving.at (fun _ => 0xfffe) ⟨0, 0⟩ 0).map (fun x => (x.1.toNRGBA.r, x.2)) = some (0, 1) ∧
    (dissolving.at (fun _ => 0) ⟨1, 1⟩ 5).map (fun x => (x.1.toNRGBA.r, x.2)) = some (0xffff, 7) := by
  refine ⟨?_, ?_, ?_, ?_, ?_, ?_⟩ <;> decide +kernel

end Limage
