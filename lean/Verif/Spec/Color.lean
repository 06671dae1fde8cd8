import Verif.Model.Color
/-! Specification of colour distances, used by C19. -/
namespace Limage.Spec

/-- The four `RGBA()` components of a colour are at most 0xffff, as `color.Color` requires. -/
def ValidRGBA (c : RGBA32) : Prop :=
  c.r.toNat ≤ 65535 ∧ c.g.toNat ≤ 65535 ∧ c.b.toNat ≤ 65535 ∧ c.a.toNat ≤ 65535

/-- A quarter of the squared difference, rounded down, over the naturals. -/
def quarterSq (x y : Nat) : Nat := (max x y - min x y) ^ 2 / 4

/-- Distance of two colours: sum over the four components. -/
def dist (p q : RGBA32) : Nat :=
  quarterSq p.r.toNat q.r.toNat + quarterSq p.g.toNat q.g.toNat +
  quarterSq p.b.toNat q.b.toNat + quarterSq p.a.toNat q.a.toNat

/-- two channel values at most `d` apart -/
def within (d : Nat) (x y : UInt16) : Prop := x.toNat ≤ y.toNat + d ∧ y.toNat ≤ x.toNat + d

end Limage.Spec
