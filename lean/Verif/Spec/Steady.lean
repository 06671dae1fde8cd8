import Verif.Spec.Image
/-! # Images without chance -/
namespace Limage.Spec

mutual
/-- no visible layer at any depth has the mode Dissolve -/
def Steady (i : Img) : Prop :=
  match i with
  | .leaf _ => True
  | .nil => True
  | .text i _ => Steady i
  | .masked i _ => Steady i
  | .group g => SteadyAll g
termination_by structural i
/-- the same of layers -/
def SteadyAll (g : List Layer) : Prop :=
  match g with
  | [] => True
  | ⟨_, _, mode, invisible, _, im⟩ :: rest => (invisible = true ∨ (mode ≠ Mode.dissolve ∧ Steady im)) ∧ SteadyAll rest
termination_by structural g
end

mutual
/-- the image of every layer at any depth is without chance (the layers of a group are written one by one, hidden or not) -/
def SteadyEvery (i : Img) : Prop :=
  match i with
  | .group g => SteadyEach g
  | .leaf _ => True
  | .nil => True
  | .text _ _ => True
  | .masked _ _ => True
termination_by structural i
/-- the same of layers -/
def SteadyEach (g : List Layer) : Prop :=
  match g with
  | [] => True
  | ⟨_, _, _, _, _, im⟩ :: rest => Steady im ∧ SteadyEvery im ∧ SteadyEach rest
termination_by structural g
end

open Classical in
/-- the topmost of the layers showing at the point that covers more than half -/
noncomputable def topmost (p : Pt) (pix : Layer → Color) (g : List Layer) : Option Layer :=
  g.find? fun l => decide (shows p l ∧ 0x8000 ≤ (pix l).toNRGBA.a.toNat)

end Limage.Spec
