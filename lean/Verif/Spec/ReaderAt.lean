import Verif.Model.ReaderAt
/-!
# Specification of concurrent reads
-/
namespace Limage.Spec

/-- any number of steps -/
inductive RRun (k : Seeker) (args : Nat → Int × Nat) : AtState → AtState → Prop
  | refl {s} : RRun k args s s
  | tail {s t u} : RRun k args s t → RStep k args t u → RRun k args s u

/-- what `ReadAt` has to return: bytes of the content, from the offset on -/
def BytesAt (data : Bytes) (off : Int) (bs : Bytes) : Prop := bs <+: data.drop off.toNat

/-- a call has started and not returned -/
def Running (s : AtState) (i : Nat) : Prop := s.call i ≠ .idle ∧ ∀ bs e, s.call i ≠ .done bs e

/-- a call has returned -/
def Returned (s : AtState) (i : Nat) : Prop := ∃ bs e, s.call i = .done bs e

end Limage.Spec
