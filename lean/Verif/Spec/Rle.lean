import Verif.Model.Reader
/-!
# The run-length code of XCF tiles, as a grammar

A stream is a sequence of operations: runs and literals, each with a short and a long form.
-/
namespace Limage.Spec

/-- one operation -/
inductive Op where
  /-- a run of 1 to 127 bytes -/
  | shortRun (n : Nat) (v : UInt8)
  /-- a run with a two byte length -/
  | longRun (n : Nat) (v : UInt8)
  /-- 1 to 127 bytes as they are -/
  | shortLit (bs : Bytes)
  /-- a literal with a two byte length -/
  | longLit (bs : Bytes)
deriving DecidableEq, Repr

/-- legal lengths -/
def Op.valid : Op → Prop
  | .shortRun n _ => 1 ≤ n ∧ n ≤ 127
  | .longRun n _ => n < 65536
  | .shortLit bs => 1 ≤ bs.length ∧ bs.length ≤ 127
  | .longLit bs => bs.length < 65536

/-- the representation in the file -/
def Op.code : Op → Bytes
  | .shortRun n v => [UInt8.ofNat (n - 1), v]
  | .longRun n v => [127, UInt8.ofNat (n / 256), UInt8.ofNat n, v]
  | .shortLit bs => UInt8.ofNat (256 - bs.length) :: bs
  | .longLit bs => [128, UInt8.ofNat (bs.length / 256), UInt8.ofNat bs.length] ++ bs

/-- what it stands for -/
def Op.plain : Op → Bytes
  | .shortRun n v => List.replicate n v
  | .longRun n v => List.replicate n v
  | .shortLit bs => bs
  | .longLit bs => bs

/-- `code` is an encoding of `plain` in which every operation produces something -/
def Encodes (code plain : Bytes) : Prop :=
  ∃ ops : List Op, (∀ o ∈ ops, o.valid ∧ o.plain ≠ []) ∧
    code = ops.flatMap Op.code ∧ plain = ops.flatMap Op.plain

end Limage.Spec
