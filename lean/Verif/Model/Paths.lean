import Verif.Model.Reader
/-!
# Reading paths

`ReadPaths` and `ReadVectors` of package xcf.  No other function of the package calls them: `DecodeConfig` and `Decode` use
`SkipPaths` and `SkipVectors`.
-/
namespace Limage

/-- xcf/paths.go:76-81: a coordinate of a point.  Simplification: the number is kept as the 32 bits that are read, with what
they are, instead of the `float64` with the same value (each int32 and each float32 is one). -/
inductive Coord where
  | int32 (bits : UInt32)
  | float32 (bits : UInt32)
deriving DecidableEq, Repr

/-- xcf/paths.go:20-23 `pathPoint`. -/
structure PathPoint where
  control : Bool
  x : Coord
  y : Coord
deriving DecidableEq, Repr

/-- xcf/paths.go:10-18 `path`. -/
structure OldPath where
  name : Bytes
  linked : Bool
  closed : Bool
  tattoo : UInt32
  points : List PathPoint
deriving DecidableEq, Repr

/-- xcf/paths.go:73-81: one point. -/
def readPathPoint (v : UInt32) : M PathPoint := do
  let control ← readBoolProperty
  if v = 1 then
    let x ← readUint32
    let y ← readUint32
    return ⟨control, .int32 x, .int32 y⟩
  else
    let x ← readUint32
    let y ← readUint32
    return ⟨control, .float32 x, .float32 y⟩

/-- xcf/paths.go:72-82: the points of a path. -/
def readPathPoints (v : UInt32) : Nat → M (List PathPoint)
  | 0 => return []
  | n + 1 => do
    let p ← readPathPoint v
    let ps ← readPathPoints v n
    return p :: ps

/-- xcf/paths.go:34-82: the body of the loop; `none` where the function returns early.  Simplification: memory for the points
is always to be had. -/
def readPath : M (Option OldPath) := do
  let name ← readString
  let linked ← readBoolProperty
  let state ← readUint8
  let closed ← readBoolProperty
  if (if closed then state ≠ 4 else state ≠ 2) then
    setError .inconsistentClosedState
    return none
  else
    let np ← readUint32
    let v ← readUint32
    if v < 1 ∨ v > 3 then
      setError .unknownPathsVersion
      return none
    else if v = 3 then
      skipUint32
      let tattoo ← readUint32
      let points ← readPathPoints v np.toNat
      return some ⟨name, linked, closed, tattoo, points⟩
    else if v = 2 then
      skipUint32
      let points ← readPathPoints v np.toNat
      return some ⟨name, linked, closed, 0, points⟩
    else
      let points ← readPathPoints v np.toNat
      return some ⟨name, linked, closed, 0, points⟩

/-- xcf/paths.go:33-83: the loop.  Simplification: what an early return has read of the paths is forgotten; the error is set
then. -/
def readPathList : Nat → M (List OldPath)
  | 0 => return []
  | n + 1 => do
    match ← readPath with
    | none => return []
    | some p =>
      let ps ← readPathList n
      return p :: ps

/-- xcf/paths.go:25-86 `ReadPaths`: the active path and the paths. -/
def readPaths : M (UInt32 × List OldPath) := do
  let active ← readUint32
  let n ← readUint32
  let ps ← readPathList n.toNat
  return (active, ps)

/-- an index out of range -/
def indexPanic {α : Type} : M α := fun _ => .panic

/-- xcf/vectors.go:28-103 `ReadVectors`, what it returns being the active path and the number of paths.  A list of `n` paths
is made (39), and lines 48 and 49 write to its element `n`: the first time round the loop is the last.  Simplification:
memory for the list is always to be had; lines 51-99 are left out, as nothing gets there. -/
def readVectors : M (UInt32 × Nat) := do
  let v ← readUint32
  if v ≠ 1 then
    setError .unknownVectorVersion
    return (0, 0)
  else
    let active ← readUint32
    let n ← readUint32
    if n = 0 then
      return (active, 0)
    else
      let _ ← readString
      let _ ← readUint32
      let _ ← readBoolProperty
      let _ ← readBoolProperty
      let _ ← readUint32
      let _ ← readUint32
      indexPanic

end Limage
