import Verif.Model.Paths
import Verif.Props.Skip
import Verif.Proofs.Total
/-!
# C98: paths are read as they are stored
-/
namespace Limage

namespace Spec

/-- what the version of an old-style path brings: whole coordinates (1), a dummy (2), a dummy and a tattoo (3) -/
inductive PathKind where
  | v1
  | v2 (dummy : UInt32)
  | v3 (dummy tattoo : UInt32)

/-- an old-style path with its points, control points or anchors, each with two numbers of 32 bits -/
structure StoredPath where
  name : Bytes
  linked : Bool
  closed : Bool
  kind : PathKind
  points : List (Bool × UInt32 × UInt32)

/-- a truth value, of 4 bytes -/
def flag4 (b : Bool) : Bytes := be 4 (if b then 1 else 0)

def PathKind.number : PathKind → Nat
  | .v1 => 1
  | .v2 _ => 2
  | .v3 _ _ => 3

def PathKind.extra : PathKind → Bytes
  | .v1 => []
  | .v2 d => be 4 d.toNat
  | .v3 d t => be 4 d.toNat ++ be 4 t.toNat

def pointBytes (p : Bool × UInt32 × UInt32) : Bytes := flag4 p.1 ++ (be 4 p.2.1.toNat ++ be 4 p.2.2.toNat)

/-- the path in a file; its state is 4 if it is closed and 2 if not -/
def StoredPath.bytes (p : StoredPath) : Bytes :=
  str p.name ++ (flag4 p.linked ++ ([if p.closed then 4 else 2] ++ (flag4 p.closed ++
    (be 4 p.points.length ++ (be 4 p.kind.number ++ (p.kind.extra ++ (p.points.map pointBytes).flatten))))))

/-- the property: the active path, the number of paths, and the paths -/
def pathsBytes (active : UInt32) (ps : List StoredPath) : Bytes :=
  be 4 active.toNat ++ be 4 ps.length ++ (ps.map StoredPath.bytes).flatten

def PathKind.tattoo : PathKind → UInt32
  | .v3 _ t => t
  | _ => 0

/-- a coordinate is a whole number in version 1 -/
def PathKind.coord : PathKind → UInt32 → Coord
  | .v1, x => .int32 x
  | _, x => .float32 x

/-- the path that is meant -/
def StoredPath.path (p : StoredPath) : OldPath :=
  ⟨p.name, p.linked, p.closed, p.kind.tattoo,
    p.points.map fun q => ⟨q.1, p.kind.coord q.2.1, p.kind.coord q.2.2⟩⟩

end Spec

theorem u32_ofNat_self (x : UInt32) : UInt32.ofNat x.toNat = x := by simp

theorem u32_bits (x : UInt32) : Consumes readUint32 (be 4 x.toNat) x := by
  have := u32_be x.toNat
  rwa [u32_ofNat_self] at this

theorem readBool_consumes (b : Bool) : Consumes readBoolProperty (Spec.flag4 b) b := by
  unfold readBoolProperty Spec.flag4
  refine (u32_be _).map ?_
  cases b <;> rfl

theorem readPathPoint_consumes (k : Spec.PathKind) (q : Bool × UInt32 × UInt32) :
    Consumes (readPathPoint (UInt32.ofNat k.number)) (Spec.pointBytes q) ⟨q.1, k.coord q.2.1, k.coord q.2.2⟩ := by
  unfold readPathPoint Spec.pointBytes
  refine (readBool_consumes q.1).bind ?_
  cases k with
  | v1 =>
    rw [if_pos (by decide)]
    exact (u32_bits _).bind ((u32_bits _).map rfl)
  | v2 d =>
    rw [if_neg (by show ¬ (2 : UInt32) = 1; decide)]
    exact (u32_bits _).bind ((u32_bits _).map rfl)
  | v3 d t =>
    rw [if_neg (by show ¬ (3 : UInt32) = 1; decide)]
    exact (u32_bits _).bind ((u32_bits _).map rfl)

theorem readPathPoints_consumes (k : Spec.PathKind) (qs : List (Bool × UInt32 × UInt32)) :
    Consumes (readPathPoints (UInt32.ofNat k.number) qs.length) (qs.map Spec.pointBytes).flatten
      (qs.map fun q => ⟨q.1, k.coord q.2.1, k.coord q.2.2⟩) := by
  induction qs with
  | nil => exact Consumes.pure _
  | cons q qs ih => exact (readPathPoint_consumes k q).bind (ih.map rfl)

theorem flag4_length (b : Bool) : (Spec.flag4 b).length = 4 := be_length ..

theorem pointBytes_length (q : Bool × UInt32 × UInt32) : (Spec.pointBytes q).length = 12 := by
  simp only [Spec.pointBytes, List.length_append, flag4_length, be_length]

theorem points_length (qs : List (Bool × UInt32 × UInt32)) : (qs.map Spec.pointBytes).flatten.length = 12 * qs.length := by
  induction qs with
  | nil => rfl
  | cons q qs ih =>
    rw [List.map_cons, List.flatten_cons, List.length_append, pointBytes_length, ih, List.length_cons]; omega

theorem readPath_consumes (p : Spec.StoredPath) (hu : Spec.Utf8 p.name) (hl : p.bytes.length ≤ maxString) :
    Consumes readPath p.bytes (some p.path) := by
  have hm : maxString = 16777216 := rfl
  obtain ⟨name, linked, closed, kind, points⟩ := p
  have hn : name.length + 1 ≤ maxString ∧ points.length < 2 ^ 32 := by
    simp only [Spec.StoredPath.bytes, List.length_append, str_length, points_length] at hl
    refine ⟨?_, by omega⟩
    by_cases he : name = []
    · subst he; exact (by decide : 1 ≤ 16777216)
    · rw [if_neg he] at hl; omega
  unfold readPath Spec.StoredPath.bytes
  refine (readString_consumes name hn.1 hu).bind ((readBool_consumes linked).bind ((readUint8_consumes _).bind
    ((readBool_consumes closed).bind ?_)))
  rw [if_neg (by cases closed <;> simp)]
  refine (u32_be _).bind ((u32_be _).bind ?_)
  have ht : (UInt32.ofNat points.length).toNat = points.length := u32_toNat hn.2
  have hp := readPathPoints_consumes kind points
  dsimp only
  rw [ht]
  cases kind with
  | v1 =>
    rw [if_neg (by show ¬ ((1 : UInt32) < 1 ∨ (1 : UInt32) > 3); decide),
      if_neg (by show ¬ (1 : UInt32) = 3; decide), if_neg (by show ¬ (1 : UInt32) = 2; decide)]
    exact hp.map rfl
  | v2 d =>
    rw [if_neg (by show ¬ ((2 : UInt32) < 1 ∨ (2 : UInt32) > 3); decide),
      if_neg (by show ¬ (2 : UInt32) = 3; decide), if_pos (by show (2 : UInt32) = 2; decide)]
    exact (skip_consumes 4 _ (be_length ..)).bind (hp.map rfl)
  | v3 d t =>
    rw [if_neg (by show ¬ ((3 : UInt32) < 1 ∨ (3 : UInt32) > 3); decide), if_pos (by show (3 : UInt32) = 3; decide)]
    show Consumes _ ((be 4 d.toNat ++ be 4 t.toNat) ++ _) _
    rw [List.append_assoc]
    exact (skip_consumes 4 _ (be_length ..)).bind ((u32_bits t).bind (hp.map rfl))

theorem readPathList_consumes (ps : List Spec.StoredPath) (hu : ∀ p ∈ ps, Spec.Utf8 p.name)
    (hl : (ps.map Spec.StoredPath.bytes).flatten.length ≤ maxString) :
    Consumes (readPathList ps.length) (ps.map Spec.StoredPath.bytes).flatten (ps.map Spec.StoredPath.path) := by
  induction ps with
  | nil => exact Consumes.pure _
  | cons p ps ih =>
    rw [List.map_cons, List.flatten_cons, List.length_append] at hl
    rw [List.map_cons, List.flatten_cons]
    refine (readPath_consumes p (hu p (List.mem_cons_self ..)) (by omega)).bind ?_
    exact (ih (fun q hq => hu q (List.mem_cons_of_mem _ hq)) (by omega)).map rfl

theorem storedPath_entry (p : Spec.StoredPath) : Spec.PathEntry p.bytes := by
  obtain ⟨name, linked, closed, kind, points⟩ := p
  cases kind with
  | v1 =>
    have := Spec.PathEntry.v1 name (Spec.flag4 linked) [if closed then 4 else 2] (Spec.flag4 closed)
      (points.map Spec.pointBytes).flatten points.length (flag4_length _) rfl (flag4_length _) (points_length _)
    simpa only [List.append_assoc, Spec.StoredPath.bytes, Spec.PathKind.extra, Spec.PathKind.number, List.nil_append]
      using this
  | v2 d =>
    have := Spec.PathEntry.v2 name (Spec.flag4 linked) [if closed then 4 else 2] (Spec.flag4 closed) (be 4 d.toNat)
      (points.map Spec.pointBytes).flatten points.length (flag4_length _) rfl (flag4_length _) (be_length ..) (points_length _)
    simpa only [List.append_assoc, Spec.StoredPath.bytes, Spec.PathKind.extra, Spec.PathKind.number, List.nil_append]
      using this
  | v3 d t =>
    have := Spec.PathEntry.v3 name (Spec.flag4 linked) [if closed then 4 else 2] (Spec.flag4 closed) (be 4 d.toNat)
      (be 4 t.toNat) (points.map Spec.pointBytes).flatten points.length (flag4_length _) rfl (flag4_length _) (be_length ..)
      (be_length ..) (points_length _)
    simpa only [List.append_assoc, Spec.StoredPath.bytes, Spec.PathKind.extra, Spec.PathKind.number, List.nil_append]
      using this

theorem storedPaths_count (ps : List Spec.StoredPath) :
    ps.length ≤ (ps.map Spec.StoredPath.bytes).flatten.length := by
  have := count_le_flatten (bs := ps.map Spec.StoredPath.bytes) fun b hb => by
    obtain ⟨p, _, rfl⟩ := List.mem_map.1 hb
    exact pathEntry_ne _ (storedPath_entry p)
  rwa [List.length_map] at this

/-- **C98**, old-style paths: wherever a reader stands before the paths, `ReadPaths` gives back the active path and all the
paths, with all of their points, and leaves the reader behind them.  `SkipPaths` leaves it at the same place.  (Names are
UTF-8; together the paths take up at most 16 MiB.) -/
theorem C98_paths (active : UInt32) (ps : List Spec.StoredPath) (hu : ∀ p ∈ ps, Spec.Utf8 p.name)
    (hl : (ps.map Spec.StoredPath.bytes).flatten.length ≤ 16777216) (r : R) (hr : Sees r (Spec.pathsBytes active ps)) :
    readPaths r = .ok ((active, ps.map Spec.StoredPath.path), r.adv (Spec.pathsBytes active ps).length) ∧
    skipPaths r = .ok ((), r.adv (Spec.pathsBytes active ps).length) := by
  have hc := storedPaths_count ps
  refine ⟨?_, ?_⟩
  · have h : Consumes readPaths (Spec.pathsBytes active ps) (active, ps.map Spec.StoredPath.path) := by
      unfold readPaths Spec.pathsBytes
      rw [List.append_assoc]
      refine (u32_bits active).bind ((u32_be _).bind ?_)
      rw [u32_toNat (by omega)]
      exact (readPathList_consumes ps hu hl).map rfl
    exact h r hr
  · have h := skipPaths_consumes (be 4 active.toNat) (ps.map Spec.StoredPath.bytes) (be_length ..)
      (fun e he => by obtain ⟨p, _, rfl⟩ := List.mem_map.1 he; exact storedPath_entry p) hl
    rw [List.length_map] at h
    exact h r hr

/-- two paths, one of whole numbers, and one of version 3 with a tattoo -/
def twoPaths : List Spec.StoredPath :=
  [⟨[97], true, false, .v1, [(true, 5, 6), (false, 7, 8)]⟩, ⟨[98], false, true, .v3 1 77, [(false, 1065353216, 0)]⟩]

example : (∀ p ∈ twoPaths, Spec.Utf8 p.name) ∧ (twoPaths.map Spec.StoredPath.bytes).flatten.length ≤ 16777216 ∧
    Sees (newReader (Spec.pathsBytes 1 twoPaths)) (Spec.pathsBytes 1 twoPaths) := by
  refine ⟨?_, by decide +kernel, rfl, ⟨[], by decide +kernel⟩, by decide +kernel⟩
  intro p hp
  simp only [twoPaths, List.mem_cons, List.not_mem_nil, or_false] at hp
  rcases hp with rfl | rfl
  · exact ⟨['a'], by decide⟩
  · exact ⟨['b'], by decide⟩

/-- **C98**: a path whose state does not go with whether it is closed is refused. -/
theorem C98_state (name : Bytes) (linked closed : Bool) (state : UInt8) (hu : Spec.Utf8 name)
    (hn : name.length + 1 ≤ 16777216) (hs : state ≠ if closed then 4 else 2) (r : R)
    (hr : Sees r (Spec.str name ++ (Spec.flag4 linked ++ ([state] ++ Spec.flag4 closed)))) :
    ∃ r', readPath r = .ok (none, r') ∧ r'.err = some .inconsistentClosedState := by
  have h : Consumes (do
      let name ← readString
      let linked ← readBoolProperty
      let state ← readUint8
      let closed ← readBoolProperty
      pure (name, linked, state, closed)) (Spec.str name ++ (Spec.flag4 linked ++ ([state] ++ Spec.flag4 closed)))
      (name, linked, state, closed) :=
    (readString_consumes name hn hu).bind ((readBool_consumes linked).bind ((readUint8_consumes _).bind
      ((readBool_consumes closed).map rfl)))
  have h := h r hr
  obtain ⟨a, r1, h1, h⟩ := M.bind_inv h
  obtain ⟨b, r2, h2, h⟩ := M.bind_inv h
  obtain ⟨c, r3, h3, h⟩ := M.bind_inv h
  obtain ⟨d, r4, h4, h⟩ := M.bind_inv h
  cases h
  unfold readPath
  rw [M.bind_ok h1, M.bind_ok h2, M.bind_ok h3, M.bind_ok h4, if_pos (by cases closed <;> simpa using hs)]
  refine ⟨_, rfl, ?_⟩
  show r.err.or _ = _
  rw [hr.1]; rfl

example : (5 : UInt8) ≠ (if true then 4 else 2) ∧
    Sees (newReader (Spec.str [97] ++ (Spec.flag4 false ++ ([5] ++ Spec.flag4 true))))
      (Spec.str [97] ++ (Spec.flag4 false ++ ([5] ++ Spec.flag4 true))) :=
  ⟨by decide, rfl, ⟨[], by decide +kernel⟩, by decide +kernel⟩

/-- **C98**, fails for `ReadVectors`: with a path or more it panics, whatever the paths are. -/
theorem C98_vectors_refuted (active n : UInt32) (hn : n ≠ 0) (r : R)
    (hr : Sees r (be 4 1 ++ be 4 active.toNat ++ be 4 n.toNat)) : readVectors r = .panic := by
  rw [List.append_assoc] at hr
  unfold readVectors
  rw [M.bind_ok (u32_be 1 r hr.left), if_neg (by decide), M.bind_ok (u32_bits _ _ hr.right.left),
    M.bind_ok (u32_bits _ _ hr.right.right), if_neg hn]
  generalize ((r.adv _).adv _).adv _ = r
  have hb : Total readBoolProperty :=
    readUint32_total.bind fun _ => Total.ite (Total.pure _) (Total.ite (Total.pure _)
      ((setError_total _).bind fun _ => Total.pure _))
  obtain ⟨_, r, e, _⟩ := readString_total r
  rw [M.bind_ok e]
  obtain ⟨_, r, e, _⟩ := readUint32_total r
  rw [M.bind_ok e]
  obtain ⟨_, r, e, _⟩ := hb r
  rw [M.bind_ok e]
  obtain ⟨_, r, e, _⟩ := hb r
  rw [M.bind_ok e]
  obtain ⟨_, r, e, _⟩ := readUint32_total r
  rw [M.bind_ok e]
  obtain ⟨_, r, e, _⟩ := readUint32_total r
  rw [M.bind_ok e]
  rfl

example : Sees (newReader oneVector) (be 4 1 ++ be 4 (0 : UInt32).toNat ++ be 4 (1 : UInt32).toNat) :=
  ⟨rfl, ⟨onePath, by decide +kernel⟩, by decide +kernel⟩

/-- **C98**, what `ReadVectors` does: without any path it returns the active path and none. -/
theorem C98_vectors_partial (active : UInt32) (r : R) (hr : Sees r (be 4 1 ++ be 4 active.toNat ++ be 4 0)) :
    readVectors r = .ok ((active, 0), r.adv 12) := by
  have h : Consumes readVectors (be 4 1 ++ be 4 active.toNat ++ be 4 0) (active, 0) := by
    rw [List.append_assoc]
    unfold readVectors
    refine (u32_be 1).bind ?_
    rw [if_neg (by decide)]
    exact (u32_bits _).bind ((u32_be 0).map rfl)
  have h := h r hr
  simpa only [List.length_append, be_length] using h

example : Sees (newReader (be 4 1 ++ be 4 7 ++ be 4 0)) (be 4 1 ++ be 4 (7 : UInt32).toNat ++ be 4 0) :=
  ⟨rfl, ⟨[], by decide +kernel⟩, by decide +kernel⟩

end Limage
