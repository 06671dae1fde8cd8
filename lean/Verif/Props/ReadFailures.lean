import Verif.Proofs.Failing
import Verif.Props.Truncate
/-!
# C154: a source that fails never leads to another picture
-/
namespace Limage.Failing

theorem layer_agrees (c : Ctx) (p : UInt64) :
    Agrees (do goto p; readLayer c : M DLayer) (do Limage.goto p; Limage.readLayer c : Limage.M DLayer) :=
  .bind (.goto p) fun _ => .readLayer c

/-- a layer read without an error -/
theorem layerAtPtr_good {c : Ctx} {D : Bytes} {plan : Nat → Option (Nat × Err)} {p : UInt64} {l : DLayer}
    (h : layerAtPtr c D plan p = .ok (l, none)) : Limage.layerAtPtr c D p = .ok (l, none) := by
  unfold layerAtPtr at h
  unfold Limage.layerAtPtr
  cases hm : (do goto p; readLayer c : M DLayer) (newReader plan D) with
  | panic => rw [hm] at h; cases h
  | hang => rw [hm] at h; cases h
  | ok x =>
    obtain ⟨l', r'⟩ := x
    rw [hm] at h
    have h' := Outcome.ok.inj h
    have he : r'.err = none := congrArg Prod.snd h'
    have hl : l' = l := congrArg Prod.fst h'
    subst hl
    have e := ((layer_agrees c p).good _ _ _ hm he).2
    change _ = _ at e
    rw [show Limage.newReader D = (newReader plan D).core from rfl, e]
    change Outcome.ok (l', r'.err) = _
    rw [he]

theorem readLayers_good {sch : Sched} (hs : sch.Valid) {c : Ctx} {D : Bytes}
    {plans : Nat → Nat → Option (Nat × Err)} {ptrs : List UInt64} {ls : List DLayer}
    (h : readLayers sch c D plans ptrs = .ok (ls, none)) :
    Limage.readLayers sch c D ptrs = .ok (ls, none) := by
  unfold readLayers at h
  unfold Limage.readLayers
  cases hg : gather (ptrs.mapIdx fun i p => layerAtPtr c D (plans i) p) with
  | panic => rw [hg] at h; cases h
  | hang => rw [hg] at h; cases h
  | ok rs =>
    rw [hg] at h
    have h' := Outcome.ok.inj h
    have hls : rs.map (·.1) = ls := congrArg Prod.fst h'
    have hf : firstErr (rs.map (·.2)) (sch.layers ptrs.length) = none := congrArg Prod.snd h'
    have hx := gather_ok hg
    have hlen : rs.length = ptrs.length := by
      have := congrArg List.length hx
      rw [List.length_mapIdx, List.length_map] at this
      exact this.symm
    have hall := firstErr_all (errs := rs.map (·.2)) (by rw [List.length_map, hlen]; exact hs.1 _) hf
    have : ptrs.map (Limage.layerAtPtr c D) = ptrs.mapIdx fun i p => layerAtPtr c D (plans i) p := by
      apply List.ext_getElem
      · rw [List.length_map, List.length_mapIdx]
      · intro i h1 h2
        rw [List.length_map] at h1
        rw [List.getElem_map, List.getElem_mapIdx]
        have hi : layerAtPtr c D (plans i) ptrs[i] = .ok (rs[i]'(by omega)) := by
          have := List.getElem_of_eq hx (i := i) (by rw [List.length_mapIdx]; exact h1)
          rwa [List.getElem_mapIdx, List.getElem_map] at this
        have he : (rs[i]'(by omega)).2 = none :=
          hall _ (List.mem_map.2 ⟨_, List.getElem_mem _, rfl⟩)
        have hp : rs[i]'(by omega) = ((rs[i]'(by omega)).1, none) := Prod.ext rfl he
        rw [hi, hp]
        rw [hp] at hi
        exact layerAtPtr_good hi
    rw [this, hg]
    dsimp only
    rw [hls, hf]

theorem readLayers_faultless (sch : Sched) (c : Ctx) (D : Bytes) (ptrs : List UInt64) :
    readLayers sch c D (fun _ _ => none) ptrs = Limage.readLayers sch c D ptrs := by
  unfold readLayers Limage.readLayers
  have : (ptrs.mapIdx fun _ p => layerAtPtr c D (fun _ => none) p) = ptrs.map (Limage.layerAtPtr c D) := by
    rw [List.mapIdx_eq_zipIdx_map]
    apply List.ext_getElem
    · rw [List.length_map, List.length_map, List.length_zipIdx]
    · intro i h1 h2
      rw [List.getElem_map, List.getElem_map, List.getElem_zipIdx]
      generalize ptrs[i]'(by simpa using h2) = p
      dsimp only
      unfold layerAtPtr Limage.layerAtPtr
      have := ((layer_agrees c p).same (newReader (fun _ => none) D) fun _ => rfl).1
      change (do Limage.goto p; Limage.readLayer c : Limage.M DLayer) (Limage.newReader D) = _ at this
      rw [this]
      cases (do goto p; readLayer c : M DLayer) (newReader (fun _ => none) D) <;> rfl
  rw [this]
  rfl

/-- the outcome is an error -/
def isError {α : Type} : Outcome (Except Err α) → Bool
  | .ok (.error _) => true
  | _ => false

end Limage.Failing

namespace Limage

/-- Whatever calls to the source fail, after however many bytes and with whatever errors — those made
for the head of the file (`head`) and, independently, those made for each layer (`plans`) — a picture
that `Decode` or `DecodeCompressed` returns is the one it returns when no call fails. -/
theorem C154_decode (env : Env) (sch : Sched) (hs : sch.Valid) (decompress : Bool) (D : Bytes)
    (head : Nat → Option (Nat × Err)) (plans : Nat → Nat → Option (Nat × Err)) (im : List Layer)
    (h : Failing.decodeImage env sch decompress D head plans = .ok (.ok im)) :
    Limage.decodeImage env sch decompress D = .ok (.ok im) := by
  unfold Failing.decodeImage at h
  unfold Limage.decodeImage
  cases hh : Failing.readHead (Failing.newReader head D) with
  | panic => rw [hh] at h; cases h
  | hang => rw [hh] at h; cases h
  | ok x =>
    obtain ⟨x, r⟩ := x
    rw [hh] at h
    cases x with
    | error e => cases h
    | ok hd =>
      have he := Failing.readHead_tells _ _ _ hh ⟨hd, rfl⟩
      have hr := (Failing.Agrees.readHead.good _ _ _ hh he).2
      change Limage.readHead (Limage.newReader D) = _ at hr
      rw [hr]
      dsimp only at h ⊢
      unfold Failing.decodeLayers at h
      unfold Limage.decodeLayers
      cases hl : Failing.readLayers sch (hd.ctx env decompress) D plans hd.ptrs with
      | panic => rw [hl] at h; cases h
      | hang => rw [hl] at h; cases h
      | ok y =>
        obtain ⟨ls, e⟩ := y
        rw [hl] at h
        cases e with
        | some e => cases h
        | none =>
          rw [Failing.readLayers_good hs hl]
          exact h

/-- A file with a masked layer: it is read when no call fails, also when a call fails only after having
delivered all that was asked for; it is an error when the fourth call for the head or the tenth for
the layer fails. -/
example : Outcome.isImage (Failing.decodeImage exEnv exSched true maskedLayer (fun _ => none) fun _ _ => none) = true ∧
    Outcome.isImage (Failing.decodeImage exEnv exSched true maskedLayer
      (fun i => if i = 3 then some (4, .eof) else none) fun _ _ => none) = true ∧
    Failing.isError (Failing.decodeImage exEnv exSched true maskedLayer
      (fun i => if i = 3 then some (2, .eof) else none) fun _ _ => none) = true ∧
    Failing.isError (Failing.decodeImage exEnv exSched true maskedLayer (fun _ => none)
      fun _ i => if i = 9 then some (0, .eof) else none) = true := by decide +kernel

/-- The same for `DecodeConfig`. -/
theorem C154_config (D : Bytes) (plan : Nat → Option (Nat × Err)) (c : Config)
    (h : Failing.decodeConfig D plan = .ok (c, none)) : Limage.decodeConfig D = .ok (c, none) := by
  unfold Failing.decodeConfig at h
  unfold Limage.decodeConfig
  cases hh : Failing.decodeConfigM (Failing.newReader plan D) with
  | panic => rw [hh] at h; cases h
  | hang => rw [hh] at h; cases h
  | ok x =>
    obtain ⟨x, r⟩ := x
    rw [hh] at h
    cases h
    have he := Failing.decodeConfigM_tells _ _ _ hh rfl
    have hr := (Failing.Agrees.decodeConfigM.good _ _ _ hh he).2
    change Limage.decodeConfigM (Limage.newReader D) = _ at hr
    rw [hr]

/-- the configuration of the file above, with a failure that does not matter and with one that does -/
example : (match Failing.decodeConfig maskedLayer (fun i => if i = 1 then some (9, .eof) else none) with
      | .ok (c, none) => c.width == 1 && c.height == 1
      | _ => false) = true ∧
    (match Failing.decodeConfig maskedLayer (fun i => if i = 1 then some (3, .eof) else none) with
      | .ok (_, some e) => decide (e = .unexpectedEOF)
      | _ => false) = true := by
  constructor <;> decide +kernel

/-- With a source that does not fail, these programs are those of the other theorems. -/
theorem C154_faultless (env : Env) (sch : Sched) (decompress : Bool) (D : Bytes) :
    Failing.decodeImage env sch decompress D (fun _ => none) (fun _ _ => none) =
      Limage.decodeImage env sch decompress D ∧
    Failing.decodeConfig D (fun _ => none) = Limage.decodeConfig D := by
  constructor
  · unfold Failing.decodeImage Limage.decodeImage
    have := (Failing.Agrees.readHead.same (Failing.newReader (fun _ => none) D) fun _ => rfl).1
    change Limage.readHead (Limage.newReader D) = _ at this
    rw [this]
    cases Failing.readHead (Failing.newReader (fun _ => none) D) with
    | panic => rfl
    | hang => rfl
    | ok x =>
      obtain ⟨x, r⟩ := x
      cases x with
      | error e => rfl
      | ok hd =>
        change Failing.decodeLayers _ _ _ _ _ _ = Limage.decodeLayers _ _ _ _ _
        unfold Failing.decodeLayers Limage.decodeLayers
        rw [Failing.readLayers_faultless]
        rfl
  · unfold Failing.decodeConfig Limage.decodeConfig
    have := (Failing.Agrees.decodeConfigM.same (Failing.newReader (fun _ => none) D) fun _ => rfl).1
    change Limage.decodeConfigM (Limage.newReader D) = _ at this
    rw [this]
    cases Failing.decodeConfigM (Failing.newReader (fun _ => none) D) <;> rfl

end Limage
