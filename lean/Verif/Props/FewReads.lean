import Verif.Proofs.FailTotal
/-!
# C157: how often the source is read

`Failing.R.calls` counts the calls that read from the source.  Seeks are not counted.
-/
namespace Limage.Failing

/-- what was read and what may still be read do not become more: every call that succeeds uses up a byte, and after one that does not there are none -/
def Cheap {α : Type} (m : M α) : Prop :=
  ∀ r a r', m r = .ok (a, r') → r'.data = r.data ∧ r'.calls + r'.left ≤ r.calls + r.left

theorem Cheap.pure {α : Type} (a : α) : Cheap (pure a : M α) := by
  intro r b r' h
  cases h
  exact ⟨rfl, Nat.le_refl _⟩

theorem Cheap.bind {α β : Type} {m : M α} {f : α → M β} (h1 : Cheap m) (h2 : ∀ a, Cheap (f a)) : Cheap (m >>= f) := by
  intro r b r'' h
  obtain ⟨a, r', e1, e2⟩ := M.bind_inv h
  obtain ⟨d1, c1⟩ := h1 _ _ _ e1
  obtain ⟨d2, c2⟩ := h2 a _ _ _ e2
  exact ⟨d2.trans d1, by omega⟩

theorem Cheap.ite {α : Type} {p : Prop} [Decidable p] {m n : M α} (h1 : Cheap m) (h2 : Cheap n) : Cheap (if p then m else n) := by
  split
  · exact h1
  · exact h2

theorem cheap_hang {α : Type} : Cheap (M.hang : M α) := by
  intro r a r' h
  cases h

theorem getErr_cheap : Cheap getErr := by
  intro r a r' h
  cases h
  exact ⟨rfl, Nat.le_refl _⟩

theorem setError_cheap (e : Err) : Cheap (setError e) := by
  intro r a r' h
  cases h
  refine ⟨rfl, ?_⟩
  unfold R.left
  cases r.err <;> simp [Option.or]

theorem skip_cheap (n : UInt32) : Cheap (skip n) := by
  intro r a r' h
  cases h
  refine ⟨rfl, ?_⟩
  unfold R.left
  cases r.err <;> simp only <;> omega

/-- a read of `n` bytes that succeeds uses up `n - 1` more than it costs -/
theorem readFull_cost {n : Nat} (hn : 0 < n) {r r' : R} {b : Bytes} (h : readFull n r = .ok (b, r')) :
    r'.data = r.data ∧ r'.calls + r'.left ≤ r.calls + r.left ∧ (r'.err = none → r'.calls + r'.left + (n - 1) ≤ r.calls + r.left) := by
  unfold readFull at h
  cases he : r.err with
  | some e =>
    rw [he] at h
    cases h
    exact ⟨rfl, Nat.le_refl _, fun h0 => by rw [he] at h0; cases h0⟩
  | none =>
    have key : ∀ (got : Bytes) (e : Err), got.length ≤ r.data.length - r.pos →
        (if got.length = n then (.ok (got, { r with pos := r.pos + n, err := none, calls := r.calls + 1 }) : Outcome (Bytes × R))
          else .ok ([], { r with pos := r.pos + got.length, calls := r.calls + 1, err := some e })) = .ok (b, r') →
        r'.data = r.data ∧ r'.calls + r'.left ≤ r.calls + r.left ∧ (r'.err = none → r'.calls + r'.left + (n - 1) ≤ r.calls + r.left) := by
      intro got e hg h
      split at h
      · cases h
        unfold R.left
        simp only [he]
        refine ⟨trivial, ?_, fun _ => ?_⟩ <;> omega
      · cases h
        unfold R.left
        simp only [he]
        exact ⟨trivial, by omega, fun h0 => by cases h0⟩
    rw [he] at h
    dsimp only at h
    cases hp : r.plan r.calls with
    | none =>
      rw [hp] at h
      dsimp only at h
      refine key _ _ ?_ h
      rw [List.length_take, List.length_drop]
      omega
    | some x =>
      rw [hp] at h
      dsimp only at h
      refine key _ _ ?_ h
      rw [List.length_take, List.length_drop]
      omega

theorem readFull_cheap {n : Nat} (hn : 0 < n) : Cheap (readFull n) := fun _ _ _ h => ⟨(readFull_cost hn h).1, (readFull_cost hn h).2.1⟩

/-- one call into a buffer costs at most one more than it uses up -/
theorem readInto_cost (p : Bytes) {r r' : R} {b : Bytes} (h : readInto p r = .ok (b, r')) :
    r'.data = r.data ∧ r'.calls + r'.left ≤ r.calls + r.left + 1 ∧
      ((r.err.isSome ∨ 0 < p.length) → r'.calls + r'.left ≤ r.calls + r.left) := by
  unfold readInto at h
  cases he : r.err with
  | some e =>
    rw [he] at h
    cases h
    exact ⟨rfl, by omega, fun _ => Nat.le_refl _⟩
  | none =>
    rw [he] at h
    dsimp only at h
    split at h
    · cases h
      unfold R.left
      simp only [he]
      exact ⟨trivial, by omega, fun _ => by omega⟩
    · cases hp : r.plan r.calls with
      | none =>
        rw [hp] at h
        cases h
        unfold R.left
        simp only [he]
        rw [List.length_take, List.length_drop]
        refine ⟨trivial, ?_, fun hq => ?_⟩
        · split <;> rename_i hx <;> split at hx <;> first | cases hx; done | omega
        · simp only [Option.isSome_none, Bool.false_eq_true, false_or] at hq
          split <;> rename_i hx <;> split at hx <;> first | cases hx; done | omega
      | some x =>
        rw [hp] at h
        cases h
        unfold R.left
        simp only [he]
        exact ⟨trivial, by omega, fun _ => by omega⟩

theorem readUint8_cheap : Cheap readUint8 := (readFull_cheap (by decide)).bind fun _ => Cheap.pure _
theorem readUint32_cheap : Cheap readUint32 := (readFull_cheap (by decide)).bind fun _ => Cheap.pure _
theorem readUint64_cheap : Cheap readUint64 := (readFull_cheap (by decide)).bind fun _ => Cheap.pure _

theorem readUint32_cost {r r' : R} {x : UInt32} (h : readUint32 r = .ok (x, r')) (he : r'.err = none) :
    r'.calls + r'.left + 3 ≤ r.calls + r.left := by
  unfold readUint32 at h
  obtain ⟨b, r1, h1, h2⟩ := M.bind_inv h
  cases h2
  exact (readFull_cost (by decide) h1).2.2 he

theorem readPtr_cheap (mode : UInt32) : Cheap (readPtr mode) := by
  unfold readPtr
  exact Cheap.ite (readUint32_cheap.bind fun _ => Cheap.pure _) readUint64_cheap

theorem readString_cheap : Cheap readString := by
  unfold readString
  refine readUint32_cheap.bind fun n => ?_
  split
  · exact Cheap.pure _
  · rename_i hn
    refine Cheap.ite ((setError_cheap _).bind fun _ => Cheap.pure _) ?_
    refine (readFull_cheap ?_).bind fun b => getErr_cheap.bind fun e => Cheap.ite (Cheap.pure _)
      (Cheap.ite ((setError_cheap _).bind fun _ => Cheap.pure _) (Cheap.pure _))
    rcases Nat.eq_zero_or_pos n.toNat with h | h
    · exact absurd (UInt32.toNat_inj.1 h) hn
    · exact h

theorem skipString_cheap : Cheap skipString := readUint32_cheap.bind fun n => skip_cheap n
theorem skipParasite_cheap : Cheap skipParasite :=
  skipString_cheap.bind fun _ => (skip_cheap _).bind fun _ => readUint32_cheap.bind fun n => skip_cheap n

theorem forN_cheap {m : M Bool} (h : Cheap m) : ∀ n, Cheap (forN n m)
  | 0 => Cheap.pure _
  | n + 1 => h.bind fun _ => Cheap.ite (forN_cheap h n) (Cheap.pure _)

theorem forN'_cheap {m : M Bool} (h : Cheap m) : ∀ n, Cheap (forN' n m)
  | 0 => Cheap.pure _
  | n + 1 => h.bind fun _ => Cheap.ite (forN'_cheap h n) (Cheap.pure _)

theorem skipPaths_cheap : Cheap skipPaths := by
  refine (skip_cheap _).bind fun _ => readUint32_cheap.bind fun n => forN_cheap ?_ _
  refine skipString_cheap.bind fun _ => (skip_cheap _).bind fun _ => (skip_cheap _).bind fun _ =>
    (skip_cheap _).bind fun _ => readUint32_cheap.bind fun np => readUint32_cheap.bind fun v => ?_
  refine Cheap.ite ?_ (Cheap.ite ?_ (Cheap.ite ?_ ?_))
  · exact (skip_cheap _).bind fun _ => Cheap.pure _
  · exact (skip_cheap _).bind fun _ => (skip_cheap _).bind fun _ => Cheap.pure _
  · exact (skip_cheap _).bind fun _ => (skip_cheap _).bind fun _ => (skip_cheap _).bind fun _ => Cheap.pure _
  · exact (setError_cheap _).bind fun _ => Cheap.pure _

theorem skipVectors_cheap : Cheap skipVectors := by
  refine readUint32_cheap.bind fun v => Cheap.ite (setError_cheap _) ?_
  refine (skip_cheap _).bind fun _ => readUint32_cheap.bind fun n => forN_cheap ?_ _
  refine skipString_cheap.bind fun _ => (skip_cheap _).bind fun _ => (skip_cheap _).bind fun _ =>
    (skip_cheap _).bind fun _ => readUint32_cheap.bind fun m => readUint32_cheap.bind fun k => ?_
  refine (forN_cheap (skipParasite_cheap.bind fun _ => Cheap.pure _) _).bind fun _ => forN'_cheap ?_ _
  refine readUint32_cheap.bind fun t => Cheap.ite ((setError_cheap _).bind fun _ => Cheap.pure _) ?_
  refine (skip_cheap _).bind fun _ => readUint32_cheap.bind fun nf => readUint32_cheap.bind fun np => Cheap.ite ?_ ?_
  · exact (skip_cheap _).bind fun _ => Cheap.pure _
  · exact (setError_cheap _).bind fun _ => Cheap.pure _

theorem readBoolProperty_cheap : Cheap readBoolProperty := by
  refine readUint32_cheap.bind fun x => Cheap.ite (Cheap.pure _) (Cheap.ite (Cheap.pure _) ?_)
  exact (setError_cheap _).bind fun _ => Cheap.pure _

theorem readParasites_cheap : ∀ (f : Nat) (l : UInt32) (ps : List Parasite), Cheap (readParasites f l ps)
  | 0, _, _ => cheap_hang
  | f + 1, l, ps => by
    unfold readParasites
    refine Cheap.ite (Cheap.pure _) ?_
    refine readString_cheap.bind fun name => readUint32_cheap.bind fun flags => ?_
    intro r a r' h
    obtain ⟨pl, r1, e1, h⟩ := M.bind_inv h
    obtain ⟨d1, c1⟩ := readUint32_cheap _ _ _ e1
    dsimp only at h
    split at h
    · obtain ⟨d2, c2⟩ := ((setError_cheap _).bind fun _ => Cheap.pure _) _ _ _ h
      exact ⟨d2.trans d1, by omega⟩
    · obtain ⟨d, r2, e2, h⟩ := M.bind_inv h
      obtain ⟨d2, c2, c2'⟩ := readInto_cost _ e2
      obtain ⟨d3, c3⟩ := readParasites_cheap f _ _ _ _ _ h
      refine ⟨d3.trans (d2.trans d1), ?_⟩
      cases he : r1.err with
      | none => have := readUint32_cost e1 he; omega
      | some e => have := c2' (.inl (by rw [he]; rfl)); omega

theorem readParasitesAll_cheap (l : UInt32) : Cheap (readParasitesAll l) := fun r a r' h => readParasites_cheap _ _ _ r a r' h

theorem readPalette_cheap : ∀ n, Cheap (readPalette n)
  | 0 => Cheap.pure _
  | n + 1 => readUint8_cheap.bind fun _ => readUint8_cheap.bind fun _ => readUint8_cheap.bind fun _ =>
      (readPalette_cheap n).bind fun _ => Cheap.pure _

theorem imageProp_cheap (b t l : UInt32) (s : IProps) : Cheap (imageProp b t l s) := by
  unfold imageProp
  refine Cheap.ite ?_ (Cheap.ite ?_ (Cheap.ite ?_ (Cheap.ite ?_ (Cheap.ite ?_ (Cheap.ite ?_ (Cheap.ite ?_
    (Cheap.ite ?_ (Cheap.ite ?_ (Cheap.ite ?_ (Cheap.ite ?_ (Cheap.ite ?_ (Cheap.ite ?_ ?_))))))))))))
  · exact readBoolProperty_cheap.bind fun _ => Cheap.pure _
  · exact readUint32_cheap.bind fun _ => Cheap.ite (Cheap.pure _) (Cheap.pure _)
  · exact (readParasitesAll_cheap _).bind fun _ => Cheap.pure _
  · exact readUint32_cheap.bind fun _ => Cheap.pure _
  · exact (skip_cheap _).bind fun _ => readUint32_cheap.bind fun n => (readPalette_cheap _).bind fun _ => Cheap.pure _
  · exact readUint8_cheap.bind fun _ => Cheap.ite (Cheap.pure _) (Cheap.pure _)
  · refine Cheap.ite (Cheap.pure _) (Cheap.bind (forN_cheap ?_ _) fun _ => Cheap.pure _)
    exact (skip_cheap _).bind fun _ => (skip_cheap _).bind fun _ => Cheap.pure _
  · exact skipPaths_cheap.bind fun _ => Cheap.pure _
  · exact (skip_cheap _).bind fun _ => (skip_cheap _).bind fun _ => Cheap.pure _
  · refine Cheap.ite (Cheap.pure _) (Cheap.bind (forN_cheap ?_ _) fun _ => Cheap.pure _)
    exact (skip_cheap _).bind fun _ => (skip_cheap _).bind fun _ => Cheap.pure _
  · exact readUint32_cheap.bind fun _ => Cheap.ite (Cheap.pure _) (Cheap.pure _)
  · exact (skip_cheap _).bind fun _ => (skip_cheap _).bind fun _ => skipString_cheap.bind fun _ =>
      skipString_cheap.bind fun _ => skipString_cheap.bind fun _ => skipString_cheap.bind fun _ =>
      skipString_cheap.bind fun _ => Cheap.pure _
  · exact skipVectors_cheap.bind fun _ => Cheap.pure _
  · exact (skip_cheap _).bind fun _ => Cheap.pure _

theorem imageProps_cheap (b : UInt32) : ∀ (f : Nat) (s : IProps), Cheap (imageProps b f s)
  | 0, _ => cheap_hang
  | f + 1, s => by
    unfold imageProps
    refine readUint32_cheap.bind fun t => readUint32_cheap.bind fun l => Cheap.ite (Cheap.ite (Cheap.pure _) (Cheap.pure _)) ?_
    refine (imageProp_cheap _ _ _ _).bind fun x => ?_
    split
    · exact Cheap.pure _
    · exact imageProps_cheap b f _

theorem readImageProperties_cheap (b : UInt32) : Cheap (readImageProperties b) := fun r a r' h => imageProps_cheap b _ _ r a r' h

theorem layerPointers_cheap (mode : UInt32) : ∀ (f : Nat) (ps : List UInt64), Cheap (layerPointers mode f ps)
  | 0, _ => cheap_hang
  | f + 1, _ => (readPtr_cheap mode).bind fun _ => Cheap.ite (Cheap.pure _) (layerPointers_cheap mode f _)

theorem readLayerPointers_cheap (mode : UInt32) : Cheap (readLayerPointers mode) := fun r a r' h => layerPointers_cheap mode _ _ r a r' h

theorem readHeader_cheap : Cheap readHeader := by
  unfold readHeader
  have h14 : Cheap (readInto (List.replicate 14 0)) := fun r a r' h =>
    ⟨(readInto_cost _ h).1, (readInto_cost _ h).2.2 (.inr (by rw [List.length_replicate]; decide))⟩
  refine h14.bind fun h => getErr_cheap.bind fun e => ?_
  split
  · exact Cheap.pure _
  · refine Cheap.ite (Cheap.pure _) ?_
    split
    · exact Cheap.pure _
    · exact Cheap.ite (Cheap.pure _) (Cheap.pure _)

theorem readPrecision_cheap (b : Bool) : Cheap (readPrecision b) := by
  unfold readPrecision
  exact Cheap.ite readUint32_cheap (Cheap.pure _)

theorem readHead_cheap : Cheap readHead := by
  unfold readHead
  refine readHeader_cheap.bind fun x => ?_
  split
  · exact Cheap.pure _
  · refine readUint32_cheap.bind fun _ => readUint32_cheap.bind fun _ => readUint32_cheap.bind fun _ =>
      (readPrecision_cheap _).bind fun _ => (readImageProperties_cheap _).bind fun x => ?_
    split
    · exact Cheap.pure _
    · refine (readLayerPointers_cheap _).bind fun _ => getErr_cheap.bind fun e => ?_
      split <;> exact Cheap.pure _

theorem decodeConfigM_cheap : Cheap decodeConfigM := by
  unfold decodeConfigM
  refine readHeader_cheap.bind fun x => ?_
  split
  · exact Cheap.pure _
  · refine readUint32_cheap.bind fun _ => readUint32_cheap.bind fun _ => readUint32_cheap.bind fun _ =>
      (readPrecision_cheap _).bind fun _ => Cheap.ite ?_ (Cheap.ite ?_ (Cheap.ite ?_ ?_))
    · exact getErr_cheap.bind fun _ => Cheap.pure _
    · exact getErr_cheap.bind fun _ => Cheap.pure _
    · refine (readImageProperties_cheap _).bind fun x => ?_
      split
      · exact Cheap.pure _
      · exact getErr_cheap.bind fun _ => Cheap.pure _
    · exact getErr_cheap.bind fun _ => Cheap.pure _

theorem calls_start {α : Type} {m : M α} (h : Cheap m) {plan : Nat → Option (Nat × Err)} {D : Bytes} {a : α} {r : R}
    (e : m (newReader plan D) = .ok (a, r)) : r.calls + r.left ≤ D.length + 1 := by
  have := (h _ _ _ e).2
  have e0 : (newReader plan D).calls = 0 := rfl
  have e1 : (newReader plan D).left = D.length + 1 := rfl
  omega

end Limage.Failing

namespace Limage
open Failing

/-- **C157** `DecodeConfig` returns, having read from the source at most once for every byte of the file and once more, whatever the file says and
whichever calls fail.  (`decodeConfigM` is `DecodeConfig` with the reader it leaves.) -/
theorem C157_config (D : Bytes) (plan : Nat → Option (Nat × Err)) :
    ∃ x r, Failing.decodeConfigM (Failing.newReader plan D) = .ok (x, r) ∧ Failing.decodeConfig D plan = .ok x ∧ r.calls ≤ D.length + 1 := by
  obtain ⟨x, r, h, -, -⟩ := Failing.decodeConfigM_total (Failing.newReader plan D)
  refine ⟨x, r, h, by unfold Failing.decodeConfig; rw [h], ?_⟩
  have := calls_start decodeConfigM_cheap h
  omega

/-- a file of 70 bytes with a palette of two colours, for which the source is read 15 times, 6 times for the palette alone; once if the first call
fails, and 7 times if the seventh, for the length of the palette, does -/
example : let D : Bytes := [103, 105, 109, 112, 32, 120, 99, 102, 32, 118, 48, 48, 51, 0] ++
      [0, 0, 0, 5, 0, 0, 0, 7, 0, 0, 0, 2, 0, 0, 0, 1, 0, 0, 0, 10, 0, 0, 0, 2, 1, 2, 3, 4, 5, 6] ++ List.replicate 26 0
    let calls := fun (plan : Nat → Option (Nat × Err)) => match Failing.decodeConfigM (Failing.newReader plan D) with
      | .ok (x, r) => some (x.1.width, x.1.height, x.2.isSome, r.calls)
      | _ => none
    D.length = 70 ∧ calls (fun _ => none) = some (5, 7, false, 15) ∧ calls (fun _ => some (0, .eof)) = some (0, 0, true, 1) ∧
      calls (fun n => if n = 6 then some (2, .eof) else none) = some (5, 7, true, 7) := by
  decide +kernel

/-- **C157** The same for what `Decode` and `DecodeCompressed` read in front of the layers; if there was no error, what they have not read of the file is
not counted against them. -/
theorem C157_head (D : Bytes) (plan : Nat → Option (Nat × Err)) :
    ∃ x r, Failing.readHead (Failing.newReader plan D) = .ok (x, r) ∧ r.calls ≤ D.length + 1 ∧
      (r.err = none → r.calls + (D.length - r.pos) ≤ D.length) := by
  obtain ⟨x, r, h, -, -⟩ := Failing.readHead_total (Failing.newReader plan D)
  have h1 := calls_start readHead_cheap h
  have hd : r.data = D := (readHead_cheap _ _ _ h).1
  refine ⟨x, r, h, by omega, fun he => ?_⟩
  unfold Failing.R.left at h1
  rw [he, hd] at h1
  dsimp only at h1
  omega

/-- an RGB file with two pointers to layers: 9 calls for the 46 bytes in front of the layers -/
example : let D : Bytes := [103, 105, 109, 112, 32, 120, 99, 102, 32, 118, 48, 48, 51, 0] ++ [0, 0, 0, 5, 0, 0, 0, 7, 0, 0, 0, 0] ++
      List.replicate 8 0 ++ [0, 0, 0, 50, 0, 0, 0, 60, 0, 0, 0, 0] ++ List.replicate 100 1
    (match Failing.readHead (Failing.newReader (fun _ => none) D) with
      | .ok (.ok h, r) => some (h.ptrs, r.err.isNone, r.pos, r.calls)
      | _ => none) = some ([50, 60], true, 46, 9) := by
  decide +kernel

end Limage
