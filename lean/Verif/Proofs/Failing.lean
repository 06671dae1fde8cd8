import Verif.Model.Failing
/-!
# Lockstep of the readers over failing and faultless sources
-/
namespace Limage.Failing

/-- the reader without the plan -/
def R.core (r : R) : Limage.R := ⟨r.data, r.limit, r.pos, r.err⟩

/-- a result without the plan -/
def out {α : Type} : Outcome (α × R) → Outcome (α × Limage.R)
  | .ok (a, s) => .ok (a, s.core)
  | .panic => .panic
  | .hang => .hang

/-- A computation that ends without an error did the same as over the faultless source; and with a
plan without failures it always does. -/
structure Agrees {α : Type} (m' : M α) (m : Limage.M α) : Prop where
  good : ∀ r a s, m' r = .ok (a, s) → s.err = none → r.err = none ∧ m r.core = .ok (a, s.core)
  same : ∀ r, (∀ i, r.plan i = none) → m r.core = out (m' r) ∧ ∀ a s, m' r = .ok (a, s) → s.plan = r.plan

theorem Agrees.pure {α : Type} (a : α) : Agrees (Pure.pure a : M α) (Pure.pure a) := by
  refine ⟨fun r b s h he => ?_, fun r hp => ⟨rfl, fun b s h => ?_⟩⟩
  · cases h
    exact ⟨he, rfl⟩
  · cases h
    rfl

theorem Agrees.panic {α : Type} : Agrees (M.panic : M α) Limage.M.panic :=
  ⟨fun _ _ _ h _ => (nomatch h), fun _ _ => ⟨rfl, fun _ _ h => (nomatch h)⟩⟩

theorem Agrees.hang {α : Type} : Agrees (M.hang : M α) Limage.M.hang :=
  ⟨fun _ _ _ h _ => (nomatch h), fun _ _ => ⟨rfl, fun _ _ h => (nomatch h)⟩⟩

theorem Agrees.bind {α β : Type} {m' : M α} {m : Limage.M α} {f' : α → M β} {f : α → Limage.M β}
    (h : Agrees m' m) (hf : ∀ a, Agrees (f' a) (f a)) : Agrees (m' >>= f') (m >>= f) := by
  refine ⟨fun r b s hr he => ?_, fun r hp => ?_⟩
  · change M.bind m' f' r = _ at hr
    change _ ∧ Limage.M.bind m f r.core = _
    unfold M.bind at hr
    cases hm : m' r with
    | panic => rw [hm] at hr; cases hr
    | hang => rw [hm] at hr; cases hr
    | ok x =>
      obtain ⟨a, t⟩ := x
      rw [hm] at hr
      obtain ⟨ht, e⟩ := (hf a).good t b s hr he
      obtain ⟨h1, h2⟩ := h.good r a t hm ht
      refine ⟨h1, ?_⟩
      unfold Limage.M.bind
      rw [h2]
      exact e
  · change Limage.M.bind m f r.core = out (M.bind m' f' r) ∧ ∀ a s, M.bind m' f' r = _ → _
    obtain ⟨h1, h2⟩ := h.same r hp
    unfold Limage.M.bind M.bind
    rw [h1]
    cases hm : m' r with
    | panic => exact ⟨rfl, fun _ _ h => by cases h⟩
    | hang => exact ⟨rfl, fun _ _ h => by cases h⟩
    | ok x =>
      obtain ⟨a, t⟩ := x
      have ht := h2 a t hm
      obtain ⟨h3, h4⟩ := (hf a).same t (by rw [ht]; exact hp)
      exact ⟨h3, fun b s hb => (h4 b s hb).trans ht⟩

theorem Agrees.ite {α : Type} {c : Prop} [Decidable c] {m' n' : M α} {m n : Limage.M α}
    (h1 : Agrees m' m) (h2 : Agrees n' n) : Agrees (if c then m' else n') (if c then m else n) := by
  by_cases hc : c
  · rwa [if_pos hc, if_pos hc]
  · rwa [if_neg hc, if_neg hc]

/-- fuel that depends on the length of the data -/
theorem Agrees.fuel {α : Type} {m' : Nat → M α} {m : Nat → Limage.M α} (h : ∀ n, Agrees (m' n) (m n))
    (k : Nat → Nat) : Agrees (fun r => m' (k r.data.length) r) (fun r => m (k r.data.length) r) :=
  ⟨fun r a s hr he => (h _).good r a s hr he, fun r hp => (h _).same r hp⟩

theorem Agrees.getErr : Agrees getErr Limage.getErr := by
  refine ⟨fun r b s h he => ?_, fun r hp => ⟨rfl, fun b s h => ?_⟩⟩
  · cases h
    exact ⟨he, rfl⟩
  · cases h
    rfl

theorem Agrees.putErr (e : Err) : Agrees (putErr (some e)) (Limage.putErr (some e)) := by
  refine ⟨fun r b s h he => ?_, fun r hp => ⟨rfl, fun b s h => ?_⟩⟩
  · cases h
    cases he
  · cases h
    rfl

theorem Agrees.setError (e : Err) : Agrees (setError e) (Limage.setError e) := by
  refine ⟨fun r b s h he => ?_, fun r hp => ⟨rfl, fun b s h => ?_⟩⟩
  · cases h
    revert he
    cases r.err <;> (intro he; cases he)
  · cases h
    rfl

theorem Agrees.goto (n : UInt64) : Agrees (goto n) (Limage.goto n) := by
  unfold Failing.goto Limage.goto
  by_cases hn : n.toNat < 2 ^ 63
  · simp only [hn, if_true]
    refine ⟨fun r b s h he => ?_, fun r hp => ⟨rfl, fun b s h => ?_⟩⟩
    · cases h
      exact ⟨he, rfl⟩
    · cases h
      rfl
  · simp only [hn, if_false]
    refine ⟨fun r b s h he => ?_, fun r hp => ⟨rfl, fun b s h => ?_⟩⟩
    · cases h
      exact ⟨he, rfl⟩
    · cases h
      rfl

theorem Agrees.skip (n : UInt32) : Agrees (skip n) (Limage.skip n) := by
  refine ⟨fun r b s h he => ?_, fun r hp => ⟨rfl, fun b s h => ?_⟩⟩
  · cases h
    exact ⟨he, rfl⟩
  · cases h
    rfl

theorem Agrees.readInto (p : Bytes) : Agrees (readInto p) (Limage.readInto p) := by
  refine ⟨fun r b s h he => ?_, fun r hp => ?_⟩
  · obtain ⟨data, limit, pos, err, plan, calls⟩ := r
    unfold Failing.readInto at h
    unfold Limage.readInto R.core
    cases err with
    | some e => cases h; cases he
    | none =>
      refine ⟨rfl, ?_⟩
      dsimp only at h ⊢
      by_cases hl : limit ≤ pos
      · rw [if_pos hl] at h
        cases h
        cases he
      · rw [if_neg hl] at h ⊢
        cases hq : plan calls with
        | some x => rw [hq] at h; cases h; cases he
        | none => rw [hq] at h; cases h; rfl
  · obtain ⟨data, limit, pos, err, plan, calls⟩ := r
    have hq := hp calls
    unfold Failing.readInto Limage.readInto R.core
    cases err with
    | some e => exact ⟨rfl, fun _ _ h => by cases h; rfl⟩
    | none =>
      dsimp only at hq ⊢
      by_cases hl : limit ≤ pos
      · rw [if_pos hl, if_pos hl]
        exact ⟨rfl, fun _ _ h => by cases h; rfl⟩
      · rw [if_neg hl, if_neg hl, hq]
        exact ⟨rfl, fun _ _ h => by cases h; rfl⟩

theorem Agrees.copyN (n : Nat) : Agrees (copyN n) (Limage.copyN n) := by
  refine ⟨fun r b s h he => ?_, fun r hp => ?_⟩
  · obtain ⟨data, limit, pos, err, plan, calls⟩ := r
    unfold Failing.copyN at h
    unfold Limage.copyN R.core
    cases err with
    | some e => cases h; cases he
    | none =>
      refine ⟨rfl, ?_⟩
      dsimp only at h ⊢
      cases hq : plan calls with
      | some x => rw [hq] at h; cases h; cases he
      | none => rw [hq] at h; cases h; rfl
  · obtain ⟨data, limit, pos, err, plan, calls⟩ := r
    have hq := hp calls
    unfold Failing.copyN Limage.copyN R.core
    cases err with
    | some e => exact ⟨rfl, fun _ _ h => by cases h; rfl⟩
    | none =>
      dsimp only at hq ⊢
      rw [hq]
      exact ⟨rfl, fun _ _ h => by cases h; rfl⟩

theorem Agrees.readFull (n : Nat) : Agrees (readFull n) (Limage.readFull n) := by
  refine ⟨fun r b s h he => ?_, fun r hp => ?_⟩
  · obtain ⟨data, limit, pos, err, plan, calls⟩ := r
    unfold Failing.readFull at h
    unfold Limage.readFull R.core
    cases err with
    | some e => cases h; cases he
    | none =>
      refine ⟨rfl, ?_⟩
      dsimp only at h ⊢
      cases hq : plan calls with
      | some x =>
        obtain ⟨k, e⟩ := x
        rw [hq] at h
        dsimp only at h
        by_cases hl : ((data.drop pos).take (min (min k n) (limit - pos))).length = n
        · rw [if_pos hl] at h
          have hk : n ≤ min (min k n) (limit - pos) := by
            rw [List.length_take] at hl
            omega
          have hmin : min (min k n) (limit - pos) = min n (limit - pos) := by omega
          rw [hmin] at hl h
          rw [if_pos hl]
          cases h
          rfl
        · rw [if_neg hl] at h
          cases h
          cases he
      | none =>
        rw [hq] at h
        dsimp only at h
        by_cases hl : ((data.drop pos).take (min n (limit - pos))).length = n
        · rw [if_pos hl] at h ⊢
          cases h
          rfl
        · rw [if_neg hl] at h
          cases h
          cases he
  · obtain ⟨data, limit, pos, err, plan, calls⟩ := r
    have hq := hp calls
    unfold Failing.readFull Limage.readFull R.core
    cases err with
    | some e => exact ⟨rfl, fun _ _ h => by cases h; rfl⟩
    | none =>
      dsimp only at hq ⊢
      rw [hq]
      dsimp only
      by_cases hl : ((data.drop pos).take (min n (limit - pos))).length = n
      · rw [if_pos hl, if_pos hl]
        exact ⟨rfl, fun _ _ h => by cases h; rfl⟩
      · rw [if_neg hl, if_neg hl]
        exact ⟨rfl, fun _ _ h => by cases h; rfl⟩

theorem Agrees.readUint8 : Agrees readUint8 Limage.readUint8 := .bind (.readFull 1) fun _ => .pure _
theorem Agrees.readUint16 : Agrees readUint16 Limage.readUint16 := .bind (.readFull 2) fun _ => .pure _
theorem Agrees.readUint32 : Agrees readUint32 Limage.readUint32 := .bind (.readFull 4) fun _ => .pure _
theorem Agrees.readUint64 : Agrees readUint64 Limage.readUint64 := .bind (.readFull 8) fun _ => .pure _

/-- one step: a sequence, a condition or one of the computations known to agree -/
macro "agree" : tactic => `(tactic| with_reducible first
  | exact Agrees.pure _ | exact Agrees.panic | exact Agrees.hang | exact Agrees.getErr
  | exact Agrees.putErr _ | exact Agrees.setError _ | exact Agrees.goto _ | exact Agrees.skip _
  | exact Agrees.readInto _ | exact Agrees.readFull _ | exact Agrees.copyN _
  | exact Agrees.readUint8 | exact Agrees.readUint16 | exact Agrees.readUint32 | exact Agrees.readUint64
  | assumption
  | refine Agrees.bind ?_ fun _ => ?_
  | refine Agrees.ite ?_ ?_)

theorem Agrees.readString : Agrees readString Limage.readString := by
  unfold Failing.readString Limage.readString
  repeat' agree

theorem Agrees.skipString : Agrees skipString Limage.skipString := by
  unfold Failing.skipString Limage.skipString
  repeat' agree

theorem Agrees.skipParasite : Agrees skipParasite Limage.skipParasite := by
  unfold Failing.skipParasite Limage.skipParasite
  refine .bind .skipString fun _ => .bind (.skip _) fun _ => ?_
  repeat' agree

theorem Agrees.forN {m' : M Bool} {m : Limage.M Bool} (h : Agrees m' m) (n : Nat) :
    Agrees (forN n m') (Limage.forN n m) := by
  induction n with
  | zero => exact .pure _
  | succ n ih => exact .bind h fun b => .ite ih (.pure _)

theorem Agrees.forN' {m' : M Bool} {m : Limage.M Bool} (h : Agrees m' m) (n : Nat) :
    Agrees (forN' n m') (Limage.forN' n m) := by
  induction n with
  | zero => exact .pure _
  | succ n ih => exact .bind h fun b => .ite ih (.pure _)

theorem Agrees.skipPaths : Agrees skipPaths Limage.skipPaths := by
  unfold Failing.skipPaths Limage.skipPaths
  refine .bind (.skip _) fun _ => .bind .readUint32 fun n => .forN ?_ _
  refine .bind .skipString fun _ => .bind (.skip _) fun _ => .bind (.skip _) fun _ =>
    .bind (.skip _) fun _ => ?_
  repeat' first | agree | exact .skip _

theorem Agrees.skipVectors : Agrees skipVectors Limage.skipVectors := by
  unfold Failing.skipVectors Limage.skipVectors
  refine .bind .readUint32 fun _ => .ite (.setError _) (.bind (.skip _) fun _ => .bind .readUint32 fun n => .forN ?_ _)
  refine .bind .skipString fun _ => .bind (.skip _) fun _ => .bind (.skip _) fun _ =>
    .bind (.skip _) fun _ => .bind .readUint32 fun _ => .bind .readUint32 fun _ =>
    .bind (.forN (.bind .skipParasite fun _ => .pure _) _) fun _ => .forN' ?_ _
  repeat' first | agree | exact .skip _

theorem Agrees.readBoolProperty : Agrees readBoolProperty Limage.readBoolProperty := by
  unfold Failing.readBoolProperty Limage.readBoolProperty
  repeat' agree

theorem Agrees.rleHead (s : Rle) (m : UInt8) : Agrees (rleHead s m) (Limage.rleHead s m) := by
  unfold Failing.rleHead Limage.rleHead
  repeat' agree

theorem Agrees.rleOp (s : Rle) : Agrees (rleOp s) (Limage.rleOp s) := by
  refine .bind .readUint8 fun m => .bind .getErr fun e => ?_
  cases e with
  | some e => exact .pure _
  | none =>
    refine .bind (.rleHead _ _) fun s => .bind .getErr fun e => ?_
    cases e with
    | some e => exact .bind (.putErr _) fun _ => .pure _
    | none => exact .pure _

theorem Agrees.rleCopy (s : Rle) (c : Nat) (p : Bytes) : Agrees (rleCopy s c p) (Limage.rleCopy s c p) := by
  unfold Failing.rleCopy Limage.rleCopy
  repeat' agree

theorem Agrees.rleRead (f : Nat) (s : Rle) (p : Bytes) : Agrees (rleRead f s p) (Limage.rleRead f s p) := by
  induction f generalizing s p with
  | zero => exact .hang
  | succ f ih =>
    have k : ∀ x : Rle × Option Err, Agrees
        (match x with
          | (s, e) => match e with
            | some e => Pure.pure (p, s, some e)
            | none => do
              let w ← Failing.rleCopy s (min s.count.toNat p.length) p
              let (rest, s, e) ← Failing.rleRead f
                { s with count := s.count - UInt16.ofNat (min s.count.toNat p.length) }
                (p.drop (min s.count.toNat p.length))
              return (w ++ rest, s, e) : M (Bytes × Rle × Option Err))
        (match x with
          | (s, e) => match e with
            | some e => Pure.pure (p, s, some e)
            | none => do
              let w ← Limage.rleCopy s (min s.count.toNat p.length) p
              let (rest, s, e) ← Limage.rleRead f
                { s with count := s.count - UInt16.ofNat (min s.count.toNat p.length) }
                (p.drop (min s.count.toNat p.length))
              return (w ++ rest, s, e) : Limage.M (Bytes × Rle × Option Err)) := by
      rintro ⟨s, e⟩
      cases e with
      | some e => exact .pure _
      | none => exact .bind (.rleCopy _ _ _) fun w => .bind (ih _ _) fun x => .pure _
    exact .bind .getErr fun e => .ite (.ite (.pure _) (.pure _))
      (.ite (.bind (.rleOp _) k) (.bind (.pure _) k))

theorem Agrees.rleReadAll (s : Rle) (p : Bytes) : Agrees (rleReadAll s p) (Limage.rleReadAll s p) :=
  .fuel (m' := fun n => Failing.rleRead n s p) (m := fun n => Limage.rleRead n s p) (fun n => .rleRead n s p)
    fun l => p.length + l + 2

theorem Agrees.copyOp (c : UInt8) : Agrees (copyOp c) (Limage.copyOp c) := by
  unfold Failing.copyOp Limage.copyOp
  repeat' agree

theorem Agrees.readRLE (f : Nat) (c : Int) : Agrees (readRLE f c) (Limage.readRLE f c) := by
  induction f generalizing c with
  | zero => exact .hang
  | succ f ih =>
    refine .ite (.pure _) (.bind .readUint8 fun d => .bind (.copyOp _) fun x => .bind (ih _) fun y => .pure _)

theorem Agrees.readRLEAll (n : Nat) : Agrees (readRLEAll n) (Limage.readRLEAll n) :=
  .fuel (m' := fun k => Failing.readRLE k n) (m := fun k => Limage.readRLE k n) (fun k => .readRLE k n)
    fun l => n + l + 2

theorem Agrees.allocate (n k : Nat) : Agrees (allocate n k) (Limage.allocate n k) :=
  .ite .panic (.pure _)

theorem Agrees.readPtr (mode : UInt32) : Agrees (readPtr mode) (Limage.readPtr mode) := by
  unfold Failing.readPtr Limage.readPtr
  repeat' agree

theorem Agrees.readPtrs (mode : UInt32) (n : Nat) : Agrees (readPtrs mode n) (Limage.readPtrs mode n) := by
  induction n with
  | zero => exact .pure _
  | succ n ih => exact .bind (.readPtr _) fun _ => .bind ih fun _ => .pure _

theorem Agrees.readTiles (c : Ctx) (w h : Nat) : Agrees (readTiles c w h) (Limage.readTiles c w h) :=
  .bind (.allocate _ _) fun _ => .readPtrs _ _

theorem Agrees.tileLoop {σ : Type} {b' : Tile → σ → M σ} {b : Tile → σ → Limage.M σ}
    (h : ∀ t s, Agrees (b' t s) (b t s)) (width height : Nat) (tiles : List UInt64) (s : σ) :
    Agrees (tileLoop width height tiles s b') (Limage.tileLoop width height tiles s b) := by
  refine .ite (.ite .hang (.pure _)) (.ite (.pure _) (.ite .panic ?_))
  generalize tileGrid width height = g
  induction g generalizing tiles s with
  | nil => exact .pure _
  | cons t g ih =>
    cases tiles with
    | nil => exact .panic
    | cons p ps => exact .bind (.goto _) fun _ => .bind (h _ _) fun s => ih _ _

theorem Agrees.setErr? (e : Option Err) : Agrees (setErr? e) (Limage.setErr? e) := by
  cases e with
  | none => exact .pure _
  | some e => exact .setError e

theorem Agrees.eagerTile (c : Ctx) (bpp : Nat) (t : Tile) (s : EagerState) :
    Agrees (eagerTile c bpp t s) (Limage.eagerTile c bpp t s) :=
  .ite (.bind (.readInto _) fun _ => .pure _)
    (.bind (.rleReadAll _ _) fun _ => .bind (.setErr? _) fun _ => .pure _)

theorem Agrees.readEager (c : Ctx) (kind bpp width height : Nat) (tiles : List UInt64) :
    Agrees (readEager c kind bpp width height tiles) (Limage.readEager c kind bpp width height tiles) :=
  .ite (.bind (.allocate _ _) fun _ => .bind (.tileLoop (.eagerTile c bpp) _ _ _ _) fun _ => .pure _)
    (.bind (.tileLoop (fun _ _ => .panic) _ _ _ _) fun _ => .pure _)

theorem Agrees.readChannels (n k : Nat) : Agrees (readChannels n k) (Limage.readChannels n k) := by
  induction k with
  | zero => exact .pure _
  | succ k ih => exact .bind (.readRLEAll _) fun _ => .bind (.setErr? _) fun _ => .bind ih fun _ => .pure _

theorem Agrees.readLazy (c : Ctx) (kind bpp width height : Nat) (tiles : List UInt64) :
    Agrees (readLazy c kind bpp width height tiles) (Limage.readLazy c kind bpp width height tiles) :=
  .bind (.allocate _ _) fun _ => .bind
    (.tileLoop (fun _ _ => .bind (.readChannels _ _) fun _ => .pure _) _ _ _ _) fun _ =>
    .ite (.pure _) (.pure _)

theorem Agrees.readLevel (c : Ctx) (width height kind : UInt32) :
    Agrees (readLevel c width height kind) (Limage.readLevel c width height kind) := by
  unfold Failing.readLevel Limage.readLevel
  repeat' first | agree | exact .readPtr _ | exact .readTiles _ _ _

theorem Agrees.readImage (c : Ctx) (width height kind : UInt32) :
    Agrees (readImage c width height kind) (Limage.readImage c width height kind) := by
  refine .bind (.readLevel _ _ _ _) fun x => ?_
  cases x with
  | none => exact .pure _
  | some x =>
    obtain ⟨bpp, tiles⟩ := x
    exact .ite (.bind (.readEager _ _ _ _ _ _) fun _ => .pure _) (.bind (.readLazy _ _ _ _ _ _) fun _ => .pure _)

theorem Agrees.readParasites (f : Nat) (l : UInt32) (ps : List Parasite) :
    Agrees (readParasites f l ps) (Limage.readParasites f l ps) := by
  induction f generalizing l ps with
  | zero => exact .hang
  | succ f ih =>
    exact .ite (.pure _) (.bind .readString fun _ => .bind .readUint32 fun _ => .bind .readUint32 fun _ =>
      .ite (.bind (.setError _) fun _ => .pure _) (.bind (.readInto _) fun _ => ih _ _))

theorem Agrees.readParasitesAll (l : UInt32) : Agrees (readParasitesAll l) (Limage.readParasitesAll l) :=
  .fuel (m' := fun n => Failing.readParasites n l []) (m := fun n => Limage.readParasites n l [])
    (fun n => .readParasites n l []) fun k => l.toNat + k + 2

theorem Agrees.readHeader : Agrees readHeader Limage.readHeader := by
  refine .bind (.readInto _) fun hd => .bind .getErr fun e => ?_
  cases e with
  | some e => exact .pure _
  | none =>
    refine .ite (.pure _) ?_
    generalize (versions.find? fun v => v.1 = (hd.drop 9).take 4) = v
    cases v with
    | none => exact .pure _
    | some v => exact .ite (.pure _) (.pure _)

theorem Agrees.readPalette (n : Nat) : Agrees (readPalette n) (Limage.readPalette n) := by
  induction n with
  | zero => exact .pure _
  | succ n ih =>
    exact .bind .readUint8 fun _ => .bind .readUint8 fun _ => .bind .readUint8 fun _ => .bind ih fun _ => .pure _

theorem Agrees.imageProp (baseType typ plength : UInt32) (s : IProps) :
    Agrees (imageProp baseType typ plength s) (Limage.imageProp baseType typ plength s) := by
  unfold Failing.imageProp Limage.imageProp
  repeat' first
    | agree | exact .readBoolProperty | exact .readParasitesAll _ | exact .readPalette _ | exact .skipPaths
    | exact .skipVectors | exact .skipString | exact .skip _
    | (refine .forN ?_ _)

theorem Agrees.imageProps (baseType : UInt32) (f : Nat) (s : IProps) :
    Agrees (imageProps baseType f s) (Limage.imageProps baseType f s) := by
  induction f generalizing s with
  | zero => exact .hang
  | succ f ih =>
    refine .bind .readUint32 fun _ => .bind .readUint32 fun _ => .ite (.ite (.pure _) (.pure _))
      (.bind (.imageProp _ _ _ _) fun x => ?_)
    cases x with
    | error e => exact .pure _
    | ok s => exact ih s

theorem Agrees.readImageProperties (baseType : UInt32) :
    Agrees (readImageProperties baseType) (Limage.readImageProperties baseType) :=
  .fuel (m' := fun n => Failing.imageProps baseType n ⟨[], 0⟩) (m := fun n => Limage.imageProps baseType n ⟨[], 0⟩)
    (fun n => .imageProps _ n _) fun k => k + 2

theorem Agrees.layerPointers (mode : UInt32) (f : Nat) (ps : List UInt64) :
    Agrees (layerPointers mode f ps) (Limage.layerPointers mode f ps) := by
  induction f generalizing ps with
  | zero => exact .hang
  | succ f ih => exact .bind (.readPtr _) fun _ => .ite (.pure _) (ih _)

theorem Agrees.readLayerPointers (mode : UInt32) :
    Agrees (readLayerPointers mode) (Limage.readLayerPointers mode) :=
  .fuel (m' := fun n => Failing.layerPointers mode n []) (m := fun n => Limage.layerPointers mode n [])
    (fun n => .layerPointers _ n _) fun k => k + 2

theorem Agrees.readUint32s (n : Nat) : Agrees (readUint32s n) (Limage.readUint32s n) := by
  induction n with
  | zero => exact .pure _
  | succ n ih => exact .bind .readUint32 fun _ => .bind ih fun _ => .pure _

theorem Agrees.readItemPath (n : UInt32) : Agrees (readItemPath n) (Limage.readItemPath n) :=
  .bind (.setErr? _) fun _ => .readUint32s _

theorem Agrees.layerProp (c : Ctx) (typ plength : UInt32) (s : LProps) :
    Agrees (layerProp c typ plength s) (Limage.layerProp c typ plength s) := by
  unfold Failing.layerProp Limage.layerProp
  repeat' first
    | agree | exact .readBoolProperty | exact .readParasitesAll _ | exact .setErr? _ | exact .readItemPath _
    | exact .skip _

theorem Agrees.layerProps (c : Ctx) (f : Nat) (s : LProps) :
    Agrees (layerProps c f s) (Limage.layerProps c f s) := by
  induction f generalizing s with
  | zero => exact .hang
  | succ f ih =>
    exact .bind .readUint32 fun _ => .bind .readUint32 fun _ => .ite (.bind (.setErr? _) fun _ => .pure _)
      (.bind (.layerProp _ _ _ _) fun x => ih _)

theorem Agrees.readLayerProperties (c : Ctx) : Agrees (readLayerProperties c) (Limage.readLayerProperties c) :=
  .fuel (m' := fun n => Failing.layerProps c n LProps.start) (m := fun n => Limage.layerProps c n LProps.start)
    (fun n => .layerProps _ n _) fun k => k + 2

theorem Agrees.skipProperties (f : Nat) : Agrees (skipProperties f) (Limage.skipProperties f) := by
  induction f with
  | zero => exact .hang
  | succ f ih =>
    exact .bind .readUint32 fun _ => .bind .readUint32 fun _ => .ite (.setErr? _)
      (.ite (.bind .readUint32 fun _ => .bind (.setErr? _) fun _ => ih) (.bind (.skip _) fun _ => ih))

theorem Agrees.skipPropertiesAll : Agrees skipPropertiesAll Limage.skipPropertiesAll :=
  .fuel (m' := Failing.skipProperties) (m := Limage.skipProperties) .skipProperties fun k => k + 2

theorem Agrees.readChannel (c : Ctx) : Agrees (readChannel c) (Limage.readChannel c) := by
  refine .bind .readUint32 fun _ => .bind .readUint32 fun _ => .bind .skipString fun _ =>
    .bind .skipPropertiesAll fun _ => .bind (.readPtr _) fun _ => .bind (.goto _) fun _ =>
    .bind (.readImage _ _ _ _) fun x => ?_
  cases x with
  | none => exact .pure _
  | some x =>
    cases x with
    | eager im => exact .pure _
    | lazy im => exact .panic

theorem Agrees.readMask (c : Ctx) (bounds : Rect) (im : Img) :
    Agrees (readMask c bounds im) (Limage.readMask c bounds im) := by
  refine .bind (.readChannel c) fun x => ?_
  cases x with
  | none => exact .pure _
  | some m => exact .ite (.pure _) (.bind (.setError _) fun _ => .pure _)

theorem Agrees.layerImage (c : Ctx) (group : Bool) (width height typ : UInt32) :
    Agrees (layerImage c group width height typ) (Limage.layerImage c group width height typ) := by
  refine .ite (.pure _) (.bind (.readImage _ _ _ _) fun x => ?_)
  cases x with
  | none => exact .pure _
  | some d => exact .pure _

theorem Agrees.layerText (c : Ctx) (ps : List Parasite) (im : Img) :
    Agrees (layerText c ps im) (Limage.layerText c ps im) := by
  unfold Failing.layerText Limage.layerText
  cases getParasite ps textParasiteName with
  | none => exact .pure _
  | some t =>
    dsimp only
    cases c.env.parseText t.data with
    | panic => exact .panic
    | hang => exact .hang
    | ok d =>
      cases d with
      | none => exact .bind (.setError _) fun _ => .pure _
      | some d => exact .pure _

theorem Agrees.readLayer (c : Ctx) : Agrees (readLayer c) (Limage.readLayer c) := by
  refine .bind .readUint32 fun width => .bind .readUint32 fun height => .bind .readUint32 fun typ =>
    .ite (.bind (.setError _) fun _ => .pure _) (.bind .readString fun name =>
    .bind (.readLayerProperties c) fun s => .bind (.readPtr _) fun hptr => .bind (.readPtr _) fun mptr =>
    .bind (.goto _) fun _ => .bind (.layerImage _ _ _ _ _) fun x => ?_)
  cases x with
  | none => exact .pure _
  | some im =>
    refine .bind (.layerText _ _ _) fun x => ?_
    cases x with
    | none => exact .pure _
    | some im => exact .ite (.bind (.goto _) fun _ => .bind (.readMask _ _ _) fun _ => .pure _) (.pure _)

theorem Agrees.readPrecision (b : Bool) : Agrees (readPrecision b) (Limage.readPrecision b) :=
  .ite .readUint32 (.pure _)

theorem Agrees.readHead : Agrees readHead Limage.readHead := by
  refine .bind .readHeader fun x => ?_
  cases x with
  | error e => exact .pure _
  | ok mode =>
    refine .bind .readUint32 fun _ => .bind .readUint32 fun _ => .bind .readUint32 fun _ =>
      .bind (.readPrecision _) fun _ => .bind (.readImageProperties _) fun x => ?_
    cases x with
    | error e => exact .pure _
    | ok props =>
      refine .bind (.readLayerPointers _) fun ptrs => .bind .getErr fun e => ?_
      cases e with
      | some e => exact .pure _
      | none => exact .pure _

theorem Agrees.decodeConfigM : Agrees decodeConfigM Limage.decodeConfigM := by
  refine .bind .readHeader fun x => ?_
  cases x with
  | error e => exact .pure _
  | ok mode =>
    refine .bind .readUint32 fun _ => .bind .readUint32 fun _ => .bind .readUint32 fun _ =>
      .bind (.readPrecision _) fun _ => .ite (.bind .getErr fun _ => .pure _)
      (.ite (.bind .getErr fun _ => .pure _) (.ite (.bind (.readImageProperties _) fun x => ?_)
      (.bind .getErr fun _ => .pure _)))
    cases x with
    | error e => exact .pure _
    | ok p => exact .bind .getErr fun _ => .pure _

/-! ### Results that say whether there was an error -/

/-- A result with `P` means that no error is set. -/
def Tells {α : Type} (P : α → Prop) (m : M α) : Prop := ∀ r a s, m r = .ok (a, s) → P a → s.err = none

theorem Tells.bind {α β : Type} {P : β → Prop} {m : M α} {f : α → M β} (h : ∀ a, Tells P (f a)) :
    Tells P (m >>= f) := by
  intro r b s hr hb
  change M.bind m f r = _ at hr
  unfold M.bind at hr
  cases hm : m r with
  | panic => rw [hm] at hr; cases hr
  | hang => rw [hm] at hr; cases hr
  | ok x =>
    rw [hm] at hr
    exact h x.1 x.2 b s hr hb

theorem Tells.pure {α : Type} {P : α → Prop} {a : α} (h : ¬ P a) : Tells P (Pure.pure a : M α) := by
  intro r b s hr hb
  cases hr
  exact absurd hb h

theorem Tells.ite {α : Type} {P : α → Prop} {c : Prop} [Decidable c] {m n : M α} (h1 : Tells P m)
    (h2 : Tells P n) : Tells P (if c then m else n) := by
  by_cases hc : c
  · rwa [if_pos hc]
  · rwa [if_neg hc]

/-- the error is looked at last -/
theorem Tells.last {α : Type} {P : α → Prop} {f : Option Err → α} (h : ∀ e, ¬ P (f (some e))) :
    Tells P (getErr >>= fun e => Pure.pure (f e) : M α) := by
  intro r b s hr hb
  cases hr
  cases he : r.err with
  | none => rfl
  | some e =>
    exact absurd (by rw [he] at hb; exact hb) (h e)

theorem readHead_tells : Tells (fun x => ∃ h, x = .ok h) readHead := by
  refine .bind fun x => ?_
  cases x with
  | error e => exact .pure (by rintro ⟨h, h'⟩; cases h')
  | ok mode =>
    refine .bind fun _ => .bind fun _ => .bind fun _ => .bind fun _ => .bind fun x => ?_
    cases x with
    | error e => exact .pure (by rintro ⟨h, h'⟩; cases h')
    | ok props =>
      refine .bind fun ptrs => ?_
      intro r b s hr hb
      cases he : r.err with
      | none =>
        change M.bind getErr _ r = _ at hr
        unfold M.bind getErr at hr
        rw [he] at hr
        cases hr
        exact he
      | some e =>
        change M.bind getErr _ r = _ at hr
        unfold M.bind getErr at hr
        rw [he] at hr
        cases hr
        obtain ⟨h, h'⟩ := hb
        cases h'

theorem decodeConfigM_tells : Tells (fun x => x.2 = none) decodeConfigM := by
  refine .bind fun x => ?_
  cases x with
  | error e => exact .pure (by intro h; cases h)
  | ok mode =>
    refine .bind fun _ => .bind fun _ => .bind fun _ => .bind fun _ => .ite
      (.last (by intro e h; cases h)) (.ite (.last (by intro e h; cases h)) (.ite (.bind fun x => ?_)
        (.last (by intro e h; cases h))))
    cases x with
    | error e => exact .pure (by intro h; cases h)
    | ok p => exact .last (by intro e h; cases h)

end Limage.Failing
