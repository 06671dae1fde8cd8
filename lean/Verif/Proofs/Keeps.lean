import Verif.Proofs.Tiles
/-! What every part of the decoder leaves alone: the source, and an error once it is set. -/
namespace Limage

theorem M.bind_inv {α β : Type} {m : M α} {f : α → M β} {r r'' : R} {b : β}
    (h : (m >>= f) r = .ok (b, r'')) : ∃ a r', m r = .ok (a, r') ∧ f a r' = .ok (b, r'') := by
  have h : M.bind m f r = _ := h
  unfold M.bind at h
  split at h
  · rename_i a r' e
    exact ⟨a, r', e, h⟩
  · cases h
  · cases h

/-- same source, and errors stay -/
def Keep (r r' : R) : Prop := r'.data = r.data ∧ r'.limit = r.limit ∧ (r.err.isSome → r'.err = r.err)

theorem Keep.refl (r : R) : Keep r r := ⟨rfl, rfl, fun _ => rfl⟩
theorem Keep.trans {a b c : R} (h1 : Keep a b) (h2 : Keep b c) : Keep a c :=
  ⟨h2.1.trans h1.1, h2.2.1.trans h1.2.1, fun h => by
    have e := h1.2.2 h
    rw [← e]
    exact h2.2.2 (by rw [e]; exact h)⟩

/-- if there is no error afterwards there was none before -/
theorem Keep.none {a b : R} (h : Keep a b) (hb : b.err = none) : a.err = none := by
  cases ha : a.err with
  | none => rfl
  | some e =>
    have := h.2.2 (by rw [ha]; rfl)
    rw [hb, ha] at this; cases this

/-- a computation that keeps them -/
def Keeps {α : Type} (m : M α) : Prop := ∀ r a r', m r = .ok (a, r') → Keep r r'

theorem Keeps.pure {α : Type} (a : α) : Keeps (pure a : M α) := by
  intro r x r' h; cases h; exact Keep.refl r
theorem Keeps.bind {α β : Type} {m : M α} {f : α → M β} (h1 : Keeps m) (h2 : ∀ a, Keeps (f a)) :
    Keeps (m >>= f) := by
  intro r b r'' h
  obtain ⟨a, r', e1, e2⟩ := M.bind_inv h
  exact (h1 r a r' e1).trans (h2 a r' b r'' e2)
theorem Keeps.ite {α : Type} {p : Prop} [Decidable p] {m n : M α} (h1 : Keeps m) (h2 : Keeps n) :
    Keeps (if p then m else n) := by
  by_cases h : p
  · rw [if_pos h]; exact h1
  · rw [if_neg h]; exact h2
theorem Keeps.panic {α : Type} : Keeps (M.panic : M α) := by intro r a r' h; cases h
theorem Keeps.hang {α : Type} : Keeps (M.hang : M α) := by intro r a r' h; cases h

theorem getErr_keeps : Keeps getErr := by intro r a r' h; cases h; exact Keep.refl r
theorem setError_keeps (e : Err) : Keeps (setError e) := by
  intro r a r' h; cases h
  refine ⟨rfl, rfl, fun h => ?_⟩
  obtain ⟨x, hx⟩ := Option.isSome_iff_exists.1 h
  simp [hx]
theorem setErr?_keeps (e : Option Err) : Keeps (setErr? e) := by
  cases e with
  | none => exact Keeps.pure ()
  | some e => exact setError_keeps e
theorem goto_keeps (n : UInt64) : Keeps (goto n) := by
  intro r a r' h
  unfold goto at h
  split at h <;> cases h <;> exact ⟨rfl, rfl, fun _ => rfl⟩
theorem skip_keeps (n : UInt32) : Keeps (skip n) := by
  intro r a r' h; cases h; exact ⟨rfl, rfl, fun _ => rfl⟩

theorem readFull_keeps (n : Nat) : Keeps (readFull n) := by
  intro r a r' h
  unfold readFull at h
  split at h
  · cases h; exact Keep.refl r
  · rename_i he
    dsimp only at h
    split at h <;> cases h <;> exact ⟨rfl, rfl, fun h => by simp [he] at h⟩
theorem readInto_keeps (p : Bytes) : Keeps (readInto p) := by
  intro r a r' h
  unfold readInto at h
  split at h
  · cases h; exact Keep.refl r
  · rename_i he
    dsimp only at h
    split at h <;> cases h <;> exact ⟨rfl, rfl, fun h => by simp [he] at h⟩
theorem copyN_keeps (n : Nat) : Keeps (copyN n) := by
  intro r a r' h
  unfold copyN at h
  split at h
  · cases h; exact Keep.refl r
  · rename_i he
    cases h; exact ⟨rfl, rfl, fun h => by simp [he] at h⟩

theorem readUint8_keeps : Keeps readUint8 := (readFull_keeps _).bind fun _ => Keeps.pure _
theorem readUint16_keeps : Keeps readUint16 := (readFull_keeps _).bind fun _ => Keeps.pure _
theorem readUint32_keeps : Keeps readUint32 := (readFull_keeps _).bind fun _ => Keeps.pure _
theorem readUint64_keeps : Keeps readUint64 := (readFull_keeps _).bind fun _ => Keeps.pure _
theorem allocate_keeps (n s : Nat) : Keeps (allocate n s) := by
  unfold allocate; exact Keeps.ite Keeps.panic (Keeps.pure _)

theorem readPtr_keeps (mode : UInt32) : Keeps (readPtr mode) := by
  unfold readPtr
  exact Keeps.ite (readUint32_keeps.bind fun _ => Keeps.pure _) readUint64_keeps

theorem readPtrs_keeps (mode : UInt32) : ∀ n, Keeps (readPtrs mode n) := by
  intro n
  induction n with
  | zero => exact Keeps.pure _
  | succ n ih => exact (readPtr_keeps mode).bind fun _ => ih.bind fun _ => Keeps.pure _

theorem readTiles_keeps (c : Ctx) (w h : Nat) : Keeps (readTiles c w h) :=
  (allocate_keeps _ _).bind fun _ => readPtrs_keeps _ _

theorem readLevel_keeps (c : Ctx) (w h k : UInt32) : Keeps (readLevel c w h k) := by
  unfold readLevel
  refine readUint32_keeps.bind fun _ => readUint32_keeps.bind fun _ => Keeps.ite ?_ ?_
  · exact (setError_keeps _).bind fun _ => Keeps.pure _
  refine readUint32_keeps.bind fun _ => Keeps.ite ?_ ?_
  · exact (setError_keeps _).bind fun _ => Keeps.pure _
  refine (readPtr_keeps _).bind fun _ => (goto_keeps _).bind fun _ => readUint32_keeps.bind fun _ =>
    readUint32_keeps.bind fun _ => Keeps.ite ?_ ?_
  · exact (setError_keeps _).bind fun _ => Keeps.pure _
  refine (readTiles_keeps _ _ _).bind fun _ => readUint32_keeps.bind fun _ => Keeps.ite ?_ ?_
  · exact (setError_keeps _).bind fun _ => Keeps.pure _
  · exact Keeps.pure _

/-! ### run-length data -/

theorem rleHead_keeps (s : Rle) (m : UInt8) : Keeps (rleHead s m) := by
  unfold rleHead
  refine Keeps.ite ?_ (Keeps.ite ?_ (Keeps.ite ?_ (Keeps.pure _)))
  · exact readUint8_keeps.bind fun _ => Keeps.pure _
  · exact readUint16_keeps.bind fun _ => readUint8_keeps.bind fun _ => Keeps.pure _
  · exact readUint16_keeps.bind fun _ => Keeps.pure _

theorem rleOp_keeps (s : Rle) : Keeps (rleOp s) := by
  intro r a r' h
  unfold rleOp at h
  obtain ⟨m, r1, h1, h⟩ := M.bind_inv h
  obtain ⟨e, r2, h2, h⟩ := M.bind_inv h
  cases h2
  have k1 := readUint8_keeps _ _ _ h1
  cases he : r1.err with
  | some x => rw [he] at h; cases h; exact k1
  | none =>
    rw [he] at h
    have hr : r.err = none := k1.none he
    obtain ⟨s1, r3, h3, h⟩ := M.bind_inv h
    have k3 := rleHead_keeps _ _ _ _ _ h3
    obtain ⟨e, r4, h4, h⟩ := M.bind_inv h
    cases h4
    have kd : r3.data = r.data ∧ r3.limit = r.limit := ⟨(k1.trans k3).1, (k1.trans k3).2.1⟩
    cases he3 : r3.err with
    | some x =>
      rw [he3] at h
      obtain ⟨_, r5, h5, h⟩ := M.bind_inv h
      cases h5; cases h
      exact ⟨kd.1, kd.2, fun h => by simp [hr] at h⟩
    | none =>
      rw [he3] at h
      cases h
      exact ⟨kd.1, kd.2, fun h => by simp [hr] at h⟩

theorem rleRead_keeps : ∀ (fuel : Nat) (s : Rle) (p : Bytes), Keeps (rleRead fuel s p) := by
  intro fuel
  induction fuel with
  | zero => intro s p; exact Keeps.hang
  | succ fuel ih =>
    intro s p
    unfold rleRead
    refine getErr_keeps.bind fun e => ?_
    refine Keeps.ite ?_ ?_
    · refine Keeps.ite ?_ ?_ <;> exact Keeps.pure _
    intro r a r' h
    dsimp only at h
    have key : ∀ x : Rle × Option Err, Keeps (match x with
        | (s, e) => match e with
          | some e => Pure.pure (p, s, some e)
          | none => do
            let w ← rleCopy s (min s.count.toNat p.length) p
            let __x ← rleRead fuel { s with count := s.count - UInt16.ofNat (min s.count.toNat p.length) }
              (p.drop (min s.count.toNat p.length))
            match __x with
            | (rest, s, e) => (Pure.pure (w ++ rest, s, e) : M (Bytes × Rle × Option Err))) := by
      intro x
      obtain ⟨s, e⟩ := x
      cases e with
      | some e => exact Keeps.pure _
      | none =>
        refine Keeps.bind ?_ fun w => (ih _ _).bind fun y => Keeps.pure _
        unfold rleCopy
        exact Keeps.ite (Keeps.pure _) (readInto_keeps _)
    by_cases hc : s.count = 0
    · rw [if_pos hc] at h
      exact ((rleOp_keeps s).bind key) r a r' h
    · rw [if_neg hc] at h
      exact (key (s, none)) r a r' h

theorem rleReadAll_keeps (s : Rle) (p : Bytes) : Keeps (rleReadAll s p) := fun r a r' h =>
  rleRead_keeps _ _ _ r a r' h

theorem copyOp_keeps (c : UInt8) : Keeps (copyOp c) := by
  unfold copyOp
  refine Keeps.ite ?_ (Keeps.ite ?_ (Keeps.ite ?_ ?_))
  · exact readUint8_keeps.bind fun _ => Keeps.pure _
  · exact readUint16_keeps.bind fun _ => readUint8_keeps.bind fun _ => Keeps.pure _
  · exact readUint16_keeps.bind fun _ => (copyN_keeps _).bind fun _ => Keeps.pure _
  · exact (copyN_keeps _).bind fun _ => Keeps.pure _

theorem readRLE_keeps : ∀ (fuel : Nat) (count : Int), Keeps (readRLE fuel count) := by
  intro fuel
  induction fuel with
  | zero => intro _; exact Keeps.hang
  | succ fuel ih =>
    intro count
    unfold readRLE
    exact Keeps.ite (Keeps.pure _) (readUint8_keeps.bind fun c => (copyOp_keeps c).bind fun x =>
      (ih _).bind fun y => Keeps.pure _)

theorem readChannels_keeps (n : Nat) : ∀ k, Keeps (readChannels n k) := by
  intro k
  induction k with
  | zero => exact Keeps.pure _
  | succ k ih =>
    unfold readChannels
    refine Keeps.bind (fun r a r' h => readRLE_keeps _ _ r a r' h) fun x => ?_
    exact (setErr?_keeps _).bind fun _ => ih.bind fun _ => Keeps.pure _

theorem tileLoop_keeps {σ : Type} (w h : Nat) (ts : List UInt64) (s : σ) (body : Tile → σ → M σ)
    (hb : ∀ t s, Keeps (body t s)) : Keeps (tileLoop w h ts s body) := by
  unfold tileLoop
  refine Keeps.ite (Keeps.ite Keeps.hang (Keeps.pure _)) (Keeps.ite (Keeps.pure _) (Keeps.ite Keeps.panic ?_))
  generalize tileGrid w h = g
  induction g generalizing ts s with
  | nil => unfold tileLoop.go; exact Keeps.pure _
  | cons t g ih =>
    cases ts with
    | nil => unfold tileLoop.go; exact Keeps.panic
    | cons p ps =>
      unfold tileLoop.go
      exact (goto_keeps p).bind fun _ => (hb t s).bind fun s => ih ps s

theorem eagerTile_keeps (c : Ctx) (bpp : Nat) (t : Tile) (s : EagerState) : Keeps (eagerTile c bpp t s) := by
  unfold eagerTile
  refine Keeps.ite ((readInto_keeps _).bind fun _ => Keeps.pure _) ((rleReadAll_keeps _ _).bind fun x => ?_)
  exact (setErr?_keeps _).bind fun _ => Keeps.pure _

theorem readEager_keeps (c : Ctx) (k bpp w h : Nat) (ts : List UInt64) : Keeps (readEager c k bpp w h ts) := by
  unfold readEager
  refine Keeps.ite ?_ ?_
  · exact (allocate_keeps _ _).bind fun _ => (tileLoop_keeps _ _ _ _ _ (eagerTile_keeps c bpp)).bind fun _ => Keeps.pure _
  · exact (tileLoop_keeps _ _ _ _ _ (fun _ _ => Keeps.panic)).bind fun _ => Keeps.pure _

theorem readLazy_keeps (c : Ctx) (k bpp w h : Nat) (ts : List UInt64) : Keeps (readLazy c k bpp w h ts) := by
  unfold readLazy
  refine (allocate_keeps _ _).bind fun _ => (tileLoop_keeps _ _ _ _ _ fun t ts => ?_).bind fun _ =>
    Keeps.ite (Keeps.pure _) (Keeps.pure _)
  exact (readChannels_keeps _ _).bind fun _ => Keeps.pure _

theorem readImage_keeps (c : Ctx) (w h k : UInt32) : Keeps (readImage c w h k) := by
  unfold readImage
  refine (readLevel_keeps c w h k).bind fun x => ?_
  split
  · exact Keeps.pure _
  · refine Keeps.ite ?_ ?_
    · exact (readEager_keeps _ _ _ _ _ _).bind fun _ => Keeps.pure _
    · exact (readLazy_keeps _ _ _ _ _ _).bind fun _ => Keeps.pure _

/-! ### pointers that were really there -/

theorem readUint64_cases (r : R) (he : r.err = none) :
    (∃ x : UInt64, Sees r (be 8 x.toNat) ∧ readUint64 r = .ok (x, r.adv 8)) ∨
    (∃ r', readUint64 r = .ok (0, r') ∧ r'.err.isSome ∧ Frame r r') := by
  rcases readFull_cases 8 r (by omega) he with ⟨bs, hl, hs, e⟩ | ⟨r', e, h1, h2⟩
  · have hb := be_fromBE bs
    have hlt := fromBE_lt bs
    rw [hl] at hb hlt
    have e2 : (UInt64.ofNat (fromBE bs)).toNat = fromBE bs := by
      rw [UInt64.toNat_ofNat', Nat.mod_eq_of_lt (by omega)]
    have hs2 : Sees r (be 8 (UInt64.ofNat (fromBE bs)).toNat) := by rw [e2, hb]; exact hs
    refine Or.inl ⟨_, hs2, ?_⟩
    have := readUint64_consumes _ r hs2
    rwa [be_length] at this
  · exact Or.inr ⟨r', by unfold readUint64; rw [M.bind_ok e]; rfl, h1, h2⟩

theorem readPtr_advances (mode : UInt32) (r r' : R) (p : UInt64) (h : readPtr mode r = .ok (p, r'))
    (he : r'.err = none) : r.pos + 4 ≤ r'.pos ∧ r'.pos ≤ r'.limit := by
  have hr := (readPtr_keeps mode r p r' h).none he
  unfold readPtr at h
  split at h
  · rcases readUint32_cases r hr with ⟨x, hs, e⟩ | ⟨r1, e, h1, _⟩
    · rw [M.bind_ok e] at h
      cases h
      have := hs.2.2
      rw [be_length] at this
      exact ⟨Nat.le_refl _, this⟩
    · rw [M.bind_ok e] at h
      cases h
      rw [he] at h1; cases h1
  · rcases readUint64_cases r hr with ⟨x, hs, e⟩ | ⟨r1, e, h1, _⟩
    · rw [e] at h
      cases h
      have := hs.2.2
      rw [be_length] at this
      exact ⟨by simp only [R.adv_pos]; omega, this⟩
    · rw [e] at h
      cases h
      rw [he] at h1; cases h1

theorem readPtrs_length (mode : UInt32) : ∀ (n : Nat) (r r' : R) (ps : List UInt64),
    readPtrs mode n r = .ok (ps, r') → ps.length = n := by
  intro n
  induction n with
  | zero => intro r r' ps h; cases h; rfl
  | succ n ih =>
    intro r r' ps h
    unfold readPtrs at h
    obtain ⟨p, r1, h1, h⟩ := M.bind_inv h
    obtain ⟨qs, r2, h2, h⟩ := M.bind_inv h
    cases h
    rw [List.length_cons, ih _ _ _ h2]

theorem readPtrs_advances (mode : UInt32) : ∀ (n : Nat) (r r' : R) (ps : List UInt64),
    readPtrs mode n r = .ok (ps, r') → r'.err = none → r.pos + 4 * n ≤ r'.pos ∧ (1 ≤ n → r'.pos ≤ r'.limit) := by
  intro n
  induction n with
  | zero => intro r r' ps h _; cases h; exact ⟨by omega, by omega⟩
  | succ n ih =>
    intro r r' ps h he
    unfold readPtrs at h
    obtain ⟨p, r1, h1, h⟩ := M.bind_inv h
    obtain ⟨qs, r2, h2, h⟩ := M.bind_inv h
    cases h
    have k2 := readPtrs_keeps _ _ _ _ _ h2
    have a1 := readPtr_advances _ _ _ _ h1 (k2.none he)
    have a2 := ih _ _ _ h2 he
    refine ⟨by omega, fun _ => ?_⟩
    cases n with
    | zero => cases h2; exact a1.2
    | succ n => exact a2.2 (by omega)

theorem area_le (w h : Nat) : w * h ≤ 4096 * (tileCount w * tileCount h) := by
  have h1 : w ≤ 64 * tileCount w := by unfold tileCount; omega
  have h2 : h ≤ 64 * tileCount h := by unfold tileCount; omega
  calc w * h ≤ (64 * tileCount w) * (64 * tileCount h) := Nat.mul_le_mul h1 h2
    _ = 4096 * (tileCount w * tileCount h) := by
      rw [Nat.mul_mul_mul_comm]

/-- After `readLevel` without an error the number of bytes per pixel fits the kind, and there are as
many pointers as tiles, all of which were in the file. -/
theorem readLevel_spec (c : Ctx) (w h k : UInt32) (r r' : R) (bpp : UInt32) (ts : List UInt64)
    (e : readLevel c w h k r = .ok (some (bpp, ts), r')) :
    bppOk k bpp = true ∧ ts.length = tileCount w.toNat * tileCount h.toNat ∧
    (r'.err = none → 4 * ts.length ≤ r.limit) := by
  have k0 := readLevel_keeps _ _ _ _ _ _ _ e
  unfold readLevel at e
  obtain ⟨tw, r1, _, e⟩ := M.bind_inv e
  obtain ⟨th, r2, _, e⟩ := M.bind_inv e
  split at e
  · obtain ⟨_, _, _, e⟩ := M.bind_inv e; cases e
  obtain ⟨b, r3, _, e⟩ := M.bind_inv e
  split at e
  · obtain ⟨_, _, _, e⟩ := M.bind_inv e; cases e
  rename_i hb
  obtain ⟨lp, r4, _, e⟩ := M.bind_inv e
  obtain ⟨_, r5, _, e⟩ := M.bind_inv e
  obtain ⟨w', r6, _, e⟩ := M.bind_inv e
  obtain ⟨h', r7, _, e⟩ := M.bind_inv e
  split at e
  · obtain ⟨_, _, _, e⟩ := M.bind_inv e; cases e
  obtain ⟨tiles, r8, h8, e⟩ := M.bind_inv e
  obtain ⟨z, r9, h9, e⟩ := M.bind_inv e
  split at e
  · obtain ⟨_, _, _, e⟩ := M.bind_inv e; cases e
  cases e
  unfold readTiles at h8
  obtain ⟨_, r10, _, h8⟩ := M.bind_inv h8
  have hl := readPtrs_length _ _ _ _ _ h8
  refine ⟨by simpa using hb, hl, fun he => ?_⟩
  have k9 := readUint32_keeps _ _ _ h9
  have a := readPtrs_advances _ _ _ _ _ h8 (k9.none he)
  have hlim : r8.limit = r.limit := by rw [← k0.2.1, k9.2.1]
  rw [hl]
  by_cases hz : tileCount w.toNat * tileCount h.toNat = 0
  · omega
  · have := a.2 (by omega); omega

end Limage
