import Verif.Props.FewReads
/-!
# C157 for layers: how often the source is read for one layer

The parts of a layer can be anywhere in the file, and many tiles can be at the same place, so that bytes can be read more than once: each jump to another
place allows reading what follows there again.  There are at most as many jumps as the file has pointers.
-/
namespace Limage.Failing

/-- What was read and what may still be read becomes more by at most `k`, a number that depends on the length of the file; not at all after an error. -/
def Jumps {α : Type} (k : Nat → Nat) (m : M α) : Prop :=
  ∀ r a r', m r = .ok (a, r') → Keep r r' ∧ r'.calls + r'.left ≤ r.calls + r.left + (if r.err = none then k r.data.length else 0)

theorem Cheap.jumps {α : Type} {m : M α} (h : Cheap m) (hk : Keeps m) : Jumps (fun _ => 0) m :=
  fun _ _ _ e => ⟨hk _ _ _ e, Nat.le_trans (h _ _ _ e).2 (Nat.le_add_right _ _)⟩

theorem Jumps.pure {α : Type} (a : α) : Jumps (fun _ => 0) (pure a : M α) := (Cheap.pure a).jumps (Total.pure a).keeps

theorem Jumps.mono {α : Type} {k k' : Nat → Nat} {m : M α} (h : Jumps k m) (hk : ∀ d, k d ≤ k' d) : Jumps k' m := by
  intro r a r' e
  obtain ⟨h1, h2⟩ := h _ _ _ e
  refine ⟨h1, Nat.le_trans h2 (Nat.add_le_add_left ?_ _)⟩
  split
  · exact hk _
  · exact Nat.le_refl _

theorem Jumps.bind {α β : Type} {k1 k2 : Nat → Nat} {m : M α} {f : α → M β} (h1 : Jumps k1 m) (h2 : ∀ a, Jumps k2 (f a)) :
    Jumps (fun d => k1 d + k2 d) (m >>= f) := by
  intro r b r'' h
  obtain ⟨a, r', e1, e2⟩ := M.bind_inv h
  obtain ⟨d1, c1⟩ := h1 _ _ _ e1
  obtain ⟨d2, c2⟩ := h2 a _ _ _ e2
  refine ⟨d1.trans d2, ?_⟩
  rw [d1.1] at c2
  have := d1.2.2
  dsimp only
  by_cases he : r.err = none
  · rw [if_pos he] at c1 ⊢
    by_cases he' : r'.err = none
    · rw [if_pos he'] at c2; omega
    · rw [if_neg he'] at c2; omega
  · rw [if_neg he] at c1 ⊢
    rw [if_neg (fun h => he (this h))] at c2
    omega

/-- the same where the first part costs nothing -/
theorem Jumps.after {α β : Type} {k : Nat → Nat} {m : M α} {f : α → M β} (h1 : Jumps (fun _ => 0) m) (h2 : ∀ a, Jumps k (f a)) : Jumps k (m >>= f) :=
  (h1.bind h2).mono fun _ => by omega

/-- the same where the second part costs nothing -/
theorem Jumps.before {α β : Type} {k : Nat → Nat} {m : M α} {f : α → M β} (h1 : Jumps k m) (h2 : ∀ a, Jumps (fun _ => 0) (f a)) : Jumps k (m >>= f) :=
  (h1.bind h2).mono fun _ => by omega

theorem Jumps.ite {α : Type} {k : Nat → Nat} {p : Prop} [Decidable p] {m n : M α} (h1 : Jumps k m) (h2 : Jumps k n) : Jumps k (if p then m else n) := by
  split
  · exact h1
  · exact h2

theorem jumps_panic {α : Type} {k : Nat → Nat} : Jumps k (M.panic : M α) := by
  intro r a r' h
  cases h

theorem jumps_hang {α : Type} {k : Nat → Nat} : Jumps k (M.hang : M α) := by
  intro r a r' h
  cases h

theorem readUint32_jumps : Jumps (fun _ => 0) readUint32 := readUint32_cheap.jumps readUint32_keeps
theorem readPtr_jumps (mode : UInt32) : Jumps (fun _ => 0) (readPtr mode) := (readPtr_cheap mode).jumps (readPtr_keeps mode)
theorem setError_jumps (e : Err) : Jumps (fun _ => 0) (setError e) := (setError_cheap e).jumps (setError_keeps e)

theorem setErr?_cheap (e : Option Err) : Cheap (setErr? e) := by
  cases e with
  | none => exact Cheap.pure ()
  | some e => exact setError_cheap e

theorem setErr?_jumps (e : Option Err) : Jumps (fun _ => 0) (setErr? e) := (setErr?_cheap e).jumps (setErr?_total e).keeps

theorem allocate_jumps (n s : Nat) : Jumps (fun _ => 0) (allocate n s) := Jumps.ite jumps_panic (Jumps.pure _)

/-- a jump to another place allows reading the file once more -/
theorem goto_jumps (p : UInt64) : Jumps (fun d => d) (goto p) := by
  intro r a r' h
  refine ⟨goto_keeps p _ _ _ h, ?_⟩
  unfold goto at h
  cases h
  unfold R.left
  cases he : r.err with
  | some e =>
    split <;> simp only [he] <;> simp
  | none =>
    split <;> simp only [he, if_true] <;> omega

/-! ### The bytes of a tile -/

theorem readUint8_cost {r r' : R} {x : UInt8} (h : readUint8 r = .ok (x, r')) : r'.calls + r'.left ≤ r.calls + r.left := (readUint8_cheap _ _ _ h).2

theorem readUint16_cheap : Cheap readUint16 := (readFull_cheap (by decide)).bind fun _ => Cheap.pure _

theorem readUint16_cost {r r' : R} {x : UInt16} (h : readUint16 r = .ok (x, r')) (he : r'.err = none) : r'.calls + r'.left + 1 ≤ r.calls + r.left := by
  unfold readUint16 at h
  obtain ⟨b, r1, h1, h2⟩ := M.bind_inv h
  cases h2
  exact (readFull_cost (by decide) h1).2.2 he

theorem rleHead_cheap (s : Rle) (m : UInt8) : Cheap (rleHead s m) := by
  unfold rleHead
  refine Cheap.ite ?_ (Cheap.ite ?_ (Cheap.ite ?_ ?_))
  · exact readUint8_cheap.bind fun _ => Cheap.pure _
  · exact readUint16_cheap.bind fun _ => readUint8_cheap.bind fun _ => Cheap.pure _
  · exact readUint16_cheap.bind fun _ => Cheap.pure _
  · exact Cheap.pure _

/-- a run of no literal bytes has its length in two bytes that were read with one call -/
theorem rleHead_cost {s s' : Rle} {m : UInt8} {r r' : R} (h : rleHead s m r = .ok (s', r')) (he : r'.err = none) (hs : s'.count = 0) (hr : s'.repeatByte = false) :
    r'.calls + r'.left + 1 ≤ r.calls + r.left := by
  unfold rleHead at h
  split at h
  · obtain ⟨d, r1, h1, h2⟩ := M.bind_inv h
    cases h2
    cases hr
  split at h
  · obtain ⟨d, r1, h1, h⟩ := M.bind_inv h
    obtain ⟨d', r2, h2, h⟩ := M.bind_inv h
    cases h
    cases hr
  split at h
  · obtain ⟨d, r1, h1, h2⟩ := M.bind_inv h
    cases h2
    exact readUint16_cost h1 he
  · rename_i h1 h2 h3
    cases h
    exfalso
    have h4 := congrArg UInt16.toNat hs
    have h5 : ¬ m.toNat < 127 := h1
    have h6 : m.toNat ≠ 127 := fun h => h2 (UInt8.toNat_inj.1 h)
    have h7 : m.toNat ≠ 128 := fun h => h3 (UInt8.toNat_inj.1 h)
    have h8 := UInt8.toNat_lt m
    dsimp only at h4
    rw [UInt16.toNat_sub, UInt8.toNat_toUInt16] at h4
    change (65536 - m.toNat + 256) % 65536 = 0 at h4
    omega

theorem rleOp_cost {s s' : Rle} {e : Option Err} {r r' : R} (h : rleOp s r = .ok ((s', e), r')) :
    r'.data = r.data ∧ r'.calls + r'.left ≤ r.calls + r.left ∧
      (e = none → r'.err = none ∧ (s'.count = 0 → s'.repeatByte = false → r'.calls + r'.left + 1 ≤ r.calls + r.left)) := by
  unfold rleOp at h
  obtain ⟨m, r1, h1, h⟩ := M.bind_inv h
  obtain ⟨d1, c1⟩ := readUint8_cheap _ _ _ h1
  obtain ⟨x, r2, h2, h⟩ := M.bind_inv h
  cases h2
  cases hx : r1.err with
  | some x =>
    rw [hx] at h
    cases h
    exact ⟨d1, c1, fun h => by cases h⟩
  | none =>
    rw [hx] at h
    dsimp only at h
    obtain ⟨s1, r2, h2, h⟩ := M.bind_inv h
    obtain ⟨d2, c2⟩ := rleHead_cheap _ _ _ _ _ h2
    obtain ⟨y, r3, h3, h⟩ := M.bind_inv h
    cases h3
    cases hy : r2.err with
    | some y =>
      rw [hy] at h
      obtain ⟨_, r4, h4, h⟩ := M.bind_inv h
      cases h4
      cases h
      refine ⟨d2.trans d1, ?_, fun h => by cases h⟩
      unfold R.left at c2 c1 ⊢
      rw [hy] at c2
      dsimp only at c2 ⊢
      omega
    | none =>
      rw [hy] at h
      cases h
      refine ⟨d2.trans d1, by omega, fun _ => ⟨hy, fun h5 h6 => ?_⟩⟩
      have := rleHead_cost h2 hy h5 h6
      omega

theorem rleRead_cheap : ∀ (f : Nat) (s : Rle) (p : Bytes), Cheap (rleRead f s p)
  | 0, _, _ => cheap_hang
  | f + 1, s, p => by
    intro r a r' h
    unfold rleRead at h
    obtain ⟨e, r0, h0, h⟩ := M.bind_inv h
    cases h0
    split at h
    · split at h <;> (cases h; exact ⟨rfl, Nat.le_refl _⟩)
    · rename_i hp
      have hp : 0 < p.length := by
        rcases p with _ | ⟨x, p⟩
        · simp at hp
        · simp
      have rest : ∀ (s1 : Rle) (r1 : R), r1.data = r.data → r1.calls + r1.left ≤ r.calls + r.left →
          (s1.count = 0 → s1.repeatByte = false → r1.calls + r1.left + 1 ≤ r.calls + r.left) →
          (do
            let w ← rleCopy s1 (min s1.count.toNat p.length) p
            let (rest, s, e) ← rleRead f { s1 with count := s1.count - UInt16.ofNat (min s1.count.toNat p.length) }
              (p.drop (min s1.count.toNat p.length))
            return (w ++ rest, s, e) : M (Bytes × Rle × Option Err)) r1 = .ok (a, r') → r'.data = r.data ∧ r'.calls + r'.left ≤ r.calls + r.left := by
        intro s1 r1 d1 c1 c1' h
        obtain ⟨w, r2, h2, h⟩ := M.bind_inv h
        have key2 : r2.data = r.data ∧ r2.calls + r2.left ≤ r.calls + r.left := by
          unfold rleCopy at h2
          split at h2
          · cases h2
            exact ⟨d1, c1⟩
          · rename_i hr
            obtain ⟨k1, k2, k3⟩ := readInto_cost _ h2
            refine ⟨k1.trans d1, ?_⟩
            by_cases hs : s1.count = 0
            · have := c1' hs (by simpa using hr)
              omega
            · refine Nat.le_trans (k3 (.inr ?_)) c1
              rw [List.length_take]
              have : s1.count.toNat ≠ 0 := fun h => hs (UInt16.toNat_inj.1 h)
              omega
        obtain ⟨⟨rest, s2, e2⟩, r3, h3, h⟩ := M.bind_inv h
        cases h
        obtain ⟨d3, c3⟩ := rleRead_cheap f _ _ _ _ _ h3
        exact ⟨d3.trans key2.1, Nat.le_trans c3 key2.2⟩
      by_cases hc : s.count = 0
      · simp only [hc, if_true] at h
        obtain ⟨⟨s1, e1⟩, r1, h1, h⟩ := M.bind_inv h
        obtain ⟨k1, k2, k3⟩ := rleOp_cost h1
        cases e1 with
        | some e =>
          cases h
          exact ⟨k1, k2⟩
        | none => exact rest s1 r1 k1 k2 (k3 rfl).2 h
      · simp only [hc, if_false] at h
        rw [M.bind_ok (show (Pure.pure (s, none) : M (Rle × Option Err)) r = .ok ((s, none), r) from rfl)] at h
        exact rest s r rfl (Nat.le_refl _) (fun h => absurd h hc) h

theorem rleReadAll_cheap (s : Rle) (p : Bytes) : Cheap (rleReadAll s p) := fun r a r' h => rleRead_cheap _ _ _ r a r' h

/-- copying costs one more than it uses up if nothing is to be copied -/
theorem copyN_cost (n : Nat) {r r' : R} {b : Bytes} (h : copyN n r = .ok (b, r')) :
    r'.data = r.data ∧ r'.calls + r'.left ≤ r.calls + r.left + 1 ∧ ((r.err.isSome ∨ 0 < n) → r'.calls + r'.left ≤ r.calls + r.left) := by
  unfold copyN at h
  cases he : r.err with
  | some e =>
    rw [he] at h
    cases h
    exact ⟨rfl, by omega, fun _ => Nat.le_refl _⟩
  | none =>
    rw [he] at h
    dsimp only at h
    cases hp : r.plan r.calls with
    | none =>
      rw [hp] at h
      cases h
      unfold R.left
      simp only [he]
      rw [List.length_take, List.length_drop]
      refine ⟨trivial, ?_, fun hq => ?_⟩
      · split <;> rename_i hx <;> split at hx <;> first | cases hx; done | omega
      · simp only [Option.isSome_none, Bool.false_eq_true, false_or] at hq
        split <;> rename_i hx <;> split at hx <;> first | cases hx; done | omega
    | some x =>
      rw [hp] at h
      cases h
      unfold R.left
      simp only [he]
      exact ⟨trivial, by omega, fun _ => by omega⟩

theorem copyOp_cheap (c : UInt8) : Cheap (copyOp c) := by
  unfold copyOp
  split
  · exact readUint8_cheap.bind fun _ => Cheap.pure _
  split
  · exact readUint16_cheap.bind fun _ => readUint8_cheap.bind fun _ => Cheap.pure _
  split
  · intro r a r' h
    obtain ⟨p, r1, h1, h⟩ := M.bind_inv h
    obtain ⟨d, r2, h2, h⟩ := M.bind_inv h
    cases h
    obtain ⟨d1, c1⟩ := readUint16_cheap _ _ _ h1
    obtain ⟨d2, c2, c2'⟩ := copyN_cost _ h2
    refine ⟨d2.trans d1, ?_⟩
    cases he : r1.err with
    | none => have := readUint16_cost h1 he; omega
    | some e => have := c2' (.inl (by rw [he]; rfl)); omega
  · refine Cheap.bind (fun r a r' h => ?_) fun _ => Cheap.pure _
    obtain ⟨d1, c1, c1'⟩ := copyN_cost _ h
    have := UInt8.toNat_lt c
    exact ⟨d1, c1' (.inr (by omega))⟩

theorem readRLE_cheap : ∀ (f : Nat) (n : Int), Cheap (readRLE f n)
  | 0, _ => cheap_hang
  | f + 1, n => by
    unfold readRLE
    refine Cheap.ite (Cheap.pure _) (readUint8_cheap.bind fun c => (copyOp_cheap c).bind fun x => ?_)
    exact (readRLE_cheap f _).bind fun _ => Cheap.pure _

theorem readRLEAll_jumps (n : Nat) : Jumps (fun _ => 0) (readRLEAll n) :=
  Cheap.jumps (fun r a r' h => readRLE_cheap _ _ r a r' h) (readRLEAll_total n).keeps

theorem readChannels_jumps (n : Nat) : ∀ k, Jumps (fun _ => 0) (readChannels n k)
  | 0 => Jumps.pure _
  | k + 1 => (readRLEAll_jumps n).after fun _ => (setErr?_jumps _).after fun _ => (readChannels_jumps n k).after fun _ => Jumps.pure _

theorem eagerTile_jumps (c : Ctx) (bpp : Nat) (t : Tile) (s : EagerState) : Jumps (fun _ => 1) (eagerTile c bpp t s) := by
  unfold eagerTile
  refine Jumps.ite ?_ ?_
  · refine Jumps.before ?_ fun _ => Jumps.pure _
    intro r a r' h
    refine ⟨(readInto_total _).keeps _ _ _ h, ?_⟩
    obtain ⟨-, k2, k3⟩ := readInto_cost _ h
    split
    · exact k2
    · rename_i he
      exact k3 (.inl (by cases h : r.err with | none => exact absurd h he | some _ => rfl))
  · refine Jumps.mono (k := fun _ => 0) ?_ (fun _ => by omega)
    exact ((rleReadAll_cheap _ _).jumps (rleReadAll_total _ _).keeps).after fun _ => (setErr?_jumps _).after fun _ => Jumps.pure _

/-! ### The tiles -/

theorem tileGo_jumps {σ : Type} (body : Tile → σ → M σ) (hb : ∀ t s, Jumps (fun _ => 1) (body t s)) :
    ∀ (ts : List Tile) (ps : List UInt64) (s : σ), Jumps (fun d => ps.length * (d + 1)) (tileLoop.go body ts ps s)
  | [], _, s => by
    unfold tileLoop.go
    exact (Jumps.pure s).mono fun _ => by omega
  | _ :: _, [], _ => by
    unfold tileLoop.go
    exact jumps_panic
  | t :: ts, p :: ps, s => by
    unfold tileLoop.go
    refine ((goto_jumps p).bind fun _ => (hb t s).bind fun s => tileGo_jumps body hb ts ps s).mono fun d => ?_
    rw [List.length_cons, Nat.add_mul]
    omega

theorem tileLoop_jumps {σ : Type} (body : Tile → σ → M σ) (hb : ∀ t s, Jumps (fun _ => 1) (body t s)) (w h : Nat) (ps : List UInt64) (s : σ) :
    Jumps (fun d => ps.length * (d + 1)) (tileLoop w h ps s body) := by
  unfold tileLoop
  have h0 : Jumps (fun d => ps.length * (d + 1)) (pure s : M σ) := (Jumps.pure s).mono fun _ => by omega
  refine Jumps.ite (Jumps.ite jumps_hang h0) (Jumps.ite h0 (Jumps.ite jumps_panic (tileGo_jumps body hb _ _ _)))

theorem readEager_jumps (c : Ctx) (kind bpp w h : Nat) (ts : List UInt64) : Jumps (fun d => ts.length * (d + 1)) (readEager c kind bpp w h ts) := by
  unfold readEager
  refine Jumps.ite ?_ ?_
  · exact (allocate_jumps _ _).after fun _ => (tileLoop_jumps _ (eagerTile_jumps c bpp) _ _ _ _).before fun _ => Jumps.pure _
  · exact (tileLoop_jumps _ (fun _ _ => jumps_panic) _ _ _ _).before fun _ => Jumps.pure _

theorem readLazy_jumps (c : Ctx) (kind bpp w h : Nat) (ts : List UInt64) : Jumps (fun d => ts.length * (d + 1)) (readLazy c kind bpp w h ts) := by
  unfold readLazy
  refine (allocate_jumps _ _).after fun _ => (tileLoop_jumps _ (fun t s => ?_) _ _ _ _).before fun _ => Jumps.ite (Jumps.pure _) (Jumps.pure _)
  exact ((readChannels_jumps _ _).after fun _ => Jumps.pure _).mono fun _ => by omega

/-! ### Pointers to tiles -/

theorem readFull_used {n : Nat} {r r' : R} {b : Bytes} (h : readFull n r = .ok (b, r')) (hn : 0 < n) (he : r'.err = none) : r'.left + n ≤ r.left := by
  unfold readFull at h
  cases her : r.err with
  | some e =>
    rw [her] at h
    cases h
    rw [her] at he
    cases he
  | none =>
    have key : ∀ (got : Bytes) (e : Err), got.length ≤ r.data.length - r.pos →
        (if got.length = n then (.ok (got, { r with pos := r.pos + n, err := none, calls := r.calls + 1 }) : Outcome (Bytes × R))
          else .ok ([], { r with pos := r.pos + got.length, calls := r.calls + 1, err := some e })) = .ok (b, r') → r'.left + n ≤ r.left := by
      intro got e hg h
      split at h
      · cases h
        unfold R.left
        simp only [her]
        omega
      · cases h
        cases he
    rw [her] at h
    dsimp only at h
    cases hp : r.plan r.calls with
    | none =>
      rw [hp] at h
      dsimp only at h
      refine key _ _ ?_ h
      rw [List.length_take, List.length_drop]
      omega
    | some x =>
      rw [hp] at h
      dsimp only at h
      refine key _ _ ?_ h
      rw [List.length_take, List.length_drop]
      omega

theorem readPtr_used {mode : UInt32} {r r' : R} {p : UInt64} (h : readPtr mode r = .ok (p, r')) (he : r'.err = none) : r'.left + 4 ≤ r.left := by
  unfold readPtr at h
  split at h
  · obtain ⟨x, r1, h1, h2⟩ := M.bind_inv h
    cases h2
    unfold readUint32 at h1
    obtain ⟨b, r1, h1, h2⟩ := M.bind_inv h1
    cases h2
    exact readFull_used h1 (by decide) he
  · unfold readUint64 at h
    obtain ⟨b, r1, h1, h2⟩ := M.bind_inv h
    cases h2
    have := readFull_used h1 (by decide) he
    omega

theorem readPtrs_used {mode : UInt32} : ∀ {n : Nat} {r r' : R} {ps : List UInt64}, readPtrs mode n r = .ok (ps, r') → r'.err = none →
    r'.left + 4 * n ≤ r.left
  | 0, _, _, _, h, _ => by cases h; exact Nat.le_refl _
  | n + 1, r, r', ps, h, he => by
    unfold readPtrs at h
    obtain ⟨p, r1, h1, h⟩ := M.bind_inv h
    obtain ⟨qs, r2, h2, h⟩ := M.bind_inv h
    cases h
    have h3 := readPtrs_used h2 he
    have h4 := readPtr_used h1 (((readPtrs_total mode n).keeps _ _ _ h2).2.2 he)
    omega

theorem left_le' (r : R) : r.left ≤ r.data.length + 1 := by
  unfold R.left
  cases r.err <;> simp only <;> omega

theorem left_pos {r : R} (h : r.err = none) : 1 ≤ r.left := by
  unfold R.left
  rw [h]
  exact Nat.le_add_left _ _

theorem readTiles_jumps (c : Ctx) (w h : Nat) : Jumps (fun _ => 0) (readTiles c w h) := by
  unfold readTiles
  refine (allocate_jumps _ _).after fun _ => Cheap.jumps ?_ (readPtrs_total _ _).keeps
  generalize tileCount w * tileCount h = n
  induction n with
  | zero => exact Cheap.pure _
  | succ n ih => exact (readPtr_cheap _).bind fun _ => ih.bind fun _ => Cheap.pure _

theorem readTiles_used {c : Ctx} {w h : Nat} {r r' : R} {ts : List UInt64} (e : readTiles c w h r = .ok (ts, r')) (he : r'.err = none) :
    4 * ts.length ≤ r.data.length := by
  unfold readTiles at e
  obtain ⟨_, r1, h1, e⟩ := M.bind_inv e
  have h2 := readPtrs_used e he
  rw [← readPtrs_length _ _ _ _ _ e] at h2
  have h3 := left_le' r1
  have h4 := left_pos he
  rw [((allocate_jumps _ _) _ _ _ h1).1.1] at h3
  omega

theorem readLevel_jumps (c : Ctx) (w h k : UInt32) : Jumps (fun d => d) (readLevel c w h k) := by
  unfold readLevel
  have bad : Jumps (fun _ => 0) (do setError .inconsistentData; return none : M (Option (UInt32 × List UInt64))) :=
    (setError_jumps _).after fun _ => Jumps.pure _
  refine readUint32_jumps.after fun _ => readUint32_jumps.after fun _ => Jumps.ite (bad.mono fun _ => by omega) ?_
  refine readUint32_jumps.after fun b => Jumps.ite (bad.mono fun _ => by omega) ?_
  refine (readPtr_jumps _).after fun p => (goto_jumps p).before fun _ => ?_
  refine readUint32_jumps.after fun _ => readUint32_jumps.after fun _ => Jumps.ite bad ?_
  exact (readTiles_jumps c _ _).after fun _ => readUint32_jumps.after fun _ => Jumps.ite bad (Jumps.pure _)

theorem readLevel_used {c : Ctx} {w h k : UInt32} {r r' : R} {bpp : UInt32} {ts : List UInt64}
    (e : readLevel c w h k r = .ok (some (bpp, ts), r')) (he : r'.err = none) : 4 * ts.length ≤ r.data.length := by
  unfold readLevel at e
  obtain ⟨tw, r1, e1, e⟩ := M.bind_inv e
  obtain ⟨th, r2, e2, e⟩ := M.bind_inv e
  split at e
  · obtain ⟨_, _, _, e⟩ := M.bind_inv e; cases e
  obtain ⟨b, r3, e3, e⟩ := M.bind_inv e
  split at e
  · obtain ⟨_, _, _, e⟩ := M.bind_inv e; cases e
  obtain ⟨lp, r4, e4, e⟩ := M.bind_inv e
  obtain ⟨_, r5, e5, e⟩ := M.bind_inv e
  obtain ⟨w', r6, e6, e⟩ := M.bind_inv e
  obtain ⟨h', r7, e7, e⟩ := M.bind_inv e
  split at e
  · obtain ⟨_, _, _, e⟩ := M.bind_inv e; cases e
  obtain ⟨tiles, r8, e8, e⟩ := M.bind_inv e
  obtain ⟨z, r9, e9, e⟩ := M.bind_inv e
  split at e
  · obtain ⟨_, _, _, e⟩ := M.bind_inv e; cases e
  cases e
  have := readTiles_used e8 ((readUint32_keeps _ _ _ e9).2.2 he)
  rw [(readUint32_keeps _ _ _ e7).1, (readUint32_keeps _ _ _ e6).1, (goto_keeps _ _ _ _ e5).1, (readPtr_keeps _ _ _ _ e4).1,
    (readUint32_keeps _ _ _ e3).1, (readUint32_keeps _ _ _ e2).1, (readUint32_keeps _ _ _ e1).1] at this
  exact this

theorem readImage_jumps (c : Ctx) (w h k : UInt32) : Jumps (fun d => d + d / 4 * (d + 1)) (readImage c w h k) := by
  intro r a r' e
  unfold readImage at e
  obtain ⟨x, r1, e1, e⟩ := M.bind_inv e
  obtain ⟨k1, c1⟩ := readLevel_jumps c w h k _ _ _ e1
  have key : ∀ {β : Type} {m : M β} {ts : List UInt64} {b : β}, Jumps (fun d => ts.length * (d + 1)) m → (r1.err = none → 4 * ts.length ≤ r.data.length) →
      m r1 = .ok (b, r') → Keep r r' ∧ r'.calls + r'.left ≤ r.calls + r.left + (if r.err = none then r.data.length + r.data.length / 4 * (r.data.length + 1) else 0) := by
    intro β m ts b hm hts em
    obtain ⟨k2, c2⟩ := hm _ _ _ em
    refine ⟨k1.trans k2, ?_⟩
    rw [k1.1] at c2
    dsimp only at c1 c2
    by_cases he1 : r1.err = none
    · rw [if_pos he1] at c2
      rw [if_pos (k1.2.2 he1)] at c1 ⊢
      have h4 : ts.length ≤ r.data.length / 4 := by have := hts he1; omega
      have := Nat.mul_le_mul_right (r.data.length + 1) h4
      generalize ts.length * (r.data.length + 1) = q at *
      generalize r.data.length / 4 * (r.data.length + 1) = q' at *
      omega
    · rw [if_neg he1] at c2
      by_cases he : r.err = none
      · rw [if_pos he] at c1 ⊢
        generalize r.data.length / 4 * (r.data.length + 1) = q' at *
        omega
      · rw [if_neg he] at c1 ⊢
        omega
  cases x with
  | none =>
    cases e
    exact key (ts := []) (Jumps.mono (Jumps.pure (none : Option DecImg)) fun _ => by omega) (fun _ => by simp) rfl
  | some x =>
    obtain ⟨bpp, ts⟩ := x
    dsimp only at e
    have hts := fun he => readLevel_used e1 he
    split at e
    · exact key ((readEager_jumps c _ _ _ _ ts).before fun _ => Jumps.pure _) hts e
    · exact key ((readLazy_jumps c _ _ _ _ ts).before fun _ => Jumps.pure _) hts e

theorem skipProperties_cheap : ∀ f, Cheap (skipProperties f)
  | 0 => cheap_hang
  | f + 1 => by
    unfold skipProperties
    refine readUint32_cheap.bind fun _ => readUint32_cheap.bind fun _ => Cheap.ite (setErr?_cheap _) (Cheap.ite ?_ ?_)
    · exact readUint32_cheap.bind fun _ => (setErr?_cheap _).bind fun _ => skipProperties_cheap f
    · exact (skip_cheap _).bind fun _ => skipProperties_cheap f

theorem readChannel_jumps (c : Ctx) : Jumps (fun d => 2 * d + d / 4 * (d + 1)) (readChannel c) := by
  unfold readChannel
  refine readUint32_jumps.after fun w => readUint32_jumps.after fun h => (skipString_cheap.jumps skipString_total.keeps).after fun _ => ?_
  have hs : Jumps (fun _ => 0) skipPropertiesAll := Cheap.jumps (fun r a r' h => skipProperties_cheap _ r a r' h) skipPropertiesAll_total.keeps
  refine hs.after fun _ => (readPtr_jumps _).after fun p => ?_
  refine ((goto_jumps p).bind fun _ => (readImage_jumps c w h 2).before fun x => ?_).mono fun d => by omega
  split
  · exact Jumps.pure _
  · exact Jumps.pure _
  · exact jumps_panic

theorem readMask_jumps (c : Ctx) (b : Rect) (im : Img) : Jumps (fun d => 2 * d + d / 4 * (d + 1)) (readMask c b im) := by
  unfold readMask
  refine (readChannel_jumps c).before fun x => ?_
  split
  · exact Jumps.pure _
  · exact Jumps.ite (Jumps.pure _) ((setError_jumps _).after fun _ => Jumps.pure _)

theorem layerImage_jumps (c : Ctx) (g : Bool) (w h t : UInt32) : Jumps (fun d => d + d / 4 * (d + 1)) (layerImage c g w h t) := by
  unfold layerImage
  refine Jumps.ite ((Jumps.pure _).mono fun _ => by omega) ((readImage_jumps c w h t).before fun x => ?_)
  split <;> exact Jumps.pure _

theorem layerText_jumps (c : Ctx) (ps : List Parasite) (im : Img) : Jumps (fun _ => 0) (layerText c ps im) := by
  unfold layerText
  split
  · exact Jumps.pure _
  · split
    · exact jumps_panic
    · exact jumps_hang
    · exact (setError_jumps _).after fun _ => Jumps.pure _
    · exact Jumps.pure _

theorem readUint32s_cheap : ∀ n, Cheap (readUint32s n)
  | 0 => Cheap.pure _
  | n + 1 => readUint32_cheap.bind fun _ => (readUint32s_cheap n).bind fun _ => Cheap.pure _

theorem layerProp_cheap (c : Ctx) (t l : UInt32) (s : LProps) : Cheap (layerProp c t l s) := by
  unfold layerProp
  refine Cheap.ite ?_ (Cheap.ite ?_ (Cheap.ite ?_ (Cheap.ite ?_ (Cheap.ite ?_ (Cheap.ite ?_ (Cheap.ite ?_ (Cheap.ite ?_ (Cheap.ite ?_ (Cheap.ite ?_
    (Cheap.ite ?_ ?_))))))))))
  · exact (skip_cheap _).bind fun _ => Cheap.pure _
  · exact readUint32_cheap.bind fun _ => (setErr?_cheap _).bind fun _ => Cheap.pure _
  · exact (readParasitesAll_cheap _).bind fun _ => Cheap.pure _
  · exact (skip_cheap _).bind fun _ => Cheap.pure _
  · exact readBoolProperty_cheap.bind fun _ => Cheap.pure _
  · exact Cheap.pure _
  · exact Cheap.pure _
  · exact Cheap.bind ((setErr?_cheap _).bind fun _ => readUint32s_cheap _) fun _ => Cheap.pure _
  · exact readUint32_cheap.bind fun _ => Cheap.pure _
  · exact readUint32_cheap.bind fun _ => readUint32_cheap.bind fun _ => Cheap.pure _
  · exact readUint32_cheap.bind fun _ => Cheap.pure _
  · exact (skip_cheap _).bind fun _ => Cheap.pure _

theorem layerProps_cheap (c : Ctx) : ∀ (f : Nat) (s : LProps), Cheap (layerProps c f s)
  | 0, _ => cheap_hang
  | f + 1, s => by
    unfold layerProps
    refine readUint32_cheap.bind fun t => readUint32_cheap.bind fun l => Cheap.ite ((setErr?_cheap _).bind fun _ => Cheap.pure _) ?_
    exact (layerProp_cheap c t l s).bind fun s => layerProps_cheap c f s

theorem readLayer_jumps (c : Ctx) : Jumps (fun d => 5 * d + 2 * (d / 4 * (d + 1))) (readLayer c) := by
  unfold readLayer
  refine readUint32_jumps.after fun w => readUint32_jumps.after fun h => readUint32_jumps.after fun t => Jumps.ite
    (((setError_jumps _).after fun _ => Jumps.pure _).mono fun _ => by omega) ?_
  refine (readString_cheap.jumps readString_total.keeps).after fun name => ?_
  have hp : Jumps (fun _ => 0) (readLayerProperties c) := Cheap.jumps (fun r a r' h => layerProps_cheap c _ _ r a r' h) (readLayerProperties_total c).keeps
  refine hp.after fun s => (readPtr_jumps _).after fun hptr => (readPtr_jumps _).after fun mptr => ?_
  have hm : ∀ (mk : Img → DLayer) (im : Img) (b : Rect), Jumps (fun d => 3 * d + d / 4 * (d + 1))
      (if mptr ≠ 0 then do goto mptr; let im ← readMask c b im; return mk im else return mk im : M DLayer) := fun mk im b =>
    Jumps.ite (((goto_jumps mptr).bind fun _ => (readMask_jumps c b im).before fun _ => Jumps.pure _).mono fun d => by omega)
      ((Jumps.pure _).mono fun _ => by omega)
  refine ((goto_jumps hptr).bind fun _ => (layerImage_jumps c _ w h t).bind (k2 := fun d => 3 * d + d / 4 * (d + 1)) fun x => ?_).mono fun d => by omega
  split
  · exact (Jumps.pure _).mono fun _ => by omega
  · refine (layerText_jumps c _ _).after fun y => ?_
    split
    · exact (Jumps.pure _).mono fun _ => by omega
    · exact hm _ _ _

theorem layerPointers_used {mode : UInt32} : ∀ {f : Nat} {ps qs : List UInt64} {r r' : R}, layerPointers mode f ps r = .ok (qs, r') → r'.err = none →
    r'.left + 4 * qs.length + 4 ≤ r.left + 4 * ps.length
  | 0, _, _, _, _, h, _ => by cases h
  | f + 1, ps, qs, r, r', h, he => by
    unfold layerPointers at h
    obtain ⟨p, r1, h1, h⟩ := M.bind_inv h
    split at h
    · cases h
      have := readPtr_used h1 he
      omega
    · have h2 := layerPointers_used h he
      have h3 : r1.err = none := by
        cases h4 : r1.err with
        | none => rfl
        | some e =>
          rename_i hp
          exact absurd (readPtr_zero _ _ _ _ h1 (by rw [h4]; rfl)) hp
      have h4 := readPtr_used h1 h3
      rw [List.length_append] at h2
      simp only [List.length_cons, List.length_nil] at h2
      omega

theorem readHead_ptrs {r r' : R} {h : Head} (e : readHead r = .ok (.ok h, r')) : 4 * h.ptrs.length ≤ r.data.length := by
  unfold readHead at e
  obtain ⟨x, r1, e1, e⟩ := M.bind_inv e
  cases x with
  | error x => cases e
  | ok mode =>
    obtain ⟨_, r2, e2, e⟩ := M.bind_inv e
    obtain ⟨_, r3, e3, e⟩ := M.bind_inv e
    obtain ⟨b, r4, e4, e⟩ := M.bind_inv e
    obtain ⟨_, r5, e5, e⟩ := M.bind_inv e
    obtain ⟨y, r6, e6, e⟩ := M.bind_inv e
    cases y with
    | error y => cases e
    | ok props =>
      obtain ⟨ps, r7, e7, e⟩ := M.bind_inv e
      obtain ⟨z, r8, e8, e⟩ := M.bind_inv e
      cases e8
      cases hz : r7.err with
      | some z => rw [hz] at e; cases e
      | none =>
        rw [hz] at e
        cases e
        have h1 := layerPointers_used (ps := []) e7 hz
        have h2 := left_le' r6
        rw [((readImageProperties_cheap _) _ _ _ e6).1, ((readPrecision_cheap _) _ _ _ e5).1, (readUint32_keeps _ _ _ e4).1,
          (readUint32_keeps _ _ _ e3).1, (readUint32_keeps _ _ _ e2).1, (readHeader_cheap _ _ _ e1).1] at h2
        simp only [List.length_nil] at h1
        show 4 * ps.length ≤ _
        omega

end Limage.Failing

namespace Limage
open Failing

/-- **C157** For one layer, at whatever place and with whatever number of tiles, the source is read at most `(|D| + 1) * (|D| / 2 + 7)` times: once for
every byte and once more at each of the at most seven parts the layer consists of and at each of its tiles and those of its mask, to which there are
pointers of four bytes in the file.  (Stated of runs that return; when they do is C155.) -/
theorem C157_layer (c : Ctx) (D : Bytes) (plan : Nat → Option (Nat × Err)) (p : UInt64) (l : DLayer) (r : Failing.R)
    (h : (do Failing.goto p; Failing.readLayer c : Failing.M DLayer) (Failing.newReader plan D) = .ok (l, r)) :
    Failing.layerAtPtr c D plan p = .ok (l, r.err) ∧ r.calls ≤ (D.length + 1) * (D.length / 2 + 7) := by
  refine ⟨by unfold Failing.layerAtPtr; rw [h], ?_⟩
  have h1 := (((goto_jumps p).bind fun _ => readLayer_jumps c) _ _ _ h).2
  have e0 : (Failing.newReader plan D).calls = 0 := rfl
  have e1 : (Failing.newReader plan D).left = D.length + 1 := rfl
  have e2 : (Failing.newReader plan D).data = D := rfl
  have e3 : (Failing.newReader plan D).err = none := rfl
  rw [e0, e1, e2, if_pos e3] at h1
  dsimp only at h1
  have h2 : 2 * (D.length / 4) ≤ D.length / 2 := by omega
  have h3 := Nat.mul_le_mul_left (D.length + 1) h2
  rw [Nat.mul_add]
  have h4 : (D.length + 1) * (2 * (D.length / 4)) = 2 * (D.length / 4 * (D.length + 1)) := by
    rw [Nat.mul_comm (D.length / 4), ← Nat.mul_assoc, Nat.mul_comm _ 2, Nat.mul_assoc]
  generalize D.length / 4 * (D.length + 1) = q at *
  generalize (D.length + 1) * (D.length / 2) = q' at *
  omega

/-- a grey layer of 128 by 1 points with its two tiles at the same place: 21 calls for a file of 70 bytes, of which the last two are read twice -/
example : let D : Bytes := [0, 0, 0, 128, 0, 0, 0, 1, 0, 0, 0, 2] ++ List.replicate 12 0 ++ [0, 0, 0, 32, 0, 0, 0, 0] ++
      [0, 0, 0, 128, 0, 0, 0, 1, 0, 0, 0, 1, 0, 0, 0, 48] ++ [0, 0, 0, 128, 0, 0, 0, 1, 0, 0, 0, 68, 0, 0, 0, 68, 0, 0, 0, 0] ++ [63, 200]
    (match (do Failing.goto 0; Failing.readLayer ⟨⟨fun _ => 0, fun _ => .ok none⟩, 1, true, 1, [], 0⟩ : Failing.M DLayer) (Failing.newReader (fun _ => none) D) with
      | .ok (l, r) => some (l.layer.bounds, r.err.isNone, r.pos, r.calls, D.length)
      | _ => none) = some (⟨0, 0, 128, 1⟩, true, 70, 21, 70) := by
  decide +kernel

/-- **C157** There are at most as many layers as pointers of four bytes fit into the file. -/
theorem C157_layers (D : Bytes) (plan : Nat → Option (Nat × Err)) (h : Head) (r : Failing.R)
    (e : Failing.readHead (Failing.newReader plan D) = .ok (.ok h, r)) : 4 * h.ptrs.length ≤ D.length := readHead_ptrs e

/-- two layers in a file of 46 bytes -/
example : (match Failing.readHead (Failing.newReader (fun _ => none) ([103, 105, 109, 112, 32, 120, 99, 102, 32, 118, 48, 48, 51, 0] ++
      [0, 0, 0, 5, 0, 0, 0, 7, 0, 0, 0, 0] ++ List.replicate 8 0 ++ [0, 0, 0, 50, 0, 0, 0, 60, 0, 0, 0, 0])) with
    | .ok (.ok h, _) => h.ptrs.length
    | _ => 0) = 2 := by
  decide +kernel

end Limage
