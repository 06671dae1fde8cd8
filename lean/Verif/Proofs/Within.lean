import Verif.Proofs.Ext
import Verif.Proofs.ReadEnd
/-! Reading without an error ends inside the source. -/
namespace Limage

/-- not behind the end -/
def R.inside (r : R) : Prop := r.pos ≤ r.data.length

/-- a computation that does not leave the source without an error -/
structure Stays {α : Type} (m : M α) : Prop where
  keeps : Keeps m
  run : ∀ r a r', m r = .ok (a, r') → r'.err = none → r.inside → r'.inside

/-- a computation that ends inside the source, or with an error, wherever it started -/
structure EndsIn {α : Type} (m : M α) : Prop where
  keeps : Keeps m
  run : ∀ r a r', m r = .ok (a, r') → r'.err = none → r'.inside

theorem EndsIn.stays {α : Type} {m : M α} (h : EndsIn m) : Stays m := ⟨h.keeps, fun r a r' e he _ => h.run r a r' e he⟩

theorem Stays.pure {α : Type} (a : α) : Stays (pure a : M α) := ⟨Keeps.pure a, fun r x r' h _ hi => by cases h; exact hi⟩

theorem Stays.bind {α β : Type} {m : M α} {f : α → M β} (h1 : Stays m) (h2 : ∀ a, Stays (f a)) : Stays (m >>= f) := by
  refine ⟨h1.keeps.bind fun a => (h2 a).keeps, fun r b r' h he hi => ?_⟩
  obtain ⟨a, r1, e1, e2⟩ := M.bind_inv h
  exact (h2 a).run _ _ _ e2 he (h1.run _ _ _ e1 (((h2 a).keeps _ _ _ e2).none he) hi)

theorem EndsIn.bind {α β : Type} {m : M α} {f : α → M β} (h1 : EndsIn m) (h2 : ∀ a, Stays (f a)) : EndsIn (m >>= f) := by
  refine ⟨h1.keeps.bind fun a => (h2 a).keeps, fun r b r' h he => ?_⟩
  obtain ⟨a, r1, e1, e2⟩ := M.bind_inv h
  exact (h2 a).run _ _ _ e2 he (h1.run _ _ _ e1 (((h2 a).keeps _ _ _ e2).none he))

theorem EndsIn.after {α β : Type} {m : M α} {f : α → M β} (h1 : Keeps m) (h2 : ∀ a, EndsIn (f a)) : EndsIn (m >>= f) := by
  refine ⟨h1.bind fun a => (h2 a).keeps, fun r b r' h he => ?_⟩
  obtain ⟨a, r1, e1, e2⟩ := M.bind_inv h
  exact (h2 a).run _ _ _ e2 he

theorem Stays.ite {α : Type} {p : Prop} [Decidable p] {m n : M α} (h1 : Stays m) (h2 : Stays n) : Stays (if p then m else n) := by
  by_cases h : p
  · rw [if_pos h]; exact h1
  · rw [if_neg h]; exact h2

theorem EndsIn.ite {α : Type} {p : Prop} [Decidable p] {m n : M α} (h1 : EndsIn m) (h2 : EndsIn n) : EndsIn (if p then m else n) := by
  by_cases h : p
  · rw [if_pos h]; exact h1
  · rw [if_neg h]; exact h2

theorem EndsIn.panic {α : Type} : EndsIn (M.panic : M α) := ⟨Keeps.panic, fun _ _ _ h => by cases h⟩
theorem EndsIn.hang {α : Type} : EndsIn (M.hang : M α) := ⟨Keeps.hang, fun _ _ _ h => by cases h⟩

theorem setError_in (e : Err) : EndsIn (setError e) := ⟨setError_keeps e, fun r a r' h he => by
  unfold setError at h
  cases h
  exact absurd he (by
    dsimp only
    cases r.err <;> simp)⟩

theorem readFull_in {n : Nat} (hn : 0 < n) : EndsIn (readFull n) := by
  refine ⟨readFull_keeps n, fun r a r' h he => ?_⟩
  have hr := (readFull_keeps n _ _ _ h).none he
  unfold readFull at h
  rw [hr] at h
  dsimp only at h
  split at h
  · rename_i hl
    cases h
    rw [List.length_take, List.length_drop] at hl
    show r.pos + n ≤ r.data.length
    omega
  · cases h; cases he

theorem readUint8_in : EndsIn readUint8 := (readFull_in (by omega)).bind fun _ => Stays.pure _
theorem readUint16_in : EndsIn readUint16 := (readFull_in (by omega)).bind fun _ => Stays.pure _
theorem readUint32_in : EndsIn readUint32 := (readFull_in (by omega)).bind fun _ => Stays.pure _

theorem copyN_stays (n : Nat) : Stays (copyN n) := by
  refine ⟨copyN_keeps n, fun r a r' h he hi => ?_⟩
  unfold copyN at h
  cases hr : r.err with
  | some e => rw [hr] at h; cases h; exact hi
  | none =>
    rw [hr] at h
    cases h
    unfold R.inside at hi ⊢
    simp only [List.length_take, List.length_drop]
    omega

theorem readInto_stays (p : Bytes) : Stays (readInto p) := by
  refine ⟨readInto_keeps p, fun r a r' h he hi => ?_⟩
  unfold readInto at h
  cases hr : r.err with
  | some e => rw [hr] at h; cases h; exact hi
  | none =>
    rw [hr] at h
    dsimp only at h
    split at h
    · cases h; exact hi
    · cases h
      unfold R.inside at hi ⊢
      simp only [List.length_take, List.length_drop]
      omega

theorem readInto_in {p : Bytes} (hp : p ≠ []) : EndsIn (readInto p) := by
  refine ⟨readInto_keeps p, fun r a r' h he => ?_⟩
  have hr := (readInto_keeps p _ _ _ h).none he
  have hl := List.length_pos_iff.2 hp
  unfold readInto at h
  rw [hr] at h
  dsimp only at h
  split at h
  · cases h; cases he
  · cases h
    dsimp only at he
    split at he
    · cases he
    · rename_i hx
      unfold R.inside
      simp only [List.length_take, List.length_drop] at hx ⊢
      omega

theorem rleHead_stays (s : Rle) (m : UInt8) : Stays (rleHead s m) := by
  unfold rleHead
  refine Stays.ite ?_ (Stays.ite ?_ (Stays.ite ?_ (Stays.pure _)))
  · exact readUint8_in.stays.bind fun _ => Stays.pure _
  · exact readUint16_in.stays.bind fun _ => readUint8_in.stays.bind fun _ => Stays.pure _
  · exact readUint16_in.stays.bind fun _ => Stays.pure _

theorem rleOp_in (s : Rle) : EndsIn (rleOp s) := by
  refine ⟨rleOp_keeps s, fun r a r' h he => ?_⟩
  unfold rleOp at h
  obtain ⟨m, r1, h1, h⟩ := M.bind_inv h
  obtain ⟨e, r2, h2, h⟩ := M.bind_inv h
  cases h2
  cases hx : r1.err with
  | some x =>
    rw [hx] at h
    cases h
    rw [hx] at he; cases he
  | none =>
    rw [hx] at h
    obtain ⟨s1, r3, h3, h⟩ := M.bind_inv h
    obtain ⟨e, r4, h4, h⟩ := M.bind_inv h
    cases h4
    cases hy : r3.err with
    | some x =>
      rw [hy] at h
      obtain ⟨_, r5, h5, h⟩ := M.bind_inv h
      cases h5; cases h
      cases he
    | none =>
      rw [hy] at h
      cases h
      exact (rleHead_stays _ _).run _ _ _ h3 hy (readUint8_in.run _ _ _ h1 hx)

theorem rleRead_in : ∀ (fuel : Nat) (s : Rle) (p : Bytes) (r r' : R) (out : Bytes) (s' : Rle) (e : Option Err),
    rleRead fuel s p r = .ok ((out, s', e), r') → r'.err = none → r.inside ∨ (p ≠ [] ∧ s.count = 0) →
    r'.inside ∧ (e = none → s'.count = 0) := by
  intro fuel
  induction fuel with
  | zero => intro s p r r' out s' e h; cases h
  | succ fuel ih =>
    intro s p r r' out s' e h he hi
    have hr := (rleRead_keeps _ _ _ _ _ _ h).none he
    unfold rleRead at h
    obtain ⟨e0, r1, h1, h⟩ := M.bind_inv h
    cases h1
    rw [hr] at h
    cases p with
    | nil =>
      simp only [List.isEmpty_nil, Bool.true_or, if_true] at h
      have hi : r.inside := by
        rcases hi with hi | ⟨hp, _⟩
        · exact hi
        · exact absurd rfl hp
      split at h
      · cases h
        exact ⟨hi, fun h => by cases h⟩
      · rename_i hc
        cases h
        refine ⟨hi, fun _ => ?_⟩
        simpa using hc
    | cons b p =>
      simp only [List.isEmpty_cons, Bool.false_or, Option.isSome_none, Bool.false_eq_true, if_false] at h
      have key : ∀ (s1 : Rle) (r1 : R) (e1 : Option Err), (match e1 with
            | some e => Pure.pure (b :: p, s1, some e)
            | none => do
              let w ← rleCopy s1 (min s1.count.toNat (b :: p).length) (b :: p)
              let __x ← rleRead fuel { s1 with count := s1.count - UInt16.ofNat (min s1.count.toNat (b :: p).length) }
                ((b :: p).drop (min s1.count.toNat (b :: p).length))
              match __x with
              | (rest, s, e) => (Pure.pure (w ++ rest, s, e) : M (Bytes × Rle × Option Err))) r1 = .ok ((out, s', e), r') →
          r1.inside → r'.inside ∧ (e = none → s'.count = 0) := by
        intro s1 r1 e1 h hi1
        cases e1 with
        | some e1 => cases h; exact ⟨hi1, fun h => by cases h⟩
        | none =>
          dsimp only at h
          obtain ⟨w, r2, h2, h⟩ := M.bind_inv h
          obtain ⟨x, r3, h3, h⟩ := M.bind_inv h
          obtain ⟨rest, s3, e3⟩ := x
          cases h
          have hr2 := (rleRead_keeps _ _ _ _ _ _ h3).none he
          have hs : Stays (rleCopy s1 (min s1.count.toNat (b :: p).length) (b :: p)) := by
            unfold rleCopy
            exact Stays.ite (Stays.pure _) (readInto_stays _)
          exact ih _ _ _ _ _ _ _ h3 he (.inl (hs.run _ _ _ h2 hr2 hi1))
      by_cases hc : s.count = 0
      · rw [if_pos hc] at h
        obtain ⟨x, r2, h2, h⟩ := M.bind_inv h
        obtain ⟨s1, e1⟩ := x
        have hr2 : r2.err = none := by
          cases e1 with
          | some e1 => cases h; exact he
          | none =>
            dsimp only at h
            obtain ⟨w, r3, h3, h⟩ := M.bind_inv h
            obtain ⟨y, r4, h4, h⟩ := M.bind_inv h
            obtain ⟨rest, s3, e3⟩ := y
            cases h
            have k3 : Keeps (rleCopy s1 (min s1.count.toNat (b :: p).length) (b :: p)) := by
              unfold rleCopy
              exact Keeps.ite (Keeps.pure _) (readInto_keeps _)
            exact (k3 _ _ _ h3).none ((rleRead_keeps _ _ _ _ _ _ h4).none he)
        exact key s1 r2 e1 h ((rleOp_in s).run _ _ _ h2 hr2)
      · rw [if_neg hc] at h
        have hi : r.inside := by
          rcases hi with hi | ⟨_, h0⟩
          · exact hi
          · exact absurd h0 hc
        exact key s r none h hi

theorem copyOp_stays (c : UInt8) : Stays (copyOp c) := by
  unfold copyOp
  refine Stays.ite ?_ (Stays.ite ?_ (Stays.ite ?_ ?_))
  · exact readUint8_in.stays.bind fun _ => Stays.pure _
  · exact readUint16_in.stays.bind fun _ => readUint8_in.stays.bind fun _ => Stays.pure _
  · exact readUint16_in.stays.bind fun _ => (copyN_stays _).bind fun _ => Stays.pure _
  · exact (copyN_stays _).bind fun _ => Stays.pure _

theorem readRLE_stays : ∀ (fuel : Nat) (count : Int), Stays (readRLE fuel count) := by
  intro fuel
  induction fuel with
  | zero => intro _; exact EndsIn.hang.stays
  | succ fuel ih =>
    intro count
    unfold readRLE
    exact Stays.ite (Stays.pure _) (readUint8_in.stays.bind fun c => (copyOp_stays c).bind fun x =>
      (ih _).bind fun y => Stays.pure _)

theorem readRLE_in (fuel : Nat) {count : Int} (hc : 0 < count) : EndsIn (readRLE fuel count) := by
  cases fuel with
  | zero => exact EndsIn.hang
  | succ fuel =>
    unfold readRLE
    rw [if_neg (by omega)]
    exact readUint8_in.bind fun c => (copyOp_stays c).bind fun x => (readRLE_stays _ _).bind fun y => Stays.pure _

theorem setErr?_stays (e : Option Err) : Stays (setErr? e) := by
  cases e with
  | none => exact Stays.pure _
  | some e => exact (setError_in e).stays

theorem readChannels_stays (n : Nat) : ∀ k, Stays (readChannels n k) := by
  intro k
  induction k with
  | zero => exact Stays.pure _
  | succ k ih =>
    unfold readChannels
    refine Stays.bind ⟨fun r a r' h => readRLE_keeps _ _ r a r' h, fun r a r' h => (readRLE_stays _ _).run r a r' h⟩ fun x => ?_
    exact (setErr?_stays _).bind fun _ => ih.bind fun _ => Stays.pure _

theorem readChannels_in {n k : Nat} (hn : 0 < n) (hk : 0 < k) : EndsIn (readChannels n k) := by
  cases k with
  | zero => omega
  | succ k =>
    unfold readChannels
    refine EndsIn.bind ⟨fun r a r' h => readRLE_keeps _ _ r a r' h, fun r a r' h => (readRLE_in _ (by omega)).run r a r' h⟩ fun x => ?_
    exact (setErr?_stays _).bind fun _ => (readChannels_stays _ _).bind fun _ => Stays.pure _

theorem readInto_len {p out : Bytes} {r r' : R} (h : readInto p r = .ok (out, r')) : out.length = p.length := by
  unfold readInto at h
  split at h
  · cases h; rfl
  · split at h
    · cases h; rfl
    · cases h
      rw [List.length_append, List.length_drop, List.length_take]
      omega

theorem rleRead_len : ∀ (fuel : Nat) (s : Rle) (p : Bytes) (r r' : R) (out : Bytes) (s' : Rle) (e : Option Err),
    rleRead fuel s p r = .ok ((out, s', e), r') → out.length = p.length := by
  intro fuel
  induction fuel with
  | zero => intro s p r r' out s' e h; cases h
  | succ fuel ih =>
    intro s p r r' out s' e h
    unfold rleRead at h
    obtain ⟨e0, r1, -, h⟩ := M.bind_inv h
    split at h
    · split at h <;> · cases h; rfl
    · have key : ∀ (s1 : Rle) (r1 : R) (e1 : Option Err), (match e1 with
            | some e => Pure.pure (p, s1, some e)
            | none => do
              let w ← rleCopy s1 (min s1.count.toNat p.length) p
              let __x ← rleRead fuel { s1 with count := s1.count - UInt16.ofNat (min s1.count.toNat p.length) }
                (p.drop (min s1.count.toNat p.length))
              match __x with
              | (rest, s, e) => (Pure.pure (w ++ rest, s, e) : M (Bytes × Rle × Option Err))) r1 = .ok ((out, s', e), r') →
          out.length = p.length := by
        intro s1 r1 e1 h
        cases e1 with
        | some e1 => cases h; rfl
        | none =>
          dsimp only at h
          obtain ⟨w, r2, h2, h⟩ := M.bind_inv h
          obtain ⟨x, r3, h3, h⟩ := M.bind_inv h
          obtain ⟨rest, s3, e3⟩ := x
          cases h
          have h4 := ih _ _ _ _ _ _ _ h3
          have hw : w.length = min s1.count.toNat p.length := by
            unfold rleCopy at h2
            split at h2
            · cases h2; rw [List.length_replicate]
            · rw [readInto_len h2, List.length_take]; omega
          rw [List.length_drop] at h4
          rw [List.length_append, hw, h4]
          omega
      dsimp only at h
      by_cases hc : s.count = 0
      · rw [if_pos hc] at h
        obtain ⟨x, r2, h2, h⟩ := M.bind_inv h
        obtain ⟨s1, e1⟩ := x
        exact key s1 r2 e1 h
      · rw [if_neg hc] at h
        exact key s _ none h

/-- a tile read without an error ends inside -/
theorem eagerTile_in {c : Ctx} {bpp : Nat} {t : Tile} {s s' : EagerState} {r r' : R} (h : eagerTile c bpp t s r = .ok (s', r'))
    (he : r'.err = none) (hn : 0 < t.w * t.h * bpp) (hs : s.rle.count = 0) (hb : 0 < s.buf.length) :
    r'.inside ∧ s'.rle.count = 0 ∧ s'.buf.length = s.buf.length := by
  have hne : s.buf.take (t.w * t.h * bpp) ≠ [] := by
    intro h0
    have := congrArg List.length h0
    rw [List.length_take, List.length_nil] at this
    omega
  unfold eagerTile at h
  dsimp only at h
  by_cases hc : c.compression = 0
  · rw [if_pos hc] at h
    obtain ⟨got, r1, h1, h⟩ := M.bind_inv h
    cases h
    refine ⟨(readInto_in hne).run _ _ _ h1 he, hs, ?_⟩
    dsimp only
    rw [List.length_append, readInto_len h1, List.length_take, List.length_drop]
    omega
  · rw [if_neg hc] at h
    obtain ⟨x, r1, h1, h⟩ := M.bind_inv h
    obtain ⟨got, rle, e⟩ := x
    dsimp only at h
    obtain ⟨_, r2, h2, h⟩ := M.bind_inv h
    cases h
    have hl := rleRead_len _ _ _ _ _ _ _ _ h1
    cases e with
    | some e => exact absurd he (by cases h2; dsimp only; cases r1.err <;> simp)
    | none =>
      cases h2
      obtain ⟨g1, g2⟩ := rleRead_in _ _ _ _ _ _ _ _ h1 he (.inr ⟨hne, hs⟩)
      refine ⟨g1, g2 rfl, ?_⟩
      dsimp only
      rw [List.length_append, hl, List.length_take, List.length_drop]
      omega

theorem tileGo_keeps {σ : Type} (body : Tile → σ → M σ) (hk : ∀ t s, Keeps (body t s)) :
    ∀ (ts : List Tile) (ps : List UInt64) (s : σ), Keeps (tileLoop.go body ts ps s) := by
  intro ts
  induction ts with
  | nil => intro ps s; unfold tileLoop.go; exact Keeps.pure _
  | cons t ts ih =>
    intro ps s
    cases ps with
    | nil => unfold tileLoop.go; exact Keeps.panic
    | cons p ps =>
      unfold tileLoop.go
      exact (goto_keeps p).bind fun _ => (hk t s).bind fun s => ih ps s

theorem tileGo_in {σ : Type} (I : σ → Prop) (body : Tile → σ → M σ) (hk : ∀ t s, Keeps (body t s)) (G : Tile → Prop)
    (hbody : ∀ t s r s' r', body t s r = .ok (s', r') → r'.err = none → G t → I s → r'.inside ∧ I s') :
    ∀ (ts : List Tile) (ps : List UInt64) (s : σ) (r r' : R) (s' : σ), tileLoop.go body ts ps s r = .ok (s', r') → r'.err = none →
      (∀ t ∈ ts, G t) → I s → r.inside → r'.inside := by
  intro ts
  induction ts with
  | nil => intro ps s r r' s' h _ _ _ hi; unfold tileLoop.go at h; cases h; exact hi
  | cons t ts ih =>
    intro ps s r r' s' h he hg hI hi
    cases ps with
    | nil => unfold tileLoop.go at h; cases h
    | cons p ps =>
      unfold tileLoop.go at h
      obtain ⟨_, r1, h1, h⟩ := M.bind_inv h
      obtain ⟨s2, r2, h2, h⟩ := M.bind_inv h
      obtain ⟨g1, g2⟩ := hbody _ _ _ _ _ h2 ((tileGo_keeps body hk ts ps s2 _ _ _ h).none he) (hg t List.mem_cons_self) hI
      exact ih ps s2 r2 r' s' h he (fun t ht => hg t (List.mem_cons_of_mem _ ht)) g2 g1

theorem tileLoop_in {σ : Type} (I : σ → Prop) (body : Tile → σ → M σ) (hk : ∀ t s, Keeps (body t s))
    (hbody : ∀ t s r s' r', body t s r = .ok (s', r') → r'.err = none → 0 < t.w * t.h → I s → r'.inside ∧ I s') {w h : Nat} {ps : List UInt64}
    {s s' : σ} {r r' : R} (e : tileLoop w h ps s body r = .ok (s', r')) (he : r'.err = none) (hI : I s) (hi : r.inside) : r'.inside := by
  unfold tileLoop at e
  split at e
  · split at e
    · cases e
    · cases e; exact hi
  · split at e
    · cases e; exact hi
    · split at e
      · cases e
      · refine tileGo_in I body hk (fun t => 0 < t.w * t.h) hbody _ _ _ _ _ _ e he (fun t ht => ?_) hI hi
        rw [tileGrid_eq, List.mem_map] at ht
        obtain ⟨⟨i, j⟩, hij, rfl⟩ := ht
        obtain ⟨h1, h2⟩ := mem_tileList.1 hij
        exact (tileOf_size h1 h2).1

theorem readLevel_within (c : Ctx) (w h k : UInt32) : EndsIn (readLevel c w h k) := by
  have er : ∀ e : Err, EndsIn (do setError e; return none : M (Option (UInt32 × List UInt64))) := fun e =>
    (setError_in e).bind fun _ => Stays.pure _
  unfold readLevel
  refine EndsIn.after readUint32_keeps fun _ => EndsIn.after readUint32_keeps fun _ => EndsIn.ite (er _) ?_
  refine EndsIn.after readUint32_keeps fun _ => EndsIn.ite (er _) ?_
  refine EndsIn.after (readPtr_keeps _) fun _ => EndsIn.after (goto_keeps _) fun _ => EndsIn.after readUint32_keeps fun _ =>
    EndsIn.after readUint32_keeps fun _ => EndsIn.ite (er _) ?_
  refine EndsIn.after (readTiles_keeps _ _ _) fun _ => EndsIn.bind readUint32_in fun _ => Stays.ite (er _).stays (Stays.pure _)

theorem bppOk_pos {kind bpp : UInt32} (hk : kind.toNat < 6) (h : bppOk kind bpp = true) : 0 < bpp.toNat := by
  have hk : kind ∈ (List.range 6).map UInt32.ofNat := by
    rw [List.mem_map]
    exact ⟨kind.toNat, List.mem_range.2 hk, by simp⟩
  have h0 : ∀ k ∈ (List.range 6).map UInt32.ofNat, bppOk k 0 = false := by decide
  rcases Nat.eq_zero_or_pos bpp.toNat with hz | hz
  · have : bpp = 0 := UInt32.toNat_inj.1 hz
    subst this
    rw [h0 kind hk] at h
    cases h
  · exact hz

/-- an image read without an error lies inside the source -/
theorem readImage_in (c : Ctx) (w h k : UInt32) (hk : k.toNat < 6) : EndsIn (readImage c w h k) := by
  refine ⟨readImage_keeps _ _ _ _, fun r a r' e he => ?_⟩
  unfold readImage at e
  obtain ⟨x, r1, h1, e⟩ := M.bind_inv e
  cases x with
  | none => cases e; exact (readLevel_within _ _ _ _).run _ _ _ h1 he
  | some x =>
    obtain ⟨bpp, tiles⟩ := x
    have hb := bppOk_pos hk (readLevel_spec _ _ _ _ _ _ _ _ h1).1
    dsimp only at e
    split at e
    · obtain ⟨im, r2, h2, e⟩ := M.bind_inv e
      cases e
      have hi := (readLevel_within _ _ _ _).run _ _ _ h1 ((readEager_keeps _ _ _ _ _ _ _ _ _ h2).none he)
      unfold readEager at h2
      rw [if_pos hk] at h2
      obtain ⟨_, r3, h3, h2⟩ := M.bind_inv h2
      obtain ⟨s, r4, h4, h2⟩ := M.bind_inv h2
      cases h2
      have hr3 : r3 = r1 := by
        unfold allocate at h3
        split at h3 <;> cases h3
        rfl
      subst hr3
      refine tileLoop_in (fun s : EagerState => s.rle.count = 0 ∧ 0 < s.buf.length) _ (fun t s => eagerTile_keeps _ _ _ _) ?_ h4 he
        ⟨rfl, by rw [List.length_replicate]; omega⟩ hi
      intro t s r s' r' e he ht hs
      obtain ⟨g1, g2, g3⟩ := eagerTile_in e he (Nat.mul_pos ht hb) hs.1 hs.2
      exact ⟨g1, g2, by omega⟩
    · obtain ⟨im, r2, h2, e⟩ := M.bind_inv e
      cases e
      have hi := (readLevel_within _ _ _ _).run _ _ _ h1 ((readLazy_keeps _ _ _ _ _ _ _ _ _ h2).none he)
      unfold readLazy at h2
      obtain ⟨_, r3, h3, h2⟩ := M.bind_inv h2
      obtain ⟨s, r4, h4, h2⟩ := M.bind_inv h2
      rw [if_pos hk] at h2
      cases h2
      have hr3 : r3 = r1 := by
        unfold allocate at h3
        split at h3 <;> cases h3
        rfl
      subst hr3
      refine tileLoop_in (fun _ => True) _ (fun t s => (readChannels_keeps _ _).bind fun _ => Keeps.pure _) ?_ h4 he trivial hi
      intro t s r s' r' e he ht _
      exact ⟨((readChannels_in ht hb).bind fun _ => Stays.pure _).run _ _ _ e he, trivial⟩

theorem readChannel_within (c : Ctx) : EndsIn (readChannel c) := by
  unfold readChannel
  refine EndsIn.after readUint32_keeps fun _ => EndsIn.after readUint32_keeps fun _ => EndsIn.after (skipString_ext (t := [])).keeps fun _ =>
    EndsIn.after (skipPropertiesAll_ext (t := [])).keeps fun _ => EndsIn.after (readPtr_keeps _) fun _ => EndsIn.after (goto_keeps _) fun _ =>
    EndsIn.bind (readImage_in _ _ _ _ (by decide)) fun x => ?_
  cases x with
  | none => exact Stays.pure _
  | some d =>
    cases d with
    | eager im => exact Stays.pure _
    | lazy im => exact EndsIn.panic.stays

theorem readMask_in (c : Ctx) (b : Rect) (im : Img) : EndsIn (readMask c b im) := by
  unfold readMask
  refine EndsIn.bind (readChannel_within c) fun x => ?_
  cases x with
  | none => exact Stays.pure _
  | some m => exact Stays.ite (Stays.pure _) ((setError_in _).stays.bind fun _ => Stays.pure _)

theorem layerText_stays (c : Ctx) (ps : List Parasite) (im : Img) : Stays (layerText c ps im) := by
  refine ⟨(layerText_ext (t := []) c ps im).keeps, fun r a r' h he hi => ?_⟩
  have h1 := layerText_pos h
  have h2 := ((layerText_ext (t := []) c ps im).keeps _ _ _ h).1
  unfold R.inside at hi ⊢
  rw [h1, h2]
  exact hi

/-- a layer that is not a group and is read without an error lies inside the source -/
theorem readLayer_within {c : Ctx} (hc : c.baseType.toNat < 3) {r r' : R} {l : DLayer} (h : readLayer c r = .ok (l, r')) (he : r'.err = none)
    (hg : l.group = false) : r'.inside := by
  unfold readLayer at h
  obtain ⟨w, r1, -, h⟩ := M.bind_inv h
  obtain ⟨ht, r2, -, h⟩ := M.bind_inv h
  obtain ⟨typ, r3, -, h⟩ := M.bind_inv h
  split at h
  · obtain ⟨_, r4, h4, h⟩ := M.bind_inv h
    cases h
    exact (setError_in _).run _ _ _ h4 he
  rename_i hty
  have htyp : typ.toNat < 6 := by
    have e : typ >>> 1 = c.baseType := by simpa using hty
    have e := congrArg UInt32.toNat e
    rw [UInt32.toNat_shiftRight] at e
    have e : typ.toNat >>> 1 = c.baseType.toNat := e
    rw [Nat.shiftRight_eq_div_pow] at e
    omega
  obtain ⟨name, r4, -, h⟩ := M.bind_inv h
  obtain ⟨s, r5, -, h⟩ := M.bind_inv h
  obtain ⟨hp, r6, -, h⟩ := M.bind_inv h
  obtain ⟨mp, r7, -, h⟩ := M.bind_inv h
  obtain ⟨_, r8, -, h⟩ := M.bind_inv h
  dsimp only at h
  have key : l.group = s.group → r'.inside := by
    intro hgs
    rw [← hgs, hg] at h
    refine (EndsIn.bind (m := layerImage c false w ht typ) ?_ fun x => ?_).run _ _ _ h he
    · unfold layerImage
      rw [if_neg (by decide)]
      refine EndsIn.bind (readImage_in _ _ _ _ htyp) fun x => ?_
      cases x <;> exact Stays.pure _
    · cases x with
      | none => exact Stays.pure _
      | some im =>
        dsimp only
        refine (layerText_stays _ _ _).bind fun y => ?_
        cases y with
        | none => exact Stays.pure _
        | some im =>
          dsimp only
          refine Stays.ite (EndsIn.stays ?_) (Stays.pure _)
          exact EndsIn.after (goto_keeps _) fun _ => EndsIn.bind (readMask_in _ _ _) fun _ => Stays.pure _
  apply key
  obtain ⟨x, r9, -, h⟩ := M.bind_inv h
  cases x with
  | none => cases h; rfl
  | some im =>
    dsimp only at h
    obtain ⟨y, r10, -, h⟩ := M.bind_inv h
    cases y with
    | none => cases h; rfl
    | some im =>
      dsimp only at h
      split at h
      · obtain ⟨_, r11, -, h⟩ := M.bind_inv h
        obtain ⟨_, r12, -, h⟩ := M.bind_inv h
        cases h; rfl
      · cases h; rfl

end Limage
