import Verif.Proofs.Total
import Verif.Proofs.Lazy
import Verif.Spec.XcfProps
/-! The decoder does not loop forever and does not panic, under conditions on the source. -/
namespace Limage

/-- On the source `D` it returns, or panics if `pan` holds. -/
def Runs {α : Type} (pan : Prop) (D : Bytes) (m : M α) : Prop :=
  ∀ r, r.data = D → match m r with
    | .ok (_, r') => r'.data = D
    | .panic => pan
    | .hang => False

variable {pan : Prop} {D : Bytes}

theorem Runs.pure {α : Type} (a : α) : Runs pan D (pure a : M α) := fun _ h => h
theorem Runs.bind {α β : Type} {m : M α} {f : α → M β} (h1 : Runs pan D m) (h2 : ∀ a, Runs pan D (f a)) :
    Runs pan D (m >>= f) := by
  intro r hr
  have := h1 r hr
  show match M.bind m f r with
    | .ok (_, r') => r'.data = D
    | .panic => pan
    | .hang => False
  unfold M.bind
  cases hm : m r with
  | ok x => rw [hm] at this; exact h2 x.1 x.2 this
  | panic => rw [hm] at this; exact this
  | hang => rw [hm] at this; exact this
theorem Runs.ite {α : Type} {p : Prop} [Decidable p] {m n : M α} (h1 : Runs pan D m) (h2 : Runs pan D n) :
    Runs pan D (if p then m else n) := by
  by_cases h : p
  · rw [if_pos h]; exact h1
  · rw [if_neg h]; exact h2
theorem Runs.panic {α : Type} (h : pan) : Runs pan D (M.panic : M α) := fun _ _ => h
theorem Total.runs {α : Type} {m : M α} (h : Total m) : Runs pan D m := by
  intro r hr
  obtain ⟨a, r', e, k, _⟩ := h r
  rw [e]
  exact k.1.trans hr
theorem runs_of {α : Type} {m : M α} (h : ∀ r, r.data = D → ∃ a r', m r = .ok (a, r')) (k : Keeps m) :
    Runs pan D m := by
  intro r hr
  obtain ⟨a, r', e⟩ := h r hr
  rw [e]
  exact (k _ _ _ e).1.trans hr

theorem M.bind_panic {α β : Type} {m : M α} {f : α → M β} {r : R} (h : m r = .panic) : (m >>= f) r = .panic := by
  show M.bind m f r = .panic
  unfold M.bind
  rw [h]
theorem M.bind_hang {α β : Type} {m : M α} {f : α → M β} {r : R} (h : m r = .hang) : (m >>= f) r = .hang := by
  show M.bind m f r = .hang
  unfold M.bind
  rw [h]

theorem goto_runs (n : UInt64) : Runs pan D (goto n) :=
  runs_of (fun r _ => ⟨(), _, rfl⟩) (goto_keeps n)

theorem rleReadAll_runs (s : Rle) (p : Bytes) : Runs pan D (rleReadAll s p) := by
  refine runs_of (fun r _ => ?_) (rleReadAll_keeps s p)
  obtain ⟨p', s', e, r', h, _⟩ := rleRead_cases (rleFuel r p) s p r (by unfold rleFuel; omega)
  exact ⟨_, _, h⟩

theorem readRLEAll_runs (n : Nat) : Runs pan D (readRLEAll n) := by
  refine runs_of (fun r _ => ?_) (fun r a r' h => readRLE_keeps _ _ r a r' h)
  cases he : r.err with
  | some e =>
    obtain ⟨x, h⟩ := readRLE_err (n + r.data.length + 1) n r (by rw [he]; rfl) (by omega)
    exact ⟨x, r, h⟩
  | none =>
    obtain ⟨b, e, r', h, _⟩ := readRLE_cases (n + r.data.length + 2) n r he (by omega)
    exact ⟨_, _, h⟩

theorem readChannels_runs (n : Nat) : ∀ k, Runs pan D (readChannels n k) := by
  intro k
  induction k with
  | zero => exact Runs.pure _
  | succ k ih =>
    unfold readChannels
    exact (readRLEAll_runs n).bind fun x => (setErr?_total _).runs.bind fun _ => ih.bind fun _ => Runs.pure _

theorem eagerTile_runs (c : Ctx) (bpp : Nat) (t : Tile) (s : EagerState) : Runs pan D (eagerTile c bpp t s) := by
  unfold eagerTile
  refine Runs.ite ((readInto_total _).runs.bind fun _ => Runs.pure _) ((rleReadAll_runs _ _).bind fun x => ?_)
  exact (setErr?_total _).runs.bind fun _ => Runs.pure _

theorem tileGo_runs {σ : Type} (body : Tile → σ → M σ) (hb : ∀ t s, Runs pan D (body t s)) :
    ∀ (ts : List Tile) (ps : List UInt64) (s : σ), pan ∨ ts.length ≤ ps.length → Runs pan D (tileLoop.go body ts ps s) := by
  intro ts
  induction ts with
  | nil => intro ps s _; unfold tileLoop.go; exact Runs.pure _
  | cons t ts ih =>
    intro ps s h
    cases ps with
    | nil =>
      unfold tileLoop.go
      rcases h with h | h
      · exact Runs.panic h
      · simp at h
    | cons p ps =>
      unfold tileLoop.go
      refine (goto_runs p).bind fun _ => (hb t s).bind fun s => ih ps s ?_
      rcases h with h | h
      · exact Or.inl h
      · exact Or.inr (by simpa using h)

/-- the tile loops end: unless a zero width comes with a wrapping height -/
theorem tileLoop_runs {σ : Type} (body : Tile → σ → M σ) (hb : ∀ t s, Runs pan D (body t s)) (w h : Nat)
    (ps : List UInt64) (s : σ) (hh : w = 0 → h ≤ 0xffffffc0)
    (hp : pan ∨ ((w ≠ 0 → h ≠ 0 → w ≤ 0xffffffc0 ∧ h ≤ 0xffffffc0) ∧ ps.length = tileCount w * tileCount h)) :
    Runs pan D (tileLoop w h ps s body) := by
  unfold tileLoop
  by_cases h0 : w = 0
  · rw [if_pos h0, if_neg (by have := hh h0; omega)]; exact Runs.pure _
  rw [if_neg h0]
  by_cases hh0 : h = 0
  · rw [if_pos hh0]; exact Runs.pure _
  rw [if_neg hh0]
  by_cases hw : w > 0xffffffc0 ∨ h > 0xffffffc0
  · rw [if_pos hw]
    rcases hp with hp | hp
    · exact Runs.panic hp
    · have := hp.1 h0 hh0; omega
  · rw [if_neg hw]
    refine tileGo_runs body hb _ _ _ ?_
    rcases hp with hp | hp
    · exact Or.inl hp
    · right; rw [tileGrid_length, hp.2, Nat.mul_comm]; exact Nat.le_refl _

/-- sizes that keep the tile loops and allocations in bounds -/
def Fine (w h : Nat) : Prop :=
  w * h ≤ 2 ^ 40 ∧ (w ≠ 0 → h ≠ 0 → w ≤ 0xffffffc0 ∧ h ≤ 0xffffffc0)

theorem fine_zero (w : Nat) : Fine w 0 := ⟨by omega, fun _ h => absurd rfl h⟩

theorem tiles_fine {w h : Nat} (hf : Fine w h) : tileCount w * tileCount h * 24 ≤ maxAlloc := by
  have h1 : tileCount w ≤ w := by unfold tileCount; omega
  have h2 : tileCount h ≤ h := by unfold tileCount; omega
  have h3 := Nat.mul_le_mul h1 h2
  have := hf.1
  have : maxAlloc = 281474976710656 := rfl
  omega

theorem allocate_runs (n s : Nat) (h : pan ∨ n * s ≤ maxAlloc) : Runs pan D (allocate n s) := by
  unfold allocate
  by_cases hc : n * s > maxAlloc
  · rw [if_pos hc]
    rcases h with h | h
    · exact Runs.panic h
    · omega
  · rw [if_neg hc]; exact Runs.pure _

theorem readPtrs_total (mode : UInt32) : ∀ n, Total (readPtrs mode n) := by
  intro n
  induction n with
  | zero => exact Total.pure _
  | succ n ih => exact (readPtr_total mode).bind fun _ => ih.bind fun _ => Total.pure _

theorem readTiles_runs (c : Ctx) (w h : Nat) (hf : pan ∨ Fine w h) : Runs pan D (readTiles c w h) := by
  unfold readTiles
  refine (allocate_runs _ _ ?_).bind fun _ => (readPtrs_total _ _).runs
  rcases hf with hf | hf
  · exact Or.inl hf
  · right; have := tiles_fine hf; omega

theorem readUint32_seen {r r' : R} {x : UInt32} (h : readUint32 r = .ok (x, r')) (he : r'.err = none) :
    Sees r (be 4 x.toNat) ∧ r' = r.adv 4 := by
  have hr := (readUint32_keeps _ _ _ h).none he
  rcases readUint32_cases r hr with ⟨y, hs, e⟩ | ⟨r1, e, h1, _⟩
  · rw [e] at h; cases h; exact ⟨hs, rfl⟩
  · rw [e] at h; cases h
    rw [he] at h1; cases h1

theorem no_err_of_ne_zero {r r' : R} {x : UInt32} (h : readUint32 r = .ok (x, r')) (hx : x ≠ 0) : r'.err = none := by
  cases he : r'.err with
  | none => rfl
  | some e => exact absurd (readUint32_zero _ _ _ h (by rw [he]; rfl)) hx

theorem two_seen {r r1 r2 : R} {a b : UInt32} (h1 : readUint32 r = .ok (a, r1)) (h2 : readUint32 r1 = .ok (b, r2))
    (he : r2.err = none) : Sees r (be 4 a.toNat ++ be 4 b.toNat) ∧ r2 = r.adv 8 := by
  obtain ⟨s2, e2⟩ := readUint32_seen h2 he
  obtain ⟨s1, e1⟩ := readUint32_seen h1 ((readUint32_keeps _ _ _ h2).none he)
  refine ⟨s1.append ?_, ?_⟩
  · rw [be_length, ← e1]; exact s2
  · rw [e2, e1, R.adv_adv]

theorem three_seen {r r1 r2 r3 : R} {a b c : UInt32} (h1 : readUint32 r = .ok (a, r1))
    (h2 : readUint32 r1 = .ok (b, r2)) (h3 : readUint32 r2 = .ok (c, r3)) (he : r3.err = none) :
    Sees r (be 4 a.toNat ++ be 4 b.toNat ++ be 4 c.toNat) := by
  obtain ⟨s3, _⟩ := readUint32_seen h3 he
  obtain ⟨s2, e2⟩ := two_seen h1 h2 ((readUint32_keeps _ _ _ h3).none he)
  refine s2.append ?_
  rw [List.length_append, be_length, be_length, ← e2]; exact s3

/-- Somewhere in the source there is a hierarchy for a size of `w` and `h` with `b` bytes per pixel, and
its pointer (of 4 or 8 bytes) leads to a level of the same size.  (A pointer above 2^63 is ignored.) -/
def HasImage (D : Bytes) (w h b : UInt32) : Prop :=
  ∃ p k q, (k = 4 ∨ k = 8) ∧ q < 256 ^ k ∧ (be 4 w.toNat ++ be 4 h.toNat ++ be 4 b.toNat ++ be k q) <+: D.drop p ∧
    (be 4 w.toNat ++ be 4 h.toNat) <+: D.drop (if q < 2 ^ 63 then q else p + 12 + k)

/-- No image in the source with a width of zero has a height that makes the loop counter wrap. -/
def NoWrap (D : Bytes) : Prop := ∀ h b, HasImage D 0 h b → h.toNat ≤ 0xffffffc0

/-- The images in the source with 1 to 4 bytes per pixel have usable sizes. -/
def FineSizes (D : Bytes) : Prop :=
  ∀ w h b, 1 ≤ b.toNat → b.toNat ≤ 4 → HasImage D w h b → Fine w.toNat h.toNat

theorem readPtr_seen {mode : UInt32} {r r' : R} {x : UInt64} (h : readPtr mode r = .ok (x, r')) (he : r'.err = none) :
    ∃ k, (k = 4 ∨ k = 8) ∧ x.toNat < 256 ^ k ∧ Sees r (be k x.toNat) ∧ r' = r.adv k := by
  unfold readPtr at h
  split at h
  · obtain ⟨y, r1, h1, h⟩ := M.bind_inv h
    cases h
    obtain ⟨hs, e⟩ := readUint32_seen h1 he
    exact ⟨4, Or.inl rfl, (by have := y.toNat_lt; simpa using this), by simpa using hs, e⟩
  · have hr := (readUint64_keeps _ _ _ h).none he
    rcases readUint64_cases r hr with ⟨y, hs, e⟩ | ⟨r1, e, h1, _⟩
    · rw [e] at h; cases h; exact ⟨8, Or.inr rfl, (by have := x.toNat_lt; simpa using this), hs, rfl⟩
    · rw [e] at h; cases h
      rw [he] at h1; cases h1

theorem sees_prefix {r : R} {b : Bytes} (h : Sees r b) : b <+: r.data.drop r.pos := by
  obtain ⟨t, ht⟩ := h.2.1
  exact ⟨t, ht.symm⟩

theorem level_seen {mode : UInt32} {w h b : UInt32} {q : UInt64} {r r1 r2 r3 r4 r5 r6 r7 : R}
    (e1 : readUint32 r = .ok (w, r1)) (e2 : readUint32 r1 = .ok (h, r2)) (e3 : readUint32 r2 = .ok (b, r3))
    (e4 : readPtr mode r3 = .ok (q, r4)) (e5 : goto q r4 = .ok ((), r5)) (e6 : readUint32 r5 = .ok (w, r6))
    (e7 : readUint32 r6 = .ok (h, r7)) (he : r7.err = none) : HasImage r.data w h b := by
  have h5 : r5.err = none := ((readUint32_keeps _ _ _ e6).trans (readUint32_keeps _ _ _ e7)).none he
  have h4 : r4.err = none := (goto_keeps _ _ _ _ e5).none h5
  have h3 : r3.err = none := (readPtr_keeps _ _ _ _ e4).none h4
  have s3 := three_seen e1 e2 e3 h3
  obtain ⟨k, hk, hq256, s4, er4⟩ := readPtr_seen e4 h4
  obtain ⟨s7, _⟩ := two_seen e6 e7 he
  have er3 : r3 = r.adv 12 := by
    obtain ⟨_, x3⟩ := readUint32_seen e3 h3
    obtain ⟨_, x2⟩ := two_seen e1 e2 ((readUint32_keeps _ _ _ e3).none h3)
    rw [x3, x2, R.adv_adv]
  have all := s3.append (b := be k q.toNat) (by
    rw [List.length_append, List.length_append, be_length, be_length, be_length]
    rw [er3] at s4; exact s4)
  refine ⟨r.pos, k, q.toNat, hk, hq256, sees_prefix all, ?_⟩
  have := sees_prefix s7
  have hd : r5.data = r.data := by
    rw [(goto_keeps _ _ _ _ e5).1, er4, er3]; rfl
  rw [hd] at this
  have hp : r5.pos = if q.toNat < 2 ^ 63 then q.toNat else r.pos + 12 + k := by
    unfold goto at e5
    cases e5
    by_cases hq : q.toNat < 2 ^ 63
    · rw [if_pos hq, if_pos hq]
    · rw [if_neg hq, if_neg hq, er4, er3]; rfl
  rw [hp] at this
  exact this

theorem bppOk_range {k b : UInt32} (hk : k.toNat < 6) (h : bppOk k b = true) : 1 ≤ b.toNat ∧ b.toNat ≤ 4 := by
  have key : ∀ n : Nat, n < 6 → k = UInt32.ofNat n → 1 ≤ b.toNat ∧ b.toNat ≤ 4 := by
    intro n hn hkn
    subst hkn
    have : n = 0 ∨ n = 1 ∨ n = 2 ∨ n = 3 ∨ n = 4 ∨ n = 5 := by omega
    rcases this with rfl | rfl | rfl | rfl | rfl | rfl <;>
      simp [bppOk] at h <;> subst h <;> decide
  exact key k.toNat hk (by simp)

theorem readLevel_runs (c : Ctx) (w h k : UInt32) (hf : pan ∨ (k.toNat < 6 ∧ FineSizes D)) :
    Runs pan D (readLevel c w h k) := by
  intro r hr
  unfold readLevel
  obtain ⟨tw, r1, e1, k1, _⟩ := readUint32_total r
  obtain ⟨th, r2, e2, k2, _⟩ := readUint32_total r1
  rw [M.bind_ok e1, M.bind_ok e2]
  by_cases hne : tw ≠ w ∨ th ≠ h
  · rw [if_pos hne]; exact ((k1.trans k2).1.trans hr)
  rw [if_neg hne]
  obtain ⟨bpp, r3, e3, k3, _⟩ := readUint32_total r2
  rw [M.bind_ok e3]
  have hd3 : r3.data = D := ((k1.trans k2).trans k3).1.trans hr
  by_cases hb : ¬ bppOk k bpp = true
  · rw [if_pos hb]; exact hd3
  rw [if_neg hb]
  have hw : tw = w := Classical.byContradiction fun h' => hne (Or.inl h')
  have hh : th = h := Classical.byContradiction fun h' => hne (Or.inr h')
  subst hw hh
  obtain ⟨lptr, r4, e4, k4, _⟩ := readPtr_total c.mode r3
  rw [M.bind_ok e4]
  obtain ⟨_, r5, e5⟩ : ∃ u r5, goto lptr r4 = .ok (u, r5) := ⟨(), _, rfl⟩
  rw [M.bind_ok e5]
  obtain ⟨w1, r6, e6, k6, _⟩ := readUint32_total r5
  obtain ⟨h1, r7, e7, k7, _⟩ := readUint32_total r6
  rw [M.bind_ok e6, M.bind_ok e7]
  have hd7 : r7.data = D := by rw [k7.1, k6.1, (goto_keeps _ _ _ _ e5).1, k4.1, hd3]
  by_cases hne2 : w1 ≠ tw ∨ h1 ≠ th
  · rw [if_pos hne2]; exact hd7
  rw [if_neg hne2]
  have hw : w1 = tw := Classical.byContradiction fun h' => hne2 (Or.inl h')
  have hh : h1 = th := Classical.byContradiction fun h' => hne2 (Or.inr h')
  subst hw hh
  have hfine : pan ∨ Fine w1.toNat h1.toNat := by
    rcases hf with hf | ⟨hk, hf⟩
    · exact Or.inl hf
    · right
      have hb' : bppOk k bpp = true := by simpa using hb
      have hr' := bppOk_range hk hb'
      by_cases hz : h1 = 0
      · rw [hz]; exact fine_zero _
      · have := level_seen e1 e2 e3 e4 e5 e6 e7 (no_err_of_ne_zero e7 hz)
        rw [hr] at this
        exact hf _ _ _ hr'.1 hr'.2 this
  have key : Runs pan D (do
        let tiles ← readTiles c w1.toNat h1.toNat
        let z ← readUint32
        if z ≠ 0 then
          setError .inconsistentData
          return none
        else return some (bpp, tiles) : M (Option (UInt32 × List UInt64))) := by
    refine (readTiles_runs _ _ _ hfine).bind fun _ => readUint32_total.runs.bind fun _ => Runs.ite ?_ (Runs.pure _)
    exact (setError_total _).runs.bind fun _ => Runs.pure _
  exact key r7 hd7

/-- the sizes were in the source -/
theorem readLevel_seen (c : Ctx) (w h k : UInt32) (r r' : R) (bpp : UInt32) (ts : List UInt64)
    (e : readLevel c w h k r = .ok (some (bpp, ts), r')) :
    h ≠ 0 → HasImage r.data w h bpp := by
  unfold readLevel at e
  obtain ⟨tw, r1, e1, e⟩ := M.bind_inv e
  obtain ⟨th, r2, e2, e⟩ := M.bind_inv e
  by_cases hne : tw ≠ w ∨ th ≠ h
  · rw [if_pos hne] at e
    obtain ⟨_, _, _, e⟩ := M.bind_inv e; cases e
  rw [if_neg hne] at e
  have hw : tw = w := Classical.byContradiction fun h' => hne (Or.inl h')
  have hh : th = h := Classical.byContradiction fun h' => hne (Or.inr h')
  subst hw hh
  obtain ⟨b, r3, e3, e⟩ := M.bind_inv e
  split at e
  · obtain ⟨_, _, _, e⟩ := M.bind_inv e; cases e
  obtain ⟨lp, r4, e4, e⟩ := M.bind_inv e
  obtain ⟨_, r5, e5, e⟩ := M.bind_inv e
  obtain ⟨w', r6, e6, e⟩ := M.bind_inv e
  obtain ⟨h', r7, e7, e⟩ := M.bind_inv e
  by_cases hne2 : w' ≠ tw ∨ h' ≠ th
  · rw [if_pos hne2] at e; obtain ⟨_, _, _, e⟩ := M.bind_inv e; cases e
  rw [if_neg hne2] at e
  have hw : w' = tw := Classical.byContradiction fun h' => hne2 (Or.inl h')
  have hh : h' = th := Classical.byContradiction fun h' => hne2 (Or.inr h')
  subst hw hh
  obtain ⟨tiles, r8, h8, e⟩ := M.bind_inv e
  obtain ⟨z, r9, h9, e⟩ := M.bind_inv e
  split at e
  · obtain ⟨_, _, _, e⟩ := M.bind_inv e; cases e
  cases e
  intro hz
  exact level_seen e1 e2 e3 e4 e5 e6 e7 (no_err_of_ne_zero e7 hz)

theorem pixelSize_le4 (k : Nat) : pixelSize k ≤ 4 := by
  unfold pixelSize
  split <;> omega

theorem readImage_runs (c : Ctx) (w h k : UInt32) (hn : NoWrap D) (hf : pan ∨ (k.toNat < 6 ∧ FineSizes D)) :
    Runs pan D (readImage c w h k) := by
  intro r hr
  have h1 := readLevel_runs c w h k hf r hr
  unfold readImage
  cases hl : readLevel c w h k r with
  | panic =>
    rw [hl] at h1
    rw [M.bind_panic hl]
    exact h1
  | hang => rw [hl] at h1; exact h1.elim
  | ok x =>
    obtain ⟨x, r1⟩ := x
    rw [hl] at h1
    rw [M.bind_ok hl]
    cases x with
    | none => exact h1
    | some x =>
      obtain ⟨bpp, ts⟩ := x
      have hs := readLevel_seen _ _ _ _ _ _ _ _ hl
      have hsp := readLevel_spec _ _ _ _ _ _ _ _ hl
      rw [hr] at hs
      have hwrap : w.toNat = 0 → h.toNat ≤ 0xffffffc0 := by
        intro h0
        by_cases hz : h = 0
        · rw [hz]; decide
        · have := hs hz
          rw [show w = 0 from UInt32.toNat_inj.1 h0] at this
          exact hn _ _ this
      have hfine : pan ∨ (k.toNat < 6 ∧ Fine w.toNat h.toNat) := by
        rcases hf with hf | ⟨hk, hf⟩
        · exact Or.inl hf
        · right
          have hb := bppOk_range hk hsp.1
          refine ⟨hk, ?_⟩
          by_cases hz : h = 0
          · rw [hz]; exact fine_zero _
          · exact hf _ _ _ hb.1 hb.2 (hs hz)
      have hloop : pan ∨ ((w.toNat ≠ 0 → h.toNat ≠ 0 → w.toNat ≤ 0xffffffc0 ∧ h.toNat ≤ 0xffffffc0) ∧
          ts.length = tileCount w.toNat * tileCount h.toNat) := by
        rcases hfine with hf | hf
        · exact Or.inl hf
        · exact Or.inr ⟨hf.2.2, hsp.2.1⟩
      have hE : Runs pan D (readEager c k.toNat bpp.toNat w.toNat h.toNat ts) := by
        unfold readEager
        by_cases hk : k.toNat < 6
        · rw [if_pos hk]
          refine (allocate_runs _ _ ?_).bind fun _ =>
            (tileLoop_runs _ (eagerTile_runs c _) _ _ _ _ hwrap hloop).bind fun _ => Runs.pure _
          rcases hfine with hf | hf
          · exact Or.inl hf
          · right
            have a := hf.2.1
            have b := pixelSize_le4 k.toNat
            have := Nat.mul_le_mul a b
            have : maxAlloc = 281474976710656 := rfl
            omega
        · rw [if_neg hk]
          rcases hfine with hf | hf
          · exact (tileLoop_runs _ (fun _ _ => Runs.panic hf) _ _ _ _ hwrap hloop).bind fun _ => Runs.pure _
          · exact absurd hf.1 hk
      have hL : Runs pan D (readLazy c k.toNat bpp.toNat w.toNat h.toNat ts) := by
        unfold readLazy
        refine (allocate_runs _ _ ?_).bind fun _ => (tileLoop_runs _ (fun t s => ?_) _ _ _ _ hwrap hloop).bind fun _ =>
          Runs.ite (Runs.pure _) (Runs.pure _)
        · rcases hfine with hf | hf
          · exact Or.inl hf
          · right; rw [hsp.2.1]; exact tiles_fine hf.2
        · exact (readChannels_runs _ _).bind fun _ => Runs.pure _
      have key : Runs pan D (if (c.decompress || decide (c.compression = 0)) = true then do
          let im ← readEager c k.toNat bpp.toNat w.toNat h.toNat ts
          return im.map DecImg.eager
        else do
          let im ← readLazy c k.toNat bpp.toNat w.toNat h.toNat ts
          return im.map DecImg.lazy) :=
        Runs.ite (hE.bind fun _ => Runs.pure _) (hL.bind fun _ => Runs.pure _)
      exact key r1 h1

theorem readChannel_runs (c : Ctx) (hn : NoWrap D)
    (hf : pan ∨ (FineSizes D ∧ (c.decompress = true ∨ c.compression = 0))) : Runs pan D (readChannel c) := by
  unfold readChannel
  refine readUint32_total.runs.bind fun w => readUint32_total.runs.bind fun h => skipString_total.runs.bind fun _ =>
    skipPropertiesAll_total.runs.bind fun _ => (readPtr_total _).runs.bind fun _ => (goto_runs _).bind fun _ => ?_
  have hi : Runs pan D (readImage c w h 2) := readImage_runs c w h 2 hn (by
    rcases hf with hf | hf
    · exact Or.inl hf
    · exact Or.inr ⟨by decide, hf.1⟩)
  intro r hr
  have h1 := hi r hr
  cases hx : readImage c w h 2 r with
  | panic =>
    rw [hx] at h1
    rw [M.bind_panic hx]
    exact h1
  | hang => rw [hx] at h1; exact h1.elim
  | ok x =>
    obtain ⟨x, r1⟩ := x
    rw [hx] at h1
    rw [M.bind_ok hx]
    cases x with
    | none => exact h1
    | some d =>
      cases d with
      | eager im => exact h1
      | lazy im =>
        rcases hf with hf | hf
        · exact hf
        · -- a lazy image is not read then
          exfalso
          unfold readImage at hx
          obtain ⟨o, r2, _, hx2⟩ := M.bind_inv hx
          cases o with
          | none => cases hx2
          | some o =>
            obtain ⟨b, ts⟩ := o
            dsimp only at hx2
            rw [if_pos (by rcases hf.2 with h | h <;> simp [h])] at hx2
            obtain ⟨o, r3, _, hx3⟩ := M.bind_inv hx2
            cases o <;> cases hx3

theorem readMask_runs (c : Ctx) (b : Rect) (im : Img) (hn : NoWrap D)
    (hf : pan ∨ (FineSizes D ∧ (c.decompress = true ∨ c.compression = 0))) : Runs pan D (readMask c b im) := by
  unfold readMask
  refine (readChannel_runs c hn hf).bind fun o => ?_
  split
  · exact Runs.pure _
  · refine Runs.ite (Runs.pure _) ?_
    exact (setError_total _).runs.bind fun _ => Runs.pure _

/-- a string that is not empty was read from the source -/
theorem readString_seen {r r' : R} {s : Bytes} (h : readString r = .ok (s, r')) (hs : s ≠ []) :
    Sees r (Spec.str s) ∧ r' = r.adv (Spec.str s).length := by
  unfold readString at h
  obtain ⟨n, r1, h1, h⟩ := M.bind_inv h
  by_cases h0 : n = 0
  · rw [if_pos h0] at h; cases h; exact absurd rfl hs
  rw [if_neg h0] at h
  obtain ⟨a1, rfl⟩ := readUint32_seen h1 (no_err_of_ne_zero h1 h0)
  by_cases hm : n.toNat > maxString
  · rw [if_pos hm] at h
    obtain ⟨_, _, -, h⟩ := M.bind_inv h
    cases h; exact absurd rfl hs
  rw [if_neg hm] at h
  obtain ⟨b, r2, h2, h⟩ := M.bind_inv h
  obtain ⟨e, r3, h3, h⟩ := M.bind_inv h
  cases h3
  have hn0 : n.toNat ≠ 0 := fun h => h0 (UInt32.toNat_inj.1 h)
  rcases readFull_cases n.toNat (r.adv 4) (by omega) a1.1 with ⟨b', hl, hb, h2'⟩ | ⟨r2', h2', he, -⟩
  · rw [h2'] at h2
    cases h2
    rw [R.adv_err, R.adv_err, a1.1, if_neg (by simp)] at h
    split at h
    · obtain ⟨_, _, -, h⟩ := M.bind_inv h
      cases h; exact absurd rfl hs
    · rename_i hc
      cases h
      rw [Bool.or_eq_true, not_or, decide_eq_true_eq, Classical.not_not] at hc
      have hb0 : b ≠ [] := by rintro rfl; simp at hl; omega
      have hlast : b = b.dropLast ++ [0] := by
        have h4 := hc.1
        rw [List.getLast?_eq_some_getLast hb0, Option.some.injEq] at h4
        rw [← h4, List.dropLast_concat_getLast]
      have hlen : b.dropLast.length + 1 = n.toNat := by rw [List.length_dropLast]; omega
      have hstr : Spec.str b.dropLast = be 4 n.toNat ++ b := by
        unfold Spec.str
        rw [if_neg hs, hlen, List.append_assoc, ← hlast]
      rw [hstr]
      refine ⟨a1.append (by rw [be_length]; exact hb), ?_⟩
      rw [R.adv_adv, List.length_append, be_length, hl]
  · rw [h2'] at h2
    cases h2
    rw [if_pos he] at h
    cases h; exact absurd rfl hs

/-- what one `Read` call fills in: bytes of the source in front of zeros -/
theorem readInto_seen {r r' : R} {n : Nat} {p : Bytes} (h : readInto (List.replicate n 0) r = .ok (p, r')) (he : r.err = none) :
    p.length = n ∧ ∃ x k, p = x ++ List.replicate k 0 ∧ x <+: r.data.drop r.pos := by
  have hl : p.length = n := by
    obtain ⟨p', r1, h', hl, -⟩ := readInto_cases (List.replicate n 0) r
    rw [h] at h'
    cases h'
    rw [hl, List.length_replicate]
  refine ⟨hl, ?_⟩
  unfold readInto at h
  rw [he] at h
  dsimp only at h
  split at h
  · cases h
    exact ⟨[], n, rfl, List.nil_prefix⟩
  · cases h
    rw [List.drop_replicate]
    exact ⟨_, _, rfl, List.take_prefix _ _⟩

theorem textName_eq : textParasiteName = Spec.textName := rfl

/-- the descriptions of text among the parasites are in the source -/
def TextsIn (D : Bytes) (ps : List Parasite) : Prop := ∀ p ∈ ps, p.name = textParasiteName → Spec.TextIn D p.data

theorem readParasites_in : ∀ (f : Nat) (l : UInt32) (ps : List Parasite) (r r' : R) (qs : List Parasite), r.data = D → TextsIn D ps →
    readParasites f l ps r = .ok (qs, r') → TextsIn D qs := by
  intro f
  induction f with
  | zero => intro l ps r r' qs _ _ h; cases h
  | succ f ih =>
    intro l ps r r' qs hD hps h
    unfold readParasites at h
    by_cases hl : l = 0
    · rw [if_pos hl] at h; cases h; exact hps
    rw [if_neg hl] at h
    obtain ⟨name, r1, h1, h⟩ := M.bind_inv h
    obtain ⟨fl, r2, h2, h⟩ := M.bind_inv h
    obtain ⟨n, r3, h3, h⟩ := M.bind_inv h
    dsimp only at h
    split at h
    · obtain ⟨_, _, -, h⟩ := M.bind_inv h
      cases h
      exact fun p hp => absurd hp List.not_mem_nil
    obtain ⟨d, r4, h4, h⟩ := M.bind_inv h
    have hD4 : r4.data = D := by
      rw [((readInto_total _).keeps _ _ _ h4).1, (readUint32_total.keeps _ _ _ h3).1, (readUint32_total.keeps _ _ _ h2).1,
        (readString_total.keeps _ _ _ h1).1, hD]
    refine ih _ _ _ _ _ hD4 ?_ h
    intro p hp hn
    rcases List.mem_append.1 hp with hp | hp
    · exact hps p hp hn
    rw [List.mem_singleton] at hp
    subst hp
    have hn : name = textParasiteName := hn
    subst hn
    by_cases hn0 : n = 0
    · left
      subst hn0
      obtain ⟨p', r1, h', hl', -⟩ := readInto_cases (List.replicate (0 : UInt32).toNat 0) r3
      rw [h4] at h'
      cases h'
      exact List.eq_nil_of_length_eq_zero hl'
    obtain ⟨a3, rfl⟩ := readUint32_seen h3 (no_err_of_ne_zero h3 hn0)
    obtain ⟨a2, rfl⟩ := readUint32_seen h2 a3.1
    obtain ⟨a1, rfl⟩ := readString_seen h1 (by decide)
    obtain ⟨b1, x, k, b2, b3⟩ := readInto_seen h4 (by simp only [R.adv_err]; exact a1.1)
    have a12 := a1.append a2
    have a := a12.append (b := be 4 n.toNat) (by rw [List.length_append, be_length, ← R.adv_adv]; exact a3)
    right
    refine ⟨fl.toNat, x, k, fl.toNat_lt, by rw [b1]; exact n.toNat_lt, b2, ?_⟩
    rw [b1, ← textName_eq]
    obtain ⟨⟨t, ht⟩, -⟩ := a.2
    have hpos : r.data.drop ((((r.adv (Spec.str textParasiteName).length).adv 4).adv 4).pos) = t := by
      rw [R.adv_adv, R.adv_adv, R.adv_pos, ← List.drop_drop, ht, List.drop_left' (by simp only [List.length_append, be_length])]
    have b3 : x <+: r.data.drop _ := b3
    rw [hpos] at b3
    obtain ⟨t', rfl⟩ := b3
    rw [← hD]
    refine ⟨r.data.take r.pos, t', ?_⟩
    conv => rhs; rw [← List.take_append_drop r.pos r.data, ht]
    simp only [List.append_assoc]

/-- a property that is read leaves descriptions that are in the source -/
def PropIn (D : Bytes) (m : M LProps) : Prop := ∀ r s' r', r.data = D → m r = .ok (s', r') → TextsIn D s'.parasites

theorem PropIn.pure {s : LProps} (h : TextsIn D s.parasites) : PropIn D (pure s) := by
  intro r s' r' _ e; cases e; exact h
theorem PropIn.bind {α : Type} {m : M α} {f : α → M LProps} (hm : Keeps m) (h : ∀ a, PropIn D (f a)) : PropIn D (m >>= f) := by
  intro r s' r' hr e
  obtain ⟨a, r1, e1, e2⟩ := M.bind_inv e
  exact h a r1 s' r' ((hm _ _ _ e1).1.trans hr) e2
theorem PropIn.ite {p : Prop} [Decidable p] {m n : M LProps} (h1 : PropIn D m) (h2 : PropIn D n) : PropIn D (if p then m else n) := by
  by_cases h : p
  · rw [if_pos h]; exact h1
  · rw [if_neg h]; exact h2

theorem layerProp_in (c : Ctx) (t l : UInt32) (s : LProps) (hs : TextsIn D s.parasites) : PropIn D (layerProp c t l s) := by
  unfold layerProp
  refine PropIn.ite ?_ (PropIn.ite ?_ (PropIn.ite ?_ (PropIn.ite ?_ (PropIn.ite ?_ (PropIn.ite ?_ (PropIn.ite ?_
    (PropIn.ite ?_ (PropIn.ite ?_ (PropIn.ite ?_ (PropIn.ite ?_ ?_))))))))))
  · exact PropIn.bind (skip_total _).keeps fun _ => PropIn.pure hs
  · exact PropIn.bind readUint32_total.keeps fun _ => PropIn.bind (setErr?_total _).keeps fun _ => PropIn.pure hs
  · intro r s' r' hr e
    obtain ⟨ps, _, h1, h⟩ := M.bind_inv e
    cases h
    exact readParasites_in _ _ _ _ _ _ hr (fun p hp => absurd hp List.not_mem_nil) h1
  · exact PropIn.bind (skip_total _).keeps fun _ => PropIn.pure hs
  · exact PropIn.bind readBoolProperty_total.keeps fun _ => PropIn.pure hs
  · exact PropIn.pure hs
  · exact PropIn.pure hs
  · exact PropIn.bind ((setErr?_total _).bind fun _ => readUint32s_total _).keeps fun _ => PropIn.pure hs
  · exact PropIn.bind readUint32_total.keeps fun _ => PropIn.pure hs
  · exact PropIn.bind readUint32_total.keeps fun _ => PropIn.bind readUint32_total.keeps fun _ => PropIn.pure hs
  · exact PropIn.bind readUint32_total.keeps fun _ => PropIn.pure hs
  · exact PropIn.bind (skip_total _).keeps fun _ => PropIn.pure hs

theorem layerProps_in (c : Ctx) : ∀ (f : Nat) (s s' : LProps) (r r' : R), r.data = D → TextsIn D s.parasites →
    layerProps c f s r = .ok (s', r') → TextsIn D s'.parasites := by
  intro f
  induction f with
  | zero => intro s s' r r' _ _ h; cases h
  | succ f ih =>
    intro s s' r r' hD hs h
    unfold layerProps at h
    obtain ⟨t, r1, h1, h⟩ := M.bind_inv h
    obtain ⟨l, r2, h2, h⟩ := M.bind_inv h
    have hD2 : r2.data = D := by rw [(readUint32_total.keeps _ _ _ h2).1, (readUint32_total.keeps _ _ _ h1).1, hD]
    split at h
    · obtain ⟨_, _, -, h⟩ := M.bind_inv h; cases h; exact hs
    · obtain ⟨s1, r3, h3, h⟩ := M.bind_inv h
      exact ih s1 s' r3 r' (((layerProp_total _ _ _ _).keeps _ _ _ h3).1.trans hD2) (layerProp_in c _ _ _ hs _ _ _ hD2 h3) h

theorem Runs.bind_in {α β : Type} {m : M α} {f : α → M β} {P : α → Prop} (h1 : Runs pan D m)
    (hP : ∀ r a r', r.data = D → m r = .ok (a, r') → P a) (h2 : ∀ a, P a → Runs pan D (f a)) : Runs pan D (m >>= f) := by
  intro r hr
  have := h1 r hr
  show match M.bind m f r with
    | .ok (_, r') => r'.data = D
    | .panic => pan
    | .hang => False
  unfold M.bind
  cases hm : m r with
  | ok x => rw [hm] at this; exact h2 x.1 (hP _ _ _ hr hm) x.2 this
  | panic => rw [hm] at this; exact this
  | hang => rw [hm] at this; exact this

theorem layerText_runs (c : Ctx) (ps : List Parasite) (im : Img) (hps : TextsIn D ps) (hh : ∀ b, Spec.TextIn D b → c.env.parseText b ≠ .hang)
    (hp : pan ∨ ∀ b, Spec.TextIn D b → c.env.parseText b ≠ .panic) : Runs pan D (layerText c ps im) := by
  unfold layerText
  split
  · exact Runs.pure _
  · rename_i t ht
    have hin : Spec.TextIn D t.data := hps t (List.mem_of_find?_eq_some ht) (by simpa using List.find?_some ht)
    cases h : c.env.parseText t.data with
    | panic =>
      rcases hp with hp | hp
      · exact Runs.panic hp
      · exact absurd h (hp _ hin)
    | hang => exact absurd h (hh _ hin)
    | ok x =>
      cases x with
      | none => exact (setError_total _).runs.bind fun _ => Runs.pure _
      | some x => exact Runs.pure _

theorem typ_lt {typ b : UInt32} (h : typ >>> 1 = b) (hb : b.toNat ≤ 2) : typ.toNat < 6 := by
  rw [← h, UInt32.toNat_shiftRight] at hb
  simp at hb
  rw [Nat.shiftRight_eq_div_pow] at hb
  omega

/-- One layer is read, or panics if `pan` holds. -/
theorem readLayer_runs (c : Ctx) (hn : NoWrap D) (hh : ∀ b, Spec.TextIn D b → c.env.parseText b ≠ .hang)
    (hf : pan ∨ ((∀ b, Spec.TextIn D b → c.env.parseText b ≠ .panic) ∧ FineSizes D ∧ (c.decompress = true ∨ c.compression = 0) ∧
      c.baseType.toNat ≤ 2)) : Runs pan D (readLayer c) := by
  unfold readLayer
  refine readUint32_total.runs.bind fun w => readUint32_total.runs.bind fun h => readUint32_total.runs.bind fun typ => ?_
  by_cases ht : typ >>> 1 ≠ c.baseType
  · rw [if_pos ht]; exact (setError_total _).runs.bind fun _ => Runs.pure _
  rw [if_neg ht]
  have ht : typ >>> 1 = c.baseType := Classical.byContradiction ht
  refine readString_total.runs.bind fun name => (readLayerProperties_total c).runs.bind_in (P := fun s => TextsIn D s.parasites)
    (fun r a r' hr h => layerProps_in c _ _ _ _ _ hr (fun p hp => absurd hp List.not_mem_nil) h) fun s hps =>
    (readPtr_total _).runs.bind fun hptr => (readPtr_total _).runs.bind fun mptr => (goto_runs _).bind fun _ => ?_
  refine Runs.bind ?_ fun o => ?_
  · unfold layerImage
    refine Runs.ite (Runs.pure _) ((readImage_runs c w h typ hn ?_).bind fun o => ?_)
    · rcases hf with hf | hf
      · exact Or.inl hf
      · exact Or.inr ⟨typ_lt ht hf.2.2.2, hf.2.1⟩
    · split <;> exact Runs.pure _
  · split
    · exact Runs.pure _
    · refine Runs.bind (layerText_runs c _ _ hps hh ?_) fun o => ?_
      · rcases hf with hf | hf
        · exact Or.inl hf
        · exact Or.inr hf.1
      · split
        · exact Runs.pure _
        · refine Runs.ite ?_ (Runs.pure _)
          refine (goto_runs _).bind fun _ => (readMask_runs c _ _ hn ?_).bind fun _ => Runs.pure _
          rcases hf with hf | hf
          · exact Or.inl hf
          · exact Or.inr ⟨hf.2.1, hf.2.2.1⟩

end Limage
