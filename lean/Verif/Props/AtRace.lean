import Verif.Model.AtRace
import Verif.Props.Compressed
/-!
# C83: calls of `At` of a compressed image at the same time
-/
namespace Limage
open Spec

/-- what is known of a compressed image that was read without error -/
theorem readImage_lazyGood (c : Ctx) (w h k : UInt32) (r r' : R) (im : LazyImg)
    (hok : readImage c w h k r = .ok (some (.lazy im), r')) (he : r'.err = none) :
    im.kind < 6 ∧ im.palette = c.palette ∧
      ((im.width = 0 ∨ im.height = 0) ∨ ∃ ds, LazyGood im (kindBpp im.kind) ds) := by
  unfold readImage at hok
  obtain ⟨x, r1, h1, hok⟩ := M.bind_inv hok
  cases x with
  | none => cases hok
  | some x =>
    obtain ⟨bpp, tiles⟩ := x
    dsimp only at hok
    split at hok
    · obtain ⟨o, _, _, hok⟩ := M.bind_inv hok
      cases o <;> cases hok
    rename_i hc
    have hcomp : c.compression ≠ 0 := by simp at hc; exact hc.2
    obtain ⟨o, r2, h2, hok⟩ := M.bind_inv hok
    cases o with
    | none => cases hok
    | some im2 =>
      have hm : im2 = im ∧ r2 = r' := by
        simp only [M.pure_apply, Option.map_some, Outcome.ok.injEq, Prod.mk.injEq, Option.some.injEq,
          DecImg.lazy.injEq] at hok
        exact hok
      obtain ⟨rfl, rfl⟩ := hm
      have k2 := readLazy_keeps _ _ _ _ _ _ _ _ _ h2
      have he1 : r1.err = none := k2.none he
      obtain ⟨hb, -, -⟩ := readLevel_spec _ _ _ _ _ _ _ _ h1
      unfold readLazy at h2
      obtain ⟨_, r3, h3, h2'⟩ := M.bind_inv h2
      have hr3 : r3 = r1 := by
        unfold allocate at h3; split at h3 <;> cases h3; rfl
      subst hr3
      obtain ⟨ts, r4, h4, h5⟩ := M.bind_inv h2'
      by_cases hk : k.toNat < 6
      · rw [if_pos hk] at h5
        cases h5
        refine ⟨hk, rfl, ?_⟩
        have hbp := bppOk_kind k bpp hb hk
        have hwh : tileLoop w.toNat h.toNat tiles ([] : List (List Bytes)) (lazyBody bpp.toNat) r3 = .ok (ts, r2) := h4
        by_cases hz : w.toNat = 0 ∨ h.toNat = 0
        · exact .inl hz
        right
        have hd : w.toNat ≤ 0xffffffc0 ∧ h.toNat ≤ 0xffffffc0 := by
          unfold tileLoop at hwh
          rw [if_neg (by omega), if_neg (by omega)] at hwh
          split at hwh
          · cases hwh
          · omega
        rw [tileLoop_eq _ _ _ _ _ hd.1 hd.2, hbp] at hwh
        obtain ⟨ds, g1, g2, -⟩ := loop_sim { c with decompress := true } hcomp (kindBpp k.toNat)
          (kindBpp_le _).1 (kindBpp_le _).2 _ _ _ _ ⟨Rle.start, List.replicate 16384 0,
            fun _ _ => List.replicate bpp.toNat 0⟩ r3 r2 (gridTile_size _ _) rfl (List.length_replicate ..) he1 hwh he
        exact ⟨ds, (kindBpp_le _).2, by rw [g2]; rfl, g1⟩
      · rw [if_neg hk] at h5
        cases h5

theorem lazyColor_congr (kind : Nat) (hk : kind < 6) (pal : List Color) (a b : Bytes)
    (h : ∀ k, k < kindBpp kind → a.getD k 0 = b.getD k 0) : lazyColor kind pal a = lazyColor kind pal b := by
  have hcases : kind = 0 ∨ kind = 1 ∨ kind = 2 ∨ kind = 3 ∨ kind = 4 ∨ kind = 5 := by omega
  rcases hcases with rfl | rfl | rfl | rfl | rfl | rfl <;> simp only [lazyColor]
  · rw [h 0 (by decide), h 1 (by decide), h 2 (by decide)]
  · rw [h 0 (by decide), h 1 (by decide), h 2 (by decide), h 3 (by decide)]
  · rw [h 0 (by decide)]
  · rw [h 0 (by decide), h 1 (by decide)]
  · rw [h 0 (by decide)]
  · rw [h 0 (by decide), h 1 (by decide)]

/-- `decompressTile` in the terms of this model -/
theorem decompressTile_eq (im : LazyImg) (st : Cache) (p : Pt) : decompressTile im st p.x.toNat p.y.toNat =
    if (im.tileIndex p : Int) = st.tile then .ok (im.pixelIndex p, st)
    else match im.tiles[im.tileIndex p]? with
      | none => .panic
      | some ds =>
        match decompressChannels ds 0 Rle.start none st.dec with
        | .ok dec => .ok (im.pixelIndex p, ⟨im.tileIndex p, dec⟩)
        | .panic => .panic
        | .hang => .hang := rfl

/-- the buffer holds the channels of a tile with `n` pixels as far as place `i` -/
def HoldsTile (d : List (List Op)) (n : Nat) (dec : Bytes) (i : Nat) : Prop :=
  ∀ c ops o, d[c]? = some ops → o < n → 4096 * c + o < i → dec.getD (4096 * c + o) 0 = (plainOf ops).getD o 0

theorem HoldsTile.set {d : List (List Op)} {n : Nat} {dec dec' : Bytes} {i : Nat} (h : HoldsTile d n dec i) (hl : dec.length = 16384)
    (j : Nat) (hd : HoldsTile d n dec' 16384) (hj : j < 16384) : HoldsTile d n (dec.set j (dec'.getD j 0)) i := by
  intro c ops o h1 h2 h3
  by_cases e : j = 4096 * c + o
  · subst e
    rw [List.getD_eq_getElem?_getD, List.getElem?_set_self (by omega)]
    exact hd c ops o h1 h2 hj
  · rw [List.getD_eq_getElem?_getD, List.getElem?_set_ne e, ← List.getD_eq_getElem?_getD]
    exact h c ops o h1 h2 h3

theorem HoldsTile.store {d : List (List Op)} {n : Nat} {dec dec' : Bytes} {i : Nat} (h : HoldsTile d n dec i) (hl : dec.length = 16384)
    (hd : HoldsTile d n dec' 16384) (hi : i < 16384) : HoldsTile d n (dec.set i (dec'.getD i 0)) (i + 1) := by
  intro c ops o h1 h2 h3
  by_cases e : i = 4096 * c + o
  · subst e
    rw [List.getD_eq_getElem?_getD, List.getElem?_set_self (by omega)]
    exact hd c ops o h1 h2 hi
  · rw [List.getD_eq_getElem?_getD, List.getElem?_set_ne e, ← List.getD_eq_getElem?_getD]
    exact h c ops o h1 h2 (by omega)

/-- what holds of a call asking for the place `o` of the tile -/
def CallOk (im : LazyImg) (d : List (List Op)) (n : Nat) (dec : Bytes) (p : Pt) : AtCall → Prop
  | .idle => True
  | .writing i => i ≤ 16384 ∧ HoldsTile d n dec i
  | .placed got => HoldsTile d n dec 16384 ∧
      ∀ c ops, c < got.length → d[c]? = some ops → got.getD c 0 = (plainOf ops).getD (im.pixelIndex p) 0
  | .done c => ∃ got : Bytes, c = lazyColor im.kind im.palette got ∧
      ∀ j ops, d[j]? = some ops → got.getD j 0 = (plainOf ops).getD (im.pixelIndex p) 0
  | .failed => False

/-- the invariant of calls in tile `k` -/
structure RaceOk (im : LazyImg) (args : Nat → Pt) (k : Nat) (d : List (List Op)) (n : Nat) (s : RaceState) : Prop where
  len : s.cache.dec.length = 16384
  tile : s.cache.tile = k → HoldsTile d n s.cache.dec 16384
  call : ∀ a, CallOk im d n s.cache.dec (args a) (s.call a)

theorem RaceOk.step {im : LazyImg} {args : Nat → Pt} {k : Nat} {d : List (List Op)} {n : Nat} {s s' : RaceState}
    (hlook : ∀ a, im.looks (args a) = true) (htile : ∀ a, im.tileIndex (args a) = k)
    (hplace : ∀ a, im.pixelIndex (args a) < n) (hn : n ≤ 4096) (hd4 : d.length ≤ 4)
    (htl : im.tiles[k]? = some (d.map codeOf)) (hgood : ∀ ops ∈ d, GoodOps n ops)
    (h : RaceOk im args k d n s) (st : RaceStep im args s s') : RaceOk im args k d n s' := by
  have hset : ∀ (a : Nat) (c : AtCall), CallOk im d n s.cache.dec (args a) c → RaceOk im args k d n (s.set a c) := by
    intro a c hc
    refine ⟨h.len, h.tile, fun b => ?_⟩
    show CallOk im d n s.cache.dec (args b) (if b = a then c else s.call b)
    by_cases e : b = a
    · rw [if_pos e, e]; exact hc
    · rw [if_neg e]; exact h.call b
  have hdec : ∃ dec, decompressChannels (d.map codeOf) 0 Rle.start none s.cache.dec = .ok dec ∧ HoldsTile d n dec 16384 := by
    obtain ⟨dec, g1, _, g3, _⟩ := decompress_spec n hn d hgood 0 Rle.start s.cache.dec rfl h.len (by omega)
    refine ⟨dec, g1, fun c ops o h1 h2 _ => ?_⟩
    have := g3 c ops o h1 h2
    rwa [Nat.zero_add] at this
  obtain ⟨dec0, hdec0, hdec1⟩ := hdec
  cases st with
  | @outside a _ hl => rw [hlook a] at hl; cases hl
  | @hit a _ _ hc =>
    rw [htile a] at hc
    exact hset a _ ⟨h.tile hc.symm, fun c ops hc => absurd hc (by simp)⟩
  | @miss a _ _ hc => exact hset a _ ⟨by omega, fun c ops o _ _ h => absurd h (by omega)⟩
  | @noTile a i _ hc => rw [htile a, htl] at hc; cases hc
  | @noRoom a i ds _ hc hp =>
    rw [htile a, htl] at hc
    cases hc
    rw [hdec0] at hp
    cases hp
  | @store a i ds dec hw hi hc hp =>
    rw [htile a, htl] at hc
    cases hc
    rw [hdec0] at hp
    cases hp
    refine ⟨by simp only [RaceState.set, List.length_set]; exact h.len, fun ht => (h.tile ht).set h.len i hdec1 hi, fun b => ?_⟩
    show CallOk im d n (s.cache.dec.set i (dec0.getD i 0)) (args b) (if b = a then _ else s.call b)
    by_cases e : b = a
    · rw [if_pos e, e]
      have := h.call a
      rw [hw] at this
      exact ⟨by omega, this.2.store h.len hdec1 hi⟩
    · rw [if_neg e]
      have := h.call b
      cases hb : s.call b with
      | idle => trivial
      | writing j => rw [hb] at this; exact ⟨this.1, this.2.set h.len i hdec1 hi⟩
      | placed got => rw [hb] at this; exact ⟨this.1.set h.len i hdec1 hi, this.2⟩
      | done c => rw [hb] at this; exact this
      | failed => rw [hb] at this; exact this
  | @mark a hw =>
    have := h.call a
    rw [hw] at this
    refine ⟨h.len, fun _ => this.2, fun b => ?_⟩
    show CallOk im d n s.cache.dec (args b) (if b = a then _ else s.call b)
    by_cases e : b = a
    · rw [if_pos e, e]
      exact ⟨this.2, fun c ops hc => absurd hc (by simp)⟩
    · rw [if_neg e]; exact h.call b
  | @read a got hg hl =>
    have := h.call a
    rw [hg] at this
    refine hset a _ ⟨this.1, fun c ops hc hd => ?_⟩
    rw [List.length_append, List.length_singleton] at hc
    by_cases e : c < got.length
    · rw [List.getD_eq_getElem?_getD, List.getElem?_append_left e, ← List.getD_eq_getElem?_getD]
      exact this.2 c ops e hd
    · have e : c = got.length := by omega
      rw [e] at hd ⊢
      rw [List.getD_eq_getElem?_getD, List.getElem?_append_right (Nat.le_refl _), Nat.sub_self, List.getElem?_cons_zero,
        Option.getD_some, Nat.add_comm]
      have hp := hplace a
      exact this.1 _ ops _ hd hp (by omega)
  | @ret a got hg hl =>
    have := h.call a
    rw [hg] at this
    refine hset a _ ⟨got, rfl, fun j ops hj => this.2 j ops ?_ hj⟩
    have := (List.getElem?_eq_some_iff.1 hj).1
    omega

/-- `At` of one call alone in the sequential model, in the terms of this one -/
theorem at_looks (im : LazyImg) (st : Cache) (p : Pt) (h : im.looks p = true) :
    im.at st p = (match decompressTile im st p.x.toNat p.y.toNat with
      | .ok (o, st) => .ok (lazyColor im.kind im.palette [st.dec.getD o 0, st.dec.getD (o + 4096) 0,
          st.dec.getD (o + 8192) 0, st.dec.getD (o + 12288) 0], st)
      | .panic => .panic
      | .hang => .hang) := by
  unfold LazyImg.looks at h
  simp only [Bool.and_eq_true, Bool.not_eq_true', Bool.and_eq_false_iff, decide_eq_true_eq, decide_eq_false_iff_not] at h
  unfold LazyImg.at
  have hn : ¬ (im.kind ≥ 4 ∧ im.palette.isEmpty = true) := by
    rintro ⟨h1, h2⟩
    rcases h.1 with g | g
    · exact g h1
    · rw [h2] at g; cases g
  rw [if_neg hn, if_pos h.2]
  cases decompressTile im st p.x.toNat p.y.toNat <;> rfl

/-- **C83**, the part that holds: calls asking for pixels of one tile of an image that was read without error, in any
interleaving and whatever was asked before, do not panic in the decompression and return what they return alone.  Missing for
the full statement, and false: calls asking for pixels of different tiles (`C83_refuted`). -/
theorem C83_same_tile_partial (c : Ctx) (w h k : UInt32) (r r' : R) (im : LazyImg)
    (hok : readImage c w h k r = .ok (some (.lazy im), r')) (he : r'.err = none)
    (st : Cache) (hst : ReachableCache im st) (args : Nat → Pt)
    (hin : ∀ a, 0 ≤ (args a).x ∧ (args a).x < im.width ∧ 0 ≤ (args a).y ∧ (args a).y < im.height)
    (hpal : im.kind ≥ 4 → im.palette ≠ [])
    (hsame : ∀ a b, (args a).x / 64 = (args b).x / 64 ∧ (args a).y / 64 = (args b).y / 64)
    (s : RaceState) (hs : RaceSteps im args (RaceState.start st) s) (a : Nat) :
    s.call a ≠ .failed ∧
    ∀ col, s.call a = .done col → ∀ st', ReachableCache im st' → ∃ st'', im.at st' (args a) = .ok (col, st'') := by
  obtain ⟨hkind, -, hz | ⟨ds, hg⟩⟩ := readImage_lazyGood c w h k r r' im hok he
  · have := hin a
    omega
  have hlook : ∀ a, im.looks (args a) = true := by
    intro a
    unfold LazyImg.looks
    simp only [Bool.and_eq_true, Bool.not_eq_true', Bool.and_eq_false_iff, decide_eq_true_eq, decide_eq_false_iff_not]
    refine ⟨?_, hin a⟩
    by_cases h4 : im.kind ≥ 4
    · right
      have := hpal h4
      cases hp : im.palette with
      | nil => exact absurd hp this
      | cons a l => rfl
    · exact .inl h4
  have hx := hin a
  obtain ⟨st1, kt, t, d, h1, h2, h3, h4, h5, h6, h7, h8, h9, h10⟩ :=
    decompressTile_spec im _ ds hg st (reachable_ok im ds hg st hst) (args a).x.toNat (args a).y.toNat (by omega) (by omega)
  -- the tile of the point in terms of `tileIndex`
  have hdt : ∀ st b o st'', decompressTile im st (args b).x.toNat (args b).y.toNat = .ok (o, st'') →
      o = im.pixelIndex (args b) := by
    intro st b o st'' hq
    rw [decompressTile_eq] at hq
    split at hq
    · cases hq; rfl
    · split at hq
      · cases hq
      · split at hq <;> cases hq
        rfl
  have hti : ∀ b, im.tileIndex (args b) = im.tileIndex (args a) := by
    intro b
    have hb := hin b
    have := hsame b a
    unfold LazyImg.tileIndex
    have e1 : (args b).y.toNat / 64 = (args a).y.toNat / 64 := by omega
    have e2 : (args b).x.toNat / 64 = (args a).x.toNat / 64 := by omega
    rw [e1, e2]
  have hkt : kt = im.tileIndex (args a) := by
    have hj : (args a).y.toNat / 64 < tileCount im.height := by unfold tileCount; omega
    have hi : (args a).x.toNat / 64 < tileCount im.width := by unfold tileCount; omega
    exact (h6 _ _ (tileGrid_get im.width im.height _ _ hj hi)
      ((gridTile_has _ _ _ _ _ _ (by omega) (by omega)).2 ⟨rfl, rfl⟩)).symm
  have hplace : ∀ b, im.pixelIndex (args b) < t.w * t.h := by
    intro b
    have hb := hin b
    obtain ⟨st1, kt', t', d', q1, q2, q3, q4, q5, q6, q7, q8, q9, q10⟩ :=
      decompressTile_spec im _ ds hg st (reachable_ok im ds hg st hst) (args b).x.toNat (args b).y.toNat (by omega) (by omega)
    have hkt' : kt' = kt := by
      have hj : (args b).y.toNat / 64 < tileCount im.height := by unfold tileCount; omega
      have hi : (args b).x.toNat / 64 < tileCount im.width := by unfold tileCount; omega
      rw [hkt, ← hti b]
      exact (q6 _ _ (tileGrid_get im.width im.height _ _ hj hi)
        ((gridTile_has _ _ _ _ _ _ (by omega) (by omega)).2 ⟨rfl, rfl⟩)).symm
    rw [hkt', h2] at q2
    cases q2
    rw [← hdt st b _ _ q7]
    exact q8
  have hinit : RaceOk im args kt d (t.w * t.h) (RaceState.start st) := by
    obtain ⟨hl, hc⟩ := reachable_ok im ds hg st hst
    refine ⟨hl, fun htl => ?_, fun _ => trivial⟩
    have htl : st.tile = kt := htl
    rcases hc with hc | ⟨k', t', d', e1, e2, e3, e4⟩
    · omega
    · have : k' = kt := by omega
      subst this
      rw [h2] at e2; cases e2
      rw [h3] at e3; cases e3
      intro c ops o g1 g2 _
      exact e4 c ops o g1 g2
  have htl : im.tiles[kt]? = some (d.map codeOf) := by
    rw [hg.tiles, List.getElem?_map, h3]; rfl
  have hinv : RaceOk im args kt d (t.w * t.h) s := by
    induction hs with
    | refl => exact hinit
    | tail _ e ih =>
      exact RaceOk.step hlook (fun b => by rw [hti b, hkt]) hplace h9 (by rw [h4.1]; exact hg.bpp4) htl h4.2 ih e
  refine ⟨fun hf => ?_, fun col hcol st' hst' => ?_⟩
  · have := hinv.call a
    rw [hf] at this
    exact this
  · have hcall := hinv.call a
    rw [hcol] at hcall
    obtain ⟨got, hgot, hpx⟩ := hcall
    obtain ⟨st2, kt', t', d', q1, q2, q3, q4, q5, q6, q7, q8, q9, q10⟩ :=
      decompressTile_spec im _ ds hg st' (reachable_ok im ds hg st' hst') (args a).x.toNat (args a).y.toNat (by omega) (by omega)
    have hkk : kt' = kt := (h6 kt' t' q2 q5)
    rw [hkk] at q2 q3
    rw [h2] at q2; cases q2
    rw [h3] at q3; cases q3
    refine ⟨st2, ?_⟩
    rw [at_looks im st' (args a) (hlook a), q7]
    dsimp only
    rw [hdt st' a _ _ q7] at q8 ⊢
    rw [hgot]
    congr 2
    refine lazyColor_congr _ hkind _ _ _ fun j hj => ?_
    obtain ⟨ops, hops⟩ : ∃ ops, d[j]? = some ops := ⟨_, List.getElem?_eq_getElem (by rw [h4.1]; exact hj)⟩
    rw [hpx j ops hops, ← q10 j ops _ hops q8]
    have hj4 : j = 0 ∨ j = 1 ∨ j = 2 ∨ j = 3 := by
      have := hg.bpp4; omega
    generalize im.pixelIndex (args a) = o
    rcases hj4 with rfl | rfl | rfl | rfl
    · simp
    · show st2.dec.getD (o + 4096) 0 = _; rw [Nat.add_comm]
    · show st2.dec.getD (o + 8192) 0 = _; rw [Nat.add_comm]
    · show st2.dec.getD (o + 12288) 0 = _; rw [Nat.add_comm]

/-! ### calls in different tiles -/

/-- a source holding a grey image of 128 by 1 pixels: black on the left, white on the right -/
def twoTiles : R :=
  newReader (be 4 128 ++ be 4 1 ++ be 4 1 ++ be 4 16 ++ be 4 128 ++ be 4 1 ++ be 4 36 ++ be 4 38 ++ be 4 0 ++
    [63, 0] ++ [63, 255])
/-- the image -/
def twoTilesImg : LazyImg := ⟨2, 128, 1, [.lrgb 1 2 3], [[[63, 0]], [[63, 255]]]⟩
/-- the left half -/
def leftTile : List (List Op) := [[.shortRun 64 0]]
/-- the right half -/
def rightTile : List (List Op) := [[.shortRun 64 255]]

theorem twoTiles_read : ∃ r', readImage (onePixelCtx false) 128 1 2 twoTiles = .ok (some (.lazy twoTilesImg), r') ∧
    r'.err = none := by
  have h : (match readImage (onePixelCtx false) 128 1 2 twoTiles with
    | .ok (some (.lazy im), r) => decide (r.err = none ∧ im.kind = 2 ∧ im.width = 128 ∧ im.height = 1 ∧
        im.palette = [.lrgb 1 2 3] ∧ im.tiles = [[[63, 0]], [[63, 255]]])
    | _ => false) = true := by decide +kernel
  split at h
  · rename_i im r e
    obtain ⟨h0, h1, h2, h3, h4, h5⟩ := of_decide_eq_true h
    cases im
    dsimp only at h1 h2 h3 h4 h5
    subst h1 h2 h3 h4 h5
    exact ⟨r, e, h0⟩
  · cases h

theorem run64_good (v : UInt8) : ∀ ops ∈ ([[.shortRun 64 v]] : List (List Op)), GoodOps 64 ops := by
  intro ops h
  rw [List.mem_singleton.1 h]
  refine ⟨?_, ?_, rfl⟩
  · intro o ho
    rw [List.mem_singleton.1 ho]
    exact ⟨by decide, by decide⟩
  · exact ⟨[], _, rfl, by simp [Op.plain]⟩

theorem twoTiles_good : LazyGood twoTilesImg (kindBpp twoTilesImg.kind) [leftTile, rightTile] :=
  ⟨by decide, rfl, ⟨rfl, run64_good 0⟩, ⟨rfl, run64_good 255⟩, trivial⟩

theorem RaceSteps.trans {im : LazyImg} {args : Nat → Pt} {s t u : RaceState} (h : RaceSteps im args s t)
    (g : RaceSteps im args t u) : RaceSteps im args s u := by
  induction g with
  | refl => exact h
  | tail _ e ih => exact ih.tail e

/-- a call stores its tile -/
theorem store_all (im : LazyImg) (args : Nat → Pt) (a n : Nat) (hn : n ≤ 4096) (d : List (List Op)) (hd4 : d.length ≤ 4)
    (htl : im.tiles[im.tileIndex (args a)]? = some (d.map codeOf)) (hgood : ∀ ops ∈ d, GoodOps n ops) :
    ∀ (m i : Nat) (s : RaceState), i + m = 16384 → s.call a = .writing i → s.cache.dec.length = 16384 →
    HoldsTile d n s.cache.dec i →
    ∃ s', RaceSteps im args s s' ∧ s'.call a = .writing 16384 ∧ s'.cache.tile = s.cache.tile ∧ s'.cache.dec.length = 16384 ∧
      HoldsTile d n s'.cache.dec 16384 ∧ ∀ b, b ≠ a → s'.call b = s.call b := by
  intro m
  induction m with
  | zero =>
    intro i s hi hw hl hh
    have : i = 16384 := by omega
    subst this
    exact ⟨s, .refl s, hw, rfl, hl, hh, fun _ _ => rfl⟩
  | succ m ih =>
    intro i s hi hw hl hh
    obtain ⟨dec, g1, _, g3, _⟩ := decompress_spec n hn d hgood 0 Rle.start s.cache.dec rfl hl (by omega)
    have hdec : HoldsTile d n dec 16384 := by
      intro c ops o h1 h2 _
      have := g3 c ops o h1 h2
      rwa [Nat.zero_add] at this
    obtain ⟨s', q1, q2, q3, q4, q5, q6⟩ := ih (i + 1)
      ({ s with cache := ⟨s.cache.tile, s.cache.dec.set i (dec.getD i 0)⟩ }.set a (.writing (i + 1))) (by omega)
      (by simp [RaceState.set]) (by simp [RaceState.set, hl]) (hh.store hl hdec (by omega))
    refine ⟨s', RaceSteps.trans (.tail (.refl s) (.store hw (by omega) htl g1)) q1, q2, q3, q4, q5, fun b hb => ?_⟩
    rw [q6 b hb]
    simp [RaceState.set, hb]

/-- a call reads its pixel -/
theorem read_all (im : LazyImg) (args : Nat → Pt) (a : Nat) (s : RaceState) (hp : s.call a = .placed []) :
    ∃ s', RaceSteps im args s s' ∧ s'.cache = s.cache ∧ (∀ b, b ≠ a → s'.call b = s.call b) ∧
      s'.call a = .done (lazyColor im.kind im.palette [s.cache.dec.getD (im.pixelIndex (args a)) 0,
        s.cache.dec.getD (im.pixelIndex (args a) + 4096) 0, s.cache.dec.getD (im.pixelIndex (args a) + 8192) 0,
        s.cache.dec.getD (im.pixelIndex (args a) + 12288) 0]) := by
  have step : ∀ (s : RaceState) (got : Bytes), s.call a = .placed got → got.length < 4 →
      ∃ s', RaceSteps im args s s' ∧ s'.cache = s.cache ∧ (∀ b, b ≠ a → s'.call b = s.call b) ∧
        s'.call a = .placed (got ++ [s.cache.dec.getD (im.pixelIndex (args a) + 4096 * got.length) 0]) := by
    intro s got h1 h2
    exact ⟨_, .tail (.refl s) (.read h1 h2), rfl, fun b hb => by simp [RaceState.set, hb], by simp [RaceState.set]⟩
  obtain ⟨s1, a1, a2, a3, a4⟩ := step s [] hp (by decide)
  obtain ⟨s2, b1, b2, b3, b4⟩ := step s1 _ a4 (by simp)
  obtain ⟨s3, c1, c2, c3, c4⟩ := step s2 _ b4 (by simp)
  obtain ⟨s4, d1, d2, d3, d4⟩ := step s3 _ c4 (by simp)
  have hr := RaceStep.ret (im := im) (args := args) d4 (by simp)
  refine ⟨_, (((a1.trans b1).trans c1).trans d1).tail hr, ?_, fun b hb => ?_, ?_⟩
  · show s4.cache = _
    rw [d2, c2, b2, a2]
  · simp only [RaceState.set, if_neg hb]
    rw [d3 b hb, c3 b hb, b3 b hb, a3 b hb]
  · simp only [RaceState.set, if_true]
    rw [c2, b2, a2]
    rfl

/-- the hypotheses of `C83_same_tile_partial` hold for calls of three pixels of the left half -/
example : ∃ r', readImage (onePixelCtx false) 128 1 2 twoTiles = .ok (some (.lazy twoTilesImg), r') ∧ r'.err = none ∧
    ReachableCache twoTilesImg Cache.fresh ∧
    (∀ a : Nat, 0 ≤ (Pt.mk (a % 3 : Nat) 0).x ∧ (Pt.mk (a % 3 : Nat) 0).x < twoTilesImg.width) ∧
    (∀ a b : Nat, (Pt.mk (a % 3 : Nat) 0).x / 64 = (Pt.mk (b % 3 : Nat) 0).x / 64) := by
  obtain ⟨r', h1, h2⟩ := twoTiles_read
  refine ⟨r', h1, h2, .fresh, fun a => ?_, fun a b => ?_⟩
  · show (0 : Int) ≤ (a % 3 : Nat) ∧ ((a % 3 : Nat) : Int) < (128 : Nat)
    omega
  · show ((a % 3 : Nat) : Int) / 64 = ((b % 3 : Nat) : Int) / 64
    omega

/-- the points asked for: one on the right by call 1, one on the left by the others -/
def leftAndRight (a : Nat) : Pt := if a = 1 then ⟨64, 0⟩ else ⟨0, 0⟩

/-- **C83** is false: of two calls at the same time on an image read from a file, one asking for a black pixel and one for a
white pixel, both return white; and from then on, with no other call running, the black pixel is white. -/
theorem C83_refuted : ∃ (r r' : R) (im : LazyImg), readImage (onePixelCtx false) 128 1 2 r = .ok (some (.lazy im), r') ∧
    r'.err = none ∧
    (∀ st, ReachableCache im st → ∃ st', im.at st ⟨0, 0⟩ = .ok (some (.gray 0), st')) ∧
    ∃ s, RaceSteps im leftAndRight (RaceState.start Cache.fresh) s ∧
      s.call 0 = .done (some (.gray 255)) ∧ s.call 1 = .done (some (.gray 255)) ∧ (∀ a, a ≠ 0 → a ≠ 1 → s.call a = .idle) ∧
      im.at s.cache ⟨0, 0⟩ = .ok (some (.gray 255), s.cache) := by
  obtain ⟨r', hread, herr⟩ := twoTiles_read
  refine ⟨twoTiles, r', twoTilesImg, hread, herr, ?_, ?_⟩
  · intro st hst
    have hok := reachable_ok twoTilesImg [leftTile, rightTile] twoTiles_good st hst
    obtain ⟨st', k, t, d, h1, h2, h3, h4, h5, h6, h7, h8, h9, h10⟩ :=
      decompressTile_spec twoTilesImg _ _ twoTiles_good st hok 0 0 (by decide) (by decide)
    have hk : 0 = k := h6 0 _ rfl ((gridTile_has 128 1 0 0 0 0 (by decide) (by decide)).2 ⟨rfl, rfl⟩)
    subst hk
    cases h2
    cases h3
    refine ⟨st', ?_⟩
    rw [at_looks _ _ _ (by decide)]
    have h7' : decompressTile twoTilesImg st (Pt.mk 0 0).x.toNat (Pt.mk 0 0).y.toNat = _ := h7
    rw [h7']
    show Outcome.ok (some (Color.gray (st'.dec.getD 0 0)), st') = _
    have h0 : st'.dec.getD 0 0 = 0 := h10 0 _ 0 rfl (by decide)
    rw [h0]
  · have htl0 : twoTilesImg.tiles[twoTilesImg.tileIndex (leftAndRight 0)]? = some (leftTile.map codeOf) := rfl
    have htl1 : twoTilesImg.tiles[twoTilesImg.tileIndex (leftAndRight 1)]? = some (rightTile.map codeOf) := rfl
    -- both find that the tile is not there
    have m0 : RaceStep twoTilesImg leftAndRight (RaceState.start Cache.fresh) ((RaceState.start Cache.fresh).set 0 (.writing 0)) :=
      .miss rfl (by decide) (by decide)
    have m1 : RaceStep twoTilesImg leftAndRight ((RaceState.start Cache.fresh).set 0 (.writing 0))
        (((RaceState.start Cache.fresh).set 0 (.writing 0)).set 1 (.writing 0)) :=
      .miss rfl (by decide) (by decide)
    -- the first stores its tile, then the second
    obtain ⟨s1, a1, a2, a3, a4, a5, a6⟩ := store_all twoTilesImg leftAndRight 0 64 (by decide) leftTile (by decide) htl0
      (run64_good 0) 16384 0 (((RaceState.start Cache.fresh).set 0 (.writing 0)).set 1 (.writing 0)) rfl rfl
      (List.length_replicate ..) (fun _ _ _ _ _ h => absurd h (by omega))
    have w1 : s1.call 1 = .writing 0 := by rw [a6 1 (by decide)]; rfl
    obtain ⟨s2, b1, b2, b3, b4, b5, b6⟩ := store_all twoTilesImg leftAndRight 1 64 (by decide) rightTile (by decide) htl1
      (run64_good 255) 16384 0 s1 rfl w1 a4 (fun _ _ _ _ _ h => absurd h (by omega))
    have w0 : s2.call 0 = .writing 16384 := by rw [b6 0 (by decide), a2]
    -- the second marks its tile, then the first
    have k1 := RaceStep.mark (im := twoTilesImg) (args := leftAndRight) b2
    have k0 := RaceStep.mark (im := twoTilesImg) (args := leftAndRight) (a := 0)
      (s := { s2 with cache := ⟨twoTilesImg.tileIndex (leftAndRight 1), s2.cache.dec⟩ }.set 1 (.placed []))
      (by simp [RaceState.set, w0])
    obtain ⟨s3, c1, c2, c3, c4⟩ := read_all twoTilesImg leftAndRight 0 _
      (show (RaceState.set { ({ s2 with cache := ⟨twoTilesImg.tileIndex (leftAndRight 1), s2.cache.dec⟩ }.set 1 (.placed [])) with
        cache := ⟨twoTilesImg.tileIndex (leftAndRight 0), s2.cache.dec⟩ } 0 (.placed [])).call 0 = .placed [] by simp [RaceState.set])
    obtain ⟨s4, d1, d2, d3, d4⟩ := read_all twoTilesImg leftAndRight 1 s3 (by rw [c3 1 (by decide)]; simp [RaceState.set])
    have hcache : s4.cache = ⟨0, s2.cache.dec⟩ := by rw [d2, c2]; rfl
    have hpix : s2.cache.dec.getD 0 0 = 255 := b5 0 _ 0 rfl (by decide) (by decide)
    refine ⟨s4, (((((((RaceSteps.refl _).tail m0).tail m1).trans a1).trans b1).tail k1).tail k0).trans (c1.trans d1), ?_, ?_, ?_, ?_⟩
    · rw [d3 0 (by decide), c4]
      show AtCall.done (some (.gray (s2.cache.dec.getD 0 0))) = _
      rw [hpix]
    · rw [d4, c2]
      show AtCall.done (some (.gray (s2.cache.dec.getD 0 0))) = _
      rw [hpix]
    · intro a h0 h1
      rw [d3 a h1, c3 a h0]
      simp only [RaceState.set, if_neg h0, if_neg h1]
      rw [b6 a h1, a6 a h0]
      simp [RaceState.set, h0, h1, RaceState.start]
    · rw [hcache, at_looks _ _ _ (by decide), decompressTile_eq,
        if_pos (show (twoTilesImg.tileIndex ⟨0, 0⟩ : Int) = 0 from rfl)]
      dsimp only
      show Outcome.ok (some (Color.gray (s2.cache.dec.getD 0 0)), _) = _
      rw [hpix]

end Limage
