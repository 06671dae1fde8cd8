import Verif.Proofs.LazyAccept
import Verif.Proofs.Keeps
import Verif.Props.Color
/-!
# C32, C33: images that stay compressed
-/
namespace Limage
open Spec

/-- The states an image's cache can be in after any `At` calls, including calls that panicked for an
index outside the palette. -/
inductive ReachableCache (im : LazyImg) : Cache → Prop where
  | fresh : ReachableCache im Cache.fresh
  | step {st st' : Cache} {p : Pt} {c : Option Color} :
      ReachableCache im st → im.at st p = .ok (c, st') → ReachableCache im st'

/-- the same colour, or no colour (panic) on both sides -/
def SameColour (a b : Option Color) : Prop := a.map Color.rgba32 = b.map Color.rgba32

/-- palettes made by the decoder (decoder.go:234-238) -/
def RGBPalette (pal : List Color) : Prop := ∀ c ∈ pal, ∃ r g b, c = .lrgb r g b

theorem lrgb_opaque (r g b : UInt8) : (Color.nrgba r g b 255).rgba32 = (Color.lrgb r g b).rgba32 := by
  have e : ∀ y : UInt8, widen32 y * (255 : UInt8).toUInt32 / 0xff = widen32 y := by
    intro y
    apply UInt32.toNat_inj.1
    rw [gray_premul_nat, widen32_nat]
    show 257 * y.toNat * 255 / 255 = _
    omega
  unfold Color.rgba32
  dsimp only
  rw [e, e, e]
  rfl

theorem lrgb_bytes (r g b : UInt8) :
    (((Color.lrgb r g b).rgba32.r >>> 8).toUInt8 = r) ∧ (((Color.lrgb r g b).rgba32.g >>> 8).toUInt8 = g) ∧
    (((Color.lrgb r g b).rgba32.b >>> 8).toUInt8 = b) := by
  have := C18_rgb_idempotent r g b
  unfold rgbModel at this
  simpa using this

/-- number of channels of the six kinds of layer -/
def kindBpp (kind : Nat) : Nat :=
  match kind with
  | 0 => 3
  | 1 => 4
  | 2 => 1
  | 3 => 2
  | 4 => 1
  | _ => 2

/-- the colours agree if the bytes do -/
theorem colours_agree (kind : Nat) (hk : kind < 6) (pal : List Color) (hp : RGBPalette pal) (a b : Bytes)
    (h : ∀ k, k < kindBpp kind → a.getD k 0 = b.getD k 0) :
    SameColour (lazyColor kind pal a) (eagerColor kind pal b) ∧ (kind ≠ 4 → lazyColor kind pal a = eagerColor kind pal b) := by
  refine ⟨?_, ?_⟩
  rotate_left
  · intro h4
    have hcases : kind = 0 ∨ kind = 1 ∨ kind = 2 ∨ kind = 3 ∨ kind = 5 := by omega
    rcases hcases with rfl | rfl | rfl | rfl | rfl <;> simp only [lazyColor, eagerColor]
    · rw [h 0 (by decide), h 1 (by decide), h 2 (by decide)]
    · rw [h 0 (by decide), h 1 (by decide), h 2 (by decide), h 3 (by decide)]
    · rw [h 0 (by decide)]
    · rw [h 0 (by decide), h 1 (by decide)]
    · rw [h 0 (by decide), h 1 (by decide)]
      rfl
  unfold SameColour
  have hcases : kind = 0 ∨ kind = 1 ∨ kind = 2 ∨ kind = 3 ∨ kind = 4 ∨ kind = 5 := by omega
  rcases hcases with rfl | rfl | rfl | rfl | rfl | rfl <;> simp only [lazyColor, eagerColor]
  · rw [h 0 (by decide), h 1 (by decide), h 2 (by decide)]
  · rw [h 0 (by decide), h 1 (by decide), h 2 (by decide), h 3 (by decide)]
  · rw [h 0 (by decide)]
  · rw [h 0 (by decide), h 1 (by decide)]
  · rw [h 0 (by decide)]
    cases hc : pal[(b.getD 0 0).toNat]? with
    | none => rfl
    | some v =>
      obtain ⟨r, g, bl, rfl⟩ := hp v (List.mem_of_getElem? hc)
      obtain ⟨e1, e2, e3⟩ := lrgb_bytes r g bl
      dsimp only
      rw [e1, e2, e3]
      simp only [Option.map_some, lrgb_opaque]
  · rw [h 0 (by decide), h 1 (by decide)]
    unfold IdxPix.toColor
    rfl

/-- the result of a lazy image is what is stored, whatever the cache -/
theorem lazy_at (im : LazyImg) (ds : List (List (List Op))) (hk : im.kind < 6)
    (hg : LazyGood im (kindBpp im.kind) ds) (hp : RGBPalette im.palette) (px : Px) (st : Cache)
    (hst : CacheOk im ds st) (p : Pt)
    (hin : 0 ≤ p.x ∧ p.x < im.width ∧ 0 ≤ p.y ∧ p.y < im.height) :
    ∃ c st', im.at st p = .ok (c, st') ∧ CacheOk im ds st' ∧
      SameColour c (EagerImg.at ⟨im.kind, im.width, im.height, im.palette,
        storeAll (kindBpp im.kind) (tileGrid im.width im.height) ds px⟩ p) ∧
      (im.kind ≠ 4 → c = EagerImg.at ⟨im.kind, im.width, im.height, im.palette,
        storeAll (kindBpp im.kind) (tileGrid im.width im.height) ds px⟩ p) := by
  unfold LazyImg.at EagerImg.at
  dsimp only
  rw [if_pos hin, if_pos hin]
  obtain ⟨hx0, hx, hy0, hy⟩ := hin
  by_cases hpal : im.kind ≥ 4 ∧ im.palette.isEmpty
  · refine ⟨none, st, by rw [if_pos hpal], hst, ?_⟩
    obtain ⟨hk4, hpe⟩ := hpal
    rw [List.isEmpty_iff] at hpe
    unfold SameColour
    rw [hpe]
    have hc : im.kind = 4 ∨ im.kind = 5 := by omega
    rcases hc with h | h <;> rw [h] <;> simp [eagerColor, IdxPix.toColor]
  · rw [if_neg hpal]
    obtain ⟨st', k, t, d, h1, h2, h3, h4, h5, h6, h7, h8, h9, h10⟩ :=
      decompressTile_spec im _ ds hg st hst p.x.toNat p.y.toNat (by omega) (by omega)
    rw [h7]
    refine ⟨_, _, rfl, h1, ?_⟩
    refine colours_agree _ hk _ hp _ _ ?_
    rw [storeAll_at _ _ _ _ ds px k t d h2 h3 h5 h6]
    generalize (p.y.toNat - t.y) * t.w + (p.x.toNat - t.x) = o at h8 ⊢
    intro c hc
    obtain ⟨ops, hops⟩ : ∃ ops, d[c]? = some ops := ⟨_, List.getElem?_eq_getElem (by rw [h4.1]; exact hc)⟩
    have e1 := h10 c ops o hops h8
    have e2 := tilePlain_getD (t.w * t.h) d h4.2 c o ops hops h8
    have e3 : ((List.range (kindBpp im.kind)).map
        fun c => (tilePlain d).getD (t.w * t.h * c + o) 0).getD c 0 = (tilePlain d).getD (t.w * t.h * c + o) 0 := by
      rw [List.getD_eq_getElem?_getD, List.getElem?_map, List.getElem?_range hc]; rfl
    rw [e3, e2, ← e1]
    have hc4 : c = 0 ∨ c = 1 ∨ c = 2 ∨ c = 3 := by
      have := hg.bpp4; omega
    rcases hc4 with rfl | rfl | rfl | rfl
    · simp
    · show st'.dec.getD (o + 4096) 0 = _; rw [Nat.add_comm]
    · show st'.dec.getD (o + 8192) 0 = _; rw [Nat.add_comm]
    · show st'.dec.getD (o + 12288) 0 = _; rw [Nat.add_comm]

theorem reachable_ok (im : LazyImg) (ds : List (List (List Op))) (hg : LazyGood im (kindBpp im.kind) ds)
    (st : Cache) (h : ReachableCache im st) : CacheOk im ds st := by
  induction h with
  | fresh => exact cacheOk_fresh im ds
  | step _ e ih =>
    rename_i st st' p c _
    unfold LazyImg.at at e
    split at e
    · cases e; exact ih
    · split at e
      · rename_i hin
        obtain ⟨hx0, hx, hy0, hy⟩ := hin
        obtain ⟨st', k, t, d, h1, _, _, _, _, _, h7, _⟩ :=
          decompressTile_spec im _ ds hg st ih p.x.toNat p.y.toNat (by omega) (by omega)
        rw [h7] at e
        cases e
        exact h1
      · cases e; exact ih

theorem bppOk_kind (kind bpp : UInt32) (h : bppOk kind bpp = true) (hk : kind.toNat < 6) :
    bpp.toNat = kindBpp kind.toNat := by
  have e : ∀ n : Nat, n < 6 → (kind = UInt32.ofNat n ↔ kind.toNat = n) := by
    intro n hn
    rw [← UInt32.toNat_inj, UInt32.toNat_ofNat', Nat.mod_eq_of_lt (by omega)]
  have e2 : kind = 2 ↔ kind.toNat = 2 := e 2 (by decide)
  have e4 : kind = 4 ↔ kind.toNat = 4 := e 4 (by decide)
  have e3 : kind = 3 ↔ kind.toNat = 3 := e 3 (by decide)
  have e5 : kind = 5 ↔ kind.toNat = 5 := e 5 (by decide)
  have e0 : kind = 0 ↔ kind.toNat = 0 := e 0 (by decide)
  have e1 : kind = 1 ↔ kind.toNat = 1 := e 1 (by decide)
  unfold bppOk at h
  simp only [e0, e1, e2, e3, e4, e5] at h
  generalize kind.toNat = k at h hk
  have hc : k = 0 ∨ k = 1 ∨ k = 2 ∨ k = 3 ∨ k = 4 ∨ k = 5 := by omega
  rcases hc with rfl | rfl | rfl | rfl | rfl | rfl <;> simp at h <;> subst h <;> rfl

/-- the loop over the tiles, when no counter wraps -/
theorem tileLoop_eq {σ : Type} (w h : Nat) (ts : List UInt64) (s : σ) (body : Tile → σ → M σ)
    (hw : w ≤ 0xffffffc0) (hh : h ≤ 0xffffffc0) :
    tileLoop w h ts s body = tileLoop.go body (tileGrid w h) ts s := by
  unfold tileLoop
  by_cases h0 : w = 0
  · subst h0
    rw [if_pos rfl, if_neg (by omega)]
    have : tileGrid 0 h = [] := by
      simp [tileGrid, tileCount]
    rw [this]; rfl
  · rw [if_neg h0]
    by_cases h1 : h = 0
    · subst h1
      rw [if_pos rfl]
      rfl
    · rw [if_neg h1, if_neg (by omega)]

theorem kindBpp_le (k : Nat) : 1 ≤ kindBpp k ∧ kindBpp k ≤ 4 := by
  unfold kindBpp; split <;> omega

theorem pixelSize_le (k : Nat) : pixelSize k ≤ 4 := by
  unfold pixelSize; split <;> omega

/-- **C32**: if an image is accepted without being decompressed, it is accepted by the decompressing
decoder too, the reader ends up at the same place, and `At` anywhere on the image, after any `At`
calls, shows the same colour; except for indexed images without alpha it is the same value. -/
theorem C32_same_pixels (c : Ctx) (w h k : UInt32) (r r' : R) (im : LazyImg) (hpal : RGBPalette c.palette)
    (hlim : r.limit ≤ maxString)
    (hok : readImage c w h k r = .ok (some (.lazy im), r')) (he : r'.err = none) :
    ∃ im', readImage { c with decompress := true } w h k r = .ok (some (.eager im'), r') ∧
      im'.width = im.width ∧ im'.height = im.height ∧ im'.kind = im.kind ∧ im'.palette = im.palette ∧
      ∀ st, ReachableCache im st → ∀ p : Pt, 0 ≤ p.x → p.x < im.width → 0 ≤ p.y → p.y < im.height →
        ∃ col st', im.at st p = .ok (col, st') ∧ SameColour col (im'.at p) ∧ (im.kind ≠ 4 → col = im'.at p) := by
  unfold readImage at hok ⊢
  obtain ⟨x, r1, h1, hok⟩ := M.bind_inv hok
  have h1' : readLevel { c with decompress := true } w h k r = .ok (x, r1) := h1
  rw [M.bind_ok h1']
  cases x with
  | none => cases hok
  | some x =>
    obtain ⟨bpp, tiles⟩ := x
    dsimp only at hok ⊢
    split at hok
    · obtain ⟨o, _, _, hok⟩ := M.bind_inv hok
      cases o <;> cases hok
    rename_i hc
    have hcomp : c.compression ≠ 0 := by simp at hc; exact hc.2
    obtain ⟨o, r2, h2, hok⟩ := M.bind_inv hok
    cases o with
    | none => cases hok
    | some im2 =>
      have hm : im2 = im ∧ r2 = r' := by
        simp only [M.pure_apply, Option.map_some, Outcome.ok.injEq, Prod.mk.injEq, Option.some.injEq,
          DecImg.lazy.injEq] at hok
        exact hok
      obtain ⟨rfl, rfl⟩ := hm
      clear hok
      have k2 := readLazy_keeps _ _ _ _ _ _ _ _ _ h2
      have he1 : r1.err = none := k2.none he
      obtain ⟨hb, hlen, hl⟩ := readLevel_spec _ _ _ _ _ _ _ _ h1
      have hl := hl he1
      unfold readLazy at h2
      obtain ⟨_, r3, h3, h2'⟩ := M.bind_inv h2
      have hr3 : r3 = r1 := by
        unfold allocate at h3; split at h3 <;> cases h3; rfl
      subst hr3
      obtain ⟨ts, r4, h4, h5⟩ := M.bind_inv h2'
      by_cases hk : k.toNat < 6
      · rw [if_pos hk] at h5
        cases h5
        -- the counters do not wrap
        have hn : tileCount w.toNat * tileCount h.toNat ≤ 4194304 := by
          have : maxString = 16777216 := rfl
          omega
        have hbp := bppOk_kind k bpp hb hk
        have hwh : tileLoop w.toNat h.toNat tiles ([] : List (List Bytes)) (lazyBody bpp.toNat) r3 = .ok (ts, r2) := h4
        have hdims : w.toNat ≤ 0xffffffc0 ∧ h.toNat ≤ 0xffffffc0 ∨ ts = [] ∧ r2 = r3 ∧ (w.toNat = 0 ∨ h.toNat = 0) := by
          unfold tileLoop at hwh
          by_cases h0 : w.toNat = 0
          · rw [if_pos h0] at hwh
            split at hwh
            · cases hwh
            · cases hwh; exact Or.inr ⟨rfl, rfl, Or.inl h0⟩
          · rw [if_neg h0] at hwh
            by_cases hh0 : h.toNat = 0
            · rw [if_pos hh0] at hwh; cases hwh; exact Or.inr ⟨rfl, rfl, Or.inr hh0⟩
            · rw [if_neg hh0] at hwh
              split at hwh
              · cases hwh
              · exact Or.inl (by omega)
        rw [if_pos (by simp)]
        have halloc : allocate (w.toNat * h.toNat) (pixelSize k.toNat) r3 = .ok ((), r3) := by
          unfold allocate
          rw [if_neg]
          · rfl
          · have a := area_le w.toNat h.toNat
            have b := pixelSize_le k.toNat
            have : w.toNat * h.toNat * pixelSize k.toNat ≤ (4096 * 4194304) * 4 := Nat.mul_le_mul (by omega) b
            have : maxAlloc = 281474976710656 := rfl
            omega
        rcases hdims with ⟨hw, hh⟩ | ⟨hts, hr, hz⟩
        · rw [tileLoop_eq _ _ _ _ _ hw hh] at hwh
          rw [hbp] at hwh
          obtain ⟨ds, g1, g2, s', g3, g4⟩ := loop_sim { c with decompress := true } hcomp (kindBpp k.toNat)
            (kindBpp_le _).1 (kindBpp_le _).2 _ _ _ _ ⟨Rle.start, List.replicate 16384 0,
              fun _ _ => List.replicate bpp.toNat 0⟩ r3 r2 (gridTile_size _ _) rfl (List.length_replicate ..) he1 hwh he
          have e1 : readEager { c with decompress := true } k.toNat bpp.toNat w.toNat h.toNat tiles r3 =
              .ok (some ⟨k.toNat, w.toNat, h.toNat, c.palette, s'.px⟩, r2) := by
            unfold readEager
            rw [if_pos hk, M.bind_ok halloc, tileLoop_eq _ _ _ _ _ hw hh]
            rw [hbp] at g3 ⊢
            rw [M.bind_ok g3]; rfl
          rw [M.bind_ok e1]
          refine ⟨_, rfl, rfl, rfl, rfl, rfl, ?_⟩
          intro st hst p p1 p2 p3 p4
          have hgood : LazyGood ⟨k.toNat, w.toNat, h.toNat, c.palette, ts⟩ (kindBpp k.toNat) ds :=
            ⟨(kindBpp_le _).2, by rw [g2]; rfl, g1⟩
          obtain ⟨col, st', q1, _, q3⟩ := lazy_at ⟨k.toNat, w.toNat, h.toNat, c.palette, ts⟩ ds hk hgood hpal
            (fun _ _ => List.replicate bpp.toNat 0) st (reachable_ok _ ds hgood st hst) p ⟨p1, p2, p3, p4⟩
          refine ⟨col, st', q1, ?_⟩
          rw [g4]
          exact q3
        · have e1 : ∃ im', readEager { c with decompress := true } k.toNat bpp.toNat w.toNat h.toNat tiles r3 =
              .ok (some im', r3) ∧ im'.width = w.toNat ∧ im'.height = h.toNat ∧ im'.kind = k.toNat ∧
              im'.palette = c.palette := by
            unfold readEager
            rw [if_pos hk, M.bind_ok halloc]
            have e2 : ∀ s : EagerState, tileLoop w.toNat h.toNat tiles s
                (eagerTile { c with decompress := true } bpp.toNat) r3 = .ok (s, r3) := by
              intro s
              unfold tileLoop at hwh ⊢
              by_cases h0 : w.toNat = 0
              · rw [if_pos h0] at hwh ⊢
                split at hwh
                · cases hwh
                · rename_i h1; rw [if_neg h1]; rfl
              · rw [if_neg h0, if_pos (by omega)]; rfl
            rw [M.bind_ok (e2 _)]
            exact ⟨_, rfl, rfl, rfl, rfl, rfl⟩
          obtain ⟨im', e1, e2, e3, e4, e5⟩ := e1
          rw [hr, M.bind_ok e1]
          refine ⟨im', rfl, e2, e3, e4, e5, ?_⟩
          intro st hst p p1 p2 p3 p4
          dsimp only at p2 p4
          omega
      · rw [if_neg hk] at h5
        cases h5

/-- a source holding the image of a single pixel: sizes, bytes per pixel, level pointer, level, tile
pointer, tile -/
def onePixel (bpp : Nat) (tile : Bytes) : R :=
  newReader (be 4 1 ++ be 4 1 ++ be 4 bpp ++ be 4 16 ++ be 4 1 ++ be 4 1 ++ be 4 32 ++ be 4 0 ++ tile)

/-- settings for it -/
def onePixelCtx (decompress : Bool) : Ctx :=
  ⟨⟨fun _ => 0, fun _ => .panic⟩, 1, decompress, 0, [.lrgb 1 2 3], 0⟩

/-- a lazily decoded image without error -/
def lazyOk (x : Outcome (Option DecImg × R)) : Bool :=
  match x with
  | .ok (some (.lazy _), r) => r.err = none
  | _ => false
/-- an eagerly decoded image without error -/
def eagerOk (x : Outcome (Option DecImg × R)) : Bool :=
  match x with
  | .ok (some (.eager _), r) => r.err = none
  | _ => false

example : lazyOk (readImage (onePixelCtx false) 1 1 1 (onePixel 4 [0, 9, 255, 8, 0, 7, 0, 6])) = true := by decide +kernel
example : RGBPalette (onePixelCtx false).palette := by
  intro c hc
  simp [onePixelCtx] at hc
  exact ⟨_, _, _, hc⟩

/-- Outside the image the colours of indexed images differ (the eager image shows the first palette
entry there, the lazy one black), which is why C32 is about the points of the image. -/
theorem C32_outside_differs : ∃ (im : LazyImg) (im' : EagerImg) (p : Pt), im.kind = im'.kind ∧
    im.width = im'.width ∧ im.height = im'.height ∧ im.palette = im'.palette ∧
    ∀ st, ∃ c, im.at st p = .ok (c, st) ∧ ¬ SameColour c (im'.at p) := by
  refine ⟨⟨4, 1, 1, [.lrgb 1 2 3], []⟩, ⟨4, 1, 1, [.lrgb 1 2 3], fun _ _ => [0]⟩, ⟨5, 0⟩, rfl, rfl, rfl, rfl, ?_⟩
  intro st
  exact ⟨some (.gray 0), rfl, by unfold SameColour; decide⟩

/-! ## C33 -/

/-- **C33** is false: a run may extend over two channels of a tile.  The decompressing decoder reads
it, the other one reports an error. -/
theorem C33_refuted : eagerOk (readImage (onePixelCtx true) 1 1 0 (onePixel 3 [2, 7])) = true ∧
    ∃ x r', readImage (onePixelCtx false) 1 1 0 (onePixel 3 [2, 7]) = .ok (x, r') ∧
      r'.err = some .invalidRLE := by
  refine ⟨by decide +kernel, ?_⟩
  have h : (match readImage (onePixelCtx false) 1 1 0 (onePixel 3 [2, 7]) with
    | .ok (_, r) => decide (r.err = some .invalidRLE)
    | _ => false) = true := by decide +kernel
  split at h
  · rename_i x r e
    exact ⟨x, r, e, of_decide_eq_true h⟩
  · cases h

/-- beyond the limit nothing can be read -/
theorem rleReadAll_beyond (s : Rle) (p : Bytes) (r : R) (hs : s.count = 0) (hp : p ≠ []) (he : r.err = none)
    (hl : r.limit < r.pos) : ∃ (x : Bytes × Rle) (e : Err) (r' : R), rleReadAll s p r = .ok ((x.1, x.2, some e), r') := by
  have h1 : ∃ s1 e r1, rleOp s r = .ok ((s1, some e), r1) := by
    rcases rleOp_cases s r he with ⟨s1, h, _, h2, h3, _⟩ | ⟨s1, e, r1, h1, _⟩
    · have := h2.2.2
      omega
    · exact ⟨s1, e, r1, h1⟩
  obtain ⟨s1, e, r1, h1⟩ := h1
  refine ⟨(p, s1), e, r1, ?_⟩
  unfold rleReadAll
  obtain ⟨f, hf⟩ : ∃ f, rleFuel r p = f + 1 := ⟨rleFuel r p - 1, by unfold rleFuel; omega⟩
  rw [hf]
  exact rleRead_fail f s s1 p r r1 e he hp hs h1

theorem single_sim (c : Ctx) (hc : c.compression ≠ 0) :
    ∀ (ts : List Tile) (ps : List UInt64) (acc : List (List Bytes)) (s s' : EagerState) (r r' : R),
    (∀ t ∈ ts, 1 ≤ t.w * t.h ∧ t.w * t.h ≤ 4096) → s.rle.count = 0 → s.buf.length = 16384 → r.err = none →
    r.data.length < r.limit →
    tileLoop.go (eagerTile c 1) ts ps s r = .ok (s', r') → r'.err = none →
    ∃ acc', tileLoop.go (lazyBody 1) ts ps acc r = .ok (acc', r') := by
  intro ts
  induction ts with
  | nil =>
    intro ps acc s s' r r' _ _ _ _ _ h _
    cases h
    exact ⟨acc, rfl⟩
  | cons t ts ih =>
    intro ps acc s s' r r' ht hs hbuf he hd h he'
    cases ps with
    | nil => cases h
    | cons p ps =>
      unfold tileLoop.go at h ⊢
      obtain ⟨u, r1, h1, hb⟩ := M.bind_inv h
      have k1 := goto_keeps _ _ _ _ h1
      have e1 : r1.err = none := by
        obtain ⟨r1', g1, g2⟩ := goto_err p r
        rw [h1] at g1; cases g1; rw [g2, he]
      rw [M.bind_ok h1]
      obtain ⟨s1, r2, h2, h3⟩ := M.bind_inv hb
      have k3 : Keep r2 r' := by
        have : Keeps (tileLoop.go (eagerTile c 1) ts ps s1) := by
          clear ih ht h h3 hb h2
          induction ts generalizing ps s1 with
          | nil => unfold tileLoop.go; exact Keeps.pure _
          | cons t g ih =>
            cases ps with
            | nil => unfold tileLoop.go; exact Keeps.panic
            | cons p ps =>
              unfold tileLoop.go
              exact (goto_keeps p).bind fun _ => (eagerTile_keeps c 1 t s1).bind fun s => ih ps s
        exact this _ _ _ h3
      have e2 := k3.none he'
      obtain ⟨hn1, hn2⟩ := ht t (by simp)
      unfold eagerTile at h2
      dsimp only at h2
      rw [if_neg hc, Nat.mul_one] at h2
      obtain ⟨⟨got, rle, e⟩, r3, h4, h5⟩ := M.bind_inv h2
      dsimp only at h5
      obtain ⟨_, r4, h6, h7⟩ := M.bind_inv h5
      cases h7
      have hlen : (s.buf.take (t.w * t.h)).length = t.w * t.h := by rw [List.length_take, hbuf]; omega
      have hne : s.buf.take (t.w * t.h) ≠ [] := by
        intro h0; rw [h0, List.length_nil] at hlen; omega
      have he3 : e = none ∧ r2 = r3 := by
        cases e with
        | none => cases h6; exact ⟨rfl, rfl⟩
        | some e =>
          obtain ⟨r5, g1, g2, _⟩ := setErr?_some e r3
          rw [h6] at g1; cases g1
          rw [e2] at g2; cases g2
      obtain ⟨rfl, rfl⟩ := he3
      have hpos : r1.pos ≤ r1.limit := by
        apply Nat.le_of_not_lt
        intro hlt
        obtain ⟨x, e, r5, g⟩ := rleReadAll_beyond s.rle _ r1 hs hne e1 hlt
        rw [h4] at g; cases g
      have hd1 : r1.data.length < r1.limit := by rw [k1.1, k1.2.1]; exact hd
      obtain ⟨ops, g1, g2, g3, g4, g5⟩ := C31_fills_buffer_partial s.rle _ r1 hs hd1 hpos _ _ _ h4
      have hsee : Sees r1 (ops.flatMap Op.code) := by
        refine ⟨e1, g2, ?_⟩
        obtain ⟨tl, g2⟩ := g2
        have := congrArg List.length g2
        rw [List.length_drop, List.length_append] at this
        omega
      obtain ⟨ops', q1, q2, q3⟩ := readRLEAll_accepts (t.w * t.h) hn1 ops g1 r1 hsee (by rw [← g3, g4, hlen])
      obtain ⟨s2, q4, q5⟩ := rleReadAll_tile (t.w * t.h) [ops'] (by simpa using q1) (by simp) s.rle hs
        (s.buf.take (t.w * t.h)) (by simpa using hlen) r1 (by simpa using q2)
      rw [h4] at q5
      simp only [Outcome.ok.injEq, Prod.mk.injEq, and_true] at q5
      obtain ⟨⟨w1, w2⟩, w3⟩ := q5
      have hlz : lazyBody 1 t acc r1 = .ok (acc ++ [[codeOf ops']], r2) := by
        unfold lazyBody readChannels readChannels
        rw [Nat.mul_comm] at q3
        rw [Nat.mul_comm t.w t.h]
        rw [M.bind_ok (r' := r2) (a := [codeOf ops'])]
        · rfl
        · rw [M.bind_ok q3]
          rw [w3]
          simp only [List.map_cons, List.map_nil, List.flatten_cons, List.flatten_nil, List.append_nil]
          rfl
      rw [M.bind_ok hlz]
      refine ih ps _ _ s' r2 r' (fun t ht' => ht t (List.mem_cons_of_mem _ ht')) (by rw [w2]; exact q4) ?_ e2
        (by rw [w3]; exact hd1) h3 he'
      show (got ++ s.buf.drop (t.w * t.h)).length = 16384
      rw [List.length_append, List.length_drop, hbuf, w1, tilePlain_length (t.w * t.h) _ (by simpa using q1)]
      simp only [List.length_cons, List.length_nil]
      omega

/-- **C33**, the part that holds: images with one channel (grey and indexed without alpha) in files
shorter than the reader's limit are accepted by both decoders or by neither.  Missing for the full
statement, and false: more channels (`C33_refuted`). -/
theorem C33_single_channel_partial (c : Ctx) (w h k : UInt32) (hk : k = 2 ∨ k = 4) (r r' : R) (im : EagerImg)
    (hc : c.compression ≠ 0) (hd : r.data.length < r.limit)
    (hlim : r.limit ≤ maxString)
    (hok : readImage { c with decompress := true } w h k r = .ok (some (.eager im), r')) (he : r'.err = none) :
    ∃ im', readImage { c with decompress := false } w h k r = .ok (some (.lazy im'), r') := by
  have hkk : kindBpp k.toNat = 1 ∧ k.toNat < 6 := by rcases hk with rfl | rfl <;> exact ⟨rfl, by decide⟩
  unfold readImage at hok ⊢
  obtain ⟨x, r1, h1, hok1⟩ := M.bind_inv hok
  have h1' : readLevel { c with decompress := false } w h k r = .ok (x, r1) := h1
  rw [M.bind_ok h1']
  cases x with
  | none => cases hok1
  | some x =>
    obtain ⟨bpp, tiles⟩ := x
    dsimp only at hok1 ⊢
    rw [if_pos (by simp)] at hok1
    rw [if_neg (by simpa using hc)]
    obtain ⟨o, r2, h2, hok2⟩ := M.bind_inv hok1
    cases o with
    | none => cases hok2
    | some im2 =>
      have hm : im2 = im ∧ r2 = r' := by
        simp only [M.pure_apply, Option.map_some, Outcome.ok.injEq, Prod.mk.injEq, Option.some.injEq,
          DecImg.eager.injEq] at hok2
        exact hok2
      obtain ⟨rfl, rfl⟩ := hm
      have k1 := readLevel_keeps _ _ _ _ _ _ _ h1
      obtain ⟨hb, hlen, hl⟩ := readLevel_spec _ _ _ _ _ _ _ _ h1
      have hbp := bppOk_kind k bpp hb hkk.2
      rw [hkk.1] at hbp
      rw [hbp] at h2 ⊢
      have k2 := readEager_keeps _ _ _ _ _ _ _ _ _ h2
      have he1 : r1.err = none := k2.none he
      unfold readEager at h2
      rw [if_pos hkk.2] at h2
      obtain ⟨_, r3, h3, h4⟩ := M.bind_inv h2
      have hr3 : r3 = r1 := by
        unfold allocate at h3; split at h3 <;> cases h3; rfl
      rw [hr3] at h4
      obtain ⟨s', r4, h5, h6⟩ := M.bind_inv h4
      cases h6
      have halloc : allocate tiles.length 24 r1 = .ok ((), r1) := by
        unfold allocate
        rw [if_neg]
        · rfl
        · have := hl he1
          have : maxString = 16777216 := rfl
          have : maxAlloc = 281474976710656 := rfl
          omega
      have hlz : ∃ acc, tileLoop w.toNat h.toNat tiles ([] : List (List Bytes)) (lazyBody 1) r1 = .ok (acc, r2) := by
        unfold tileLoop at h5 ⊢
        by_cases h0 : w.toNat = 0
        · rw [if_pos h0] at h5 ⊢
          by_cases hh : h.toNat > 0xffffffc0
          · rw [if_pos hh] at h5; cases h5
          · rw [if_neg hh] at h5 ⊢; cases h5; exact ⟨_, rfl⟩
        · rw [if_neg h0] at h5 ⊢
          by_cases hh0 : h.toNat = 0
          · rw [if_pos hh0] at h5 ⊢; cases h5; exact ⟨_, rfl⟩
          · rw [if_neg hh0] at h5 ⊢
            by_cases hh : w.toNat > 0xffffffc0 ∨ h.toNat > 0xffffffc0
            · rw [if_pos hh] at h5; cases h5
            · rw [if_neg hh] at h5 ⊢
              exact single_sim _ hc _ _ _ _ _ _ _ (gridTile_size _ _) rfl (List.length_replicate ..) he1
                (by rw [k1.1, k1.2.1]; exact hd) h5 he
      obtain ⟨acc, hlz⟩ := hlz
      have hlz' : readLazy { c with decompress := false } k.toNat 1 w.toNat h.toNat tiles r1 =
          .ok (some ⟨k.toNat, w.toNat, h.toNat, c.palette, acc⟩, r2) := by
        unfold readLazy
        rw [M.bind_ok halloc]
        have hlz : tileLoop w.toNat h.toNat tiles ([] : List (List Bytes)) (fun t ts => do
            let bs ← readChannels (t.w * t.h) 1
            return ts ++ [bs]) r1 = .ok (acc, r2) := hlz
        rw [M.bind_ok hlz, if_pos hkk.2]
        rfl
      have hone : (1 : UInt32).toNat = 1 := rfl
      rw [M.bind_ok hlz']
      exact ⟨_, rfl⟩

example : eagerOk (readImage (onePixelCtx true) 1 1 2 (onePixel 1 [0, 9])) = true ∧
    (onePixelCtx true).compression ≠ 0 ∧ (onePixel 1 [0, 9]).data.length < (onePixel 1 [0, 9]).limit ∧
    (onePixel 1 [0, 9]).limit ≤ maxString := by decide +kernel

end Limage
