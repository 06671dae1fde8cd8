import Verif.Proofs.ReadPixels
import Verif.Props.Compressed
/-! Reading pixels without decompressing them. -/
namespace Limage
open Spec

theorem Spec.Encodes.good {n : Nat} (hn : 1 ≤ n) {code plain : Bytes} (h : Encodes code plain) (hl : plain.length = n) :
    ∃ ops, GoodOps n ops ∧ codeOf ops = code := by
  obtain ⟨ops, h1, rfl, rfl⟩ := h
  refine ⟨ops, ⟨fun o ho => (h1 o ho).1, ?_, hl⟩, rfl⟩
  rcases List.eq_nil_or_concat ops with rfl | ⟨os, o, rfl⟩
  · simp at hl; omega
  · refine ⟨os, o, by simp, (h1 o (by simp)).2⟩

theorem codes_good {n : Nat} (hn : 1 ≤ n) : ∀ codes : List Bytes, (∀ c ∈ codes, ∃ plain, Encodes c plain ∧ plain.length = n) →
    ∃ d : List (List Op), d.map codeOf = codes ∧ ∀ ops ∈ d, GoodOps n ops
  | [], _ => ⟨[], rfl, by simp⟩
  | c :: cs, h => by
    obtain ⟨plain, h1, h2⟩ := h c (by simp)
    obtain ⟨ops, g1, g2⟩ := h1.good hn h2
    obtain ⟨d, e1, e2⟩ := codes_good hn cs fun c hc => h c (by simp [hc])
    refine ⟨ops :: d, by rw [List.map_cons, g2, e1], fun o ho => ?_⟩
    rcases List.mem_cons.1 ho with rfl | ho
    · exact g1
    · exact e2 o ho

/-- one tile copied -/
theorem lazyTile_at {D : Bytes} {p bpp : Nat} {px : List Bytes} (h : TileAt (D.take maxString) p bpp px)
    {t : Tile} (hn : px.length = t.w * t.h) (hn1 : 1 ≤ t.w * t.h) (hb1 : 1 ≤ bpp) (acc : List (List Bytes)) :
    p < maxString ∧ ∃ acc' r', lazyBody bpp t acc (readerAt D p) = .ok (acc', r') ∧ r'.data = D ∧ r'.limit = maxString ∧ r'.err = none := by
  obtain ⟨codes, hcl, hat, henc⟩ := h
  obtain ⟨d, hd, hg⟩ := codes_good hn1 codes (by
    intro c hc
    obtain ⟨k, hk, rfl⟩ := List.getElem_of_mem hc
    refine ⟨px.map fun p => p.getD k 0, ?_, ?_⟩
    · have := henc k (by omega)
      rwa [List.getD_eq_getElem?_getD, List.getElem?_eq_getElem hk, Option.getD_some] at this
    · rw [List.length_map, hn])
  have hdl : d.length = bpp := by rw [← hcl, ← hd, List.length_map]
  have hne : codes.flatten ≠ [] := by
    intro h0
    obtain ⟨c, cs, hcc⟩ : ∃ c cs, codes = c :: cs := by
      cases codes with
      | nil => simp at hcl; omega
      | cons c cs => exact ⟨c, cs, rfl⟩
    have he := henc 0 (by omega)
    rw [hcc] at h0 he
    rw [List.flatten_cons, List.append_eq_nil_iff] at h0
    exact he.ne (by
      intro h1
      have := congrArg List.length h1
      rw [List.length_map, hn, List.length_nil] at this
      omega) h0.1
  have hsee := sees_at hat hne
  have hle := hasAt_lt hat hne
  have hpos := List.length_pos_iff.2 hne
  rw [← hd] at hsee
  have e := readChannels_accepts (t.w * t.h) hn1 d _ hg hsee
  rw [hdl] at e
  refine ⟨by omega, acc ++ [d.map codeOf], (readerAt D p).adv (d.map codeOf).flatten.length, ?_, rfl, rfl, rfl⟩
  · unfold lazyBody
    rw [M.bind_ok e]
    rfl

/-- all the tiles -/
theorem tiles_lazy {D : Bytes} {bpp : Nat} (hb1 : 1 ≤ bpp)
    (Good : Nat → Nat → Bytes → Prop) : ∀ (ts : List Tile) (ps : List Nat) (acc : List (List Bytes)) (r : R),
    TilesGood D true bpp Good ps ts → r.data = D → r.limit = maxString → r.err = none →
    ∃ acc' r', tileLoop.go (lazyBody bpp) ts (ps.map fun p => (UInt32.ofNat p).toUInt64) acc r = .ok (acc', r') ∧
      r'.data = D ∧ r'.limit = maxString ∧ r'.err = none := by
  intro ts
  induction ts with
  | nil =>
    intro ps acc r _ h1 h2 h3
    exact ⟨acc, r, rfl, h1, h2, h3⟩
  | cons t ts ih =>
    intro ps acc r h h1 h2 h3
    cases h with
    | cons hp hps =>
      rename_i p ps
      obtain ⟨⟨hn1, hn2⟩, px, hpx, hlen, hbl, hg⟩ := hp
      have hm : maxString = 16777216 := rfl
      obtain ⟨hlt, acc1, r1, e1, g1, g2, g3⟩ := lazyTile_at (by simpa [TileHolds] using hpx) hlen hn1 hb1 acc
      obtain ⟨acc2, r2, e2, k1, k2, k3⟩ := ih ps acc1 r1 hps g1 g2 g3
      exact ⟨acc2, r2, by rw [List.map_cons, tileLoop.go, M.bind_ok (goto_any (by omega) h1 h2 h3), M.bind_ok e1, e2], k1, k2, k3⟩

theorem not_mem_sizeRect {p : Pt} {w h : Nat} (hp : ¬ Rect.mem p (sizeRect w h)) : ¬ (0 ≤ p.x ∧ p.x < w ∧ 0 ≤ p.y ∧ p.y < h) := by
  intro h
  apply hp
  unfold Rect.mem sizeRect
  simp [h]

/-- outside the bounds there is a colour -/
theorem eager_outside {im : EagerImg} (hk : 4 ≤ im.kind → im.palette ≠ []) (p : Pt) (hp : ¬ Rect.mem p (DecImg.eager im).leaf.bounds) :
    ((DecImg.eager im).leaf.pixel p).isSome := by
  show (im.at p).isSome
  unfold EagerImg.at
  rw [if_neg (not_mem_sizeRect hp)]
  unfold eagerColor
  have hpal : 4 ≤ im.kind → ∃ v, im.palette[0]? = some v := by
    intro h4
    cases hc : im.palette with
    | nil => exact absurd hc (hk h4)
    | cons v vs => exact ⟨v, rfl⟩
  match h : im.kind with
  | 0 => rfl
  | 1 => rfl
  | 2 => rfl
  | 3 => rfl
  | 4 =>
    obtain ⟨v, hv⟩ := hpal (by omega)
    show (im.palette[0]?).isSome
    rw [hv]; rfl
  | n + 5 =>
    obtain ⟨v, hv⟩ := hpal (by omega)
    show (IdxPix.toColor im.palette ⟨0, 0⟩).isSome
    unfold IdxPix.toColor
    rw [show ((⟨0, 0⟩ : IdxPix).i).toNat = 0 from rfl, hv]; rfl

theorem lazy_outside {im : LazyImg} (hk : 4 ≤ im.kind → im.palette ≠ []) (p : Pt) (hp : ¬ Rect.mem p (DecImg.lazy im).leaf.bounds) :
    ((DecImg.lazy im).leaf.pixel p).isSome := by
  have h : im.at Cache.fresh p = .ok (lazyOutside im.kind im.palette, Cache.fresh) := by
    unfold LazyImg.at
    rw [if_neg (fun h => hk h.1 (by simpa using h.2)), if_neg (not_mem_sizeRect hp)]
  show (match im.at Cache.fresh p with
      | .ok (c, _) => c
      | _ => none).isSome
  rw [h]
  dsimp only
  unfold lazyOutside
  match h : im.kind with
  | 0 => rfl
  | 1 => rfl
  | 2 => rfl
  | 3 => rfl
  | n + 4 =>
    rw [if_neg (by simpa using hk (by omega))]; rfl

/-- Pixels at `p` are read back, compressed or not. -/
theorem readImage_any_level {D : Bytes} {c : Ctx} (hpal : RGBPalette c.palette) {p bpp w h : Nat}
    {Good : Nat → Nat → Bytes → Prop} (hw0 : 0 < w) (hh0 : 0 < h) (hw2 : w < 2 ^ 32) (hh2 : h < 2 ^ 32) (kind : UInt32) (hk : kind.toNat < 6) (hb1 : 1 ≤ bpp) (hb4 : bpp ≤ 4)
    (hlv : LevelRead D c p bpp w h kind Good) :
    p < maxString ∧ ∃ d r', readImage c (UInt32.ofNat w) (UInt32.ofNat h) kind (readerAt D p) = .ok (some d, r') ∧
      r'.data = D ∧ r'.limit = maxString ∧ r'.err = none ∧
      (c.decompress = false → c.compression ≠ 0 → ∃ im, d = .lazy im) ∧ d.leaf.bounds = sizeRect w h ∧
      d.leaf.model = kindModel kind.toNat c.palette ∧
      ((4 ≤ kind.toNat → c.palette ≠ []) → ∀ p, ¬ Rect.mem p d.leaf.bounds → (d.leaf.pixel p).isSome) ∧
      (kind.toNat ≠ 4 → ∀ x y : Nat, x < w → y < h → ∃ px, Good x y px ∧
        d.leaf.pixel ⟨x, y⟩ = eagerColor kind.toNat c.palette px) := by
  by_cases hor : c.decompress = true ∨ c.compression = 0
  · obtain ⟨hlt, im, r', e, h1, h2, h3, h4, h5, h6, h7, h8⟩ := readImage_level hor hw0 hh0 hw2 hh2 kind hk hb1 hb4 hlv
    refine ⟨hlt, .eager im, r', e, h1, h2, h3, (fun h h' => by rcases hor with ho | ho <;> simp_all), ?_, ?_, fun hk4 p hp => ?_, fun _ x y hx hy => ⟨_, h8 x y hx hy, ?_⟩⟩
    · show sizeRect im.width im.height = _
      rw [h5, h6]
    · show kindModel im.kind im.palette = _
      rw [h4, h7]
    · exact eager_outside (by rw [h4, h7]; exact hk4) p hp
    · show im.at _ = _
      unfold EagerImg.at
      rw [h5, h6, if_pos (by simp [hx, hy]), h4, h7]
      simp
  · obtain ⟨hdc, hc⟩ := not_or.1 hor
    rw [Bool.not_eq_true] at hdc
    obtain ⟨hlt, im, r', e, h1, h2, h3, h4, h5, h6, h7, h8⟩ := readImage_level (c := { c with decompress := true }) (.inl rfl) hw0 hh0 hw2 hh2
      kind hk hb1 hb4 hlv
    obtain ⟨_, hwh, hwl, hhl, tiles, q, htl, htn, hlevel, hgrid⟩ := hlv
    obtain ⟨acc, r2, e2, k1, k2, k3⟩ := tiles_lazy hb1 _ _ _ [] (readerAt D q) (show TilesGood D true bpp Good tiles (tileGrid w h) by
      rwa [show (c.compression != 0) = true by simp [hc]] at hgrid) rfl rfl rfl
    have hlz : readImage c (UInt32.ofNat w) (UInt32.ofNat h) kind (readerAt D p) =
        .ok (some (.lazy ⟨kind.toNat, w, h, c.palette, acc⟩), r2) := by
      unfold readImage
      rw [M.bind_ok hlevel]
      dsimp only
      rw [hdc, Bool.false_or, if_neg (by simpa using hc)]
      have hE : readLazy c kind.toNat (UInt32.ofNat bpp).toNat (UInt32.ofNat w).toNat (UInt32.ofNat h).toNat
          (tiles.map fun p => (UInt32.ofNat p).toUInt64) (readerAt D q) = .ok (some ⟨kind.toNat, w, h, c.palette, acc⟩, r2) := by
        rw [u32_toNat hw2, u32_toNat hh2, u32_toNat (by omega : bpp < 2 ^ 32)]
        unfold readLazy
        unfold allocate
        rw [List.length_map, if_neg (by unfold maxAlloc; omega), show ((pure () : M Unit) >>= _) _ = _ from M.bind_ok rfl]
        have hl : tileLoop w h (tiles.map fun p => (UInt32.ofNat p).toUInt64) ([] : List (List Bytes)) (lazyBody bpp) (readerAt D q) =
            .ok (acc, r2) := by
          rw [tileLoop_eq _ _ _ _ _ (by omega) (by omega)]
          exact e2
        have hl : tileLoop w h (tiles.map fun p => (UInt32.ofNat p).toUInt64) ([] : List (List Bytes)) (fun t ts => do
            let bs ← readChannels (t.w * t.h) bpp
            return ts ++ [bs]) (readerAt D q) = .ok (acc, r2) := hl
        rw [M.bind_ok hl, if_pos hk]
        rfl
      rw [M.bind_ok hE]
      rfl
    obtain ⟨im', f1, f2, f3, f4, f5, f6⟩ := C32_same_pixels c _ _ _ _ _ _ hpal (Nat.le_refl _) hlz k3
    rw [e] at f1
    simp only [Outcome.ok.injEq, Prod.mk.injEq, Option.some.injEq, DecImg.eager.injEq] at f1
    obtain ⟨rfl, rfl⟩ := f1
    refine ⟨hlt, _, r', hlz, h1, h2, h3, fun _ _ => ⟨_, rfl⟩, rfl, rfl, fun hk4 p hp => lazy_outside hk4 p hp, fun hk4 x y hx hy => ⟨_, h8 x y hx hy, ?_⟩⟩
    obtain ⟨col, st', g1, _, g3⟩ := f6 Cache.fresh .fresh ⟨x, y⟩ (by simp) (by simpa using hx) (by simp) (by simpa using hy)
    show (match LazyImg.at _ Cache.fresh ⟨x, y⟩ with
      | .ok (c, _) => c
      | _ => none) = _
    rw [g1]
    dsimp only
    rw [g3 hk4]
    unfold EagerImg.at
    rw [h5, h6, if_pos (by simp [hx, hy]), h4, h7]
    simp

theorem readImage_any {D : Bytes} {c : Ctx} (hc : c.compression ≠ 0) (hm : c.mode = 0) (hpal : RGBPalette c.palette) {p bpp w h : Nat}
    {b : Rect} {Shows : Pt → Bytes → Prop} (hat : PixelsAt (D.take maxString) p b bpp Shows)
    (hlen : ∀ q bs, Shows q bs → bs.length = bpp) (hw : b.dx = w) (hh : b.dy = h) (hw0 : 0 < w) (hh0 : 0 < h)
    (hw2 : w < 2 ^ 32) (hh2 : h < 2 ^ 32) (kind : UInt32) (hk : kind.toNat < 6) (hb1 : 1 ≤ bpp) (hb4 : bpp ≤ 4)
    (hkb : bppOk kind (UInt32.ofNat bpp) = true) :
    p < maxString ∧ ∃ d r', readImage c (UInt32.ofNat w) (UInt32.ofNat h) kind (readerAt D p) = .ok (some d, r') ∧
      r'.data = D ∧ r'.limit = maxString ∧ r'.err = none ∧
      (c.decompress = false → ∃ im, d = .lazy im) ∧ d.leaf.bounds = sizeRect w h ∧ d.leaf.model = kindModel kind.toNat c.palette ∧
      ((4 ≤ kind.toNat → c.palette ≠ []) → ∀ p, ¬ Rect.mem p d.leaf.bounds → (d.leaf.pixel p).isSome) ∧
      (kind.toNat ≠ 4 → ∀ x y : Nat, x < w → y < h → ∃ px, Shows ⟨b.x0 + x, b.y0 + y⟩ px ∧
        d.leaf.pixel ⟨x, y⟩ = eagerColor kind.toNat c.palette px) := by
  obtain ⟨h1, d, r', e, h2, h3, h4, h5, h6⟩ := readImage_any_level hpal hw0 hh0 hw2 hh2 kind hk hb1 hb4 (readLevel_at hc hm hat hlen hw hh hw0 hh0 hw2 hh2 kind hkb)
  exact ⟨h1, d, r', e, h2, h3, h4, fun hd => h5 hd hc, h6⟩

end Limage
