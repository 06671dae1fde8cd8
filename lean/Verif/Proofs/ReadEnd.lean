import Verif.Proofs.ReadLayers
/-! Where reading ends: behind the last tile. -/
namespace Limage
open Spec

theorem TileEnd.at {D : Bytes} {t bpp : Nat} {px : List Bytes} {e : Nat} (h : TileEnd D t bpp px e) : TileAt D t bpp px := by
  obtain ⟨codes, h1, h2, h3, -⟩ := h
  exact ⟨codes, h1, h2, h3⟩

/-- a tile is read up to its end -/
theorem eagerTile_end {D : Bytes} {p bpp e : Nat} {px : List Bytes} {c : Ctx} (hc : c.compression ≠ 0)
    (h : TileEnd (D.take maxString) p bpp px e) {t : Tile} (hn : px.length = t.w * t.h) (hn1 : 1 ≤ t.w * t.h) (hn2 : t.w * t.h ≤ 4096)
    (hb1 : 1 ≤ bpp) (hb4 : bpp ≤ 4) (s : EagerState) (hs : s.rle.count = 0) (hbuf : s.buf.length = 16384) :
    p < maxString ∧ ∃ s' r', eagerTile c bpp t s (readerAt D p) = .ok (s', r') ∧ r'.err = none ∧ r'.pos = e := by
  have hpl := planes_length bpp px
  have hpn : ∀ l ∈ planes bpp px, l.length = t.w * t.h := planes_each hn
  have hflen : (planes bpp px).flatten.length = t.w * t.h * bpp := by rw [flatten_const_length _ hpn, hpl]
  have hfne : (planes bpp px).flatten ≠ [] := by
    intro h0
    rw [h0] at hflen
    have : 0 < t.w * t.h * bpp := Nat.mul_pos hn1 hb1
    simp only [List.length_nil] at hflen
    omega
  have h16 : t.w * t.h * bpp ≤ 16384 := by
    calc t.w * t.h * bpp ≤ 4096 * 4 := Nat.mul_le_mul hn2 hb4
      _ = 16384 := rfl
  obtain ⟨codes, hcl, hat, henc, rfl⟩ := h
  have he : Encodes codes.flatten (planes bpp px).flatten := encodes_flatten _ _ (by rw [hcl, hpl]) fun k hk => by
    rw [planes_get px (by omega)]; exact henc k (by omega)
  have hne : codes.flatten ≠ [] := he.ne hfne
  have hsee := sees_at hat hne
  have hle := hasAt_lt hat hne
  have hpos := List.length_pos_iff.2 hne
  obtain ⟨rle', e1, hr'⟩ := C29_reader_decodes codes.flatten (planes bpp px).flatten (s.buf.take (t.w * t.h * bpp)) s.rle (readerAt D p)
    he hs rfl hsee.2.1 hsee.2.2 (by rw [List.length_take, hbuf, hflen]; omega)
  refine ⟨by omega, ⟨rle', (planes bpp px).flatten ++ s.buf.drop (t.w * t.h * bpp),
      storeTile bpp t ((planes bpp px).flatten ++ s.buf.drop (t.w * t.h * bpp)) s.px⟩,
    { readerAt D p with pos := (readerAt D p).pos + codes.flatten.length }, ?_, rfl, rfl⟩
  unfold eagerTile
  dsimp only
  rw [if_neg hc, M.bind_ok e1]
  dsimp only
  rw [show (setErr? none >>= _) _ = _ from M.bind_ok rfl]
  rfl

/-- a tile is copied up to its end -/
theorem lazyTile_end {D : Bytes} {p bpp e : Nat} {px : List Bytes} (h : TileEnd (D.take maxString) p bpp px e)
    {t : Tile} (hn : px.length = t.w * t.h) (hn1 : 1 ≤ t.w * t.h) (hb1 : 1 ≤ bpp) (acc : List (List Bytes)) :
    p < maxString ∧ ∃ acc' r', lazyBody bpp t acc (readerAt D p) = .ok (acc', r') ∧ r'.err = none ∧ r'.pos = e := by
  have hlt := (lazyTile_at h.at hn hn1 hb1 acc).1
  obtain ⟨codes, hcl, hat, henc, rfl⟩ := h
  obtain ⟨d, hd, hg⟩ := codes_good hn1 codes (by
    intro c hc
    obtain ⟨k, hk, rfl⟩ := List.getElem_of_mem hc
    refine ⟨px.map fun p => p.getD k 0, ?_, ?_⟩
    · have := henc k (by omega)
      rwa [List.getD_eq_getElem?_getD, List.getElem?_eq_getElem hk, Option.getD_some] at this
    · rw [List.length_map, hn])
  have hdl : d.length = bpp := by rw [← hcl, ← hd, List.length_map]
  have hne : codes.flatten ≠ [] := by
    intro h0
    obtain ⟨c, cs, hcc⟩ : ∃ c cs, codes = c :: cs := by
      cases codes with
      | nil => simp at hcl; omega
      | cons c cs => exact ⟨c, cs, rfl⟩
    have he := henc 0 (by omega)
    rw [hcc] at h0 he
    rw [List.flatten_cons, List.append_eq_nil_iff] at h0
    exact he.ne (by
      intro h1
      have := congrArg List.length h1
      rw [List.length_map, hn, List.length_nil] at this
      omega) h0.1
  have hsee := sees_at hat hne
  rw [← hd] at hsee
  have e := readChannels_accepts (t.w * t.h) hn1 d _ hg hsee
  rw [hdl] at e
  refine ⟨hlt, acc ++ [d.map codeOf], (readerAt D p).adv (d.map codeOf).flatten.length, ?_, rfl, ?_⟩
  · unfold lazyBody
    rw [M.bind_ok e]
    rfl
  · rw [hd]
    rfl

/-- what is known of the last tile -/
def LastTile (D : Bytes) (bpp : Nat) (ps : List Nat) (ts : List Tile) (e : Nat) : Prop :=
  ∃ p t px, ps.getLast? = some p ∧ ts.getLast? = some t ∧ TileEnd (D.take maxString) p bpp px e ∧ px.length = t.w * t.h

theorem LastTile.tail {D : Bytes} {bpp : Nat} {p p' : Nat} {ps : List Nat} {t t' : Tile} {ts : List Tile} {e : Nat}
    (h : LastTile D bpp (p :: p' :: ps) (t :: t' :: ts) e) : LastTile D bpp (p' :: ps) (t' :: ts) e := by
  obtain ⟨q, u, px, h1, h2, h3⟩ := h
  rw [List.getLast?_cons_cons] at h1 h2
  exact ⟨q, u, px, h1, h2, h3⟩

/-- all the tiles are read up to the end of the last -/
theorem tiles_end {D : Bytes} {bpp e : Nat} {c : Ctx} (hc : c.compression ≠ 0) (hb1 : 1 ≤ bpp) (hb4 : bpp ≤ 4)
    (Good : Nat → Nat → Bytes → Prop) : ∀ (ts : List Tile) (ps : List Nat) (s : EagerState) (r : R), TilesGood D true bpp Good ps ts →
    s.rle.count = 0 → s.buf.length = 16384 → r.data = D → r.limit = maxString → r.err = none → LastTile D bpp ps ts e →
    ∃ s' r', tileLoop.go (eagerTile c bpp) ts (ps.map fun p => (UInt32.ofNat p).toUInt64) s r = .ok (s', r') ∧
      r'.err = none ∧ r'.pos = e := by
  have hm : maxString = 16777216 := rfl
  intro ts
  induction ts with
  | nil =>
    rintro ps s r _ _ _ _ _ _ ⟨_, _, _, _, h, _⟩
    cases h
  | cons t ts ih =>
    intro ps s r h hs hbuf h1 h2 h3 hl
    cases h with
    | cons hp hps =>
      rename_i p ps
      obtain ⟨⟨hn1, hn2⟩, px, hpx, hlen, hbl, hg⟩ := hp
      cases hps with
      | nil =>
        obtain ⟨_, _, px', g1, g2, g3, g4⟩ := hl
        obtain rfl : p = _ := Option.some.inj (List.getLast?_singleton.symm.trans g1)
        obtain rfl : t = _ := Option.some.inj (List.getLast?_singleton.symm.trans g2)
        obtain ⟨hlt, s1, r1, e1, e2, e3⟩ := eagerTile_end hc g3 g4 hn1 hn2 hb1 hb4 s hs hbuf
        exact ⟨s1, r1, by
          rw [List.map_cons, tileLoop.go, M.bind_ok (goto_any (by omega) h1 h2 h3), M.bind_ok e1]
          rfl, e2, e3⟩
      | cons hp' hps =>
        have hpx' : TileHolds (D.take maxString) (c.compression != 0) p bpp px := by
          rwa [show (c.compression != 0) = true by simp [hc]]
        obtain ⟨hlt, s1, r1, e1, g1, g2, g3, g4, g5, g6, g7⟩ := eagerTile_at hpx' hlen hn1 hn2 hb1 hb4 hbl s hs hbuf
        obtain ⟨s2, r2, e2, k1, k2⟩ := ih _ s1 r1 (.cons hp' hps) g4 g5 g1 g2 g3 hl.tail
        exact ⟨s2, r2, by rw [List.map_cons, tileLoop.go, M.bind_ok (goto_any (by omega) h1 h2 h3), M.bind_ok e1, e2], k1, k2⟩

/-- all the tiles are copied up to the end of the last -/
theorem tiles_lazy_end {D : Bytes} {bpp e : Nat} (hb1 : 1 ≤ bpp)
    (Good : Nat → Nat → Bytes → Prop) : ∀ (ts : List Tile) (ps : List Nat) (acc : List (List Bytes)) (r : R),
    TilesGood D true bpp Good ps ts → r.data = D → r.limit = maxString → r.err = none → LastTile D bpp ps ts e →
    ∃ acc' r', tileLoop.go (lazyBody bpp) ts (ps.map fun p => (UInt32.ofNat p).toUInt64) acc r = .ok (acc', r') ∧
      r'.err = none ∧ r'.pos = e := by
  have hm : maxString = 16777216 := rfl
  intro ts
  induction ts with
  | nil =>
    rintro ps acc r _ _ _ _ ⟨_, _, _, _, h, _⟩
    cases h
  | cons t ts ih =>
    intro ps acc r h h1 h2 h3 hl
    cases h with
    | cons hp hps =>
      rename_i p ps
      obtain ⟨⟨hn1, hn2⟩, px, hpx, hlen, hbl, hg⟩ := hp
      cases hps with
      | nil =>
        obtain ⟨_, _, px', g1, g2, g3, g4⟩ := hl
        obtain rfl : p = _ := Option.some.inj (List.getLast?_singleton.symm.trans g1)
        obtain rfl : t = _ := Option.some.inj (List.getLast?_singleton.symm.trans g2)
        obtain ⟨hlt, s1, r1, e1, e2, e3⟩ := lazyTile_end g3 g4 hn1 hb1 acc
        exact ⟨s1, r1, by
          rw [List.map_cons, tileLoop.go, M.bind_ok (goto_any (by omega) h1 h2 h3), M.bind_ok e1]
          rfl, e2, e3⟩
      | cons hp' hps =>
        obtain ⟨hlt, acc1, r1, e1, g1, g2, g3⟩ := lazyTile_at (by simpa [TileHolds] using hpx) hlen hn1 hb1 acc
        obtain ⟨acc2, r2, e2, k1, k2⟩ := ih _ acc1 r1 (.cons hp' hps) g1 g2 g3 hl.tail
        exact ⟨acc2, r2, by rw [List.map_cons, tileLoop.go, M.bind_ok (goto_any (by omega) h1 h2 h3), M.bind_ok e1, e2], k1, k2⟩

/-- Pixels are read up to their end. -/
theorem readImage_end {D : Bytes} {c : Ctx} (hc : c.compression ≠ 0) (hm : c.mode = 0) {p bpp w h e : Nat}
    {b : Rect} {Shows : Pt → Bytes → Prop} (hat : PixelsEnd (D.take maxString) p b bpp Shows e)
    (hlen : ∀ q bs, Shows q bs → bs.length = bpp) (hw : b.dx = w) (hh : b.dy = h) (hw0 : 0 < w) (hh0 : 0 < h)
    (hw2 : w < 2 ^ 32) (hh2 : h < 2 ^ 32) (kind : UInt32) (hk : kind.toNat < 6) (hb1 : 1 ≤ bpp) (hb4 : bpp ≤ 4)
    (hkb : bppOk kind (UInt32.ofNat bpp) = true) :
    ∃ d r', readImage c (UInt32.ofNat w) (UInt32.ofNat h) kind (readerAt D p) = .ok (d, r') ∧ r'.err = none ∧ r'.pos = e := by
  obtain ⟨level, tiles, h1, h2, h3, h4⟩ := hat
  rw [hw, hh, tilesAlong_nat, tilesAlong_nat] at h3 h4
  have htl := h3.length_eq
  rw [tileList_length] at htl
  obtain ⟨x1, hwh, hwl, hhl, x5, q, hlevel⟩ := readLevel_tiles hm h1 h2 htl hw hh hw0 hh0 hw2 hh2 kind hkb
  have hgood := tilesGood_at h3 hlen hw hh
  have hlast : LastTile D bpp tiles (tileGrid w h) e := by
    have hpos : 0 < tileCount w * tileCount h := Nat.mul_pos (by unfold tileCount; omega) (by unfold tileCount; omega)
    cases hg : (tileList (tileCount w) (tileCount h)).getLast? with
    | none =>
      rw [List.getLast?_eq_none_iff] at hg
      have := tileList_length (tileCount w) (tileCount h)
      rw [hg, List.length_nil] at this
      omega
    | some ij =>
      obtain ⟨t, px, y1, y2, y3⟩ := h4 ij hg
      refine ⟨t, tileOf w h ij.1 ij.2, px, y1, by rw [tileGrid_eq, List.getLast?_map, hg]; rfl, y2, ?_⟩
      rw [pointsOf_eq b w h ij.1 ij.2 hw hh] at y3
      rw [← y3.length_eq, pointGrid_length]
  unfold readImage
  rw [M.bind_ok hlevel]
  dsimp only
  by_cases hor : (c.decompress || decide (c.compression = 0)) = true
  · rw [if_pos hor]
    obtain ⟨s', r', e3, k1, k2⟩ := tiles_end hc hb1 hb4 _ (tileGrid w h) tiles
      ⟨Rle.start, List.replicate 16384 0, fun _ _ => List.replicate bpp 0⟩ (readerAt D q) hgood rfl List.length_replicate rfl rfl rfl hlast
    have hE : readEager c kind.toNat (UInt32.ofNat bpp).toNat (UInt32.ofNat w).toNat (UInt32.ofNat h).toNat
        (tiles.map fun p => (UInt32.ofNat p).toUInt64) (readerAt D q) =
        .ok (some ⟨kind.toNat, w, h, c.palette, s'.px⟩, r') := by
      rw [u32_toNat hw2, u32_toNat hh2, u32_toNat (by omega : bpp < 2 ^ 32)]
      unfold readEager allocate
      have hps : pixelSize kind.toNat ≤ 4 := by
        unfold pixelSize; split <;> omega
      have : w * h * pixelSize kind.toNat ≤ 17179869184 * 4 := Nat.mul_le_mul hwh hps
      rw [if_pos hk, if_neg (by unfold maxAlloc; omega), show ((pure () : M Unit) >>= _) _ = _ from M.bind_ok rfl]
      unfold tileLoop
      rw [if_neg (by omega), if_neg (by omega), if_neg (by omega), M.bind_ok e3]
      rfl
    rw [M.bind_ok hE]
    exact ⟨_, r', rfl, k1, k2⟩
  · rw [if_neg hor]
    obtain ⟨acc, r', e3, k1, k2⟩ := tiles_lazy_end hb1 _ (tileGrid w h) tiles [] (readerAt D q) hgood rfl rfl rfl hlast
    have hE : readLazy c kind.toNat (UInt32.ofNat bpp).toNat (UInt32.ofNat w).toNat (UInt32.ofNat h).toNat
        (tiles.map fun p => (UInt32.ofNat p).toUInt64) (readerAt D q) = .ok (some ⟨kind.toNat, w, h, c.palette, acc⟩, r') := by
      rw [u32_toNat hw2, u32_toNat hh2, u32_toNat (by omega : bpp < 2 ^ 32)]
      unfold readLazy
      unfold allocate
      rw [List.length_map, if_neg (by unfold maxAlloc; omega), show ((pure () : M Unit) >>= _) _ = _ from M.bind_ok rfl]
      have hl : tileLoop w h (tiles.map fun p => (UInt32.ofNat p).toUInt64) ([] : List (List Bytes)) (lazyBody bpp) (readerAt D q) =
          .ok (acc, r') := by
        rw [tileLoop_eq _ _ _ _ _ (by omega) (by omega)]
        exact e3
      have hl : tileLoop w h (tiles.map fun p => (UInt32.ofNat p).toUInt64) ([] : List (List Bytes)) (fun t ts => do
          let bs ← readChannels (t.w * t.h) bpp
          return ts ++ [bs]) (readerAt D q) = .ok (acc, r') := hl
      rw [M.bind_ok hl, if_pos hk]
      rfl
    rw [M.bind_ok hE]
    exact ⟨_, r', rfl, k1, k2⟩

/-- A mask is read up to its end. -/
theorem readChannel_end {D : Bytes} {c : Ctx} (hc : c.compression ≠ 0) (hd : c.decompress = true) (hm : c.mode = 0) {p e : Nat} {m : GrayImg}
    (hat : MaskEnd (D.take maxString) p m e) {x y : Nat} (hx : m.rect.dx = x) (hy : m.rect.dy = y)
    (hx0 : 0 < x) (hy0 : 0 < y) (hx2 : x < 2 ^ 32) (hy2 : y < 2 ^ 32) (m' : Option GrayImg) (r' : R)
    (h : readChannel c (readerAt D p) = .ok (m', r')) : r'.pos = e := by
  have hmax : maxString = 16777216 := rfl
  obtain ⟨h', h1, h2⟩ := hat
  have hne : int m.rect.dx ++ int m.rect.dy ++ Spec.text [] ++ num 0 ++ num 0 ++ num h' ≠ [] := by
    intro h0
    have := congrArg List.length h0
    rw [List.length_append, num_length, List.length_nil] at this
    omega
  have s := sees_at h1 hne
  simp only [List.append_assoc] at s
  have hh := (readImage_at hc hd hm h2.at (by
      rintro q bs rfl
      rfl) hx hy hx0 hy0 hx2 hy2 2 (by decide) (by omega) (by omega) (by decide)).1
  obtain ⟨d, r2, e1, e2, e3⟩ := readImage_end hc hm h2 (by
      rintro q bs rfl
      rfl) hx hy hx0 hy0 hx2 hy2 2 (by decide) (by omega) (by omega) (by decide)
  unfold readChannel at h
  rw [M.bind_ok (int_consumes _ _ s.left)] at h
  have s := s.right
  rw [M.bind_ok (int_consumes _ _ s.left)] at h
  have s := s.right
  rw [M.bind_ok (skipText_consumes _ s.left)] at h
  have s := s.right
  rw [← List.append_assoc] at s
  rw [M.bind_ok (skipPropertiesAll_consumes _ s.left)] at h
  have s := s.right
  rw [hm, M.bind_ok (readPtr_consumes _ _ s)] at h
  rw [M.bind_ok (goto_any (D := D) (by omega) rfl rfl rfl)] at h
  rw [hx, hy, u32_nat, u32_nat, M.bind_ok e1] at h
  cases d with
  | none => cases h; exact e3
  | some d =>
    cases d with
    | eager im => cases h; exact e3
    | lazy im => cases h

theorem layerText_pos {c : Ctx} {ps : List Parasite} {im : Img} {r r' : R} {o : Option Img} (h : layerText c ps im r = .ok (o, r')) :
    r'.pos = r.pos := by
  unfold layerText at h
  cases hp : getParasite ps textParasiteName with
  | none => rw [hp] at h; cases h; rfl
  | some t =>
    rw [hp] at h
    dsimp only at h
    cases ht : c.env.parseText t.data with
    | panic => rw [ht] at h; cases h
    | hang => rw [ht] at h; cases h
    | ok d =>
      rw [ht] at h
      cases d with
      | none => cases h; rfl
      | some d => cases h; rfl

/-- A layer that is not a group is read up to the end of its pixels or its mask. -/
theorem readLayer_end {D : Bytes} {c : Ctx} {F : Fmt} (hF : FmtOk F) (hc : c.compression ≠ 0) (hm : c.mode = 0)
    (hb : c.baseType = UInt32.ofNat F.typ) (hpal : c.palette = paletteBack F) {Parses : Bytes → TextData → Prop}
    {W H : Int} (hW : W ≤ 2 ^ 31) (hH : H ≤ 2 ^ 31) (h0 : HasAt (D.take maxString) 0 fileMagic)
    {p e : Nat} {r : Placed} (hd : c.decompress = true ∨ maskOf r.layer.image = none) (hg : isGroupLayer r.layer = false)
    (hat : LayerEnd (D.take maxString) F p r e) (hs : Storable F Parses W H r) (l : DLayer) (r' : R)
    (hr : readLayer c (readerAt D p) = .ok (l, r')) (he : r'.err = none) : r'.pos = e := by
  have hmax : maxString = 16777216 := rfl
  obtain ⟨t, h, m, ht, h1, b, hbd, hce⟩ := hat
  have hpx := hce.pixels
  have hh : h < 2 ^ 32 := by
    obtain ⟨level, tiles, g, _⟩ := hpx
    have := hasAt_lt g (by
      intro h0
      have := congrArg List.length h0
      rw [List.length_append, num_length, List.length_nil] at this
      omega)
    omega
  rw [readLayer_head hF hb hm h1 hs.name hh] at hr
  obtain ⟨x1, x2, x3⟩ := hs.x
  obtain ⟨y1, y2, y3⟩ := hs.y
  obtain ⟨w, hw⟩ := Int.eq_ofNat_of_zero_le (Int.le_of_lt x2)
  obtain ⟨ht', hht'⟩ := Int.eq_ofNat_of_zero_le (Int.le_of_lt y2)
  rw [hw, hht', u32_nat, u32_nat] at hr
  have hw2 : w < 2 ^ 32 := by omega
  have hh2 : ht' < 2 ^ 32 := by omega
  obtain ⟨hsx, hsy⟩ := hs.size hg b hbd
  have hgf : (propsBack F r t).group = false := hg
  have hpar : (propsBack F r t).parasites = parasitesBack t := rfl
  unfold layerRest at hr
  dsimp only at hr
  rw [hgf, hpar] at hr
  cases hmo : maskOf r.layer.image with
  | none =>
    rw [hmo] at hce
    obtain ⟨rfl, hpe⟩ := hce
    have hk : (UInt32.ofNat (2 * F.typ + 1)).toNat = 2 * F.typ + 1 := u32_toNat (by have := hF.typ; omega)
    obtain ⟨d, r1, e1, e2, e3⟩ := readImage_end hc hm hpe (by
        rintro q bs ⟨_, _, c, _, rfl⟩
        exact hF.conv c) (hsx.trans hw) (hsy.trans hht') (by omega) (by omega) hw2 hh2 (UInt32.ofNat (2 * F.typ + 1))
      (by rw [hk]; have := hF.typ; omega)
      (by rcases hF.kind with ⟨_, h⟩ | ⟨_, h⟩ | ⟨_, h⟩ <;> omega) (by rcases hF.kind with ⟨_, h⟩ | ⟨_, h⟩ | ⟨_, h⟩ <;> omega)
      (by rcases hF.kind with ⟨h, h'⟩ | ⟨h, h'⟩ | ⟨h, h'⟩ <;> rw [h, h'] <;> decide)
    obtain ⟨o, r2, hr2, hr⟩ := M.bind_inv hr
    unfold layerImage at hr2
    rw [if_neg (by decide), M.bind_ok e1] at hr2
    have hr2p : r2.pos = e := by
      cases d with
      | none => cases hr2; exact e3
      | some d => cases hr2; exact e3
    cases o with
    | none => cases hr; exact hr2p
    | some im =>
      dsimp only at hr
      obtain ⟨o, r3, hr3, hr⟩ := M.bind_inv hr
      have hr3p : r3.pos = e := by
        rw [layerText_pos hr3]; exact hr2p
      cases o with
      | none => cases hr; exact hr3p
      | some im =>
        dsimp only at hr
        rw [if_neg (by rw [show (UInt32.ofNat 0).toUInt64 = 0 from rfl]; simp)] at hr
        cases hr
        exact hr3p
  | some m' =>
    rw [hmo] at hce
    obtain ⟨hme, -⟩ := hce
    have hd : c.decompress = true := by
      rcases hd with h | h
      · exact h
      · rw [hmo] at h; cases h
    obtain ⟨L, r2, e, e1, e2, e3, e4⟩ := layerImage_at hF hc hm hpal hbd hpx (hsx.trans hw) (hsy.trans hht') (by omega) (by omega) hw2 hh2
    rw [M.bind_ok e] at hr
    dsimp only at hr
    have htn : t = none := by
      rcases ht with h | ⟨td, hto, _⟩
      · exact h.2
      · unfold textOf at hto
        split at hto
        · rename_i he; rw [he] at hmo; cases hmo
        · cases hto
    subst htn
    have et : layerText c (parasitesBack none) (.leaf L) r2 = .ok (some (.leaf L), r2) := rfl
    rw [M.bind_ok et] at hr
    dsimp only at hr
    obtain ⟨o1, o2, o3, o4⟩ := hs.mask m' hmo
    have hma : MaskAt (D.take maxString) m m' := by
      obtain ⟨q, q1, q2⟩ := hme
      exact ⟨q, q1, q2.at⟩
    obtain ⟨g0, _⟩ := readChannel_at hc hd hm hma (o3.trans hw) (o4.trans hht') (by omega) (by omega) hw2 hh2
    have hm0 : (UInt32.ofNat m).toUInt64 ≠ 0 := by
      intro h
      have h := congrArg UInt64.toNat h
      rw [UInt32.toNat_toUInt64, u32_toNat (by omega)] at h
      have h : m = 0 := h
      subst h
      exact maskAt_ne_zero h0 hma
    rw [if_pos hm0, M.bind_ok (goto_any (by omega) e1 e2 e3)] at hr
    obtain ⟨im, r3, hr3, hr⟩ := M.bind_inv hr
    cases hr
    unfold readMask at hr3
    obtain ⟨o, r4, hr4, hr3⟩ := M.bind_inv hr3
    have hp4 := readChannel_end hc hd hm hme (o3.trans hw) (o4.trans hht') (by omega) (by omega) hw2 hh2 _ _ hr4
    cases o with
    | none => cases hr3; exact hp4
    | some m2 =>
      dsimp only at hr3
      split at hr3
      · cases hr3; exact hp4
      · cases hr3; exact hp4

end Limage
