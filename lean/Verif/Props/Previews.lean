import Verif.Props.Merged
import Verif.Props.Thumbnail
/-!
# C122: the previews in OpenRaster files: thumbnails, and merged images of single layers
-/
namespace Limage
open Spec

/-! ### What is assumed of PNG files -/

/-- the colour model of what is given to `png.Encode` (that of the image in a layer or in a thumbnail) -/
def Spec.picModel : Pic → Option ColorModel
  | .full m => m.top.colorModel
  | .thumb m _ => m.top.colorModel

/-- As `PngPixels`, for all that is given to `png.Encode`: layers and thumbnails too. -/
def Spec.PngPics (env : OraEnv) (ρ : Nat → UInt16) (kind : Pic → PngKind) : Prop :=
  ∀ p d L b cm, env.png p = .ok d → env.decodeImage d = some L → p.bounds env = some b → picModel p = some cm → cm.isPalette = false →
    kind p ∈ pngKinds cm ∧ ∀ q, Rect.mem q L.bounds = true → ∃ n n' c, p.at env ρ ⟨b.x0 + q.x, b.y0 + q.y⟩ n = some (c, n') ∧ L.pixel q = some ((kind p).back c)

/-! ### C122 -/

/-- C122, layers: the merged image of a file that is written of a single layer has the size of the layer and shows at every point what is in the image of
the layer, counted from the corner of the layer, with its alpha reduced by the transparency.  `hd`: alpha is only dropped if there is none.
Missing: images with a grey model or a palette. -/
theorem C122_layer_partial {env : OraEnv} (hl : OraLib env) {ρ : Nat → UInt16} {kind : Pic → PngKind} (hp : PngPics env ρ kind) (fails : Nat → Bool) (z : Bool)
    (l : Layer) (hx : l.bounds.dx < 2 ^ 31) (hy : l.bounds.dy < 2 ^ 31) (cm : ColorModel) (hcm : l.image.colorModel = some cm)
    (hnp : cm.isPalette = false) (hng : cm ≠ .gray ∧ cm ≠ .gray16)
    (hc : ∀ q n c n', l.image.at ρ q n = some (c, n') → Premul c.rgba32)
    (hd : (kind (.full (.layer l))).drops = true → l.transparency = 0 ∧ ∀ q n c n', l.image.at ρ q n = some (c, n') → c.rgba32.a = 0xffff)
    (es : List ZipEntry) (h : oraEncode env fails z (.layer l) = .ok ⟨none, some es⟩) :
    ∃ d L, ZipEntry.of (lit "mergedimage.png") d ∈ es ∧ env.decodeImage d = some L ∧ L.bounds = ⟨0, 0, l.bounds.dx, l.bounds.dy⟩ ∧
      ∀ q, Rect.mem q L.bounds = true → ∃ n n' c c', l.image.at ρ q n = some (c, n') ∧ L.pixel q = some c' ∧
        (l.transparency = 0 → Nearby c.rgba32 c'.rgba32) ∧
        (c'.rgba32.a.toNat ≤ (255 - l.transparency.toNat) * c.rgba32.a.toNat / 255 + 512 ∧
          (255 - l.transparency.toNat) * c.rgba32.a.toNat / 255 ≤ c'.rgba32.a.toNat + 512) := by
  obtain ⟨b, les, merged, thumb, hb, -, h1, -, rfl⟩ := oraEntries_ok (encode_entries h)
  obtain ⟨b', hb', -, -, hsz⟩ := hl.png _ _ h1
  cases hb'
  obtain ⟨L, e1, e2⟩ := hsz hx hy
  obtain ⟨k1, k2⟩ := hp _ _ _ _ _ h1 e1 rfl hcm hnp
  refine ⟨merged, L, by simp, e1, e2, fun q hq => ?_⟩
  obtain ⟨n, n', c, f1, f2⟩ := k2 q hq
  have f1 : layerAt ρ l ⟨l.bounds.x0 + q.x, l.bounds.y0 + q.y⟩ n = some (c, n') := f1
  unfold layerAt at f1
  rw [show l.bounds.x0 + q.x - l.bounds.x0 = q.x by omega, show l.bounds.y0 + q.y - l.bounds.y0 = q.y by omega] at f1
  obtain ⟨⟨c₀, n₀⟩, g1, g2⟩ := Option.bind_eq_some_iff.1 f1
  cases g2
  have hv := hc _ _ _ _ g1
  have hv' := C97_transparency c₀ (255 - l.transparency) hv
  have hto : (255 - l.transparency).toNat = 255 - l.transparency.toNat := by
    have := l.transparency.toNat_lt
    rw [UInt8.toNat_sub_of_le _ _ (by rw [UInt8.le_iff_toNat_le]; show l.transparency.toNat ≤ 255; omega)]
    rfl
  have hnear : Nearby (transparency c₀ (255 - l.transparency)).rgba32 ((kind (.full (.layer l))).back (transparency c₀ (255 - l.transparency))).rgba32 := by
    refine back_near _ _ hv' (fun hk => ?_) (fun hk => ?_)
    · obtain ⟨d1, d2⟩ := hd hk
      rw [d1]
      exact d2 _ _ _ _ g1
    · exfalso
      generalize kind (.full (.layer l)) = k at *
      cases cm <;> cases k <;> simp [pngKinds, PngKind.grey] at k1 hk hng
  refine ⟨n, _, c₀, _, g1, f2, fun ht => ?_, ?_⟩
  · rw [ht] at hnear ⊢
    exact hnear
  · have ha := transparency_alpha c₀ (255 - l.transparency)
    rw [(C72_faithful _ hv).1, (C72_faithful _ hv').1, hto] at ha
    rw [← ha]
    exact ⟨hnear.2.2.2.2, hnear.2.2.2.1⟩

/-- C122, small pictures: the thumbnail is the merged image, if this is not larger than 256 points in either direction. -/
theorem C122_small (env : OraEnv) (fails : Nat → Bool) (z : Bool) (m : OraInput) (b : Rect) (hb : m.bounds = some b) (hx : b.dx ≤ 256) (hy : b.dy ≤ 256)
    (es : List ZipEntry) (h : oraEncode env fails z m = .ok ⟨none, some es⟩) :
    ∃ d, ZipEntry.of (lit "mergedimage.png") d ∈ es ∧ ZipEntry.of (lit "Thumbnails/thumbnail.png") d ∈ es := by
  obtain ⟨b', les, merged, thumb, hb', -, h1, h2, rfl⟩ := oraEntries_ok (encode_entries h)
  rw [hb] at hb'
  cases hb'
  have hp : thumbPic m b.dx b.dy = .full m := if_neg (by omega)
  rw [hp, h1] at h2
  cases h2
  exact ⟨merged, by simp, by simp⟩

/-- C122, larger pictures, false: the points in a column of the thumbnail are all the same, whatever is in the picture. -/
theorem C122_columns_refuted {env : OraEnv} (hl : OraLib env) {ρ : Nat → UInt16} {kind : Pic → PngKind} (hp : PngPics env ρ kind) (fails : Nat → Bool) (z : Bool)
    (m : OraInput) (b : Rect) (hb : m.bounds = some b) (hbig : b.dx > 256 ∨ b.dy > 256) (cm : ColorModel) (hcm : m.top.colorModel = some cm)
    (hnp : cm.isPalette = false) (px : Pt → Option Color) (hpx : ∀ q n c n', m.at ρ q n = some (c, n') → px q = some c) (hs : Small m) (hdiv : Divides env)
    (es : List ZipEntry) (h : oraEncode env fails z m = .ok ⟨none, some es⟩) :
    ∃ d L, ZipEntry.of (lit "Thumbnails/thumbnail.png") d ∈ es ∧ env.decodeImage d = some L ∧
      ∀ q q', Rect.mem q L.bounds = true → Rect.mem q' L.bounds = true → q.x = q'.x → L.pixel q = L.pixel q' := by
  obtain ⟨b', les, merged, thumb, hb', -, h1, h2, rfl⟩ := oraEntries_ok (encode_entries h)
  rw [hb] at hb'
  cases hb'
  have hp1 : thumbPic m b.dx b.dy = .thumb m (if b.dx > b.dy then b.dx else b.dy) := if_pos hbig
  rw [hp1] at h2
  have hside : 256 < (if b.dx > b.dy then b.dx else b.dy) ∧ (if b.dx > b.dy then b.dx else b.dy) < 2 ^ 45 ∧
      b.x1 - b.x0 ≤ (if b.dx > b.dy then b.dx else b.dy) ∧ b.y1 - b.y0 ≤ (if b.dx > b.dy then b.dx else b.dy) := by
    obtain ⟨⟨a1, a2⟩, ⟨b1, b2⟩, ⟨c1, c2⟩, d1, d2⟩ := hs _ hb
    by_cases hc : b.dx > b.dy
    · simp only [if_pos hc]
      simp only [Rect.dx, Rect.dy] at hc hbig ⊢
      omega
    · simp only [if_neg hc]
      simp only [Rect.dx, Rect.dy] at hc hbig ⊢
      omega
  generalize (if b.dx > b.dy then b.dx else b.dy) = side at *
  obtain ⟨s1, s2, s3, s4⟩ := hside
  obtain ⟨hpos1, hpos2⟩ : 0 < b.x1 - b.x0 ∧ 0 < b.y1 - b.y0 := by
    obtain ⟨b', hb', h3, h4, -⟩ := hl.png _ _ h1
    have : some b' = some b := hb'.symm.trans hb
    cases this
    exact ⟨h3, h4⟩
  have hx0 : -2 ^ 44 < Int.tdiv (256 * b.x0) side ∧ Int.tdiv (256 * b.x0) side < 2 ^ 44 := by
    obtain ⟨⟨a1, a2⟩, -⟩ := hs _ hb
    have k1 := Int.mul_tdiv_add_tmod (256 * b.x0) side
    have k2 := Int.tmod_lt_of_pos (256 * b.x0) (show 0 < side by omega)
    have k3 := Int.lt_tmod_of_pos (256 * b.x0) (show 0 < side by omega)
    generalize Int.tdiv (256 * b.x0) side = q at *
    generalize Int.tmod (256 * b.x0) side = r at *
    constructor
    · by_contra hq
      have : side * q ≤ side * (-2 ^ 44) := Int.mul_le_mul_of_nonneg_left (by omega) (by omega)
      omega
    · by_contra hq
      have : side * (2 ^ 44) ≤ side * q := Int.mul_le_mul_of_nonneg_left (by omega) (by omega)
      omega
  have hw := tdiv_apart (a := 256 * b.x0) (b := 256 * b.x1) (n := 256) (show 0 < side by omega) (by omega) (by omega)
  have hh := tdiv_apart (a := 256 * b.y0) (b := 256 * b.y1) (n := 256) (show 0 < side by omega) (by omega) (by omega)
  have htb := thumb_bounds hdiv hb hs (show 0 < side by omega) s2
  obtain ⟨t, ht, -, -, hsz⟩ := hl.png _ _ h2
  rw [htb] at ht
  cases ht
  obtain ⟨L, e1, e2⟩ := hsz (Int.lt_of_le_of_lt hw (by decide)) (Int.lt_of_le_of_lt hh (by decide))
  obtain ⟨-, k2⟩ := hp _ _ _ _ _ h2 e1 htb hcm hnp
  have key : ∀ q, Rect.mem q L.bounds = true → ∃ x : Int, x = Int.tdiv (256 * (Int.tdiv (256 * b.x0) side + q.x)) side ∧
      L.pixel q = (px ⟨x, x⟩).map (kind (.thumb m side)).back := by
    intro q hq
    obtain ⟨n, n', c, f1, f2⟩ := k2 q hq
    rw [e2] at hq
    simp only [Rect.mem, Bool.and_eq_true, decide_eq_true_eq] at hq
    have hq1 : q.x < 256 + 1 := by
      have : q.x < Int.tdiv (256 * b.x1) side - Int.tdiv (256 * b.x0) side := by
        exact hq.1.1.2
      omega
    have hq0 : 0 ≤ q.x := by omega
    rw [C67_refuted hdiv m side (by omega) s2 ρ _ _ (by dsimp only; omega) (by dsimp only; omega)] at f1
    exact ⟨_, rfl, by rw [f2, hpx _ _ _ _ f1, Option.map_some]⟩
  refine ⟨thumb, L, by simp, e1, fun q q' hq hq' hxx => ?_⟩
  obtain ⟨x, hx, e3⟩ := key q hq
  obtain ⟨x', hx', e4⟩ := key q' hq'
  rw [e3, e4, hx, hx', hxx]

/-! ### A library that keeps pixels of everything -/

/-- the format used -/
def picKind (p : Pic) : PngKind :=
  match picModel p with
  | some .gray => .g8
  | some .gray16 => .g16
  | some .alpha => .tca8
  | _ => .tca16

/-- the pixels, if all can be looked at -/
noncomputable def gridPic (p : Pic) (b : Rect) : Option (List NRGBA64) :=
  (gridPts b.dx.toNat b.dy.toNat).mapM fun q => (p.at pixEnv₀ (fun _ => 0) ⟨b.x0 + q.x, b.y0 + q.y⟩ 0).map fun c => kept (picKind p) c.1

/-- pictures are written with their pixels -/
noncomputable def picPng (p : Pic) : OraRes Bytes :=
  match p.bounds pixEnv₀ with
  | none => .panic
  | some b =>
    if 0 < b.dx ∧ 0 < b.dy then
      match gridPic p b with
      | some cs => .ok (encPic (picKind p, b.dx.toNat, b.dy.toNat, cs))
      | none => .panic
    else .err .size

/-- a library as it is assumed to be -/
noncomputable def picEnv : OraEnv := { pixEnv₀ with png := picPng }

theorem picEnv_bounds (p : Pic) : p.bounds picEnv = p.bounds pixEnv₀ := by cases p <;> rfl

theorem picEnv_at (p : Pic) (ρ : Nat → UInt16) (q : Pt) (n : Nat) : p.at picEnv ρ q n = p.at pixEnv₀ ρ q n := by cases p <;> rfl

theorem picEnv_decode (s : PngKind × Nat × Nat × List NRGBA64) : picEnv.decodeImage (encPic s) = some (picOf s) := pixEnv_decode (fun _ => false) s

theorem picEnv_png {p : Pic} {d : Bytes} (h : picEnv.png p = .ok d) : ∃ b cs, p.bounds picEnv = some b ∧ 0 < b.dx ∧ 0 < b.dy ∧
    d = encPic (picKind p, b.dx.toNat, b.dy.toNat, cs) ∧ gridPic p b = some cs := by
  rw [picEnv_bounds]
  have h : picPng p = OraRes.ok d := h
  unfold picPng at h
  cases hb : p.bounds pixEnv₀ with
  | none => rw [hb] at h; cases h
  | some b =>
    rw [hb] at h
    dsimp only at h
    split at h
    · next h0 =>
      split at h
      · next cs hcs =>
        cases h
        exact ⟨b, cs, rfl, h0.1, h0.2, rfl, hcs⟩
      · cases h
    · cases h

theorem picEnv_lib : OraLib picEnv where
  xml := libEnv_lib.xml
  png p d h := by
    obtain ⟨b, cs, h1, h2, h3, rfl, -⟩ := picEnv_png h
    refine ⟨b, h1, h2, h3, fun _ _ => ⟨_, picEnv_decode _, ?_⟩⟩
    show (⟨0, 0, (b.dx.toNat : Int), (b.dy.toNat : Int)⟩ : Rect) = _
    rw [Int.toNat_of_nonneg (by omega), Int.toNat_of_nonneg (by omega)]
  format := libEnv_lib.format

theorem picEnv_divides : Divides picEnv := libEnv_divides

theorem picEnv_pics : PngPics picEnv (fun _ => 0) picKind := by
  intro p d L b cm hd hL hb hcm hnp
  obtain ⟨b', cs, h1, h2, h3, rfl, h6⟩ := picEnv_png hd
  rw [hb] at h1
  cases h1
  rw [picEnv_decode] at hL
  cases hL
  have hk : picKind p ∈ pngKinds cm ∧ (picKind p = .g8 ∨ picKind p = .g16 ∨ picKind p = .tca8 ∨ picKind p = .tca16) := by
    unfold picKind
    rw [hcm]
    cases cm <;> first | (simp [pngKinds]; done) | cases hnp
  obtain ⟨hk1, hk2⟩ := hk
  unfold gridPic at h6
  generalize picKind p = k at *
  refine ⟨hk1, fun q hq => ?_⟩
  have hmem : q ∈ gridPts b.dx.toNat b.dy.toNat := mem_gridPts.2 hq
  obtain ⟨y, e1, e2⟩ := mapM_getElem? _ h6 _ q (List.getElem?_eq_some_iff.2 ⟨List.idxOf_lt_length_of_mem hmem, List.getElem_idxOf _⟩)
  rw [Option.map_eq_some_iff] at e1
  obtain ⟨⟨c, n'⟩, e3, e4⟩ := e1
  refine ⟨0, n', c, by rw [picEnv_at]; exact e3, ?_⟩
  show (cs[(gridPts b.dx.toNat b.dy.toNat).idxOf q]?).map (keptColor k) = _
  rw [e2, ← e4]
  rcases hk2 with rfl | rfl | rfl | rfl
  · show some (Color.gray _) = some (Color.gray _)
    rw [show (kept .g8 c).r = (grayModel c).toUInt16 from rfl, UInt8.toUInt8_toUInt16]
  · rfl
  · show some (Color.nrgba _ _ _ _) = some (Color.nrgba _ _ _ _)
    simp only [kept, UInt8.toUInt8_toUInt16]
  · rfl

theorem mapM_total {α β : Type} (f : α → Option β) : ∀ (xs : List α), (∀ x ∈ xs, f x ≠ none) → ∃ ys, xs.mapM f = some ys
  | [], _ => ⟨[], rfl⟩
  | x :: xs, h => by
    obtain ⟨ys, hy⟩ := mapM_total f xs (fun y hy => h y (List.mem_cons_of_mem _ hy))
    cases hf : f x with
    | none => exact absurd hf (h x List.mem_cons_self)
    | some y => exact ⟨y :: ys, by rw [List.mapM_cons, hf, hy]; rfl⟩

theorem picEnv_writes : PngWrites picEnv := by
  intro p b hb h1 h2 _ _ h5
  rw [picEnv_bounds] at hb
  obtain ⟨cs, hcs⟩ : ∃ cs, gridPic p b = some cs := by
    refine mapM_total _ _ (fun q hq => ?_)
    have hq := mem_gridPts.1 hq
    rw [Int.toNat_of_nonneg (by omega), Int.toNat_of_nonneg (by omega)] at hq
    simp only [Rect.mem, Bool.and_eq_true, decide_eq_true_eq] at hq
    have hq1 : q.x < b.x1 - b.x0 := hq.1.1.2
    have hq2 : q.y < b.y1 - b.y0 := hq.2
    have := h5 (fun _ => 0) ⟨b.x0 + q.x, b.y0 + q.y⟩ 0 (by
      simp only [Rect.mem, Bool.and_eq_true, decide_eq_true_eq]
      omega)
    rw [picEnv_at] at this
    rwa [ne_eq, Option.map_eq_none_iff]
  refine ⟨encPic (picKind p, b.dx.toNat, b.dy.toNat, cs), ?_⟩
  show picPng p = _
  unfold picPng
  rw [hb]
  dsimp only
  rw [if_pos ⟨h1, h2⟩, hcs]

/-! ### Examples -/

/-- a layer that is not at the origin and half transparent, the upper of its points is red and the lower is blue -/
def redBlue : Layer :=
  ⟨lit "a", ⟨5, 7, 6, 9⟩, Mode.normal, false, 127, .leaf ⟨⟨0, 0, 1, 2⟩, .other, fun p => some (if p.y < 1 then .rgba 255 0 0 255 else .rgba 0 0 255 255)⟩⟩

/-- a half transparent layer is written as such: its alpha is 128/255 -/
example : ∃ es d L, oraEncode picEnv (fun _ => false) false (.layer redBlue) = .ok ⟨none, some es⟩ ∧ ZipEntry.of (lit "mergedimage.png") d ∈ es ∧
    picEnv.decodeImage d = some L ∧ L.bounds = ⟨0, 0, 1, 2⟩ ∧ ∃ c, L.pixel ⟨0, 1⟩ = some c ∧ c.rgba32.a.toNat ≤ 34000 ∧ 32000 ≤ c.rgba32.a.toNat := by
  have hw : ∃ es, oraEncode picEnv (fun _ => false) false (.layer redBlue) = .ok ⟨none, some es⟩ := ⟨_, rfl⟩
  obtain ⟨es, h⟩ := hw
  have hpx : ∀ (q : Pt) n c n', redBlue.image.at (fun _ => 0) q n = some (c, n') → c = .rgba 255 0 0 255 ∨ c = .rgba 0 0 255 255 := by
    intro q n c n' hc
    have hc : some (if q.y < 1 then Color.rgba 255 0 0 255 else .rgba 0 0 255 255, n) = some (c, n') := hc
    cases hc
    split
    · exact .inl rfl
    · exact .inr rfl
  obtain ⟨d, L, h1, h2, h3, h4⟩ := C122_layer_partial picEnv_lib picEnv_pics _ _ redBlue (by decide) (by decide) .other rfl rfl ⟨nofun, nofun⟩
    (fun q n c n' hc => by rcases hpx q n c n' hc with rfl | rfl <;> exact ⟨by decide, by decide, by decide, by decide⟩) nofun es h
  refine ⟨es, d, L, h, h1, h2, h3, ?_⟩
  obtain ⟨n, n', c, c', k1, k2, -, k3, k4⟩ := h4 ⟨0, 1⟩ (by rw [h3]; rfl)
  refine ⟨c', k2, ?_⟩
  have ha : c.rgba32.a.toNat = 65535 := by rcases hpx _ _ _ _ k1 with rfl | rfl <;> rfl
  rw [ha, show redBlue.transparency.toNat = 127 from rfl] at k3 k4
  omega

/-- its thumbnail is the same -/
example : ∃ es d, oraEncode picEnv (fun _ => false) false (.layer redBlue) = .ok ⟨none, some es⟩ ∧ ZipEntry.of (lit "mergedimage.png") d ∈ es ∧
    ZipEntry.of (lit "Thumbnails/thumbnail.png") d ∈ es := by
  have hw : ∃ es, oraEncode picEnv (fun _ => false) false (.layer redBlue) = .ok ⟨none, some es⟩ := ⟨_, rfl⟩
  obtain ⟨es, h⟩ := hw
  obtain ⟨d, h1, h2⟩ := C122_small picEnv _ _ _ _ rfl (by decide) (by decide) es h
  exact ⟨es, d, h, h1, h2⟩

/-- the thumbnail of the image that is dark above and bright below has columns of one colour -/
example : ∃ es d L, oraEncode picEnv (fun _ => false) false (.image (.leaf halves)) = .ok ⟨none, some es⟩ ∧
    ZipEntry.of (lit "Thumbnails/thumbnail.png") d ∈ es ∧ picEnv.decodeImage d = some L ∧
      ∀ q q', Rect.mem q L.bounds = true → Rect.mem q' L.bounds = true → q.x = q'.x → L.pixel q = L.pixel q' := by
  have hw : Writable (.image (.leaf halves)) := ⟨_, rfl, by decide, by decide, by decide, by decide, fun _ _ _ h => by cases h⟩
  obtain ⟨es, h⟩ := C80_partial picEnv_divides picEnv_writes _ 512 512 rfl hw (fun i hi => by
    have hi : i ∈ [Img.leaf halves] := hi
    rw [List.mem_singleton.1 hi]
    exact hw) (by decide)
  obtain ⟨d, L, h1, h2, h3⟩ := C122_columns_refuted picEnv_lib picEnv_pics _ _ _ _ rfl (by decide) .gray rfl rfl
    (fun q => some (.gray (if q.y < 256 then 0 else 255))) (fun q n c n' hc => by
      have hc : some (Color.gray (if q.y < 256 then 0 else 255), n) = some (c, n') := hc
      cases hc
      rfl) (fun b hb => by cases hb; decide) picEnv_divides es h
  exact ⟨es, d, L, h, h1, h2, h3⟩

end Limage
