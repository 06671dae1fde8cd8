import Verif.Props.EitherWay
import Verif.Props.Limits
import Verif.Props.OraPixels
/-!
# C119, C120: the colours of loaded XCF files, and saving those as OpenRaster files
-/
namespace Limage
open Spec

/-! ### Specification -/

/-- Specification: the colours of the pixels of files by base type: full colour, grey, or indexed, each with 8 bits per channel. -/
def Spec.StoredColour (base : Nat) (pal : List Color) (c : Color) : Prop :=
  (base = 0 ∧ ((∃ r g b, c = .lrgb r g b) ∨ ∃ r g b a, c = .nrgba r g b a)) ∨
  (base = 1 ∧ ((∃ y, c = .gray y) ∨ ∃ y a, c = .grayAlpha y a)) ∨
  (base = 2 ∧ ∃ r g b, Color.lrgb r g b ∈ pal ∧ (c = .lrgb r g b ∨ ∃ a, c = .nrgba r g b a))

/-! ### C119 -/

theorem kindColour_stored {k : Nat} (hk : k < 6) {pal : List Color} (hp : RGBPalette pal) {c : Color} (h : kindColour k pal c) : StoredColour (k / 2) pal c := by
  have : k = 0 ∨ k = 1 ∨ k = 2 ∨ k = 3 ∨ k = 4 ∨ k = 5 := by omega
  have up := shr8_widen
  rcases this with rfl | rfl | rfl | rfl | rfl | rfl
  · exact .inl ⟨rfl, .inl h⟩
  · exact .inl ⟨rfl, .inr h⟩
  · exact .inr (.inl ⟨rfl, .inl h⟩)
  · exact .inr (.inl ⟨rfl, .inr h⟩)
  · obtain ⟨v, hv, h⟩ := h
    obtain ⟨r, g, b, rfl⟩ := hp v hv
    refine .inr (.inr ⟨rfl, r, g, b, hv, ?_⟩)
    rcases h with rfl | rfl
    · exact .inl rfl
    · right
      refine ⟨255, ?_⟩
      show Color.nrgba (widen32 r >>> 8).toUInt8 (widen32 g >>> 8).toUInt8 (widen32 b >>> 8).toUInt8 255 = _
      rw [up, up, up]
  · obtain ⟨v, hv, a, rfl⟩ := h
    obtain ⟨r, g, b, rfl⟩ := hp v hv
    refine .inr (.inr ⟨rfl, r, g, b, hv, .inr ⟨a, ?_⟩⟩)
    show Color.nrgba (widen32 r >>> 8).toUInt8 (widen32 g >>> 8).toUInt8 (widen32 b >>> 8).toUInt8 a = _
    rw [up, up, up]

/-- what is known of the images in a decoded file -/
theorem decode_framed {env : Env} {sch : Sched} (hv : sch.Valid) {dec : Bool} {D : Bytes} {g : List Layer} (h : decodeImage env sch dec D = .ok (.ok g)) :
    ∃ pal, RGBPalette pal ∧ ∀ s, GroupIn s g → ∀ l ∈ s, (∃ t, l.image = .group t) ∨
      ∃ R k, R.x0 = 0 ∧ R.y0 = 0 ∧ k / 2 = fromBE ((D.drop 22).take 4) ∧ Framed R k pal l.image := by
  obtain ⟨hd, r, hh, hf, -⟩ := decode_finished hv h
  refine ⟨hd.props.palette, readHead_rgb hh, fun s hs l hl => ?_⟩
  rcases (hf s hs).1 l hl with ⟨t, ht, _⟩ | ⟨y, ⟨w, ht, off, o, k, i, q1, q2, q3, q4, _⟩, y1, y2, _⟩
  · exact .inl ⟨t, ht⟩
  · rw [q1] at y1
    cases y1
    exact .inr ⟨_, k, rfl, rfl, by rw [readHead_baseType D hd r hh, q3], q4⟩

/-- **C119**: Whatever `Decode` or `DecodeCompressed` accept, every pixel inside the image of a layer, if it can be read, has a colour with 8 bits per
channel of the kind the base type of the file says: an RGB or NRGBA colour, a grey with or without alpha, or a colour of the one palette of the
file, which is that of the colour models, with any alpha. -/
theorem C119_colours (env : Env) (sch : Sched) (hv : sch.Valid) (dec : Bool) (D : Bytes) (g : List Layer) (h : decodeImage env sch dec D = .ok (.ok g)) :
    ∃ pal, ∀ s, GroupIn s g → ∀ l ∈ s, ∀ x, PixelsOf x l.image → modelsOf (fromBE ((D.drop 22).take 4)) pal x.model ∧
      ∀ p c, Rect.mem p x.bounds = true → x.pixel p = some c → StoredColour (fromBE ((D.drop 22).take 4)) pal c := by
  obtain ⟨pal, hp, hf⟩ := decode_framed hv h
  refine ⟨pal, fun s hs l hl x hx => ?_⟩
  rcases hf s hs l hl with ⟨t, ht⟩ | ⟨R, k, -, -, hk, hF⟩
  · rw [ht] at hx; cases hx
  · obtain ⟨p1, p2, p3⟩ := framed_pixels hF hx
    rw [← hk]
    exact ⟨by rw [p3]; exact (kindModel_models p1 _).1, fun p c hm hc => kindColour_stored p1 hp (framed_colour hF hx p c hm hc)⟩

/-- a file with a masked layer -/
example : (decodeImage exEnv exSched true maskedLayer).isImage = true ∧ exSched.Valid :=
  ⟨by decide +kernel, fun _ => List.Perm.refl _, fun _ => List.Perm.refl _⟩

/-! ### C120 -/

theorem groupIn_leaves {s g : List Layer} (h : GroupIn s g) {l : Layer} (hl : l ∈ s) (hn : NotGroup l.image) : l.image ∈ leavesAll g := by
  have mem : ∀ (g : List Layer) (x : Layer), x ∈ g → ∀ i ∈ leaves x.image, i ∈ leavesAll g := by
    intro g
    induction g with
    | nil => intro x hx; cases hx
    | cons a g ih =>
      intro x hx i hi
      rw [leavesAll_cons]
      rcases List.mem_cons.1 hx with rfl | hx
      · exact List.mem_append_left _ hi
      · exact List.mem_append_right _ (ih x hx i hi)
  induction h with
  | self => exact mem _ l hl _ (by rw [leaves_single hn]; exact List.mem_singleton_self _)
  | deeper hx hi _ ih => exact mem _ _ hx _ (by rw [hi, leaves]; exact ih)

mutual
theorem leaves_groupIn (i j : Img) (h : j ∈ leaves i) : (NotGroup i ∧ j = i) ∨ ∃ t, i = .group t ∧ ∃ s, GroupIn s t ∧ ∃ l ∈ s, NotGroup l.image ∧ l.image = j := by
  cases i with
  | group t =>
    rw [leaves] at h
    obtain ⟨s, hs, r⟩ := leavesAll_groupIn t j h
    exact .inr ⟨t, rfl, s, hs, r⟩
  | leaf L => exact .inl ⟨nofun, List.mem_singleton.1 h⟩
  | nil => exact .inl ⟨nofun, List.mem_singleton.1 h⟩
  | text k t => exact .inl ⟨nofun, List.mem_singleton.1 h⟩
  | masked k m => exact .inl ⟨nofun, List.mem_singleton.1 h⟩
termination_by structural i
theorem leavesAll_groupIn (g : List Layer) (j : Img) (h : j ∈ leavesAll g) : ∃ s, GroupIn s g ∧ ∃ l ∈ s, NotGroup l.image ∧ l.image = j := by
  cases g with
  | nil => cases h
  | cons a g =>
    obtain ⟨name, b, mode, inv, tr, i⟩ := a
    rw [leavesAll_cons] at h
    rcases List.mem_append.1 h with h | h
    · rcases leaves_groupIn i j h with ⟨hn, rfl⟩ | ⟨t, rfl, s, hs, r⟩
      · exact ⟨_, .self, _, List.mem_cons_self .., hn, rfl⟩
      · exact ⟨s, .deeper (List.mem_cons_self ..) rfl hs, r⟩
    · obtain ⟨s, hs, r⟩ := leavesAll_groupIn g j h
      cases hs with
      | self =>
        obtain ⟨l, hl, r⟩ := r
        exact ⟨_, .self, l, List.mem_cons_of_mem _ hl, r⟩
      | deeper hx hi hs => exact ⟨s, .deeper (List.mem_cons_of_mem _ hx) hi hs, r⟩
termination_by structural g
end

theorem fitAll_mem {lim : Pt} : ∀ {g : List Layer} (_ : FitAll lim g) {l : Layer} (_ : l ∈ g),
    (0 ≤ l.bounds.x0 ∧ 0 ≤ l.bounds.y0 ∧ l.bounds.x1 ≤ lim.x ∧ l.bounds.y1 ≤ lim.y) ∧ Fit lim l.bounds l.image
  | [], _, l, hl => by cases hl
  | a :: g, h, l, hl => by
    unfold FitAll at h
    rcases List.mem_cons.1 hl with rfl | hl
    · exact ⟨h.1, h.2.1⟩
    · exact fitAll_mem h.2.2 hl

theorem fitAll_group {lim : Pt} {s g : List Layer} (h : GroupIn s g) (hf : FitAll lim g) : FitAll lim s := by
  induction h with
  | self => exact hf
  | deeper hx hi _ ih =>
    have := (fitAll_mem hf hx).2
    rw [hi, Fit] at this
    exact ih this.2.2.2

mutual
theorem lossless_of {kind : Img → PngKind} (i : Img) (h0 : NotGroup i → Unchanged kind i)
    (h : ∀ t, i = .group t → ∀ s, GroupIn s t → ∀ l ∈ s, (l.mode ∈ svgModes ∧ l.transparency = 0) ∧ (NotGroup l.image → Unchanged kind l.image)) : Lossless kind i := by
  cases i with
  | group t =>
    rw [Lossless]
    exact losslessAll_of t fun l hl => ⟨h t rfl t .self l hl, fun u hu s hs => h t rfl s (.deeper hl hu hs)⟩
  | leaf L => exact h0 nofun
  | nil => obtain ⟨b, cm, h1, -⟩ := h0 nofun; cases h1
  | text k t => exact h0 nofun
  | masked k m => exact h0 nofun
termination_by structural i
theorem losslessAll_of {kind : Img → PngKind} (g : List Layer)
    (h : ∀ l ∈ g, ((l.mode ∈ svgModes ∧ l.transparency = 0) ∧ (NotGroup l.image → Unchanged kind l.image)) ∧
      ∀ t, l.image = .group t → ∀ s, GroupIn s t → ∀ l ∈ s, (l.mode ∈ svgModes ∧ l.transparency = 0) ∧ (NotGroup l.image → Unchanged kind l.image)) :
    LosslessAll kind g := by
  cases g with
  | nil => unfold LosslessAll; trivial
  | cons a g =>
    obtain ⟨name, b, mode, inv, tr, i⟩ := a
    unfold LosslessAll
    have ha := h _ (List.mem_cons_self ..)
    exact ⟨ha.1.1, lossless_of i ha.1.2 ha.2, losslessAll_of g fun l hl => h l (List.mem_cons_of_mem _ hl)⟩
termination_by structural g
end

/-- images without masks show their pixels -/
theorem maskless_at {R : Rect} {k : Nat} {pal : List Color} {i : Img} (h : Framed R k pal i) (hb : i.bounds.isSome) (hm : ∀ x m, ¬ MaskOf m x i) :
    ∃ x, PixelsOf x i ∧ i.bounds = some x.bounds ∧ i.colorModel = some x.model ∧ ∀ ρ q n c n', i.at ρ q n = some (c, n') ↔ (x.pixel q = some c ∧ n' = n) := by
  induction h with
  | nil => cases hb
  | leaf x h1 h2 h3 h4 =>
    refine ⟨x, .leaf, by rw [Img.bounds], by rw [Img.colorModel], fun ρ q n c n' => ?_⟩
    rw [Img.at]
    cases x.pixel q with
    | none => simp
    | some c' => simp [eq_comm]
  | text t _ ih =>
    obtain ⟨x, h1, h2, h3, h4⟩ := ih (by rw [Img.bounds] at hb; exact hb) (fun x m hx => hm x m (.text hx))
    refine ⟨x, .text h1, by rw [Img.bounds]; exact h2, by rw [Img.colorModel]; exact h3, fun ρ q n c n' => ?_⟩
    rw [Img.at]
    exact h4 ρ q n c n'
  | masked m h1 h2 ih =>
    exfalso
    rw [Img.bounds] at hb
    have : ∀ {i : Img}, Framed R k pal i → i.bounds.isSome → ∃ x, PixelsOf x i := by
      intro i hi
      induction hi with
      | nil => intro h; cases h
      | leaf x _ _ _ _ => exact fun _ => ⟨x, .leaf⟩
      | text t _ ih => intro h; rw [Img.bounds] at h; obtain ⟨x, hx⟩ := ih h; exact ⟨x, .text hx⟩
      | masked m _ _ ih => intro h; rw [Img.bounds] at h; obtain ⟨x, hx⟩ := ih h; exact ⟨x, .masked hx⟩
    obtain ⟨x, hx⟩ := this h2 hb
    exact hm x m (.mask hx)

theorem opaque8_lrgb (r g b : UInt8) : Opaque8 (Color.lrgb r g b).rgba32 r g b :=
  ⟨widen32_nat r, widen32_nat g, widen32_nat b, rfl⟩

theorem opaque8_nrgba {r g b a : UInt8} (h : (Color.nrgba r g b a).rgba32.a = 0xffff) : Opaque8 (Color.nrgba r g b a).rgba32 r g b := by
  have ha : a = 255 := by
    have h : widen32 a = 0xffff := h
    have := congrArg UInt32.toNat h
    rw [widen32_nat] at this
    apply UInt8.toNat_inj.1
    have := a.toNat_lt
    simp at *
    omega
  subst ha
  rw [nrgba_opaque]
  exact opaque8_lrgb r g b

/-- what an RGB pixel becomes -/
theorem rgb_back {k : PngKind} {c : Color} (hk : k.grey = false) (hc : (∃ r g b, c = .lrgb r g b) ∨ ∃ r g b a, c = .nrgba r g b a)
    (h : c.rgba32.a = 0xffff ∨ k = .tca8) : (k.back c).toNRGBA = c.toNRGBA := by
  have no : ∀ {p : Prop}, k.grey = true → p := fun h => by rw [hk] at h; cases h
  rcases hc with ⟨r, g, b, rfl⟩ | ⟨r, g, b, a, rfl⟩
  · exact back_opaque8 k _ (opaque8_lrgb r g b) no
  · rcases h with h | rfl
    · exact back_opaque8 k _ (opaque8_nrgba h) no
    · rfl

/-- **C120** (the part that holds).  A picture that was loaded from any RGB file, by either decoder, of opaque layers without masks and with modes that OpenRaster
has, which are on the canvas, have the size of their images and are in groups at the origin, can after saving it as OpenRaster be loaded
from there and looks the same.  `hopq`: PNG files of images that are not opaque have four channels of 8 bits, as those of images with the colour
model `color.NRGBAModel` have.
Full statement: every picture loaded from an XCF file; false by `C120_refuted`. -/
theorem C120_convert_partial {oenv : OraEnv} (hl : OraLib oenv) {ρ : Nat → UInt16} {kind : Img → PngKind} (hp : PngPixels oenv ρ kind)
    (env : Env) (sch : Sched) (hv : sch.Valid) (dec : Bool) (D : Bytes) (g : List Layer) (h : decodeImage env sch dec D = .ok (.ok g))
    (hrgb : fromBE ((D.drop 22).take 4) = 0) (hf : FitAll ⟨(groupBounds g).dx, (groupBounds g).dy⟩ g)
    (hx : (groupBounds g).dx < 2 ^ 31) (hy : (groupBounds g).dy < 2 ^ 31)
    (hlay : ∀ s, GroupIn s g → ∀ l ∈ s, l.mode ∈ svgModes ∧ l.transparency = 0 ∧ ∀ x m, ¬ MaskOf m x l.image)
    (hopq : ∀ i ∈ leavesAll g, AllOpaque i ∨ kind i = .tca8)
    (fails : Nat → Bool) (z : Bool) (es : List ZipEntry) (henc : oraEncode oenv fails z (.image (.group g)) = .ok ⟨none, some es⟩) :
    ∃ g', oraDecode oenv es = .ok g' ∧ ∀ (σ : Nat → UInt16) (p : Pt) (n : Nat), (Img.group g').at σ p n = (Img.group g).at σ p n := by
  obtain ⟨pal, -, hfr⟩ := decode_framed hv h
  have hbd : (OraInput.image (.group g)).bounds = some (groupBounds g) := by
    show (Img.group g).bounds = _
    rw [Img.bounds]
  have hr : ∀ i ∈ leavesAll g, Readably i := by
    intro i hi b hb
    obtain ⟨s, hs, l, hls, hn, rfl⟩ := leavesAll_groupIn g i hi
    obtain ⟨⟨f1, f2, f3, f4⟩, f5⟩ := fitAll_mem (fitAll_group hs hf) hls
    have : b.dx = l.bounds.dx ∧ b.dy = l.bounds.dy := by
      cases hi : l.image with
      | group t => exact absurd hi (hn t)
      | leaf L => rw [hi] at hb f5; cases hb; rw [Fit] at f5; exact f5
      | nil => rw [hi] at hb; cases hb
      | text i t =>
        rw [hi] at hb f5; rw [Fit] at f5; rw [Img.bounds] at hb
        obtain ⟨c, e, r⟩ := f5
        rw [hb] at e; cases e; exact r
      | masked i t =>
        rw [hi] at hb f5; rw [Fit] at f5; rw [Img.bounds] at hb
        obtain ⟨c, e, r⟩ := f5
        rw [hb] at e; cases e; exact r
    rw [this.1, this.2]
    unfold Rect.dx Rect.dy at *
    dsimp only at f3 f4
    omega
  obtain ⟨_, les, _, _, -, hh, hmg, -, -⟩ := oraEntries_ok (encode_entries henc)
  have hh : Holds oenv 0 (leavesAll g) les := by
    have : leaves (OraInput.image (.group g)).top = leavesAll g := by
      show leaves (.group g) = _
      rw [leaves]
    rw [this] at hh; exact hh
  refine C88_looks_partial hl hp fails z _ g rfl (groupBounds g) hbd ?_ hf hr ?_ es henc
  · intro b hb
    rw [hbd] at hb; cases hb
    obtain ⟨b', e, p1, p2, -⟩ := hl.png _ _ hmg
    have e : (OraInput.image (.group g)).bounds = some b' := e
    rw [hbd] at e; cases e
    omega
  · have one : ∀ s, GroupIn s g → ∀ l ∈ s, (l.mode ∈ svgModes ∧ l.transparency = 0) ∧ (NotGroup l.image → Unchanged kind l.image) := by
      intro s hs l hls
      obtain ⟨m1, m2, m3⟩ := hlay s hs l hls
      refine ⟨⟨m1, m2⟩, fun hn => ?_⟩
      have hmem := groupIn_leaves hs hls hn
      obtain ⟨d, hd⟩ := holds_png oenv _ _ _ hh _ hmem
      obtain ⟨b, e, p1, p2, p3⟩ := hl.png _ _ hd
      have e : l.image.bounds = some b := e
      obtain ⟨L, hL, hLb⟩ := p3 (hr _ hmem b e).1 (hr _ hmem b e).2
      rcases hfr s hs l hls with ⟨t, ht⟩ | ⟨R, k, r1, r2, hk, hF⟩
      · exact absurd ht (hn t)
      obtain ⟨x, x1, x2, x3, x4⟩ := maskless_at hF (by rw [e]; rfl) m3
      obtain ⟨k1, k2, k3⟩ := framed_pixels hF x1
      rw [e] at x2
      cases x2
      have hk0 : k = 0 ∨ k = 1 := by rw [hrgb] at hk; omega
      have hmod : x.model = .other := by rw [k3]; rcases hk0 with rfl | rfl <;> rfl
      rw [hmod] at x3
      obtain ⟨q1, -, q3⟩ := hp _ _ L _ _ hd hL e x3 rfl
      have hgrey : (kind l.image).grey = false := by
        unfold pngKinds at q1
        simp only [List.mem_cons, List.not_mem_nil, or_false] at q1
        rcases q1 with q | q | q | q <;> rw [q] <;> rfl
      refine ⟨x.bounds, _, e, by rw [k2, r1], by rw [k2, r2], x3, rfl, fun q hq => ?_⟩
      have hq' : Rect.mem q L.bounds = true := by
        rw [hLb]
        have h1 : x.bounds.x0 = 0 := by rw [k2, r1]
        have h2 : x.bounds.y0 = 0 := by rw [k2, r2]
        simp only [Rect.mem, Rect.dx, Rect.dy, h1, h2, Int.sub_zero] at hq ⊢
        exact hq
      obtain ⟨n, n', c, hc, -⟩ := q3 q hq'
      have hq0 : (⟨x.bounds.x0 + q.x, x.bounds.y0 + q.y⟩ : Pt) = q := by
        rw [k2, r1, r2, Int.zero_add, Int.zero_add]
      rw [hq0] at hc
      obtain ⟨hc1, -⟩ := (x4 ρ q n c n').1 hc
      refine ⟨c, fun ρ n => (x4 ρ q n c n).2 ⟨hc1, rfl⟩, rgb_back hgrey ?_ ?_⟩
      · have := framed_colour hF x1 q c hq hc1
        rcases hk0 with rfl | rfl
        · exact .inl this
        · exact .inr this
      · rcases hopq _ hmem with ho | ho
        · exact .inl (ho _ e ρ q n c n' hq hc)
        · exact .inr ho
    refine losslessAll_of g fun l hl => ⟨one g .self l hl, fun t ht s hs => one s (.deeper hl ht hs)⟩

/-! ### Examples -/

/-- an RGB file with one layer of one pixel, with an opacity -/
def dotXcf (opacity : Nat) : Bytes :=
  [103, 105, 109, 112, 32, 120, 99, 102, 32, 118, 48, 48, 51, 0] ++ be 4 1 ++ be 4 1 ++ be 4 0 ++
  be 4 17 ++ be 4 1 ++ [1] ++ be 4 0 ++ be 4 0 ++ be 4 55 ++ be 4 0 ++ be 4 0 ++
  -- 55: layer
  be 4 1 ++ be 4 1 ++ be 4 1 ++ be 4 0 ++ be 4 6 ++ be 4 4 ++ be 4 opacity ++ be 4 0 ++ be 4 0 ++ be 4 99 ++ be 4 0 ++
  -- 99: hierarchy, 119: level, 135: tile
  be 4 1 ++ be 4 1 ++ be 4 4 ++ be 4 119 ++ be 4 0 ++ be 4 1 ++ be 4 1 ++ be 4 135 ++ be 4 0 ++ [0, 9, 0, 8, 0, 7, 0, 255]

/-- the picture in it, as far as it can be compared, with the alpha at (0, 0) -/
def isDot (t : UInt8) (a : UInt16) : Outcome (Except Err (List Layer)) → Bool
  | .ok (.ok [⟨[], b, mode, false, t', .leaf L⟩]) => b == ⟨0, 0, 1, 1⟩ && mode == Mode.normal && t' == t && L.bounds == ⟨0, 0, 1, 1⟩ && L.model == .other &&
      L.pixel ⟨0, 0⟩ == some (.nrgba 9 8 7 255) &&
      ((Img.group [⟨[], b, mode, false, t', .leaf L⟩]).at (fun _ => 0) ⟨0, 0⟩ 0).map (fun c => c.1.toNRGBA.a) == some a
  | _ => false

theorem isDot_iff {t : UInt8} {a : UInt16} {x : Outcome (Except Err (List Layer))} (h : isDot t a x = true) :
    ∃ px, x = .ok (.ok [⟨[], ⟨0, 0, 1, 1⟩, Mode.normal, false, t, .leaf ⟨⟨0, 0, 1, 1⟩, .other, px⟩⟩]) ∧ px ⟨0, 0⟩ = some (.nrgba 9 8 7 255) ∧
      ((Img.group [⟨[], ⟨0, 0, 1, 1⟩, Mode.normal, false, t, .leaf ⟨⟨0, 0, 1, 1⟩, .other, px⟩⟩]).at (fun _ => 0) ⟨0, 0⟩ 0).map (fun c => c.1.toNRGBA.a) = some a := by
  unfold isDot at h
  split at h
  · next b mode t' L =>
    obtain ⟨lb, lm, px⟩ := L
    simp only [Bool.and_eq_true, beq_iff_eq] at h
    obtain ⟨⟨⟨⟨⟨⟨rfl, rfl⟩, rfl⟩, rfl⟩, rfl⟩, h1⟩, h2⟩ := h
    exact ⟨px, rfl, h1, h2⟩
  · cases h

theorem dotXcf_clear : isDot 255 0 (decodeImage exEnv exSched true (dotXcf 0)) = true := by decide +kernel

theorem dotXcf_full : isDot 0 0xffff (decodeImage exEnv exSched true (dotXcf 255)) = true := by decide +kernel

/-- such pictures can be saved -/
theorem dot_saved (t : UInt8) (ht : t = 0 ∨ t = 255) (px : Pt → Option Color) (h : px ⟨0, 0⟩ = some (.nrgba 9 8 7 255)) :
    ∃ es, oraEncode (pixEnv fun _ => false) (fun _ => false) false (.image (.group [⟨[], ⟨0, 0, 1, 1⟩, Mode.normal, false, t,
      .leaf ⟨⟨0, 0, 1, 1⟩, .other, px⟩⟩])) = .ok ⟨none, some es⟩ := by
  have : px = fun p => if p = ⟨0, 0⟩ then some (.nrgba 9 8 7 255) else px p := by
    funext p
    split
    · next e => rw [e, h]
    · rfl
  rw [this]
  rcases ht with rfl | rfl
  · exact ⟨_, rfl⟩
  · exact ⟨_, rfl⟩

theorem exSched_valid : Sched.Valid exSched := ⟨fun _ => List.Perm.refl _, fun _ => List.Perm.refl _⟩

/-- C119 for a file that is read -/
example : ∃ g, decodeImage exEnv exSched true (dotXcf 0) = .ok (.ok g) ∧ ∃ pal, ∀ s, GroupIn s g → ∀ l ∈ s, ∀ x, PixelsOf x l.image →
    modelsOf 0 pal x.model ∧ ∀ p c, Rect.mem p x.bounds = true → x.pixel p = some c → StoredColour 0 pal c := by
  obtain ⟨px, h, -⟩ := isDot_iff dotXcf_clear
  exact ⟨_, h, C119_colours exEnv exSched exSched_valid true _ _ h⟩

/-- C120 for a picture that is loaded and saved -/
example : ∃ g es g', decodeImage exEnv exSched true (dotXcf 255) = .ok (.ok g) ∧
    oraEncode (pixEnv fun _ => false) (fun _ => false) false (.image (.group g)) = .ok ⟨none, some es⟩ ∧
    oraDecode (pixEnv fun _ => false) es = .ok g' ∧ ∀ (σ : Nat → UInt16) (p : Pt) (n : Nat), (Img.group g').at σ p n = (Img.group g).at σ p n := by
  obtain ⟨px, h, hpx, -⟩ := isDot_iff dotXcf_full
  obtain ⟨es, he⟩ := dot_saved 0 (.inl rfl) px hpx
  obtain ⟨g', h1, h2⟩ := C120_convert_partial (pixEnv_lib _) (pixEnv_pixels _) exEnv exSched exSched_valid true _ _ h (by decide)
    (by rw [show groupBounds _ = (⟨0, 0, 1, 1⟩ : Rect) from rfl]; simp only [FitAll, Fit]; decide)
    (by rw [show groupBounds _ = (⟨0, 0, 1, 1⟩ : Rect) from rfl]; decide) (by rw [show groupBounds _ = (⟨0, 0, 1, 1⟩ : Rect) from rfl]; decide)
    (fun s hs l hl => by
      cases hs with
      | self =>
        rw [List.mem_singleton] at hl
        subst hl
        exact ⟨show Mode.normal ∈ svgModes by decide, rfl, fun x m hm => by cases hm⟩
      | deeper hx hi _ =>
        rw [List.mem_singleton] at hx
        subst hx
        cases hi)
    (fun i hi => by
      have hi : i ∈ [Img.leaf ⟨⟨0, 0, 1, 1⟩, .other, px⟩] := hi
      rw [List.mem_singleton] at hi
      subst hi
      left
      intro b hb ρ q n c n' hq hc
      cases hb
      have : q = ⟨0, 0⟩ := by
        obtain ⟨qx, qy⟩ := q
        simp only [Rect.mem, Bool.and_eq_true, decide_eq_true_eq] at hq
        have : qx = 0 ∧ qy = 0 := by omega
        rw [this.1, this.2]
      subst this
      rw [Img.at] at hc
      dsimp only at hc
      rw [hpx] at hc
      cases hc
      decide) _ _ es he
  exact ⟨_, es, g', h, he, h1, h2⟩

/-- C120 is false for layers that are not opaque: this one cannot be seen, but after saving it as OpenRaster it can. -/
theorem C120_refuted {oenv : OraEnv} (hl : OraLib oenv) {ρ : Nat → UInt16} {kind : Img → PngKind} (hp : PngPixels oenv ρ kind) :
    ∃ g, decodeImage exEnv exSched true (dotXcf 0) = .ok (.ok g) ∧
      (∃ x, (Img.group g).at (fun _ => 0) ⟨0, 0⟩ 0 = some x ∧ x.1.toNRGBA.a = 0) ∧
      ∀ (fails : Nat → Bool) (z : Bool) (es : List ZipEntry), oraEncode oenv fails z (.image (.group g)) = .ok ⟨none, some es⟩ →
        ∃ g' x, oraDecode oenv es = .ok g' ∧ (Img.group g').at (fun _ => 0) ⟨0, 0⟩ 0 = some x ∧ x.1.toNRGBA.a = 0xffff := by
  obtain ⟨px, h, hpx, ha⟩ := isDot_iff dotXcf_clear
  rw [Option.map_eq_some_iff] at ha
  refine ⟨_, h, ha, fun fails z es he => ?_⟩
  obtain ⟨l', L, k, c', h1, h2, h3, h4, h5, h6, h7, h8, h9, hk⟩ := dot_back hl hp fails z _ ⟨⟨0, 0, 1, 1⟩, .other, px⟩ rfl rfl rfl es he
  have h8 : px ⟨0, 0⟩ = some c' := h8
  rw [hpx] at h8
  cases h8
  refine ⟨_, (.nrgba64 ⟨0x0909, 0x0808, 0x0707, 0xffff⟩, 0), h1, ?_, rfl⟩
  rw [single_at _ l' h2 h3 h4 L h6 (by rw [h5]; decide) _ h9 0, h7, h5, kept_dot hk]
  rfl

/-- that picture can be saved -/
example : OraLib (pixEnv fun _ => false) ∧ PngPixels (pixEnv fun _ => false) (fun _ => 0) (kindOf fun _ => false) ∧
    ∃ g es, decodeImage exEnv exSched true (dotXcf 0) = .ok (.ok g) ∧
      oraEncode (pixEnv fun _ => false) (fun _ => false) false (.image (.group g)) = .ok ⟨none, some es⟩ := by
  obtain ⟨px, h, hpx, -⟩ := isDot_iff dotXcf_clear
  obtain ⟨es, he⟩ := dot_saved 255 (.inr rfl) px hpx
  exact ⟨pixEnv_lib _, pixEnv_pixels _, _, es, h, he⟩
end Limage
