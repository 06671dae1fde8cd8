import Verif.Props.RoundTripLoss
/-!
# C38, C42: the pixels of decoded pictures
-/
namespace Limage
open Spec

/-! ### What should be kept -/

/-- an opaque colour with 8 bits per channel -/
def Spec.Opaque8 (q : RGBA32) (r g b : UInt8) : Prop :=
  q.r.toNat = 257 * r.toNat ∧ q.g.toNat = 257 * g.toNat ∧ q.b.toNat = 257 * b.toNat ∧ q.a.toNat = 65535

/-- `c'` is `c` as far as the colour type of the file allows: in an RGB file the same colour if it is an `NRGBA`, in all files the same as long
as it is opaque, has 8 bits per channel, and, in a grey file, is grey, or, in an indexed file, is one of its colours. -/
def Spec.PixelKept (cm : ColorModel) (c c' : Color) : Prop :=
  match cm with
  | .gray | .gray16 | .grayAlpha => ∀ y, Opaque8 c.rgba32 y y y → c'.rgba32 = c.rgba32
  | .palette p | .alphaPalette p => ∀ r g b, Opaque8 c.rgba32 r g b → (∃ v ∈ p, v.rgba32 = c.rgba32) →
      (∀ v ∈ p, ∃ r g b, Opaque8 v.rgba32 r g b) → p.length ≤ 256 → c'.rgba32 = c.rgba32
  | _ => (∀ r g b a, c = .nrgba r g b a → c' = c) ∧ ∀ r g b, Opaque8 c.rgba32 r g b → c'.rgba32 = c.rgba32

/-! ### Conversions -/

theorem Spec.Opaque8.eq {q : RGBA32} {r g b : UInt8} (h : Opaque8 q r g b) : q = ⟨widen32 r, widen32 g, widen32 b, 0xffff⟩ := by
  obtain ⟨h1, h2, h3, h4⟩ := h
  obtain ⟨a, b', c, d⟩ := q
  dsimp only at h1 h2 h3 h4
  have e1 : a = widen32 r := UInt32.toNat_inj.1 (by rw [h1, widen32_nat])
  have e2 : b' = widen32 g := UInt32.toNat_inj.1 (by rw [h2, widen32_nat])
  have e3 : c = widen32 b := UInt32.toNat_inj.1 (by rw [h3, widen32_nat])
  have e4 : d = 0xffff := UInt32.toNat_inj.1 (by rw [h4]; rfl)
  rw [e1, e2, e3, e4]

theorem shr8_widen (r : UInt8) : (widen32 r >>> 8).toUInt8 = r := by
  have := u8_le r
  rw [shr8 _ r.toNat this (by rw [widen32_nat]; omega)]
  simp

theorem low_widen (r : UInt8) : (widen32 r).toUInt8 = r := by
  apply UInt8.toNat_inj.1
  have := u8_le r
  rw [UInt32.toNat_toUInt8, widen32_nat]
  omega

theorem nrgba_opaque (r g b : UInt8) : (Color.nrgba r g b 255).rgba32 = ⟨widen32 r, widen32 g, widen32 b, 0xffff⟩ := by
  have h : ∀ x : UInt8, widen32 x * (255 : UInt8).toUInt32 / 0xff = widen32 x := by
    intro x
    apply UInt32.toNat_inj.1
    have := u8_le x
    rw [UInt32.toNat_div, UInt32.toNat_mul, widen32_nat, show ((255 : UInt8).toUInt32).toNat = 255 from rfl, show (0xff : UInt32).toNat = 255 from rfl]
    omega
  unfold Color.rgba32
  dsimp only
  rw [h, h, h]
  rfl

theorem nrgbaModel_opaque {c : Color} {r g b : UInt8} (h : Opaque8 c.rgba32 r g b) : nrgbaModel c = (r, g, b, 255) := by
  have he := h.eq
  cases c with
  | nrgba r' g' b' a' =>
    have ha : a' = 255 := by
      have := h.2.2.2
      apply UInt8.toNat_inj.1
      simp only [Color.rgba32, widen32_nat] at this
      rw [show (255 : UInt8).toNat = 255 from rfl]
      omega
    subst ha
    rw [nrgba_opaque] at he
    injection he with e1 e2 e3
    have inj : ∀ {x y : UInt8}, widen32 x = widen32 y → x = y := fun {x y} h => by rw [← low_widen x, h, low_widen]
    rw [inj e1, inj e2, inj e3]
    rfl
  | _ => unfold nrgbaModel; dsimp only; rw [he]; dsimp only; rw [if_pos rfl, shr8_widen, shr8_widen, shr8_widen]

theorem grayModel_opaque {c : Color} {y : UInt8} (h : Opaque8 c.rgba32 y y y) : grayModel c = y := by
  have he := h.eq
  have key : (19595 * widen32 y + 38470 * widen32 y + 7471 * widen32 y + 0x8000 : UInt32) >>> 24 = y.toUInt32 := by
    have hv := widen32_nat y
    have hy := u8_le y
    generalize widen32 y = v at hv ⊢
    have hsum : (19595 * v + 38470 * v + 7471 * v + 0x8000 : UInt32).toNat = 65536 * (257 * y.toNat) + 32768 := by
      rw [UInt32.toNat_add, UInt32.toNat_add, UInt32.toNat_add, UInt32.toNat_mul, UInt32.toNat_mul,
        UInt32.toNat_mul, hv, show (19595 : UInt32).toNat = 19595 from rfl, show (38470 : UInt32).toNat = 38470 from rfl,
        show (7471 : UInt32).toNat = 7471 from rfl, show (0x8000 : UInt32).toNat = 32768 from rfl]
      omega
    apply UInt32.toNat_inj.1
    rw [UInt32.toNat_shiftRight, hsum, show (24 : UInt32).toNat % 32 = 24 from rfl, Nat.shiftRight_eq_div_pow, UInt8.toNat_toUInt32]
    omega
  cases c with
  | gray y' =>
    show y' = y
    have := h.1
    simp only [Color.rgba32, widen32_nat] at this
    exact UInt8.toNat_inj.1 (by omega)
  | _ => unfold grayModel; dsimp only; rw [he]; dsimp only; rw [key]; simp

theorem valid_opaque8 {q : RGBA32} {r g b : UInt8} (h : Opaque8 q r g b) : ValidRGBA q := by
  have h1 := u8_le r
  have h2 := u8_le g
  have h3 := u8_le b
  obtain ⟨a1, a2, a3, a4⟩ := h
  exact ⟨by omega, by omega, by omega, by omega⟩

theorem quarterSq_zero {x y : UInt8} (h : quarterSq (257 * x.toNat) (257 * y.toNat) = 0) : x = y := by
  unfold quarterSq at h
  apply UInt8.toNat_inj.1
  rw [Nat.pow_two] at h
  rcases Nat.lt_trichotomy x.toNat y.toNat with hl | hl | hl
  · have : 2 ≤ max (257 * x.toNat) (257 * y.toNat) - min (257 * x.toNat) (257 * y.toNat) := by omega
    have := Nat.mul_le_mul this this
    omega
  · exact hl
  · have : 2 ≤ max (257 * x.toNat) (257 * y.toNat) - min (257 * x.toNat) (257 * y.toNat) := by omega
    have := Nat.mul_le_mul this this
    omega

/-- an opaque colour of the palette gets the number of an equal colour -/
theorem palette_opaque {p : List Color} {c : Color} {r g b : UInt8} (h : Opaque8 c.rgba32 r g b) (hm : ∃ v ∈ p, v.rgba32 = c.rgba32)
    (hp : ∀ v ∈ p, ∃ r g b, Opaque8 v.rgba32 r g b) (hl : p.length ≤ 256) :
    ∃ i : Nat, paletteAlphaToBuf p c = [UInt8.ofNat i, 255] ∧ i < 256 ∧ (p.map rgbModel)[i]? = some (r, g, b) := by
  have he := h.eq
  have hlrgb : (Color.lrgb r g b).rgba32 = c.rgba32 := by rw [he]; rfl
  obtain ⟨v, hv, hve⟩ := hm
  have hval : ∀ v ∈ p, ValidRGBA v.rgba32 := fun v hv => by
    obtain ⟨_, _, _, h⟩ := hp v hv
    exact valid_opaque8 h
  obtain ⟨w, hw, hmin, -⟩ := C19_nearest p (List.ne_nil_of_mem hv) (.lrgb r g b) (by rw [hlrgb]; exact valid_opaque8 h) hval
  have hz := hmin v hv
  rw [hlrgb, hve, show dist c.rgba32 c.rgba32 = 0 by simp [dist, quarterSq]] at hz
  obtain ⟨r', g', b', hw8⟩ := hp w (List.mem_of_getElem? hw)
  have hrgb : (r', g', b') = (r, g, b) := by
    unfold dist at hz
    rw [h.1, h.2.1, h.2.2.1, hw8.1, hw8.2.1, hw8.2.2.1] at hz
    rw [quarterSq_zero (x := r) (y := r') (by omega), quarterSq_zero (x := g) (y := g') (by omega), quarterSq_zero (x := b) (y := b') (by omega)]
  refine ⟨paletteIndex p (.lrgb r g b), ?_, ?_, ?_⟩
  · unfold paletteAlphaToBuf
    rw [he]
    dsimp only
    rw [low_widen, low_widen, low_widen]
    rfl
  · have := (List.getElem?_eq_some_iff.1 hw).1
    omega
  · rw [List.getElem?_map, hw, Option.map_some]
    unfold rgbModel
    rw [hw8.eq]
    dsimp only
    rw [shr8_widen, shr8_widen, shr8_widen, hrgb]

theorem grayAlpha_opaque (y : UInt8) : (Color.grayAlpha y 255).rgba32 = ⟨widen32 y, widen32 y, widen32 y, 0xffff⟩ := by
  have := nrgba_opaque y y y
  unfold Color.rgba32 at this ⊢
  injection this with e1
  dsimp only
  rw [e1]
  rfl

/-- the stored pixel is the pixel, as far as the colour type allows -/
theorem pixel_kept (wenv : WEnv) (cm : ColorModel) (c c' : Color) (h : colorOf (fmtOf wenv cm) ((fmtOf wenv cm).conv c) = some c') :
    PixelKept cm c c' := by
  have hrgb : colorOf (fmtOf wenv .other) (rgbAlphaToBuf c) = some c' →
      (∀ r g b a, c = .nrgba r g b a → c' = c) ∧ ∀ r g b, Opaque8 c.rgba32 r g b → c'.rgba32 = c.rgba32 := by
    intro h
    have h : some (Color.nrgba (nrgbaModel c).1 (nrgbaModel c).2.1 (nrgbaModel c).2.2.1 (nrgbaModel c).2.2.2) = some c' := h
    cases h
    refine ⟨?_, ?_⟩
    · rintro r g b a rfl; rfl
    · intro r g b ho
      rw [nrgbaModel_opaque ho, nrgba_opaque, ho.eq]
  have hgray : colorOf (fmtOf wenv .gray) (grayAlphaToBuf c) = some c' → ∀ y, Opaque8 c.rgba32 y y y → c'.rgba32 = c.rgba32 := by
    intro h y ho
    have h : some (Color.grayAlpha (grayModel c) (c.rgba32.a >>> 8).toUInt8) = some c' := h
    cases h
    rw [grayModel_opaque ho, ho.eq]
    have h255 : ((0xffff : UInt32) >>> 8).toUInt8 = 255 := by decide
    dsimp only
    rw [h255]
    exact grayAlpha_opaque y
  have hpal : ∀ p, colorOf (fmtOf wenv (.palette p)) (paletteAlphaToBuf p c) = some c' → ∀ r g b, Opaque8 c.rgba32 r g b →
      (∃ v ∈ p, v.rgba32 = c.rgba32) → (∀ v ∈ p, ∃ r g b, Opaque8 v.rgba32 r g b) → p.length ≤ 256 → c'.rgba32 = c.rgba32 := by
    intro p h r g b ho hm hp hl
    obtain ⟨i, e1, e2, e3⟩ := palette_opaque ho hm hp hl
    rw [e1] at h
    have h : ((p.map rgbModel)[(UInt8.ofNat i).toNat]?).map (fun c => Color.nrgba c.1 c.2.1 c.2.2 255) = some c' := h
    rw [show (UInt8.ofNat i).toNat = i by rw [UInt8.toNat_ofNat']; omega, e3] at h
    cases h
    rw [nrgba_opaque, ho.eq]
  cases cm with
  | gray => exact hgray h
  | gray16 => exact hgray h
  | grayAlpha => exact hgray h
  | alpha => exact hrgb h
  | palette p => exact hpal p h
  | alphaPalette p => exact hpal p h
  | other => exact hrgb h

/-! ### Pixels of a file -/

theorem paletteIndexFrom_lt (c : Color) : ∀ (vs : List Color) (i ret : Nat) (best : UInt32) (n : Nat), ret < n → i + vs.length ≤ n →
    paletteIndexFrom c vs i ret best < n
  | [], _, _, _, _, h, _ => h
  | v :: vs, i, ret, best, n, h, hn => by
    rw [List.length_cons] at hn
    unfold paletteIndexFrom
    dsimp only
    split
    · split
      · omega
      · exact paletteIndexFrom_lt c vs (i + 1) i _ n (by omega) (by omega)
    · exact paletteIndexFrom_lt c vs (i + 1) ret best n h (by omega)

/-- every stored pixel has a colour -/
theorem colorOf_some (wenv : WEnv) (cm : ColorModel) (hp : cm ≠ .palette [] ∧ cm ≠ .alphaPalette []) (c : Color) :
    ∃ c', colorOf (fmtOf wenv cm) ((fmtOf wenv cm).conv c) = some c' := by
  have hpal : ∀ p, p ≠ [] → ∃ c', colorOf (fmtOf wenv (.palette p)) (paletteAlphaToBuf p c) = some c' := by
    intro p hp
    have h : ∀ i a, i < p.length → ∃ c', colorOf (fmtOf wenv (.palette p)) [UInt8.ofNat i, a] = some c' := by
      intro i a hi
      have hlt : (UInt8.ofNat i).toNat < (p.map rgbModel).length := by
        rw [List.length_map, UInt8.toNat_ofNat']
        exact Nat.lt_of_le_of_lt (Nat.mod_le _ _) hi
      refine ⟨?_, ?_⟩
      rotate_left
      · show ((p.map rgbModel)[(UInt8.ofNat i).toNat]?).map (fun c => Color.nrgba c.1 c.2.1 c.2.2 a) = _
        rw [List.getElem?_eq_getElem hlt]
        rfl
    exact h _ _ (paletteIndexFrom_lt _ p 0 0 _ _ (List.length_pos_iff.2 hp) (by omega))
  cases cm with
  | gray => exact ⟨_, rfl⟩
  | gray16 => exact ⟨_, rfl⟩
  | grayAlpha => exact ⟨_, rfl⟩
  | alpha => exact ⟨_, rfl⟩
  | palette p => exact hpal p fun h => hp.1 (by rw [h])
  | alphaPalette p => exact hpal p fun h => hp.2 (by rw [h])
  | other => exact ⟨_, rfl⟩

/-- Specification: the image `L` has the pixels of `i`, moved to the origin, as far as the colour type allows. -/
def Spec.PixelsKept (ρ : Nat → UInt16) (cm : ColorModel) (i : Img) (L : Leaf) : Prop :=
  ∃ b, i.bounds = some b ∧ L.bounds = ⟨0, 0, b.dx, b.dy⟩ ∧
    ∀ p, Rect.mem p L.bounds → ∃ n n' c c', i.at ρ ⟨b.x0 + p.x, b.y0 + p.y⟩ n = some (c, n') ∧ L.pixel p = some c' ∧ PixelKept cm c c'

/-- the image inside a text or masked image -/
def Spec.inner : Img → Img
  | .text i _ => i
  | .masked i _ => i
  | i => i

/-- C38 (the part that holds).  Every pixel of every layer comes back, converted to the colour type of the file: unchanged if it is an `NRGBA`
and the file is not grey or indexed, or if it is opaque with 8 bits per channel and the file can represent it.
Full statement: also the conversion of all other pixels is the nearest colour of the file's type; false by `C38_refuted` and C42. -/
theorem C38_pixels_partial (wenv : WEnv) (env : Env) (sch : Sched) (hv : sch.Valid) (decompress : Bool) (g : List Layer)
    (hi : Encodable (.group g)) (l : List WCall) (h : runEncode wenv (.group g) = some (l, none)) (D : Bytes)
    (size : Nat) (hsz : ExactlyOnce l size) (hmax : size ≤ maxString)
    (cm : ColorModel) (hcm : (Img.group g).colorModel = some cm) (hp : cm ≠ .palette [] ∧ cm ≠ .alphaPalette [])
    (hd : decompress = true ∨ ∀ r ∈ placed g 0 0 0 [], maskOf r.layer.image = none)
    (hx : (groupBounds g).dx ≤ 2 ^ 31) (hy : (groupBounds g).dy ≤ 2 ^ 31)
    (hs : ∀ r ∈ placed g 0 0 0 [], Storable (fmtOf wenv cm) (parsesTo env) (groupBounds g).dx (groupBounds g).dy r) :
    ∃ g' g'', decodeImage env sch decompress (store D l) = .ok (.ok g'') ∧
      (g'' = g' ∨ ∃ init b, g' = init ++ [b] ∧ g'' = init ++ [{ b with mode := Mode.normal }]) ∧
      SameTree (fun l j => ∃ L, inner j = .leaf L ∧ PixelsKept wenv.ρ cm (pixelsOf l.image) L) (modeBack (fmtOf wenv cm)) g g' := by
  obtain ⟨g', h1, h2⟩ := round_trip wenv env sch hv decompress g hi l h D size hsz hmax cm hcm hd hx hy hs
  refine ⟨g', _, h1, fixBottom_cases g', SameTree.mono ?_ h2⟩
  rintro l j ⟨L, ⟨b, e1, e2, e3, e4⟩, ho⟩
  refine ⟨L, ?_, b, e1, e2, fun p hp' => ?_⟩
  · rcases ho with ⟨-, -, rfl⟩ | ⟨t, d, t', -, -, -, rfl⟩ | ⟨m1, m', -, -, -, rfl⟩ <;> rfl
  · obtain ⟨n, n', c, f1, f2⟩ := e4.2 p hp'
    obtain ⟨c', f3⟩ := colorOf_some wenv cm hp c
    rw [f3] at f2
    exact ⟨n, n', c, c', f1, f2, pixel_kept wenv cm c c' f3⟩

/-- the colours of `samplePicture` fall under the condition -/
example : ColorModel.other ≠ .palette [] ∧ ColorModel.other ≠ .alphaPalette [] ∧
    (∃ r g b, Opaque8 (Color.lrgb 1 2 3).rgba32 r g b) ∧ ∃ v ∈ [Color.lrgb 1 2 3, Color.gray 8], v.rgba32 = (Color.nrgba 8 8 8 255).rgba32 :=
  ⟨by simp, by simp, ⟨1, 2, 3, by unfold Opaque8; decide⟩, .gray 8, by simp, by decide⟩

/-- the pixel of a picture with one point -/
theorem dot_pixel (wenv : WEnv) (hw : Works wenv) (x : Mode × ColorModel × Color) (xs : List (Mode × ColorModel × Color)) (hx : xs.length ≤ 800)
    (hp : ((fmtOf wenv x.2.1).palette.getD []).length ≤ 256) : ∃ l, runEncode wenv (.group ((x :: xs).map dot)) = some (l, none) ∧
      ∀ (env : Env) (sch : Sched), sch.Valid → ∀ (decompress : Bool) (D : Bytes), ∃ g',
        decodeImage env sch decompress (store D l) = .ok (.ok g') ∧
        List.Forall₂ (fun (x' : Mode × ColorModel × Color) a => ∃ L : Leaf, a.image = .leaf L ∧
          L.pixel ⟨0, 0⟩ = colorOf (fmtOf wenv x.2.1) ((fmtOf wenv x.2.1).conv x'.2.2)) (x :: xs) g' := by
  obtain ⟨l, h1, h2⟩ := dots_back wenv hw x xs (by rw [List.length_cons]; omega) hp
  refine ⟨l, h1, fun env sch hv decompress D => ?_⟩
  obtain ⟨g', h3, h4⟩ := h2 env sch hv decompress D
  refine ⟨_, h3, ?_⟩
  have key : ∀ (ys : List (Mode × ColorModel × Color)) (g' : List Layer),
      SameTree (ImgBack (fmtOf wenv x.2.1) (parsesTo env)) (modeBack (fmtOf wenv x.2.1)) (ys.map dot) g' →
      List.Forall₂ (fun (x' : Mode × ColorModel × Color) (a : Layer) => ∃ L : Leaf, a.image = .leaf L ∧
        L.pixel ⟨0, 0⟩ = colorOf (fmtOf wenv x.2.1) ((fmtOf wenv x.2.1).conv x'.2.2)) ys g' := by
    intro ys
    induction ys with
    | nil => intro g' h; cases sameTree_nil h; exact .nil
    | cons y ys ih =>
      intro g' h
      rw [List.map_cons] at h
      obtain ⟨a, r', rfl, -, -, -, -, -, e, h⟩ := sameTree_cons h
      refine .cons ?_ (ih r' h)
      have e : ImgBack (fmtOf wenv x.2.1) (parsesTo env) (dot y) a.image := e
      obtain ⟨L, ⟨b, c1, c2, c3, c4⟩, ho⟩ := e
      rcases ho with ⟨-, -, ho⟩ | ⟨t, _, _, ht, _⟩ | ⟨_, _, _, hm, _⟩
      · refine ⟨L, ho, ?_⟩
        have c1 : some (⟨0, 0, 1, 1⟩ : Rect) = some b := c1
        cases c1
        obtain ⟨n, n', c, d1, d2⟩ := c4.2 ⟨0, 0⟩ (by rw [c2]; decide)
        have d1 : some (y.2.2, n) = some (c, n') := d1
        cases d1
        exact d2
      · cases ht
      · cases hm
  have := key _ _ h4
  rcases fixBottom_cases g' with hf | ⟨init, b, rfl, hf⟩
  · rw [hf]; exact this
  · rw [hf]
    generalize x :: xs = ys at this
    clear h1 h2 h3 h4 hf key
    induction init generalizing ys with
    | nil =>
      cases this with
      | cons h t => cases t; exact .cons h .nil
    | cons a init ih =>
      cases this with
      | cons h t => exact .cons h (ih _ t)

/-- C38 is false.  In an indexed picture a nearly black pixel of a layer with 16 bits per channel becomes white, although the palette contains
black: the encoder looks for the low bytes of the colour. -/
theorem C38_refuted (wenv : WEnv) (hw : Works wenv) : ∃ (g : List Layer) (l : List WCall),
    (g.map fun a => match a.image with | .leaf L => (L.model, L.pixel ⟨0, 0⟩) | _ => (.other, none)) =
      [(.palette [.lrgb 0 0 0, .lrgb 255 255 255], some (.lrgb 0 0 0)), (.gray16, some (.gray16 0x00ff))] ∧
    runEncode wenv (.group g) = some (l, none) ∧
    ∀ (env : Env) (sch : Sched), sch.Valid → ∀ (decompress : Bool) (D : Bytes), ∃ g',
      decodeImage env sch decompress (store D l) = .ok (.ok g') ∧
      (g'.map fun a => match a.image with | .leaf L => L.pixel ⟨0, 0⟩ | _ => none) = [some (.nrgba 0 0 0 255), some (.nrgba 255 255 255 255)] := by
  obtain ⟨l, h1, h2⟩ := dot_pixel wenv hw (Mode.normal, .palette [.lrgb 0 0 0, .lrgb 255 255 255], .lrgb 0 0 0)
    [(Mode.normal, .gray16, .gray16 0x00ff)] (by simp) (by simp [fmtOf, encFor])
  refine ⟨_, l, rfl, h1, fun env sch hv decompress D => ?_⟩
  obtain ⟨g', h3, h4⟩ := h2 env sch hv decompress D
  refine ⟨g', h3, ?_⟩
  match g', h4 with
  | [a, b], .cons ⟨L1, e1, e2⟩ (.cons ⟨L2, e3, e4⟩ .nil) =>
    rw [List.map_cons, List.map_cons, List.map_nil, e1, e3]
    dsimp only
    rw [e2, e4]
    rfl

example : Works goodSink := fun _ => rfl

/-! ### Partly transparent pixels (C42) -/

/-- C42 is false for grey: half transparent white is stored as half transparent grey. -/
theorem C42_gray_refuted (wenv : WEnv) (hw : Works wenv) : ∃ (g : List Layer) (l : List WCall),
    (g.map fun a => match a.image with | .leaf L => (L.model, L.pixel ⟨0, 0⟩) | _ => (.other, none)) = [(.grayAlpha, some (.grayAlpha 255 128))] ∧
    runEncode wenv (.group g) = some (l, none) ∧
    ∀ (env : Env) (sch : Sched), sch.Valid → ∀ (decompress : Bool) (D : Bytes), ∃ g',
      decodeImage env sch decompress (store D l) = .ok (.ok g') ∧
      (g'.map fun a => match a.image with | .leaf L => L.pixel ⟨0, 0⟩ | _ => none) = [some (.grayAlpha 128 128)] := by
  obtain ⟨l, h1, h2⟩ := dot_pixel wenv hw (Mode.normal, .grayAlpha, .grayAlpha 255 128) [] (by simp) (by simp [fmtOf, encFor])
  refine ⟨_, l, rfl, h1, fun env sch hv decompress D => ?_⟩
  obtain ⟨g', h3, h4⟩ := h2 env sch hv decompress D
  refine ⟨g', h3, ?_⟩
  match g', h4 with
  | [a], .cons ⟨L1, e1, e2⟩ .nil =>
    rw [List.map_cons, List.map_nil, e1]
    dsimp only
    rw [e2]
    rfl

/-- C42 is false for palettes: half transparent white is stored as half transparent black. -/
theorem C42_indexed_refuted (wenv : WEnv) (hw : Works wenv) : ∃ (g : List Layer) (l : List WCall),
    (g.map fun a => match a.image with | .leaf L => (L.model, L.pixel ⟨0, 0⟩) | _ => (.other, none)) =
      [(.alphaPalette [.lrgb 0 0 0, .lrgb 255 255 255], some (.nrgba 255 255 255 127))] ∧
    runEncode wenv (.group g) = some (l, none) ∧
    ∀ (env : Env) (sch : Sched), sch.Valid → ∀ (decompress : Bool) (D : Bytes), ∃ g',
      decodeImage env sch decompress (store D l) = .ok (.ok g') ∧
      (g'.map fun a => match a.image with | .leaf L => L.pixel ⟨0, 0⟩ | _ => none) = [some (.nrgba 0 0 0 127)] := by
  obtain ⟨l, h1, h2⟩ := dot_pixel wenv hw (Mode.normal, .alphaPalette [.lrgb 0 0 0, .lrgb 255 255 255], .nrgba 255 255 255 127) []
    (by simp) (by simp [fmtOf, encFor])
  refine ⟨_, l, rfl, h1, fun env sch hv decompress D => ?_⟩
  obtain ⟨g', h3, h4⟩ := h2 env sch hv decompress D
  refine ⟨g', h3, ?_⟩
  match g', h4 with
  | [a], .cons ⟨L1, e1, e2⟩ .nil =>
    rw [List.map_cons, List.map_nil, e1]
    dsimp only
    rw [e2]
    rfl

/-- C42 (the part that holds).  The alpha of a pixel with 8 bits is stored and decoded unchanged, whatever the colour type.
Full statement: the colour too; false by `C42_gray_refuted` and `C42_indexed_refuted`. -/
theorem C42_alpha_partial (wenv : WEnv) (cm : ColorModel) (c c' : Color) (a : UInt8) (ha : c.rgba32.a.toNat = 257 * a.toNat)
    (h : colorOf (fmtOf wenv cm) ((fmtOf wenv cm).conv c) = some c') : c'.rgba32.a = c.rgba32.a := by
  have hw : c.rgba32.a = widen32 a := UInt32.toNat_inj.1 (by rw [ha, widen32_nat])
  rw [hw]
  have hrgb : colorOf (fmtOf wenv .other) (rgbAlphaToBuf c) = some c' → c'.rgba32.a = widen32 a := by
    intro h
    have h : some (Color.nrgba (nrgbaModel c).1 (nrgbaModel c).2.1 (nrgbaModel c).2.2.1 (nrgbaModel c).2.2.2) = some c' := h
    cases h
    have : (nrgbaModel c).2.2.2 = a := by
      have hq : ∀ q : RGBA32, q.a = widen32 a → (if q.a = 0xffff then ((q.r >>> 8).toUInt8, (q.g >>> 8).toUInt8, (q.b >>> 8).toUInt8, 0xff)
          else if q.a = 0 then (0, 0, 0, 0)
          else (((q.r * 0xffff / q.a) >>> 8).toUInt8, ((q.g * 0xffff / q.a) >>> 8).toUInt8,
           ((q.b * 0xffff / q.a) >>> 8).toUInt8, (q.a >>> 8).toUInt8) : UInt8 × UInt8 × UInt8 × UInt8).2.2.2 = a := by
        intro q hq
        rw [hq]
        split
        · rename_i h1
          rw [← low_widen a, h1]
          show (0xff : UInt8) = _
          decide
        · split
          · rename_i h1
            rw [← low_widen a, h1]; decide
          · exact shr8_widen a
      cases c with
      | nrgba r g b a' =>
        show a' = a
        rw [← low_widen a', ← low_widen a]
        exact congrArg UInt32.toUInt8 hw
      | _ => exact hq _ hw
    rw [this]
    rfl
  have hgray : colorOf (fmtOf wenv .gray) (grayAlphaToBuf c) = some c' → c'.rgba32.a = widen32 a := by
    intro h
    have h : some (Color.grayAlpha (grayModel c) (c.rgba32.a >>> 8).toUInt8) = some c' := h
    cases h
    rw [hw, shr8_widen]
    rfl
  have hpal : ∀ p, colorOf (fmtOf wenv (.palette p)) (paletteAlphaToBuf p c) = some c' → c'.rgba32.a = widen32 a := by
    intro p h
    unfold paletteAlphaToBuf at h
    dsimp only at h
    rw [hw, low_widen] at h
    generalize UInt8.ofNat _ = i at h
    have h : ((p.map rgbModel)[i.toNat]?).map (fun c => Color.nrgba c.1 c.2.1 c.2.2 a) = some c' := h
    cases hx : (p.map rgbModel)[i.toNat]? with
    | none => rw [hx] at h; cases h
    | some x => rw [hx] at h; cases h; rfl
  cases cm with
  | gray => exact hgray h
  | gray16 => exact hgray h
  | grayAlpha => exact hgray h
  | alpha => exact hrgb h
  | palette p => exact hpal p h
  | alphaPalette p => exact hpal p h
  | other => exact hrgb h

example : (Color.grayAlpha 255 128).rgba32.a.toNat = 257 * (128 : UInt8).toNat ∧
    colorOf (fmtOf goodSink .grayAlpha) ((fmtOf goodSink .grayAlpha).conv (.grayAlpha 255 128)) = some (.grayAlpha 128 128) := ⟨by decide, by rfl⟩

end Limage
