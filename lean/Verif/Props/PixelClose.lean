import Verif.Props.PixelBack
import Verif.Proofs.Png
/-!
# C38: what becomes of the pixels that a file cannot hold
-/
namespace Limage
open Spec

/-- 65536 times the brightness of a colour (ITU-R BT.601) -/
def Spec.brightness (q : RGBA32) : Nat := 19595 * q.r.toNat + 38470 * q.g.toNat + 7471 * q.b.toNat

/-- `c'` is close to `c`: in an RGB file every channel is, up to 512/65535; in a grey file an opaque colour becomes a grey of its brightness, up to
256/65535; in an indexed file an opaque colour with 8 bits per channel becomes the nearest colour of the palette, if that has only such colours. -/
def Spec.PixelNear (cm : ColorModel) (c c' : Color) : Prop :=
  match cm with
  | .gray | .gray16 | .grayAlpha => Premul c.rgba32 → c.rgba32.a = 0xffff →
      ∃ v : UInt32, c'.rgba32 = ⟨v, v, v, 0xffff⟩ ∧ v.toNat * 65536 ≤ brightness c.rgba32 + 256 * 65536 ∧
        brightness c.rgba32 ≤ v.toNat * 65536 + 256 * 65536
  | .palette p | .alphaPalette p => ∀ r g b, Opaque8 c.rgba32 r g b → (∀ v ∈ p, ∃ r g b, Opaque8 v.rgba32 r g b) → p.length ≤ 256 →
      ∃ v ∈ p, c'.rgba32 = v.rgba32 ∧ ∀ w ∈ p, dist c.rgba32 v.rgba32 ≤ dist c.rgba32 w.rgba32
  | _ => Premul c.rgba32 → Nearby c.rgba32 c'.rgba32

/-- the grey of an opaque colour -/
theorem grayModel_near (c : Color) (hv : Premul c.rgba32) :
    257 * (grayModel c).toNat * 65536 ≤ brightness c.rgba32 + 256 * 65536 ∧
    brightness c.rgba32 ≤ 257 * (grayModel c).toNat * 65536 + 256 * 65536 := by
  by_cases hc : ∃ y, c = .gray y
  · obtain ⟨y, rfl⟩ := hc
    have : brightness (Color.gray y).rgba32 = 65536 * (257 * y.toNat) := by
      show 19595 * (widen32 y).toNat + 38470 * (widen32 y).toNat + 7471 * (widen32 y).toNat = _
      rw [widen32_nat]; omega
    rw [this]
    rw [show grayModel (.gray y) = y from rfl]
    constructor <;> omega
  have e : grayModel c = (((19595 * c.rgba32.r + 38470 * c.rgba32.g + 7471 * c.rgba32.b + 0x8000) : UInt32) >>> 24).toUInt8 := by
    cases c <;> first | rfl | exact absurd ⟨_, rfl⟩ hc
  rw [e]
  generalize c.rgba32 = q at *
  obtain ⟨hr, hg, hb, ha⟩ := hv
  have e1 : (19595 : UInt32).toNat = 19595 := rfl
  have e2 : (38470 : UInt32).toNat = 38470 := rfl
  have e3 : (7471 : UInt32).toNat = 7471 := rfl
  have e8 : (0x8000 : UInt32).toNat = 32768 := rfl
  have k1 : (19595 * q.r).toNat = 19595 * q.r.toNat := by rw [mul32 _ _ (by rw [e1]; omega), e1]
  have k2 : (38470 * q.g).toNat = 38470 * q.g.toNat := by rw [mul32 _ _ (by rw [e2]; omega), e2]
  have k3 : (7471 * q.b).toNat = 7471 * q.b.toNat := by rw [mul32 _ _ (by rw [e3]; omega), e3]
  have k12 : (19595 * q.r + 38470 * q.g).toNat = 19595 * q.r.toNat + 38470 * q.g.toNat := by rw [add32] <;> omega
  have k123 : (19595 * q.r + 38470 * q.g + 7471 * q.b).toNat = brightness q := by
    unfold brightness
    rw [add32] <;> omega
  have hle : brightness q ≤ 65536 * 65535 := by unfold brightness; omega
  have k : (19595 * q.r + 38470 * q.g + 7471 * q.b + 0x8000).toNat = brightness q + 32768 := by
    rw [add32] <;> omega
  rw [UInt32.toNat_toUInt8, UInt32.toNat_shiftRight, k]
  simp only [show (24 : UInt32).toNat % 32 = 24 from rfl, Nat.shiftRight_eq_div_pow]
  generalize brightness q = l at *
  constructor <;> omega

theorem palette_near {p : List Color} {c : Color} {r g b : UInt8} (h : Opaque8 c.rgba32 r g b) (hne : p ≠ [])
    (hp : ∀ v ∈ p, ∃ r g b, Opaque8 v.rgba32 r g b) (hl : p.length ≤ 256) :
    ∃ (i : Nat) (v : Color) (r' g' b' : UInt8), paletteAlphaToBuf p c = [UInt8.ofNat i, 255] ∧ i < 256 ∧ v ∈ p ∧ Opaque8 v.rgba32 r' g' b' ∧
      (p.map rgbModel)[i]? = some (r', g', b') ∧ ∀ w ∈ p, dist c.rgba32 v.rgba32 ≤ dist c.rgba32 w.rgba32 := by
  have he := h.eq
  have hlrgb : (Color.lrgb r g b).rgba32 = c.rgba32 := by rw [he]; rfl
  have hval : ∀ v ∈ p, ValidRGBA v.rgba32 := fun v hv => by
    obtain ⟨_, _, _, h⟩ := hp v hv
    exact valid_opaque8 h
  obtain ⟨w, hw, hmin, -⟩ := C19_nearest p hne (.lrgb r g b) (by rw [hlrgb]; exact valid_opaque8 h) hval
  rw [hlrgb] at hmin
  obtain ⟨r', g', b', hw8⟩ := hp w (List.mem_of_getElem? hw)
  refine ⟨paletteIndex p (.lrgb r g b), w, r', g', b', ?_, ?_, List.mem_of_getElem? hw, hw8, ?_, hmin⟩
  · unfold paletteAlphaToBuf
    rw [he]
    dsimp only
    rw [low_widen, low_widen, low_widen]
    rfl
  · have := (List.getElem?_eq_some_iff.1 hw).1
    omega
  · rw [List.getElem?_map, hw, Option.map_some]
    unfold rgbModel
    rw [hw8.eq]
    dsimp only
    rw [shr8_widen, shr8_widen, shr8_widen]

theorem pixel_near (wenv : WEnv) (cm : ColorModel) (hp : cm ≠ .palette [] ∧ cm ≠ .alphaPalette []) (c c' : Color)
    (h : colorOf (fmtOf wenv cm) ((fmtOf wenv cm).conv c) = some c') : PixelNear cm c c' := by
  have hrgb : colorOf (fmtOf wenv .other) (rgbAlphaToBuf c) = some c' → Premul c.rgba32 → Nearby c.rgba32 c'.rgba32 := by
    intro h hv
    have h : some (Color.nrgba (nrgbaModel c).1 (nrgbaModel c).2.1 (nrgbaModel c).2.2.1 (nrgbaModel c).2.2.2) = some c' := h
    cases h
    exact nrgba8_near c hv
  have hgray : colorOf (fmtOf wenv .gray) (grayAlphaToBuf c) = some c' → Premul c.rgba32 → c.rgba32.a = 0xffff →
      ∃ v : UInt32, c'.rgba32 = ⟨v, v, v, 0xffff⟩ ∧ v.toNat * 65536 ≤ brightness c.rgba32 + 256 * 65536 ∧
        brightness c.rgba32 ≤ v.toNat * 65536 + 256 * 65536 := by
    intro h hv ha
    have h : some (Color.grayAlpha (grayModel c) (c.rgba32.a >>> 8).toUInt8) = some c' := h
    cases h
    have h255 : ((0xffff : UInt32) >>> 8).toUInt8 = 255 := by decide
    rw [ha, h255]
    refine ⟨_, grayAlpha_opaque _, ?_⟩
    rw [widen32_nat]
    exact grayModel_near c hv
  have hpal : ∀ p, p ≠ [] → colorOf (fmtOf wenv (.palette p)) (paletteAlphaToBuf p c) = some c' → ∀ r g b, Opaque8 c.rgba32 r g b →
      (∀ v ∈ p, ∃ r g b, Opaque8 v.rgba32 r g b) → p.length ≤ 256 →
      ∃ v ∈ p, c'.rgba32 = v.rgba32 ∧ ∀ w ∈ p, dist c.rgba32 v.rgba32 ≤ dist c.rgba32 w.rgba32 := by
    intro p hne h r g b ho hp hl
    obtain ⟨i, v, r', g', b', e1, e2, e3, e4, e5, e6⟩ := palette_near ho hne hp hl
    rw [e1] at h
    have h : ((p.map rgbModel)[(UInt8.ofNat i).toNat]?).map (fun c => Color.nrgba c.1 c.2.1 c.2.2 255) = some c' := h
    rw [show (UInt8.ofNat i).toNat = i by rw [UInt8.toNat_ofNat']; omega, e5] at h
    cases h
    exact ⟨v, e3, by rw [nrgba_opaque, e4.eq], e6⟩
  cases cm with
  | gray => exact hgray h
  | gray16 => exact hgray h
  | grayAlpha => exact hgray h
  | alpha => exact hrgb h
  | palette p => exact hpal p (fun e => hp.1 (by rw [e])) h
  | alphaPalette p => exact hpal p (fun e => hp.2 (by rw [e])) h
  | other => exact hrgb h

/-- Specification: the image `L` has the pixels of `i`, moved to the origin, or colours close to them. -/
def Spec.PixelsNear (ρ : Nat → UInt16) (cm : ColorModel) (i : Img) (L : Leaf) : Prop :=
  ∃ b, i.bounds = some b ∧ L.bounds = ⟨0, 0, b.dx, b.dy⟩ ∧
    ∀ p, Rect.mem p L.bounds → ∃ n n' c c', i.at ρ ⟨b.x0 + p.x, b.y0 + p.y⟩ n = some (c, n') ∧ L.pixel p = some c' ∧ PixelNear cm c c'

/-- C38 (the part that holds), for pixels that the file cannot hold: they come back as a colour close to them (`PixelNear`).
Full statement: also translucent pixels in grey and indexed files, and all colours in indexed files; false by `C38_refuted` and C42. -/
theorem C38_near_partial (wenv : WEnv) (env : Env) (sch : Sched) (hv : sch.Valid) (decompress : Bool) (g : List Layer)
    (hi : Encodable (.group g)) (l : List WCall) (h : runEncode wenv (.group g) = some (l, none)) (D : Bytes)
    (size : Nat) (hsz : ExactlyOnce l size) (hmax : size ≤ maxString)
    (cm : ColorModel) (hcm : (Img.group g).colorModel = some cm) (hp : cm ≠ .palette [] ∧ cm ≠ .alphaPalette [])
    (hd : decompress = true ∨ ∀ r ∈ placed g 0 0 0 [], maskOf r.layer.image = none)
    (hx : (groupBounds g).dx ≤ 2 ^ 31) (hy : (groupBounds g).dy ≤ 2 ^ 31)
    (hs : ∀ r ∈ placed g 0 0 0 [], Storable (fmtOf wenv cm) (parsesTo env) (groupBounds g).dx (groupBounds g).dy r) :
    ∃ g' g'', decodeImage env sch decompress (store D l) = .ok (.ok g'') ∧
      (g'' = g' ∨ ∃ init b, g' = init ++ [b] ∧ g'' = init ++ [{ b with mode := Mode.normal }]) ∧
      SameTree (fun l j => ∃ L, inner j = .leaf L ∧ PixelsNear wenv.ρ cm (pixelsOf l.image) L) (modeBack (fmtOf wenv cm)) g g' := by
  obtain ⟨g', h1, h2⟩ := round_trip wenv env sch hv decompress g hi l h D size hsz hmax cm hcm hd hx hy hs
  refine ⟨g', _, h1, fixBottom_cases g', SameTree.mono ?_ h2⟩
  rintro l j ⟨L, ⟨b, e1, e2, e3, e4⟩, ho⟩
  refine ⟨L, ?_, b, e1, e2, fun p hp' => ?_⟩
  · rcases ho with ⟨-, -, rfl⟩ | ⟨t, d, t', -, -, -, rfl⟩ | ⟨m1, m', -, -, -, rfl⟩ <;> rfl
  · obtain ⟨n, n', c, f1, f2⟩ := e4.2 p hp'
    obtain ⟨c', f3⟩ := colorOf_some wenv cm hp c
    rw [f3] at f2
    exact ⟨n, n', c, c', f1, f2, pixel_near wenv cm hp c c' f3⟩

/-- a colour of 16 bits per channel that no file holds; a palette of black and white; a bright colour for it -/
example : Premul (Color.rgba64 0x1234 0x4567 0x89ab 0xffff).rgba32 ∧ (Color.rgba64 0x1234 0x4567 0x89ab 0xffff).rgba32.a = 0xffff ∧
    Opaque8 (Color.lrgb 200 180 160).rgba32 200 180 160 ∧
    (∀ v ∈ [Color.lrgb 0 0 0, Color.lrgb 255 255 255], ∃ r g b, Opaque8 v.rgba32 r g b) := by
  refine ⟨?_, rfl, by unfold Opaque8; decide, ?_⟩
  · unfold Premul; decide
  · intro v hv
    simp only [List.mem_cons, List.not_mem_nil, or_false] at hv
    rcases hv with rfl | rfl
    · exact ⟨0, 0, 0, by unfold Opaque8; decide⟩
    · exact ⟨255, 255, 255, by unfold Opaque8; decide⟩

end Limage
