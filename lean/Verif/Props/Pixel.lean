import Verif.Props.Color
import Verif.Props.Composite
import Verif.Props.Image
/-!
# More properties of single pixels (C69–C73)
-/
namespace Limage
open Spec

/-! ## C69 masked images -/

/-- **C69**: a masked image shows the image's pixel with its alpha scaled by the mask's value at the
point; full mask changes nothing, zero mask (and every point outside the mask) is transparent. -/
theorem C69_mask (ρ : Nat → UInt16) (i : Img) (m : GrayImg) (p : Pt) (n n' : Nat) (c : Color)
    (h : i.at ρ p n = some (c, n')) :
    ∃ t, Img.at ρ (.masked i (some m)) p n = some (t, n') ∧
      (inRect m.rect p → t.toNRGBA.a.toNat = (m.pix p).toNat * c.toNRGBA.a.toNat / 255) ∧
      (inRect m.rect p → m.pix p ≠ 0 →
        t.toNRGBA.r = c.toNRGBA.r ∧ t.toNRGBA.g = c.toNRGBA.g ∧ t.toNRGBA.b = c.toNRGBA.b) ∧
      (inRect m.rect p → m.pix p = 255 → t = c) ∧
      (¬ inRect m.rect p → t = .nrgba64 ⟨0, 0, 0, 0⟩) := by
  refine ⟨transparency c (m.grayAt p), ?_, ?_, ?_, ?_, ?_⟩
  · rw [Img.at, h]; rfl
  · intro hp
    rw [transparency_alpha, GrayImg.grayAt, if_pos ((mem_iff ..).2 hp)]
  · intro hp h0
    rw [GrayImg.grayAt, if_pos ((mem_iff ..).2 hp)]
    obtain ⟨h1, -, h3⟩ := C20_opacity c (m.pix p)
    by_cases h255 : m.pix p = 255
    · rw [h1 h255]; exact ⟨rfl, rfl, rfl⟩
    · obtain ⟨k, e, er, eg, eb, -⟩ := h3 h0 h255
      rw [e]; exact ⟨er, eg, eb⟩
  · intro hp h255
    rw [GrayImg.grayAt, if_pos ((mem_iff ..).2 hp)]
    exact (C20_opacity c (m.pix p)).1 h255
  · intro hp
    rw [GrayImg.grayAt, if_neg (by rw [mem_iff]; exact hp)]
    exact (C20_opacity c 0).2.1 rfl

/-- a mask that is half dark at the point -/
example : ∃ t, Img.at (fun _ => 0) (.masked (.leaf ⟨⟨0, 0, 2, 2⟩, .other, fun _ => some (.nrgba64 ⟨9, 9, 9, 0xffff⟩)⟩)
    (some ⟨⟨0, 0, 2, 2⟩, fun _ => 51⟩)) ⟨1, 1⟩ 0 = some (t, 0) ∧ t.toNRGBA.a.toNat = 51 * 65535 / 255 := by
  obtain ⟨t, h1, h2, -⟩ := C69_mask (fun _ => 0) (.leaf ⟨⟨0, 0, 2, 2⟩, .other, fun _ => some (.nrgba64 ⟨9, 9, 9, 0xffff⟩)⟩)
    ⟨⟨0, 0, 2, 2⟩, fun _ => 51⟩ ⟨1, 1⟩ 0 0 (.nrgba64 ⟨9, 9, 9, 0xffff⟩) rfl
  exact ⟨t, h1, h2 (by simp [inRect])⟩

/-- **C69**: reading a masked image panics exactly when the image does or there is no mask. -/
theorem C69_total (ρ : Nat → UInt16) (i : Img) (m : Option GrayImg) (p : Pt) (n : Nat) :
    Img.at ρ (.masked i m) p n = none ↔ i.at ρ p n = none ∨ m = none := by
  rw [Img.at]
  cases i.at ρ p n with
  | none => simp
  | some x =>
    cases m with
    | none => simp
    | some m => simp

example : (exLeaf ⟨0, 0, 1, 1⟩ (.gray 7)).at (fun _ => 0) ⟨0, 0⟩ 0 = some (.gray 7, 0) ∧
    inRect (⟨⟨0, 0, 1, 1⟩, fun _ => 9⟩ : GrayImg).rect ⟨0, 0⟩ := by
  refine ⟨?_, by simp [inRect]⟩
  rw [exLeaf, Img.at]; rfl

/-! ## C70 component modes -/

/-- **C70**: the component modes take the named components from the top (Luminosity: the lightness)
and the others from the bottom.  `q.r = q.g ∧ q.r = q.b` is the code's test for a grey top. -/
theorem C70_components (draw : UInt16) (b t : Color) :
    ∃ (hb ht : HSVA) (lb lt : HSLA), rgbToHSV b.toNRGBA = some hb ∧ rgbToHSV t.toNRGBA = some ht ∧
      rgbToHSL b.toNRGBA = some lb ∧ rgbToHSL t.toNRGBA = some lt ∧
      composite draw Mode.saturation b t = some (.hsva hb.h ht.s hb.v hb.a) ∧
      composite draw Mode.value b t = some (.hsva hb.h hb.s ht.v hb.a) ∧
      composite draw Mode.color b t = some (.hsla lt.h lt.s lb.l lt.a) ∧
      composite draw Mode.luminosity b t = some (.hsla lb.h lb.s lt.l lb.a) ∧
      (¬ (t.toNRGBA.rgba.r = t.toNRGBA.rgba.g ∧ t.toNRGBA.rgba.r = t.toNRGBA.rgba.b) →
        composite draw Mode.hue b t = some (.hsva ht.h hb.s hb.v hb.a)) ∧
      ((t.toNRGBA.rgba.r = t.toNRGBA.rgba.g ∧ t.toNRGBA.rgba.r = t.toNRGBA.rgba.b) →
        composite draw Mode.hue b t = some (.nrgba64 b.toNRGBA)) := by
  obtain ⟨x, hx, -⟩ := rgbToHSV_some b.toNRGBA
  obtain ⟨y, hy, -⟩ := rgbToHSV_some t.toNRGBA
  obtain ⟨p, hp, -⟩ := rgbToHSL_some b.toNRGBA
  obtain ⟨q, hq, -⟩ := rgbToHSL_some t.toNRGBA
  refine ⟨x, y, p, q, hx, hy, hp, hq, ?_, ?_, ?_, ?_, ?_, ?_⟩
  · show compositeSaturation _ _ = _
    simp only [compositeSaturation, hx, hy]; rfl
  · show compositeValue _ _ = _
    simp only [compositeValue, hx, hy]; rfl
  · show compositeColor _ _ = _
    simp only [compositeColor, hp, hq]; rfl
  · show compositeColor _ _ = _
    simp only [compositeColor, hp, hq]; rfl
  · intro h
    show compositeHue _ _ = _
    unfold compositeHue
    dsimp only
    rw [if_neg h, hx, hy]; rfl
  · intro h
    show compositeHue _ _ = _
    unfold compositeHue
    dsimp only
    rw [if_pos h]

/-- a green layer on a dark red, in mode Saturation -/
example : composite 0 Mode.saturation (.nrgba64 ⟨0x8000, 0x4000, 0x4000, 0xffff⟩) (.nrgba64 ⟨0, 0xf000, 0, 0x8000⟩) =
    some (.hsva 0 0xffff 0x8000 0xffff) := by decide

/-- the largest of three channels -/
def Spec.brightest (c : NRGBA64) : Nat := max c.r.toNat (max c.g.toNat c.b.toNat)

theorem hcma_brightest (h c : UInt16) (m a : UInt16) (hs : c.toNat + m.toNat ≤ 65535) :
    brightest (hcmaToColour h.toUInt32 c.toUInt32 m a) = c.toNat + m.toNat := by
  have hh := u16_le h
  have hc := u16_le c
  -- the position in the colour circle
  have key : ∀ (k : UInt32), k.toNat ≤ 393204 →
      ∀ x : UInt32, x = (if k % 0x1fffe ≥ 0xffff then 0x1fffe - k % 0x1fffe else k % 0x1fffe) →
      (x * c.toUInt32 / 0xffff).toUInt16.toNat ≤ c.toNat := by
    intro k hk x hx
    have hmod : (k % 0x1fffe).toNat = k.toNat % 131070 := UInt32.toNat_mod ..
    have hx1 : x.toNat ≤ 65535 := by
      rw [hx]
      split
      · rename_i h1
        rw [ge_iff_le, UInt32.le_iff_toNat_le, hmod] at h1
        have h2 : (0xffff : UInt32).toNat = 65535 := rfl
        have h3 : (0x1fffe : UInt32).toNat = 131070 := rfl
        rw [sub32 _ _ (by rw [hmod, h3]; omega), hmod, h3]
        rw [h2] at h1
        omega
      · rename_i h1
        rw [ge_iff_le, UInt32.le_iff_toNat_le, hmod] at h1
        have h2 : (0xffff : UInt32).toNat = 65535 := rfl
        rw [hmod]
        rw [h2] at h1
        omega
    have hm : (x * c.toUInt32).toNat = x.toNat * c.toNat := by
      rw [mul32] <;> rw [toNat_16_32]
      have := mul_le_sq hx1 hc; omega
    have hd : (x * c.toUInt32 / 0xffff).toNat = x.toNat * c.toNat / 65535 := by
      rw [UInt32.toNat_div, hm]; rfl
    have := prod_div_le (b := c.toNat) hx1
    rw [to16 _ (by rw [hd]; omega), hd]
    exact this
  have cc : c.toUInt32.toUInt16 = c := by
    apply UInt16.toNat_inj.1; rw [to16 _ (by rw [toNat_16_32]; exact hc), toNat_16_32]
  have fin : ∀ r g b : UInt16, r.toNat ≤ c.toNat → g.toNat ≤ c.toNat → b.toNat ≤ c.toNat →
      (r = c ∨ g = c ∨ b = c) → brightest ⟨r + m, g + m, b + m, a⟩ = c.toNat + m.toNat := by
    intro r g b h1 h2 h3 h4
    unfold brightest
    dsimp only
    rw [add16 r m (by omega), add16 g m (by omega), add16 b m (by omega)]
    rcases h4 with rfl | rfl | rfl <;> omega
  have z : (0 : UInt16).toNat ≤ c.toNat := Nat.zero_le _
  unfold hcmaToColour
  dsimp only
  have hk : ∀ k : UInt32, k = (if h.toUInt32 ≠ 0xffff then h.toUInt32 * 6 else 0) →
      k.toNat < 393210 ∧ k.toNat ≤ 393204 := by
    intro k hk
    rw [hk]
    split
    · rename_i hne
      have : h.toNat ≠ 65535 := by
        intro e; apply hne; apply UInt32.toNat_inj.1; rw [toNat_16_32, e]; rfl
      have h6 : (6 : UInt32).toNat = 6 := rfl
      rw [mul32] <;> rw [toNat_16_32, h6] <;> omega
    · decide
  generalize (if h.toUInt32 ≠ 0xffff then h.toUInt32 * 6 else 0) = k at *
  obtain ⟨k1, k2⟩ := hk k rfl
  have kx := key k k2 _ rfl
  generalize ((if k % 0x1fffe ≥ 0xffff then 0x1fffe - k % 0x1fffe else k % 0x1fffe) * c.toUInt32 /
    0xffff).toUInt16 = x at *
  have hdiv : (k / 0xffff).toNat = k.toNat / 65535 := UInt32.toNat_div ..
  have hcase : ∀ j : UInt32, (k / 0xffff = j ↔ k.toNat / 65535 = j.toNat) := by
    intro j; rw [← UInt32.toNat_inj, hdiv]
  have hj : k / 0xffff = 0 ∨ k / 0xffff = 1 ∨ k / 0xffff = 2 ∨ k / 0xffff = 3 ∨ k / 0xffff = 4 ∨
      k / 0xffff = 5 := by
    simp only [hcase, show (0 : UInt32).toNat = 0 from rfl, show (1 : UInt32).toNat = 1 from rfl,
      show (2 : UInt32).toNat = 2 from rfl, show (3 : UInt32).toNat = 3 from rfl,
      show (4 : UInt32).toNat = 4 from rfl, show (5 : UInt32).toNat = 5 from rfl]
    omega
  rw [cc]
  rcases hj with e | e | e | e | e | e <;> rw [e]
  · exact fin _ _ _ (Nat.le_refl _) kx z (Or.inl rfl)
  · exact fin _ _ _ kx (Nat.le_refl _) z (Or.inr (Or.inl rfl))
  · exact fin _ _ _ z (Nat.le_refl _) kx (Or.inr (Or.inl rfl))
  · exact fin _ _ _ z kx (Nat.le_refl _) (Or.inr (Or.inr rfl))
  · exact fin _ _ _ kx z (Nat.le_refl _) (Or.inr (Or.inr rfl))
  · exact fin _ _ _ (Nat.le_refl _) z kx (Or.inl rfl)

/-- **C70**: the value of an HSV colour is its brightest channel, for every HSV colour. -/
theorem C70_value_is_brightest (h s v a : UInt16) :
    brightest (Color.hsva h s v a).toNRGBA = v.toNat := by
  show brightest (HSVA.toNRGBA ⟨h, s, v, a⟩) = _
  unfold HSVA.toNRGBA
  dsimp only
  split
  · simp [brightest]
  · have hv := u16_le v
    have hs := u16_le s
    have hn : ((v.toUInt32 * s.toUInt32 / 0xffff).toUInt16).toNat = v.toNat * s.toNat / 65535 := by
      have e : (v.toUInt32 * s.toUInt32 / 0xffff).toNat = v.toNat * s.toNat / 65535 := by
        rw [UInt32.toNat_div, mul16]; rfl
      have := prod_div_le' (a := v.toNat) hs
      rw [to16 _ (by rw [e]; omega), e]
    have hle := prod_div_le' (a := v.toNat) hs
    generalize (v.toUInt32 * s.toUInt32 / 0xffff).toUInt16 = c at *
    have hsub : (v - c).toNat = v.toNat - c.toNat := sub16 _ _ (by omega)
    rw [hcma_brightest h c (v - c) a (by omega)]
    omega

/-- an orange -/
example : (Color.hsva 5461 0xffff 0x9000 0xffff).toNRGBA = ⟨0x9000, 18431, 0, 0xffff⟩ := by decide

/-- **C70**: Value mode gives the result the top's brightness; Hue and Saturation keep the bottom's. -/
theorem C70_brightness (draw : UInt16) (b t : Color) :
    (∃ c, composite draw Mode.value b t = some c ∧ brightest c.toNRGBA = brightest t.toNRGBA) ∧
    (∃ c, composite draw Mode.hue b t = some c ∧ brightest c.toNRGBA = brightest b.toNRGBA) ∧
    (∃ c, composite draw Mode.saturation b t = some c ∧ brightest c.toNRGBA = brightest b.toNRGBA) := by
  have mx : ∀ c : NRGBA64, ∀ x, rgbToHSV c = some x → x.v.toNat = brightest c := by
    intro c x hx
    have e : x.v = goMax [c.r, c.g, c.b] := by
      unfold rgbToHSV at hx
      dsimp only at hx
      split at hx
      · injection hx with hx; rw [← hx]
      · split at hx
        · cases hx
        · injection hx with hx; rw [← hx]
    rw [e]
    unfold brightest goMax
    simp only [List.foldl_cons, List.foldl_nil]
    have : ∀ x y : UInt16, (if y > x then y else x).toNat = max x.toNat y.toNat := by
      intro x y
      split
      · rename_i h; rw [gt_iff_lt, UInt16.lt_iff_toNat_lt] at h; omega
      · rename_i h; rw [gt_iff_lt, UInt16.lt_iff_toNat_lt] at h; omega
    rw [this, this, this]
    have e0 : (0 : UInt16).toNat = 0 := rfl
    rw [e0]; omega
  obtain ⟨x, y, p, q, hx, hy, -, -, h1, h2, -, -, h3, h4⟩ := C70_components draw b t
  refine ⟨⟨_, h2, ?_⟩, ?_, ⟨_, h1, ?_⟩⟩
  · rw [C70_value_is_brightest, mx _ _ hy]
  · by_cases hg : t.toNRGBA.rgba.r = t.toNRGBA.rgba.g ∧ t.toNRGBA.rgba.r = t.toNRGBA.rgba.b
    · exact ⟨_, h4 hg, rfl⟩
    · exact ⟨_, h3 hg, by rw [C70_value_is_brightest, mx _ _ hx]⟩
  · rw [C70_value_is_brightest, mx _ _ hx]

example : ¬ ((Color.lrgb 1 2 3).toNRGBA.rgba.r = (Color.lrgb 1 2 3).toNRGBA.rgba.g ∧
    (Color.lrgb 1 2 3).toNRGBA.rgba.r = (Color.lrgb 1 2 3).toNRGBA.rgba.b) := by decide

/-! ## C71 Behind -/

/-- **C71**: Behind always returns the bottom colour. -/
theorem C71_behind (draw : UInt16) (b t : Color) :
    ∃ c, composite draw Mode.behind b t = some c ∧ c.toNRGBA = b.toNRGBA := ⟨_, rfl, rfl⟩

/-- nothing of a layer is seen behind something half transparent -/
example : (composite 0 Mode.behind (.nrgba64 ⟨1, 2, 3, 0x8000⟩) (.nrgba64 ⟨0xffff, 0, 0, 0xffff⟩)).map Color.toNRGBA = some ⟨1, 2, 3, 0x8000⟩ := by decide

/-! ## C72 conversion to non-premultiplied colour -/

theorem unpremul_nat {r a : Nat} (hr : r ≤ a) (ha : a ≤ 65535) (h0 : 0 < a) :
    r * 65535 / a ≤ 65535 ∧ r * 65535 / a * a / 65535 ≤ r ∧ r ≤ r * 65535 / a * a / 65535 + 1 := by
  have h1 : r * 65535 / a ≤ 65535 := Nat.div_le_of_le_mul (Nat.mul_le_mul_right _ hr)
  have h2 : r * 65535 / a * a ≤ r * 65535 := Nat.div_mul_le_self ..
  have h3 : r * 65535 < (r * 65535 / a) * a + a := by
    have := Nat.lt_div_mul_add (a := r * 65535) h0
    exact this
  generalize r * 65535 / a * a = K at *
  omega

/-- **C72**: converting a colour to non-premultiplied form and premultiplying again gives back its
`RGBA()`: alpha exactly, the other channels exactly or one unit less, for every valid colour. -/
theorem C72_faithful (c : Color) (hv : Premul c.rgba32) :
    c.toNRGBA.a.toNat = c.rgba32.a.toNat ∧
    (c.toNRGBA.rgba.r.toNat ≤ c.rgba32.r.toNat ∧ c.rgba32.r.toNat ≤ c.toNRGBA.rgba.r.toNat + 1) ∧
    (c.toNRGBA.rgba.g.toNat ≤ c.rgba32.g.toNat ∧ c.rgba32.g.toNat ≤ c.toNRGBA.rgba.g.toNat + 1) ∧
    (c.toNRGBA.rgba.b.toNat ≤ c.rgba32.b.toNat ∧ c.rgba32.b.toNat ≤ c.toNRGBA.rgba.b.toNat + 1) := by
  have exact' : c.rgba32 = c.toNRGBA.rgba →
      c.toNRGBA.a.toNat = c.rgba32.a.toNat ∧
      (c.toNRGBA.rgba.r.toNat ≤ c.rgba32.r.toNat ∧ c.rgba32.r.toNat ≤ c.toNRGBA.rgba.r.toNat + 1) ∧
      (c.toNRGBA.rgba.g.toNat ≤ c.rgba32.g.toNat ∧ c.rgba32.g.toNat ≤ c.toNRGBA.rgba.g.toNat + 1) ∧
      (c.toNRGBA.rgba.b.toNat ≤ c.rgba32.b.toNat ∧ c.rgba32.b.toNat ≤ c.toNRGBA.rgba.b.toNat + 1) := by
    intro e
    rw [e, NRGBA64.rgba_a]
    exact ⟨rfl, ⟨Nat.le_refl _, Nat.le_succ _⟩, ⟨Nat.le_refl _, Nat.le_succ _⟩, ⟨Nat.le_refl _, Nat.le_succ _⟩⟩
  have std : ∀ d : Color, Premul d.rgba32 → ∀ n, n = nrgba64Model d → (∀ k, d ≠ .nrgba64 k) →
      n.a.toNat = d.rgba32.a.toNat ∧
      (n.rgba.r.toNat ≤ d.rgba32.r.toNat ∧ d.rgba32.r.toNat ≤ n.rgba.r.toNat + 1) ∧
      (n.rgba.g.toNat ≤ d.rgba32.g.toNat ∧ d.rgba32.g.toNat ≤ n.rgba.g.toNat + 1) ∧
      (n.rgba.b.toNat ≤ d.rgba32.b.toNat ∧ d.rgba32.b.toNat ≤ n.rgba.b.toNat + 1) := by
    rintro d ⟨hr, hg, hb, ha⟩ n hn hd
    have hn : n = (let q := d.rgba32
      if q.a = 0xffff then ⟨q.r.toUInt16, q.g.toUInt16, q.b.toUInt16, 0xffff⟩
      else if q.a = 0 then ⟨0, 0, 0, 0⟩
      else ⟨(q.r * 0xffff / q.a).toUInt16, (q.g * 0xffff / q.a).toUInt16,
         (q.b * 0xffff / q.a).toUInt16, q.a.toUInt16⟩) := by
      rw [hn]
      cases d <;> first | rfl | exact absurd rfl (hd _)
    dsimp only at hn
    rw [NRGBA64.rgba_r, NRGBA64.rgba_g, NRGBA64.rgba_b]
    generalize d.rgba32 = q at *
    split at hn
    · rename_i h1
      have h1 : q.a.toNat = 65535 := by rw [h1]; rfl
      rw [hn]
      dsimp only
      rw [to16 _ (by omega), to16 _ (by omega), to16 _ (by omega), ffff16]
      omega
    · rename_i h1
      split at hn
      · rename_i h2
        have h2 : q.a.toNat = 0 := by rw [h2]; rfl
        rw [hn]
        have e0 : (0 : UInt16).toNat = 0 := rfl
        dsimp only
        rw [e0]
        omega
      · rename_i h2
        have h2 : 0 < q.a.toNat := by
          apply Nat.pos_of_ne_zero; intro e; apply h2; apply UInt32.toNat_inj.1; rw [e]; rfl
        have ch : ∀ x : UInt32, x.toNat ≤ q.a.toNat →
            (x * 0xffff / q.a).toUInt16.toNat = x.toNat * 65535 / q.a.toNat := by
          intro x hx
          have hm : (x * 0xffff).toNat = x.toNat * 65535 := by
            rw [mul32] <;> rw [ffff32]; omega
          have hd : (x * 0xffff / q.a).toNat = x.toNat * 65535 / q.a.toNat := by
            rw [UInt32.toNat_div, hm]
          have := (unpremul_nat hx ha h2).1
          rw [to16 _ (by rw [hd]; exact this), hd]
        rw [hn]
        dsimp only
        rw [ch _ hr, ch _ hg, ch _ hb, to16 _ ha]
        exact ⟨rfl, (unpremul_nat hr ha h2).2, (unpremul_nat hg ha h2).2, (unpremul_nat hb ha h2).2⟩
  cases c with
  | lrgb r g b => exact exact' (C17_agrees _ trivial)
  | grayAlpha y a => exact exact' (C17_agrees _ trivial)
  | hsla h s l a => exact exact' rfl
  | hsva h s v a => exact exact' rfl
  | nrgba64 n => exact exact' rfl
  | nrgba r g b a =>
    have e : ∀ y : UInt8, 257 * y.toNat * a.toNat / 255 = 257 * y.toNat * (257 * a.toNat) / 65535 := by
      intro y
      rw [show 257 * y.toNat * (257 * a.toNat) = 257 * (257 * y.toNat * a.toNat) by
        rw [Nat.mul_left_comm]]
      rw [show 65535 = 257 * 255 by rfl, Nat.mul_div_mul_left _ _ (by omega)]
    rw [NRGBA64.rgba_r, NRGBA64.rgba_g, NRGBA64.rgba_b]
    simp only [Color.rgba32, Color.toNRGBA, gray_premul_nat, widen16_nat, widen32_nat, e]
    exact ⟨trivial, ⟨Nat.le_refl _, Nat.le_succ _⟩, ⟨Nat.le_refl _, Nat.le_succ _⟩, ⟨Nat.le_refl _, Nat.le_succ _⟩⟩
  | rgba r g b a => exact std _ hv _ rfl (by intro k h; cases h)
  | rgba64 r g b a => exact std _ hv _ rfl (by intro k h; cases h)
  | alpha a => exact std _ hv _ rfl (by intro k h; cases h)
  | gray y => exact std _ hv _ rfl (by intro k h; cases h)
  | gray16 y => exact std _ hv _ rfl (by intro k h; cases h)
  | other q => exact std _ hv _ rfl (by intro k h; cases h)

/-- a premultiplied colour -/
example : Premul (Color.rgba64 0x4000 0x2000 0 0x8000).rgba32 ∧ (Color.rgba64 0x4000 0x2000 0 0x8000).toNRGBA = ⟨0x7fff, 0x3fff, 0, 0x8000⟩ := by
  refine ⟨?_, by decide⟩
  simp only [Premul]
  decide

/-- **C72**: byte colours are widened so that 0 and 255 become 0 and 65535 and steps are equal. -/
theorem C72_widen (r g b a : UInt8) :
    let n := (Color.nrgba r g b a).toNRGBA
    n.r.toNat = 257 * r.toNat ∧ n.g.toNat = 257 * g.toNat ∧ n.b.toNat = 257 * b.toNat ∧
      n.a.toNat = 257 * a.toNat := by
  simp only [Color.toNRGBA, widen16_nat]
  exact ⟨trivial, trivial, trivial, trivial⟩

example : Premul (Color.rgba64 7 8 9 20000).rgba32 ∧ Premul (Color.alpha 3).rgba32 := by
  refine ⟨?_, ?_⟩ <;> simp only [Premul] <;> decide

/-! ## C73 setting a colour and reading it back -/

/-- **C73**, RGB images: reading back a colour that was set gives, for each channel, the high byte
of the colour's `RGBA()`; for colours of the image's own type exactly that colour; always opaque. -/
theorem C73_rgb (c : Color) (hv : Premul c.rgba32) :
    ∃ r g b, (RGBPix.ofColor c).toColor = .lrgb r g b ∧
      r.toNat = c.rgba32.r.toNat / 256 ∧ g.toNat = c.rgba32.g.toNat / 256 ∧
      b.toNat = c.rgba32.b.toNat / 256 := by
  obtain ⟨h1, h2, h3, h4⟩ := hv
  refine ⟨_, _, _, rfl, ?_, ?_, ?_⟩
  all_goals
    simp only [RGBPix.ofColor]
    rw [UInt32.toNat_toUInt8, UInt32.toNat_shiftRight]
    simp [Nat.shiftRight_eq_div_pow]
    omega

/-- a half transparent colour -/
example : (RGBPix.ofColor (.nrgba64 ⟨0xffff, 0x8000, 0, 0x8000⟩)).toColor = .lrgb 0x80 0x40 0 := by decide

theorem C73_rgb_exact (r g b : UInt8) : (RGBPix.ofColor (.lrgb r g b)).toColor = .lrgb r g b := by
  have := C18_rgb_idempotent r g b
  unfold rgbModel at this
  simp only [Prod.mk.injEq] at this
  simp only [RGBPix.toColor, RGBPix.ofColor, this.1, this.2.1, this.2.2]

example : (RGBPix.ofColor (.lrgb 1 2 3)).toColor = .lrgb 1 2 3 := C73_rgb_exact 1 2 3

/-- **C73**, grey images: the alpha of the colour is kept (high byte), and opaque colours of the
image's own type are kept exactly.  (Partly transparent ones are not: `C18_gray_refuted`.) -/
theorem C73_gray (c : Color) (hv : Premul c.rgba32) :
    ∃ y a, (GrayPix.ofColor c).toColor = .grayAlpha y a ∧ a.toNat = c.rgba32.a.toNat / 256 ∧
      y = grayModel c := by
  obtain ⟨h1, h2, h3, h4⟩ := hv
  refine ⟨_, _, rfl, ?_, rfl⟩
  simp only [GrayPix.ofColor, grayAlphaModel]
  rw [UInt32.toNat_toUInt8, UInt32.toNat_shiftRight]
  simp [Nat.shiftRight_eq_div_pow]
  omega

/-- a half transparent grey gets darker -/
example : (GrayPix.ofColor (.nrgba64 ⟨0xffff, 0xffff, 0xffff, 0x8000⟩)).toColor = .grayAlpha 0x80 0x80 := by decide

theorem C73_gray_exact (y : UInt8) : (GrayPix.ofColor (.grayAlpha y 255)).toColor = .grayAlpha y 255 := by
  have := (C18_gray_partial y 255).2 rfl
  simp only [GrayPix.toColor, GrayPix.ofColor, this]

example : (GrayPix.ofColor (.grayAlpha 77 255)).toColor = .grayAlpha 77 255 := C73_gray_exact 77

/-- **C73**, grey images: the grey value stored for any colour with equal channels is the high byte
of that channel. -/
theorem C73_gray_of_grey (c : Color) (hc : ∀ y, c ≠ .gray y) (v : Nat) (hv : v ≤ 65535)
    (hr : c.rgba32.r.toNat = v) (hg : c.rgba32.g.toNat = v) (hb : c.rgba32.b.toNat = v) :
    (grayModel c).toNat = v / 256 := by
  have e : grayModel c = (((19595 * c.rgba32.r + 38470 * c.rgba32.g + 7471 * c.rgba32.b + 0x8000) : UInt32)
      >>> 24).toUInt8 := by
    cases c <;> first | rfl | exact absurd rfl (hc _)
  rw [e]
  generalize c.rgba32 = q at *
  have k1 : (19595 * q.r).toNat = 19595 * v := by
    have e : (19595 : UInt32).toNat = 19595 := rfl
    rw [mul32 _ _ (by rw [e]; omega), e, hr]
  have k2 : (38470 * q.g).toNat = 38470 * v := by
    have e : (38470 : UInt32).toNat = 38470 := rfl
    rw [mul32 _ _ (by rw [e]; omega), e, hg]
  have k3 : (7471 * q.b).toNat = 7471 * v := by
    have e : (7471 : UInt32).toNat = 7471 := rfl
    rw [mul32 _ _ (by rw [e]; omega), e, hb]
  have e8 : (0x8000 : UInt32).toNat = 32768 := rfl
  have k12 : (19595 * q.r + 38470 * q.g).toNat = 58065 * v := by rw [add32] <;> omega
  have k123 : (19595 * q.r + 38470 * q.g + 7471 * q.b).toNat = 65536 * v := by rw [add32] <;> omega
  have k : (19595 * q.r + 38470 * q.g + 7471 * q.b + 0x8000).toNat = 65536 * v + 32768 := by
    rw [add32] <;> omega
  rw [UInt32.toNat_toUInt8, UInt32.toNat_shiftRight, k]
  simp [Nat.shiftRight_eq_div_pow]
  omega

example : grayModel (.nrgba64 ⟨0x1234, 0x1234, 0x1234, 0xffff⟩) = 0x12 := by decide

/-- **C73**, indexed images: the colour read back is the nearest palette entry's (high bytes of its
`RGBA()`) with the alpha of the colour that was set. -/
theorem C73_indexed (pal : List Color) (h1 : pal ≠ []) (h2 : pal.length ≤ 256) (c : Color)
    (hv : Premul c.rgba32) (hp : ∀ v ∈ pal, Premul v.rgba32) :
    ∃ v r g b a, v ∈ pal ∧ (∀ w ∈ pal, dist c.rgba32 v.rgba32 ≤ dist c.rgba32 w.rgba32) ∧
      IdxPix.toColor pal (IdxPix.ofColor pal c) = some (.nrgba r g b a) ∧
      r.toNat = v.rgba32.r.toNat / 256 ∧ g.toNat = v.rgba32.g.toNat / 256 ∧
      b.toNat = v.rgba32.b.toNat / 256 ∧ a.toNat = c.rgba32.a.toNat / 256 := by
  have val : ∀ q, Premul q → ValidRGBA q := by
    rintro q ⟨a, b, c, d⟩; exact ⟨by omega, by omega, by omega, d⟩
  obtain ⟨v, hidx, hnear, -⟩ := C19_nearest pal h1 c (val _ hv) (fun w hw => val _ (hp w hw))
  have hlt : paletteIndex pal c < pal.length := by
    obtain ⟨h, -⟩ := List.getElem?_eq_some_iff.1 hidx; exact h
  have hmem : v ∈ pal := List.mem_of_getElem? hidx
  obtain ⟨p1, p2, p3, p4⟩ := hp v hmem
  obtain ⟨c1, c2, c3, c4⟩ := hv
  have hi : (UInt8.ofNat (paletteIndex pal c)).toNat = paletteIndex pal c := by
    rw [UInt8.toNat_ofNat']; omega
  refine ⟨v, (v.rgba32.r >>> 8).toUInt8, (v.rgba32.g >>> 8).toUInt8, (v.rgba32.b >>> 8).toUInt8,
    (c.rgba32.a >>> 8).toUInt8, hmem, hnear, ?_, ?_, ?_, ?_, ?_⟩
  · unfold IdxPix.toColor IdxPix.ofColor
    dsimp only
    rw [hi, hidx]
  all_goals
    rw [UInt32.toNat_toUInt8, UInt32.toNat_shiftRight]
    simp [Nat.shiftRight_eq_div_pow]
    omega

example : Premul (Color.lrgb 1 2 3).rgba32 := C17_premultiplied _ trivial

example : (∀ y, Color.lrgb 4 4 4 ≠ .gray y) ∧ (Color.lrgb 4 4 4).rgba32.r.toNat = 1028 ∧
    (Color.lrgb 4 4 4).rgba32.g.toNat = 1028 ∧ (Color.lrgb 4 4 4).rgba32.b.toNat = 1028 := by
  refine ⟨(by intro y h; cases h), (by decide), (by decide), (by decide)⟩

example : [Color.lrgb 1 2 3, .gray 4] ≠ [] ∧ ∀ v ∈ [Color.lrgb 1 2 3, .gray 4], Premul v.rgba32 := by
  simp only [Premul]; decide

end Limage
