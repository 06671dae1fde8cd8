import Verif.Props.Exact
import Verif.Props.Neutral
/-!
# C156: layers in the same mode can be exchanged and merged
-/
namespace Limage

namespace Spec

/-- the layer shows the colour at the point, whatever random numbers there are -/
def ShowsColor (ρ : Nat → UInt16) (p : Pt) (l : Layer) (c : Color) : Prop :=
  ∀ n, l.image.at ρ ⟨p.x - l.bounds.x0, p.y - l.bounds.y0⟩ n = some (c, n)

/-- what opaque layers in one mode do to a value below them: Addition, Subtract, Darken Only and Lighten Only -/
def merged : List (UInt32 × (Nat → List Nat → Nat)) :=
  [(7, fun x ys => min 65535 (x + ys.sum)), (8, fun x ys => x - ys.sum), (9, fun x ys => ys.foldr min x), (10, fun x ys => ys.foldr max x)]

/-- three equal channels -/
def IsGrey (c : NRGBA64) : Prop := c.g = c.r ∧ c.b = c.r

open Classical in
/-- the colours of the layers that show at the point -/
noncomputable def colorsAt (p : Pt) (col : Layer → Color) (g : List Layer) : List NRGBA64 :=
  (g.filter fun l => shows p l).map fun l => (col l).toNRGBA

/-- the full claim: opaque layers in one of these modes can be put in any order -/
def AnyOrder : Prop := ∀ (m : Mode) (φ), (m, φ) ∈ merged → ∀ (ρ : Nat → UInt16) (upper upper' lower : List Layer),
  upper.Perm upper' → ∀ (p : Pt) (n : Nat),
  (∀ l ∈ upper, shows p l → l.mode = m ∧ l.transparency = 0 ∧ ∃ c, ShowsColor ρ p l c ∧ c.toNRGBA.a = 0xffff) →
  (groupModel (upper ++ lower)).map ColorModel.isPalette = some false →
  (groupModel (upper' ++ lower)).map ColorModel.isPalette = some false →
  (groupModel lower).map ColorModel.isPalette = some false →
  ∀ (c0 : Color) (n0 : Nat), Img.at ρ (.group lower) p n = some (c0, n0) → c0.toNRGBA.a = 0xffff →
  ∃ c c', Img.at ρ (.group (upper ++ lower)) p n = some (c, n0) ∧ Img.at ρ (.group (upper' ++ lower)) p n = some (c', n0) ∧
    c.toNRGBA = c'.toNRGBA

end Spec
open Spec

theorem merged_nil {m : Mode} {φ} (h : (m, φ) ∈ merged) (x : UInt16) : φ x.toNat [] = x.toNat := by
  have := u16_le x
  simp only [merged, List.mem_cons, List.not_mem_nil, or_false, Prod.mk.injEq] at h
  rcases h with ⟨-, rfl⟩ | ⟨-, rfl⟩ | ⟨-, rfl⟩ | ⟨-, rfl⟩
  · dsimp only [List.sum_nil]; omega
  · rfl
  · rfl
  · rfl

theorem merged_cons {m : Mode} {φ} (h : (m, φ) ∈ merged) : ∃ f, channelFunc m = some f ∧
    ∀ (x y : UInt16) (x0 : Nat) (ys : List Nat), x.toNat = φ x0 ys → (f x y).toNat = φ x0 (y.toNat :: ys) := by
  simp only [merged, List.mem_cons, List.not_mem_nil, or_false, Prod.mk.injEq] at h
  rcases h with ⟨rfl, rfl⟩ | ⟨rfl, rfl⟩ | ⟨rfl, rfl⟩ | ⟨rfl, rfl⟩
  · refine ⟨compositeAddition, rfl, fun x y x0 ys h => ?_⟩
    have h1 := u16_le x
    have h2 := u16_le y
    dsimp only at h ⊢
    rw [List.sum_cons]
    unfold compositeAddition
    rw [clamp_nat, UInt32.toNat_add, UInt16.toNat_toUInt32, UInt16.toNat_toUInt32]
    omega
  · refine ⟨compositeSubtract, rfl, fun x y x0 ys h => ?_⟩
    dsimp only at h ⊢
    rw [List.sum_cons]
    unfold compositeSubtract
    by_cases hy : y > x
    · rw [if_pos hy]
      have := UInt16.lt_iff_toNat_lt.1 hy
      show 0 = _
      omega
    · rw [if_neg hy]
      have : y.toNat ≤ x.toNat := Nat.le_of_not_lt fun hh => hy (UInt16.lt_iff_toNat_lt.2 hh)
      rw [UInt16.toNat_sub_of_le _ _ (UInt16.le_iff_toNat_le.2 this)]
      omega
  · refine ⟨compositeDarkenOnly, rfl, fun x y x0 ys h => ?_⟩
    show (goMin [x, y]).toNat = min y.toNat (ys.foldr min x0)
    rw [goMin2, h, Nat.min_comm]
  · refine ⟨compositeLightenOnly, rfl, fun x y x0 ys h => ?_⟩
    show (goMax [x, y]).toNat = max y.toNat (ys.foldr max x0)
    rw [goMax2, h, Nat.max_comm]

theorem merged_perm {m : Mode} {φ} (h : (m, φ) ∈ merged) (x : Nat) {ys zs : List Nat} (hp : ys.Perm zs) : φ x ys = φ x zs := by
  simp only [merged, List.mem_cons, List.not_mem_nil, or_false, Prod.mk.injEq] at h
  rcases h with ⟨-, rfl⟩ | ⟨-, rfl⟩ | ⟨-, rfl⟩ | ⟨-, rfl⟩
  · dsimp only; rw [hp.sum_eq]
  · dsimp only; rw [hp.sum_eq]
  · exact hp.foldr_eq (f := min) (lcomm := ⟨fun a b c => by omega⟩) x
  · exact hp.foldr_eq (f := max) (lcomm := ⟨fun a b c => by omega⟩) x

/-- **C156**: opaque layers in one of the modes Addition, Subtract, Darken Only and Lighten Only over something opaque: the red that
shows is that below plus, or minus, the sum of theirs (within black and white), or the smallest, or the largest of all; where
all colours are grey, so are the others. -/
theorem C156_merged (m : Mode) (φ) (hm : (m, φ) ∈ merged) (ρ : Nat → UInt16) (upper lower : List Layer) (p : Pt) (n : Nat)
    (col : Layer → Color)
    (hu : ∀ l ∈ upper, shows p l → l.mode = m ∧ l.transparency = 0 ∧ ShowsColor ρ p l (col l) ∧ (col l).toNRGBA.a = 0xffff)
    (hcm : (groupModel (upper ++ lower)).map ColorModel.isPalette = some false)
    (hlow : (groupModel lower).map ColorModel.isPalette = some false)
    (c0 : Color) (n0 : Nat) (h0 : Img.at ρ (.group lower) p n = some (c0, n0)) (hc0 : c0.toNRGBA.a = 0xffff) :
    ∃ c, Img.at ρ (.group (upper ++ lower)) p n = some (c, n0) ∧ c.toNRGBA.a = 0xffff ∧
      c.toNRGBA.r.toNat = φ c0.toNRGBA.r.toNat ((colorsAt p col upper).map (·.r.toNat)) ∧
      (IsGrey c0.toNRGBA → (∀ l ∈ upper, shows p l → IsGrey (col l).toNRGBA) → IsGrey c.toNRGBA) := by
  rw [at_group]
  rw [at_group, layersAt_flag lower (hlow.trans hcm.symm)] at h0
  generalize groupModel (upper ++ lower) = cm at h0 hcm ⊢
  clear hlow
  obtain ⟨f, hf, hstep⟩ := merged_cons hm
  induction upper with
  | nil => exact ⟨c0, h0, hc0, (merged_nil hm _).symm, fun h _ => h⟩
  | cons l g ih =>
    obtain ⟨b, hb, ha, he, hg⟩ := ih fun l hl => hu l (List.mem_cons_of_mem _ hl)
    by_cases hs : shows p l
    · obtain ⟨h1, h2, h3, h4⟩ := hu l List.mem_cons_self hs
      refine ⟨.nrgba64 ⟨f b.toNRGBA.r (col l).toNRGBA.r, f b.toNRGBA.r (col l).toNRGBA.g, f b.toNRGBA.r (col l).toNRGBA.b, 0xffff⟩, ?_, rfl, ?_, ?_⟩
      · rw [List.cons_append, layersAt_cons, hb, Option.bind_some]
        dsimp only
        rw [drawLayer_shows _ _ hs]
        cases cm with
        | none => cases hcm
        | some cm =>
          have hp : cm.isPalette = false := by simpa using hcm
          have hl : layerAt ρ l p n0 = some (col l, n0) := by
            unfold layerAt
            rw [h3 n0, h2]
            rfl
          have hd : l.mode ≠ Mode.dissolve := by
            rw [h1]
            simp only [merged, List.mem_cons, List.not_mem_nil, or_false, Prod.mk.injEq] at hm
            rcases hm with ⟨rfl, -⟩ | ⟨rfl, -⟩ | ⟨rfl, -⟩ | ⟨rfl, -⟩ <;> decide
          rw [Option.bind_some, hl, Option.bind_some]
          dsimp only
          rw [if_neg (by simp [hp]), if_neg hd, h1, composite_opaque hf 0 b (col l) ha h4]
          rfl
      · show (f b.toNRGBA.r (col l).toNRGBA.r).toNat = _
        rw [hstep _ _ _ _ he]
        unfold colorsAt
        rw [List.filter_cons_of_pos (by simpa using hs)]
        rfl
      · intro g0 gs
        obtain ⟨e1, e2⟩ := gs l List.mem_cons_self hs
        show f b.toNRGBA.r (col l).toNRGBA.g = f b.toNRGBA.r (col l).toNRGBA.r ∧ f b.toNRGBA.r (col l).toNRGBA.b = f b.toNRGBA.r (col l).toNRGBA.r
        rw [e1, e2]
        exact ⟨rfl, rfl⟩
    · refine ⟨b, ?_, ha, ?_, fun g0 gs => hg g0 fun l hl => gs l (List.mem_cons_of_mem _ hl)⟩
      · rw [List.cons_append, layersAt_cons, hb, Option.bind_some]
        exact drawLayer_hidden _ _ hs
      · rw [he]
        unfold colorsAt
        rw [List.filter_cons_of_neg (by simpa using hs)]

/-- a layer of one colour -/
def plainLayer (m : Mode) (c : Color) : Layer := ⟨[], ⟨0, 0, 4, 4⟩, m, false, 0, plainLeaf c .other⟩

theorem plainLayer_shows (m : Mode) (c : Color) : shows ⟨1, 1⟩ (plainLayer m c) := ⟨rfl, by unfold inRect plainLayer; dsimp only; decide⟩

theorem plainLayer_color (ρ : Nat → UInt16) (m : Mode) (c : Color) : ShowsColor ρ ⟨1, 1⟩ (plainLayer m c) c := by
  intro n
  unfold plainLayer plainLeaf
  rw [Img.at]
  rfl

theorem plainLayer_model (m : Mode) (c : Color) (g : List Layer) :
    (groupModel (plainLayer m c :: g)).map ColorModel.isPalette = some false := by
  rw [groupModel_cons]
  unfold plainLayer plainLeaf
  rw [Img.colorModel]
  rfl

/-- two grey Addition layers on a grey one -/
example : ((7 : UInt32), fun x ys => min 65535 (x + ys.sum)) ∈ merged ∧ shows ⟨1, 1⟩ (plainLayer 7 (.gray 20)) ∧
    (∀ l ∈ [plainLayer 7 (.gray 20), plainLayer 7 (.gray 30)], shows ⟨1, 1⟩ l → l.mode = 7 ∧ l.transparency = 0 ∧
      ∃ c, ShowsColor (fun _ => 3) ⟨1, 1⟩ l c ∧ c.toNRGBA.a = 0xffff ∧ IsGrey c.toNRGBA) ∧
    (groupModel ([plainLayer 7 (.gray 20), plainLayer 7 (.gray 30)] ++ [plainLayer 0 (.gray 50)])).map ColorModel.isPalette = some false ∧
    (groupModel [plainLayer 0 (.gray 50)]).map ColorModel.isPalette = some false ∧
    Img.at (fun _ => 3) (.group [plainLayer 0 (.gray 50)]) ⟨1, 1⟩ 0 = some (.nrgba64 ⟨0x3232, 0x3232, 0x3232, 0xffff⟩, 0) := by
  refine ⟨by simp [merged], plainLayer_shows _ _, ?_, plainLayer_model _ _ _, plainLayer_model _ _ _, by cbv⟩
  intro l hl _
  rcases List.mem_cons.1 hl with rfl | hl
  · exact ⟨rfl, rfl, _, plainLayer_color _ _ _, by decide, by decide, by decide⟩
  · rw [List.mem_singleton] at hl
    subst hl
    exact ⟨rfl, rfl, _, plainLayer_color _ _ _, by decide, by decide, by decide⟩

/-- **C156**: such layers can be put in any order, as far as red, coverage and greys are concerned.
Missing: green and blue of other colours (`AnyOrder`, refuted below). -/
theorem C156_order_partial (m : Mode) (φ) (hm : (m, φ) ∈ merged) (ρ : Nat → UInt16) (upper upper' lower : List Layer)
    (hperm : upper.Perm upper') (p : Pt) (n : Nat)
    (hu : ∀ l ∈ upper, shows p l → l.mode = m ∧ l.transparency = 0 ∧ ∃ c, ShowsColor ρ p l c ∧ c.toNRGBA.a = 0xffff)
    (hcm : (groupModel (upper ++ lower)).map ColorModel.isPalette = some false)
    (hcm' : (groupModel (upper' ++ lower)).map ColorModel.isPalette = some false)
    (hlow : (groupModel lower).map ColorModel.isPalette = some false)
    (c0 : Color) (n0 : Nat) (h0 : Img.at ρ (.group lower) p n = some (c0, n0)) (hc0 : c0.toNRGBA.a = 0xffff) :
    ∃ c c', Img.at ρ (.group (upper ++ lower)) p n = some (c, n0) ∧ Img.at ρ (.group (upper' ++ lower)) p n = some (c', n0) ∧
      c.toNRGBA.a = c'.toNRGBA.a ∧ c.toNRGBA.r = c'.toNRGBA.r ∧
      (IsGrey c0.toNRGBA → (∀ l ∈ upper, shows p l → ∀ c, ShowsColor ρ p l c → IsGrey c.toNRGBA) → c.toNRGBA = c'.toNRGBA) := by
  classical
  have hu2 : ∀ l, ∃ c, l ∈ upper → shows p l → ShowsColor ρ p l c ∧ c.toNRGBA.a = 0xffff := by
    intro l
    by_cases h : l ∈ upper ∧ shows p l
    · obtain ⟨-, -, c, hc⟩ := hu l h.1 h.2
      exact ⟨c, fun _ _ => hc⟩
    · exact ⟨.alpha 0, fun h1 h2 => absurd ⟨h1, h2⟩ h⟩
  choose col hcol using hu2
  obtain ⟨c, e1, a1, r1, g1⟩ := C156_merged m φ hm ρ upper lower p n col
    (fun l hl hs => ⟨(hu l hl hs).1, (hu l hl hs).2.1, hcol l hl hs⟩) hcm hlow c0 n0 h0 hc0
  obtain ⟨c', e2, a2, r2, g2⟩ := C156_merged m φ hm ρ upper' lower p n col
    (fun l hl hs => ⟨(hu l (hperm.mem_iff.2 hl) hs).1, (hu l (hperm.mem_iff.2 hl) hs).2.1, hcol l (hperm.mem_iff.2 hl) hs⟩) hcm' hlow c0 n0 h0 hc0
  have hr : c.toNRGBA.r = c'.toNRGBA.r := by
    refine UInt16.toNat_inj.1 (r1.trans (Eq.trans ?_ r2.symm))
    exact merged_perm hm _ (((hperm.filter _).map _).map _)
  refine ⟨c, c', e1, e2, a1.trans a2.symm, hr, fun h1 h2 => ?_⟩
  obtain ⟨x1, x2⟩ := g1 h1 fun l hl hs => h2 l hl hs _ (hcol l hl hs).1
  obtain ⟨y1, y2⟩ := g2 h1 fun l hl hs => h2 l (hperm.mem_iff.2 hl) hs _ (hcol l (hperm.mem_iff.2 hl) hs).1
  refine NRGBA64.ext_nat (by rw [hr]) (by rw [x1, y1, hr]) (by rw [x2, y2, hr]) (by rw [a1, a2])


/-- a list of coats all in mode Multiply: their effects are factors -/
theorem coated_multiply (ks : List Coat) (h : ∀ k ∈ ks, k.formula = multiply) (x : ℚ) :
    coated ks x = x * (ks.map fun k => 1 - k.cover + k.cover * k.value).prod := by
  induction ks with
  | nil => rw [coated, List.map_nil, List.prod_nil, mul_one]
  | cons k ks ih =>
    rw [coated, ih fun k hk => h k (List.mem_cons_of_mem _ hk), h k List.mem_cons_self, List.map_cons, List.prod_cons]
    unfold multiply
    ring

theorem coated_screen (ks : List Coat) (h : ∀ k ∈ ks, k.formula = screen) (x : ℚ) :
    coated ks x = 1 - (1 - x) * (ks.map fun k => 1 - k.cover * k.value).prod := by
  induction ks with
  | nil => rw [coated, List.map_nil, List.prod_nil]; ring
  | cons k ks ih =>
    rw [coated, ih fun k hk => h k (List.mem_cons_of_mem _ hk), h k List.mem_cons_self, List.map_cons, List.prod_cons]
    unfold screen
    ring

open Classical in
/-- the coats of layers that are all in one mode -/
noncomputable def coatsIn (p : Pt) (φ : ℚ → ℚ → ℚ) (col : Layer → Color) (g : List Layer) : List Coat :=
  (g.filter fun l => shows p l).map fun l =>
    ⟨φ, unit (col l).toNRGBA.r, (1 - l.transparency.toNat / 255) * unit (col l).toNRGBA.a⟩

theorem coatsIn_coats {m : Mode} {φ} (hm : (m, φ) ∈ gentle) {ρ : Nat → UInt16} {p : Pt} {col : Layer → Color} : ∀ {g : List Layer},
    (∀ l ∈ g, shows p l → l.mode = m ∧ ShowsColor ρ p l (col l)) → Coats NRGBA64.r ρ p g (coatsIn p φ col g) := by
  intro g
  induction g with
  | nil => intro _; exact .nil
  | cons l g ih =>
    intro h
    have rest := ih fun l hl => h l (List.mem_cons_of_mem _ hl)
    by_cases hs : shows p l
    · obtain ⟨h1, h2⟩ := h l List.mem_cons_self hs
      unfold coatsIn
      rw [List.filter_cons_of_pos (by simpa using hs)]
      exact .shown hs (by rw [h1]; exact hm) h2 rest
    · unfold coatsIn
      rw [List.filter_cons_of_neg (by simpa using hs)]
      exact .hidden hs rest

/-- **C156**: layers in mode Multiply, or in mode Screen, of any opacity and with translucent pixels, over something opaque, can be put
in any order: red changes by rounding only, eight steps of 65535 for every layer at most. -/
theorem C156_rounded_partial (m : Mode) (φ) (hm : (m, φ) = (3, multiply) ∨ (m, φ) = (4, screen)) (ρ : Nat → UInt16)
    (upper upper' lower : List Layer) (hperm : upper.Perm upper') (p : Pt) (n : Nat)
    (hu : ∀ l ∈ upper, shows p l → l.mode = m ∧ ∃ c, ShowsColor ρ p l c)
    (hcm : (groupModel (upper ++ lower)).map ColorModel.isPalette = some false)
    (hcm' : (groupModel (upper' ++ lower)).map ColorModel.isPalette = some false)
    (hlow : (groupModel lower).map ColorModel.isPalette = some false)
    (c0 : Color) (n0 : Nat) (h0 : Img.at ρ (.group lower) p n = some (c0, n0)) (hc0 : c0.toNRGBA.a = 0xffff) :
    ∃ c c', Img.at ρ (.group (upper ++ lower)) p n = some (c, n0) ∧ Img.at ρ (.group (upper' ++ lower)) p n = some (c', n0) ∧
      c.toNRGBA.a = c'.toNRGBA.a ∧ |unit c.toNRGBA.r - unit c'.toNRGBA.r| ≤ 8 * upper.length / 65535 := by
  classical
  have hg : (m, φ) ∈ gentle := by
    rcases hm with h | h <;> (rw [h]; simp [gentle])
  have hu2 : ∀ l, ∃ c, l ∈ upper → shows p l → ShowsColor ρ p l c := by
    intro l
    by_cases h : l ∈ upper ∧ shows p l
    · obtain ⟨-, c, hc⟩ := hu l h.1 h.2
      exact ⟨c, fun _ _ => hc⟩
    · exact ⟨.alpha 0, fun h1 h2 => absurd ⟨h1, h2⟩ h⟩
  choose col hcol using hu2
  have hk := coatsIn_coats hg (g := upper) fun l hl hs => ⟨(hu l hl hs).1, hcol l hl hs⟩
  have hk' := coatsIn_coats hg (g := upper') fun l hl hs => ⟨(hu l (hperm.mem_iff.2 hl) hs).1, hcol l (hperm.mem_iff.2 hl) hs⟩
  obtain ⟨c, e1, a1, d1⟩ := C147_red_partial ρ upper lower _ p n hk hcm hlow c0 n0 h0 hc0
  obtain ⟨c', e2, a2, d2⟩ := C147_red_partial ρ upper' lower _ p n hk' hcm' hlow c0 n0 h0 hc0
  have hpk : (coatsIn p φ col upper).Perm (coatsIn p φ col upper') := (hperm.filter _).map _
  have hform : ∀ g, ∀ k ∈ coatsIn p φ col g, k.formula = φ := by
    intro g k hk
    obtain ⟨l, -, rfl⟩ := List.mem_map.1 hk
    rfl
  have hsame : coated (coatsIn p φ col upper) (unit c0.toNRGBA.r) = coated (coatsIn p φ col upper') (unit c0.toNRGBA.r) := by
    rcases hm with h | h
    · cases h
      rw [coated_multiply _ (hform _), coated_multiply _ (hform _), (hpk.map _).prod_eq]
    · cases h
      rw [coated_screen _ (hform _), coated_screen _ (hform _), (hpk.map _).prod_eq]
  refine ⟨c, c', e1, e2, a1.trans a2.symm, ?_⟩
  rw [← hpk.length_eq, ← hsame] at d2
  have hlen : ((coatsIn p φ col upper).length : ℚ) ≤ upper.length := by
    have : (coatsIn p φ col upper).length ≤ upper.length := by
      unfold coatsIn
      rw [List.length_map]
      exact List.length_filter_le _ _
    exact_mod_cast this
  rw [abs_le] at d1 d2 ⊢
  have e : (8 : ℚ) * upper.length / 65535 = 4 * upper.length / 65535 + 4 * upper.length / 65535 := by ring
  have e3 : (4 : ℚ) * (coatsIn p φ col upper).length / 65535 ≤ 4 * upper.length / 65535 := by
    rw [div_le_div_iff_of_pos_right (by norm_num)]
    linarith
  rw [e]
  constructor <;> linarith

/-- two translucent Screen layers in either order -/
example : ([plainLayer 4 (.nrgba 9 80 200 99), plainLayer 4 (.gray 30)]).Perm [plainLayer 4 (.gray 30), plainLayer 4 (.nrgba 9 80 200 99)] ∧
    (∀ l ∈ [plainLayer 4 (.nrgba 9 80 200 99), plainLayer 4 (.gray 30)], shows ⟨1, 1⟩ l → l.mode = 4 ∧ ∃ c, ShowsColor (fun _ => 3) ⟨1, 1⟩ l c) := by
  refine ⟨List.Perm.swap _ _ _, ?_⟩
  intro l hl _
  rcases List.mem_cons.1 hl with rfl | hl
  · exact ⟨rfl, _, plainLayer_color _ _ _⟩
  · rw [List.mem_singleton] at hl
    subst hl
    exact ⟨rfl, _, plainLayer_color _ _ _⟩

/-- **C156** is false of green and blue: of a red and a green layer in mode Lighten Only over black, the one on top decides whether
blue shows, as the red below is used for all channels. -/
theorem C156_refuted : ¬ AnyOrder := by
  intro h
  obtain ⟨c, c', h1, h2, h3⟩ := h 10 (fun x ys => ys.foldr max x) (by simp [merged]) (fun _ => 3)
    [plainLayer 10 (.nrgba 0 255 0 255), plainLayer 10 (.nrgba 255 0 0 255)] [plainLayer 10 (.nrgba 255 0 0 255), plainLayer 10 (.nrgba 0 255 0 255)]
    [plainLayer 0 (.gray 0)] (List.Perm.swap _ _ _) ⟨1, 1⟩ 0 (by
      intro l hl _
      rcases List.mem_cons.1 hl with rfl | hl
      · exact ⟨rfl, rfl, _, plainLayer_color _ _ _, by decide⟩
      · rw [List.mem_singleton] at hl
        subst hl
        exact ⟨rfl, rfl, _, plainLayer_color _ _ _, by decide⟩)
    (plainLayer_model _ _ _) (plainLayer_model _ _ _) (plainLayer_model _ _ _) (.nrgba64 ⟨0, 0, 0, 0xffff⟩) 0 (by cbv) (by decide)
  have e1 : Img.at (fun _ => 3) (.group ([plainLayer 10 (.nrgba 0 255 0 255), plainLayer 10 (.nrgba 255 0 0 255)] ++ [plainLayer 0 (.gray 0)])) ⟨1, 1⟩ 0 =
      some (.nrgba64 ⟨0xffff, 0xffff, 0xffff, 0xffff⟩, 0) := by cbv
  have e2 : Img.at (fun _ => 3) (.group ([plainLayer 10 (.nrgba 255 0 0 255), plainLayer 10 (.nrgba 0 255 0 255)] ++ [plainLayer 0 (.gray 0)])) ⟨1, 1⟩ 0 =
      some (.nrgba64 ⟨0xffff, 0, 0, 0xffff⟩, 0) := by cbv
  rw [e1] at h1
  rw [e2] at h2
  cases h1
  cases h2
  revert h3
  decide

end Limage
