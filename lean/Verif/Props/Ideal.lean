import Verif.Props.Over
import Verif.Props.Grouping
/-!
# C108: nested pictures of Normal layers are drawn as exact arithmetic would draw them

`Spec.ideal` is the picture over the rational numbers: opacities and masks scale light, and layers are put one over the other (`over` of C103).
-/
namespace Limage.Spec

/-- light of which only the part `s` is let through -/
def dim (s : ℚ) (x : Light) : Light := ⟨s * x.r, s * x.g, s * x.b, s * x.a⟩

/-- no light -/
def dark : Light := ⟨0, 0, 0, 0⟩

instance (r : Rect) (p : Pt) : Decidable (inRect r p) := by unfold inRect; infer_instance

mutual
/-- the light of an image at a point, computed exactly from the colours of the images in it -/
def ideal (i : Img) (p : Pt) : Light :=
  match i with
  | .leaf L => (L.pixel p).elim dark fun c => lightOf c.rgba32
  | .nil => dark
  | .text i _ => ideal i p
  | .masked _ none => dark
  | .masked i (some m) => if inRect m.rect p then dim ((m.pix p).toNat / 255) (ideal i p) else dark
  | .group g => idealLayers g p
termination_by structural i

/-- the light of layers one over the other, the first on top -/
def idealLayers (g : List Layer) (p : Pt) : Light :=
  match g with
  | [] => dark
  | ⟨_, b, _, invisible, tr, im⟩ :: rest =>
    if invisible = false ∧ inRect b p then
      over (idealLayers rest p) (dim (1 - tr.toNat / 255) (ideal im ⟨p.x - b.x0, p.y - b.y0⟩))
    else idealLayers rest p
termination_by structural g
end

mutual
/-- an image of Normal layers without palettes, all pixels of which are proper colours -/
def Smooth (i : Img) : Prop :=
  match i with
  | .leaf L => ∀ p, ∃ c, L.pixel p = some c ∧ Premul c.rgba32
  | .nil => False
  | .text i _ => Smooth i
  | .masked _ none => False
  | .masked i (some _) => Smooth i
  | .group g => (∃ cm, groupModel g = some cm ∧ cm.isPalette = false) ∧ SmoothLayers g
termination_by structural i

/-- Normal layers with such images -/
def SmoothLayers (g : List Layer) : Prop :=
  match g with
  | [] => True
  | ⟨_, _, mode, _, _, im⟩ :: rest => mode = Mode.normal ∧ Smooth im ∧ SmoothLayers rest
termination_by structural g
end

mutual
/-- number of images, masks and layers -/
def parts (i : Img) : Nat :=
  match i with
  | .leaf _ => 1
  | .nil => 1
  | .text i _ => parts i
  | .masked i _ => parts i + 1
  | .group g => partsOf g
termination_by structural i

/-- the same for the layers of a group -/
def partsOf (g : List Layer) : Nat :=
  match g with
  | [] => 0
  | ⟨_, _, _, _, _, im⟩ :: rest => parts im + 1 + partsOf rest
termination_by structural g
end

mutual
/-- levels of groups -/
def levels (i : Img) : Nat :=
  match i with
  | .leaf _ => 0
  | .nil => 0
  | .text i _ => levels i
  | .masked i _ => levels i
  | .group g => levelsOf g
termination_by structural i

/-- the same for the layers of a group -/
def levelsOf (g : List Layer) : Nat :=
  match g with
  | [] => 0
  | ⟨_, _, _, _, _, im⟩ :: rest => max (levels im + 1) (levelsOf rest)
termination_by structural g
end

/-- no intensity differs by more than `e` and the coverage by no more than `k` units of 1/65535 -/
def NearLight (e k : ℚ) (x y : Light) : Prop :=
  |x.r - y.r| ≤ e / 65535 ∧ |x.g - y.g| ≤ e / 65535 ∧ |x.b - y.b| ≤ e / 65535 ∧ |x.a - y.a| ≤ k / 65535

/-- what light can be -/
def Possible (x : Light) : Prop := (0 ≤ x.r ∧ x.r ≤ 1) ∧ (0 ≤ x.g ∧ x.g ≤ 1) ∧ (0 ≤ x.b ∧ x.b ≤ 1) ∧ 0 ≤ x.a ∧ x.a ≤ 1 ∧ x.r ≤ x.a ∧ x.g ≤ x.a ∧ x.b ≤ x.a

end Limage.Spec

namespace Limage
open Spec

theorem Spec.NearLight.mono {e k e' k' : ℚ} {x y : Light} (h : NearLight e k x y) (he : e ≤ e') (hk : k ≤ k') : NearLight e' k' x y := by
  have h1 : e / 65535 ≤ e' / 65535 := by linarith
  have h2 : k / 65535 ≤ k' / 65535 := by linarith
  exact ⟨h.1.trans h1, h.2.1.trans h1, h.2.2.1.trans h1, h.2.2.2.trans h2⟩

theorem dark_possible : Possible dark := by simp [Possible, dark]

theorem dim_possible {s : ℚ} {x : Light} (h0 : 0 ≤ s) (h1 : s ≤ 1) (h : Possible x) : Possible (dim s x) := by
  have lo : ∀ y : ℚ, 0 ≤ y → 0 ≤ s * y := fun y hy => mul_nonneg h0 hy
  have hi : ∀ y : ℚ, 0 ≤ y → y ≤ 1 → s * y ≤ 1 := fun y hy hy1 => by nlinarith
  have le : ∀ y z : ℚ, y ≤ z → s * y ≤ s * z := fun y z hy => mul_le_mul_of_nonneg_left hy h0
  obtain ⟨hr, hg, hb, ha0, ha1, ra, ga, ba⟩ := h
  exact ⟨⟨lo _ hr.1, hi _ hr.1 hr.2⟩, ⟨lo _ hg.1, hi _ hg.1 hg.2⟩, ⟨lo _ hb.1, hi _ hb.1 hb.2⟩, lo _ ha0, hi _ ha0 ha1, le _ _ ra, le _ _ ga, le _ _ ba⟩

theorem over_possible {x y : Light} (hx : Possible x) (hy : Possible y) : Possible (over x y) := by
  obtain ⟨xr, xg, xb, xa0, xa1, xra, xga, xba⟩ := hx
  obtain ⟨yr, yg, yb, ya0, ya1, yra, yga, yba⟩ := hy
  have lo : ∀ u v : ℚ, 0 ≤ u → 0 ≤ v → 0 ≤ u + (1 - y.a) * v := fun u v hu hv => add_nonneg hu (mul_nonneg (by linarith) hv)
  have hi : ∀ u v : ℚ, u ≤ y.a → v ≤ 1 → u + (1 - y.a) * v ≤ 1 := fun u v hu hv => by nlinarith
  have le : ∀ u v : ℚ, u ≤ y.a → v ≤ x.a → u + (1 - y.a) * v ≤ y.a + (1 - y.a) * x.a := fun u v hu hv =>
    add_le_add hu (mul_le_mul_of_nonneg_left hv (by linarith))
  exact ⟨⟨lo _ _ yr.1 xr.1, hi _ _ yra xr.2⟩, ⟨lo _ _ yg.1 xg.1, hi _ _ yga xg.2⟩, ⟨lo _ _ yb.1 xb.1, hi _ _ yba xb.2⟩, lo _ _ ya0 xa0,
    hi _ _ le_rfl xa1, le _ _ yra xra, le _ _ yga xga, le _ _ yba xba⟩

theorem light_possible {q : RGBA32} (h : Premul q) : Possible (lightOf q) := by
  obtain ⟨h1, h2, h3, h4⟩ := h
  have lo : ∀ n : Nat, (0 : ℚ) ≤ (n : ℚ) / 65535 := fun n => by positivity
  have hi : ∀ n : Nat, n ≤ 65535 → (n : ℚ) / 65535 ≤ 1 := fun n h => by
    rw [div_le_one (by norm_num)]
    exact_mod_cast h
  have le : ∀ n m : Nat, n ≤ m → (n : ℚ) / 65535 ≤ (m : ℚ) / 65535 := fun n m h => by
    rw [div_le_div_iff_of_pos_right (by norm_num)]
    exact_mod_cast h
  exact ⟨⟨lo _, hi _ (h1.trans h4)⟩, ⟨lo _, hi _ (h2.trans h4)⟩, ⟨lo _, hi _ (h3.trans h4)⟩, lo _, hi _ h4, le _ _ h1, le _ _ h2, le _ _ h3⟩

theorem byte_part (x : UInt8) : (0 : ℚ) ≤ (x.toNat : ℚ) / 255 ∧ (x.toNat : ℚ) / 255 ≤ 1 := by
  refine ⟨by positivity, ?_⟩
  rw [div_le_one (by norm_num)]
  exact_mod_cast u8_le x

mutual
theorem ideal_possible (i : Img) (h : Smooth i) (p : Pt) : Possible (ideal i p) := by
  match i with
  | .leaf L =>
    unfold Smooth at h
    obtain ⟨c, hc, hp⟩ := h p
    unfold ideal
    rw [hc]
    exact light_possible hp
  | .nil => unfold Smooth at h; exact h.elim
  | .text i t =>
    unfold Smooth at h
    unfold ideal
    exact ideal_possible i h p
  | .masked i none => unfold Smooth at h; exact h.elim
  | .masked i (some m) =>
    unfold Smooth at h
    unfold ideal
    split
    · exact dim_possible (byte_part _).1 (byte_part _).2 (ideal_possible i h p)
    · exact dark_possible
  | .group g =>
    unfold Smooth at h
    unfold ideal
    exact idealLayers_possible g h.2 p
termination_by structural i

theorem idealLayers_possible (g : List Layer) (h : SmoothLayers g) (p : Pt) : Possible (idealLayers g p) := by
  match g with
  | [] => unfold idealLayers; exact dark_possible
  | ⟨_, b, mode, inv, tr, im⟩ :: rest =>
    unfold SmoothLayers at h
    unfold idealLayers
    split
    · have := byte_part tr
      exact over_possible (idealLayers_possible rest h.2.2 p) (dim_possible (by linarith) (by linarith) (ideal_possible im h.2.1 _))
    · exact idealLayers_possible rest h.2.2 p
termination_by structural g
end

/-! ### one step -/

theorem dim_error {x y y' s e : ℚ} (h0 : 0 ≤ s) (h1 : s ≤ 1) (h : |x - s * y| ≤ 1 / 65535) (hy : |y - y'| ≤ e / 65535) :
    |x - s * y'| ≤ (e + 1) / 65535 := by
  have he : (0 : ℚ) ≤ e / 65535 := (abs_nonneg _).trans hy
  have e1 : (e + 1) / 65535 = e / 65535 + 1 / 65535 := by ring
  have h2 : |s * (y - y')| ≤ e / 65535 := by
    rw [abs_mul, abs_of_nonneg h0]
    nlinarith [abs_nonneg (y - y')]
  rw [e1, show x - s * y' = s * (y - y') + (x - s * y) by ring]
  exact (abs_add_le _ _).trans (add_le_add h2 h)

theorem over_error {o t t' b b' A A' et ea eb : ℚ} (h0 : 0 ≤ A) (h1 : A ≤ 1) (hb0 : 0 ≤ b') (hb1 : b' ≤ 1)
    (h : |o - (t + (1 - A) * b)| ≤ 3 / 65535) (ht : |t - t'| ≤ et / 65535) (ha : |A - A'| ≤ ea / 65535) (hb : |b - b'| ≤ eb / 65535) :
    |o - (t' + (1 - A') * b')| ≤ (eb + (et + ea + 3)) / 65535 := by
  have e1 : (eb + (et + ea + 3)) / 65535 = 3 / 65535 + et / 65535 + eb / 65535 + ea / 65535 := by ring
  have h2 : |(1 - A) * (b - b')| ≤ eb / 65535 := by
    rw [abs_mul, abs_of_nonneg (by linarith : (0 : ℚ) ≤ 1 - A)]
    nlinarith [abs_nonneg (b - b')]
  have h3 : |(A' - A) * b'| ≤ ea / 65535 := by
    rw [abs_mul, abs_of_nonneg hb0, abs_sub_comm]
    nlinarith [abs_nonneg (A - A')]
  rw [e1, show o - (t' + (1 - A') * b') = (o - (t + (1 - A) * b)) + (t - t') + (1 - A) * (b - b') + (A' - A) * b' by ring]
  exact (abs_add_le _ _).trans (add_le_add ((abs_add_le _ _).trans (add_le_add ((abs_add_le _ _).trans (add_le_add h ht)) h2)) h3)

theorem alpha_error {o b b' A A' ea eb : ℚ} (h0 : 0 ≤ A) (h1 : A ≤ 1) (hb0 : 0 ≤ b') (hb1 : b' ≤ 1)
    (h : |o - (A + (1 - A) * b)| ≤ 1 / 65535) (ha : |A - A'| ≤ ea / 65535) (hb : |b - b'| ≤ eb / 65535) :
    |o - (A' + (1 - A') * b')| ≤ (eb + (ea + 1)) / 65535 := by
  have e1 : (eb + (ea + 1)) / 65535 = 1 / 65535 + eb / 65535 + ea / 65535 := by ring
  have h2 : |(1 - A) * (b - b')| ≤ eb / 65535 := by
    rw [abs_mul, abs_of_nonneg (by linarith : (0 : ℚ) ≤ 1 - A)]
    nlinarith [abs_nonneg (b - b')]
  have h3 : |(A - A') * (1 - b')| ≤ ea / 65535 := by
    rw [abs_mul, abs_of_nonneg (by linarith : (0 : ℚ) ≤ 1 - b')]
    nlinarith [abs_nonneg (A - A')]
  rw [e1, show o - (A' + (1 - A') * b') = (o - (A + (1 - A) * b)) + (1 - A) * (b - b') + (A - A') * (1 - b') by ring]
  exact (abs_add_le _ _).trans (add_le_add ((abs_add_le _ _).trans (add_le_add h h2)) h3)

/-- scaling the alpha of a colour scales its light -/
theorem dim_near (c : Color) (o : UInt8) {e k : ℚ} {x : Light} (h : NearLight e k (nrgbaLight c.toNRGBA) x) :
    NearLight (e + 1) (k + 1) (nrgbaLight (transparency c o).toNRGBA) (dim (o.toNat / 255) x) := by
  obtain ⟨o0, o1⟩ := byte_part o
  have ha := transparency_alpha c o
  have hfl := Nat.div_add_mod (o.toNat * c.toNRGBA.a.toNat) 255
  have hm := Nat.mod_lt (o.toNat * c.toNRGBA.a.toNat) (show 0 < 255 by decide)
  rw [← ha] at hfl
  generalize o.toNat * c.toNRGBA.a.toNat % 255 = m at *
  have hfl' : (255 : ℚ) * (transparency c o).toNRGBA.a.toNat + m = o.toNat * c.toNRGBA.a.toNat := by exact_mod_cast hfl
  have hm0 : (0 : ℚ) ≤ m := by positivity
  have hm1 : (m : ℚ) ≤ 255 := by exact_mod_cast hm.le
  have al : |((transparency c o).toNRGBA.a.toNat : ℚ) / 65535 - (o.toNat : ℚ) / 255 * ((c.toNRGBA.a.toNat : ℚ) / 65535)| ≤ 1 / 65535 := by
    have e : ((transparency c o).toNRGBA.a.toNat : ℚ) / 65535 - (o.toNat : ℚ) / 255 * ((c.toNRGBA.a.toNat : ℚ) / 65535) = -(m / 255 / 65535) := by
      field_simp
      linarith
    rw [e, abs_neg, abs_of_nonneg (by positivity)]
    rw [div_le_div_iff_of_pos_right (by norm_num), div_le_one (by norm_num)]
    exact hm1
  have ch : ∀ v w : UInt16, (o ≠ 0 → w = v) → |shine w.toNat (transparency c o).toNRGBA.a.toNat - (o.toNat : ℚ) / 255 * shine v.toNat c.toNRGBA.a.toNat| ≤ 1 / 65535 := by
    intro v w hvw
    by_cases h0 : o = 0
    · have h1 : (transparency c o).toNRGBA.a.toNat = 0 := by rw [ha, h0]; simp
      rw [h1, h0]
      simp [shine]
    · rw [hvw h0]
      have hv0 : (0 : ℚ) ≤ (v.toNat : ℚ) / 65535 := by positivity
      have hv1 : (v.toNat : ℚ) / 65535 ≤ 1 := by
        rw [div_le_one (by norm_num)]
        exact_mod_cast u16_le v
      have e : shine v.toNat (transparency c o).toNRGBA.a.toNat - (o.toNat : ℚ) / 255 * shine v.toNat c.toNRGBA.a.toNat =
          (v.toNat : ℚ) / 65535 * (((transparency c o).toNRGBA.a.toNat : ℚ) / 65535 - (o.toNat : ℚ) / 255 * ((c.toNRGBA.a.toNat : ℚ) / 65535)) := by
        unfold shine
        ring
      rw [e, abs_mul, abs_of_nonneg hv0]
      nlinarith [abs_nonneg (((transparency c o).toNRGBA.a.toNat : ℚ) / 65535 - (o.toNat : ℚ) / 255 * ((c.toNRGBA.a.toNat : ℚ) / 65535))]
  have same : o ≠ 0 → (transparency c o).toNRGBA.r = c.toNRGBA.r ∧ (transparency c o).toNRGBA.g = c.toNRGBA.g ∧ (transparency c o).toNRGBA.b = c.toNRGBA.b := by
    intro h0
    obtain ⟨h1, -, h3⟩ := C20_opacity c o
    by_cases h255 : o = 255
    · rw [h1 h255]; exact ⟨rfl, rfl, rfl⟩
    · obtain ⟨n, hn, e1, e2, e3, -⟩ := h3 h0 h255
      rw [hn]
      exact ⟨e1, e2, e3⟩
  exact ⟨dim_error o0 o1 (ch _ _ fun h => (same h).1) h.1, dim_error o0 o1 (ch _ _ fun h => (same h).2.1) h.2.1,
    dim_error o0 o1 (ch _ _ fun h => (same h).2.2) h.2.2.1, dim_error o0 o1 al h.2.2.2⟩

/-- Normal compositing puts light over light -/
theorem over_near (draw : UInt16) (b t : Color) {x y : Light} {eb kb et kt : ℚ} (hx : Possible x)
    (hb : NearLight eb kb (nrgbaLight b.toNRGBA) x) (ht : NearLight et kt (nrgbaLight t.toNRGBA) y) :
    ∃ c, composite draw Mode.normal b t = some c ∧
      NearLight (eb + (et + kt + 3)) (kb + (kt + 1)) (nrgbaLight c.toNRGBA) (over x y) := by
  obtain ⟨xr, xg, xb, xa0, xa1, -⟩ := hx
  have A0 : (0 : ℚ) ≤ (nrgbaLight t.toNRGBA).a := by unfold nrgbaLight; positivity
  have A1 : (nrgbaLight t.toNRGBA).a ≤ 1 := by
    unfold nrgbaLight
    rw [div_le_one (by norm_num)]
    exact_mod_cast u16_le _
  suffices hs : ∃ c : NRGBA64, composite draw Mode.normal b t = some (.nrgba64 c) ∧
      |(nrgbaLight c).r - ((nrgbaLight t.toNRGBA).r + (1 - (nrgbaLight t.toNRGBA).a) * (nrgbaLight b.toNRGBA).r)| ≤ 3 / 65535 ∧
      |(nrgbaLight c).g - ((nrgbaLight t.toNRGBA).g + (1 - (nrgbaLight t.toNRGBA).a) * (nrgbaLight b.toNRGBA).g)| ≤ 3 / 65535 ∧
      |(nrgbaLight c).b - ((nrgbaLight t.toNRGBA).b + (1 - (nrgbaLight t.toNRGBA).a) * (nrgbaLight b.toNRGBA).b)| ≤ 3 / 65535 ∧
      |(nrgbaLight c).a - ((nrgbaLight t.toNRGBA).a + (1 - (nrgbaLight t.toNRGBA).a) * (nrgbaLight b.toNRGBA).a)| ≤ 1 / 65535 by
    obtain ⟨c, hc, h1, h2, h3, h4⟩ := hs
    exact ⟨_, hc, over_error A0 A1 xr.1 xr.2 h1 ht.1 ht.2.2.2 hb.1, over_error A0 A1 xg.1 xg.2 h2 ht.2.1 ht.2.2.2 hb.2.1,
      over_error A0 A1 xb.1 xb.2 h3 ht.2.2.1 ht.2.2.2 hb.2.2.1, alpha_error A0 A1 xa0 xa1 h4 ht.2.2.2 hb.2.2.2⟩
  rw [composite_normal]
  by_cases h : b.toNRGBA.a = 0 ∧ t.toNRGBA.a = 0
  · refine ⟨⟨0, 0, 0, 0⟩, by rw [compositeNormal, if_pos h]; rfl, ?_⟩
    have hb0 : b.toNRGBA.a.toNat = 0 := by rw [h.1]; rfl
    have ht0 : t.toNRGBA.a.toNat = 0 := by rw [h.2]; rfl
    simp [nrgbaLight, shine, hb0, ht0]; try norm_num
  · obtain ⟨c, hc, cr, cg, cb, ca⟩ := compositeNormal_eq _ _ h
    refine ⟨c, by rw [hc]; rfl, ?_⟩
    have h' : ¬ (b.toNRGBA.a.toNat = 0 ∧ t.toNRGBA.a.toNat = 0) := fun e => h ⟨u16_zero_nat.2 e.1, u16_zero_nat.2 e.2⟩
    have al := cover_over (u16_le b.toNRGBA.a) (u16_le t.toNRGBA.a)
    unfold nrgbaLight
    dsimp only
    rw [cr, cg, cb, ca]
    refine ⟨blend_over (u16_le _) (u16_le _) (u16_le _) (u16_le _) h', blend_over (u16_le _) (u16_le _) (u16_le _) (u16_le _) h',
      blend_over (u16_le _) (u16_le _) (u16_le _) (u16_le _) h', ?_⟩
    rw [abs_le]
    constructor <;> linarith [al.1, al.2]

/-- the bound on the intensities -/
def Spec.intensityError (parts levels : Nat) : ℚ := ((parts * (5 + 2 * levels) : Nat) : ℚ)

/-- the bound on the coverage -/
def Spec.coverageError (parts : Nat) : ℚ := ((2 * parts : Nat) : ℚ)

mutual
theorem at_near (ρ : Nat → UInt16) (i : Img) (h : Smooth i) (p : Pt) (n : Nat) :
    ∃ c, i.at ρ p n = some (c, n) ∧
      NearLight (intensityError (parts i) (levels i)) (coverageError (parts i)) (nrgbaLight c.toNRGBA) (ideal i p) := by
  match i with
  | .leaf L =>
    unfold Smooth at h
    obtain ⟨c, hc, hp⟩ := h p
    refine ⟨c, by rw [Img.at, hc]; rfl, ?_⟩
    unfold ideal
    rw [hc]
    obtain ⟨h1, h2, h3, h4⟩ := light_close c hp
    have : NearLight 1 0 (nrgbaLight c.toNRGBA) (lightOf c.rgba32) := ⟨h1, h2, h3, by rw [h4]; simp⟩
    refine this.mono ?_ ?_
    · simp [intensityError, parts, levels]
    · simp [coverageError]
  | .nil => unfold Smooth at h; exact h.elim
  | .text i t =>
    unfold Smooth at h
    unfold ideal parts levels
    rw [Img.at]
    exact at_near ρ i h p n
  | .masked i none => unfold Smooth at h; exact h.elim
  | .masked i (some m) =>
    unfold Smooth at h
    obtain ⟨c, hc, hl⟩ := at_near ρ i h p n
    refine ⟨transparency c (m.grayAt p), by rw [Img.at, hc]; rfl, ?_⟩
    have he : intensityError (parts i) (levels i) + 1 ≤ intensityError (parts (.masked i (some m))) (levels (.masked i (some m))) := by
      unfold intensityError
      have : parts i * (5 + 2 * levels i) + 1 ≤ parts (.masked i (some m)) * (5 + 2 * levels (.masked i (some m))) := by
        rw [parts, levels]
        nlinarith
      exact_mod_cast this
    have hk : coverageError (parts i) + 1 ≤ coverageError (parts (.masked i (some m))) := by
      unfold coverageError
      have : 2 * parts i + 1 ≤ 2 * parts (.masked i (some m)) := by
        rw [parts]
        omega
      exact_mod_cast this
    have := (dim_near c (m.grayAt p) hl).mono he hk
    unfold ideal
    by_cases hm : inRect m.rect p
    · rw [if_pos hm]
      rw [GrayImg.grayAt, if_pos ((mem_iff ..).2 hm)] at this ⊢
      exact this
    · rw [if_neg hm]
      rw [GrayImg.grayAt, if_neg (fun h => hm ((mem_iff ..).1 h))] at this ⊢
      have hd : dim (((0 : UInt8).toNat : ℚ) / 255) (ideal i p) = dark := by simp [dim, dark]
      rw [hd] at this
      exact this
  | .group g =>
    unfold Smooth at h
    obtain ⟨⟨cm, hcm, hpal⟩, h⟩ := h
    unfold ideal parts levels
    rw [Img.at, hcm]
    exact layers_near ρ cm hpal g h p n
termination_by structural i

theorem layers_near (ρ : Nat → UInt16) (cm : ColorModel) (hpal : cm.isPalette = false) (g : List Layer) (h : SmoothLayers g) (p : Pt) (n : Nat) :
    ∃ c, layersAt ρ (some cm) g p n = some (c, n) ∧
      NearLight (intensityError (partsOf g) (levelsOf g)) (coverageError (partsOf g)) (nrgbaLight c.toNRGBA) (idealLayers g p) := by
  match g with
  | [] =>
    refine ⟨.alpha 0, by rw [layersAt_nil], ?_⟩
    have e : (Color.alpha 0).toNRGBA = ⟨0, 0, 0, 0⟩ := by decide
    rw [e]
    unfold idealLayers
    simp [NearLight, dark, nrgbaLight, shine, intensityError, coverageError, partsOf]
  | ⟨nm, b, mode, inv, tr, im⟩ :: rest =>
    unfold SmoothLayers at h
    obtain ⟨rfl, hi, hr⟩ := h
    obtain ⟨c, hc, hl⟩ := layers_near ρ cm hpal rest hr p n
    have h1 : partsOf (⟨nm, b, Mode.normal, inv, tr, im⟩ :: rest) = parts im + 1 + partsOf rest := by rw [partsOf]
    have h2 : levelsOf (⟨nm, b, Mode.normal, inv, tr, im⟩ :: rest) = max (levels im + 1) (levelsOf rest) := by rw [levelsOf]
    rw [h1, h2, layersAt_cons, hc, Option.bind_some]
    unfold idealLayers
    by_cases hs : inv = false ∧ inRect b p
    · rw [if_pos hs]
      obtain ⟨t, ht, hlt⟩ := at_near ρ im hi ⟨p.x - b.x0, p.y - b.y0⟩ n
      have hlt := dim_near t (255 - tr) hlt
      have e255 : (((255 - tr : UInt8)).toNat : ℚ) / 255 = 1 - (tr.toNat : ℚ) / 255 := by
        have := u8_le tr
        have e : (255 - tr : UInt8).toNat = 255 - tr.toNat := by
          rw [UInt8.toNat_sub_of_le _ _ (by rw [UInt8.le_iff_toNat_le]; simpa using this)]
          rfl
        rw [e, Nat.cast_sub this]
        ring
      rw [e255] at hlt
      obtain ⟨c', hc', hl'⟩ := over_near 0 c (transparency t (255 - tr)) (idealLayers_possible rest hr p) hl hlt
      refine ⟨c', ?_, hl'.mono ?_ ?_⟩
      · dsimp only
        rw [drawLayer_shows _ _ (show shows p ⟨nm, b, Mode.normal, inv, tr, im⟩ from hs), Option.bind_some]
        have e : layerAt ρ ⟨nm, b, Mode.normal, inv, tr, im⟩ p n = some (transparency t (255 - tr), n) := by
          unfold layerAt
          rw [ht]; rfl
        rw [e, Option.bind_some]
        dsimp only
        rw [if_neg (by rw [hpal, Bool.and_false]; decide), if_neg (by decide), hc']
        rfl
      · unfold intensityError coverageError
        have : partsOf rest * (5 + 2 * levelsOf rest) + (parts im * (5 + 2 * levels im) + 1 + (2 * parts im + 1) + 3) ≤
            (parts im + 1 + partsOf rest) * (5 + 2 * max (levels im + 1) (levelsOf rest)) := by
          have m1 := le_max_left (levels im + 1) (levelsOf rest)
          have m2 := le_max_right (levels im + 1) (levelsOf rest)
          generalize max (levels im + 1) (levelsOf rest) = M at *
          have e1 : partsOf rest * (5 + 2 * levelsOf rest) ≤ partsOf rest * (5 + 2 * M) := Nat.mul_le_mul_left _ (by omega)
          have e2 : parts im * (5 + 2 * levels im) + 2 * parts im ≤ parts im * (5 + 2 * M) := by
            have : parts im * (5 + 2 * levels im) + 2 * parts im = parts im * (5 + 2 * (levels im + 1)) := by ring
            rw [this]
            exact Nat.mul_le_mul_left _ (by omega)
          have e3 : (parts im + 1 + partsOf rest) * (5 + 2 * M) = parts im * (5 + 2 * M) + (5 + 2 * M) + partsOf rest * (5 + 2 * M) := by ring
          omega
        exact_mod_cast this
      · unfold coverageError
        have : 2 * partsOf rest + (2 * parts im + 1 + 1) ≤ 2 * (parts im + 1 + partsOf rest) := by omega
        exact_mod_cast this
    · rw [if_neg hs]
      refine ⟨c, ?_, hl.mono ?_ ?_⟩
      · dsimp only
        rw [drawLayer_hidden _ _ (show ¬shows p ⟨nm, b, Mode.normal, inv, tr, im⟩ from hs)]
      · unfold intensityError
        have : partsOf rest * (5 + 2 * levelsOf rest) ≤ (parts im + 1 + partsOf rest) * (5 + 2 * max (levels im + 1) (levelsOf rest)) :=
          Nat.mul_le_mul (by omega) (by have := le_max_right (levels im + 1) (levelsOf rest); omega)
        exact_mod_cast this
      · unfold coverageError
        have : 2 * partsOf rest ≤ 2 * (parts im + 1 + partsOf rest) := by omega
        exact_mod_cast this
termination_by structural g
end

/-- from the colour to its `RGBA()` -/
theorem rgba_near {c : Color} (hp : Premul c.rgba32) {x : Light} {e k : ℚ} (h : NearLight e k (nrgbaLight c.toNRGBA) x) :
    NearLight (e + 1) k (lightOf c.rgba32) x := by
  obtain ⟨r1, g1, b1, a1⟩ := light_close c hp
  have e1 : (e + 1) / 65535 = 1 / 65535 + e / 65535 := by ring
  have ch : ∀ {u v w : ℚ}, |u - v| ≤ 1 / 65535 → |u - w| ≤ e / 65535 → |v - w| ≤ (e + 1) / 65535 := by
    intro u v w h1 h2
    rw [e1, show v - w = (v - u) + (u - w) by ring]
    rw [abs_sub_comm] at h1
    exact (abs_add_le _ _).trans (add_le_add h1 h2)
  exact ⟨ch r1 h.1, ch g1 h.2.1, ch b1 h.2.2.1, by rw [← a1]; exact h.2.2.2⟩

/-- **C108**: an image of Normal layers (nested groups, texts, masks, any opacities) shows at every point the light that exact arithmetic gives, up to
5 + 2 per level of groups for each image, mask and layer in it, and the coverage up to 2 for each, in units of 1/65535; no random numbers are drawn. -/
theorem C108_picture (ρ : Nat → UInt16) (g : List Layer) (h : Smooth (.group g)) (p : Pt) (n : Nat) :
    ∃ c, Img.at ρ (.group g) p n = some (c, n) ∧
      NearLight (intensityError (partsOf g) (levelsOf g) + 1) (coverageError (partsOf g)) (lightOf c.rgba32) (idealLayers g p) := by
  obtain ⟨c, hc, hl⟩ := at_near ρ (.group g) h p n
  refine ⟨c, hc, rgba_near (C97_picture ρ g p n c n hc) ?_⟩
  have h1 : parts (.group g) = partsOf g := by rw [parts]
  have h2 : levels (.group g) = levelsOf g := by rw [levels]
  have h3 : ideal (.group g) p = idealLayers g p := by rw [ideal]
  rw [h1, h2, h3] at hl
  exact hl

/-- a half transparent red layer with a mask in a group, over white -/
def smoothPicture : List Layer :=
  [⟨[], ⟨1, 1, 5, 5⟩, Mode.normal, false, 0, .group [⟨[], ⟨1, 0, 3, 2⟩, Mode.normal, false, 51,
      .masked (.leaf ⟨⟨0, 0, 2, 2⟩, .other, fun _ => some (.nrgba 255 0 0 255)⟩) (some ⟨⟨0, 0, 2, 2⟩, fun _ => 85⟩)⟩]⟩,
    ⟨[], ⟨0, 0, 6, 6⟩, Mode.normal, false, 0, .leaf ⟨⟨0, 0, 6, 6⟩, .other, fun _ => some (.gray 255)⟩⟩]

theorem smoothPicture_smooth : Smooth (.group smoothPicture) := by
  have h1 : Premul (Color.nrgba 255 0 0 255).rgba32 := by simp only [Premul]; decide
  have h2 : Premul (Color.gray 255).rgba32 := by simp only [Premul]; decide
  simp [Smooth, SmoothLayers, smoothPicture, groupModel, Img.colorModel, ColorModel.isPalette, h1, h2]

-- its light at a point: the layer lets 4/5 through, the mask 1/3
example : Smooth (.group smoothPicture) ∧ idealLayers smoothPicture ⟨2, 1⟩ = ⟨1, 11 / 15, 11 / 15, 1⟩ := by
  refine ⟨smoothPicture_smooth, ?_⟩
  have e1 : (Color.nrgba 255 0 0 255).rgba32 = ⟨65535, 0, 0, 65535⟩ := by decide
  have e2 : (Color.gray 255).rgba32 = ⟨65535, 65535, 65535, 65535⟩ := by decide
  simp [idealLayers, ideal, smoothPicture, inRect, e1, e2, over, dim, lightOf, dark]
  norm_num

/-! ### Grouping anywhere -/

theorem over_assoc (x y z : Light) : over (over x y) z = over x (over y z) := by
  simp only [over, Light.mk.injEq]
  refine ⟨?_, ?_, ?_, ?_⟩ <;> ring

theorem over_dark (x : Light) : over x dark = x := by simp [over, dark]
theorem dark_over (x : Light) : over dark x = x := by simp [over, dark]
theorem dim_one (x : Light) : dim 1 x = x := by simp [dim]

theorem ideal_append (g h : List Layer) (p : Pt) : idealLayers (g ++ h) p = over (idealLayers h p) (idealLayers g p) := by
  induction g with
  | nil => rw [List.nil_append, idealLayers.eq_1, over_dark]
  | cons l g ih =>
    rw [List.cons_append, idealLayers, idealLayers, ih]
    split
    · rw [over_assoc]
    · rfl

theorem ideal_move (g : List Layer) (d p : Pt) : idealLayers (g.map (move · d)) ⟨p.x + d.x, p.y + d.y⟩ = idealLayers g p := by
  induction g with
  | nil => rfl
  | cons l g ih =>
    rw [List.map_cons, idealLayers, idealLayers, ih]
    have h1 : inRect (move l d).bounds ⟨p.x + d.x, p.y + d.y⟩ ↔ inRect l.bounds p := by
      unfold inRect move
      dsimp only
      omega
    have h2 : (⟨p.x + d.x - (move l d).bounds.x0, p.y + d.y - (move l d).bounds.y0⟩ : Pt) = ⟨p.x - l.bounds.x0, p.y - l.bounds.y0⟩ := by
      unfold move
      congr 1 <;> dsimp only <;> omega
    dsimp only
    rw [h2]
    simp only [h1]
    rfl

theorem ideal_nothing (g : List Layer) (p : Pt) (h : ∀ l ∈ g, ¬inRect l.bounds p) : idealLayers g p = dark := by
  induction g with
  | nil => rfl
  | cons l g ih =>
    rw [idealLayers, if_neg (fun e => h l (List.mem_cons_self ..) e.2)]
    exact ih fun l hl => h l (List.mem_cons_of_mem _ hl)

theorem ideal_grouped (name : GoString) (b : Rect) (g : List Layer) (hin : ∀ l ∈ g, inside l.bounds b) (p : Pt) :
    idealLayers [grouped name b g] p = idealLayers g p := by
  rw [idealLayers]
  unfold grouped
  by_cases h : inRect b p
  · rw [if_pos ⟨rfl, h⟩, idealLayers, ideal]
    have := ideal_move g ⟨-b.x0, -b.y0⟩ p
    rw [show (⟨p.x - b.x0, p.y - b.y0⟩ : Pt) = ⟨p.x + -b.x0, p.y + -b.y0⟩ from rfl, this, dark_over]
    simp [dim]
  · rw [if_neg (fun e => h e.2), idealLayers, ideal_nothing g p fun l hl hp => h (hin l hl p hp)]

theorem smooth_append (g h : List Layer) : SmoothLayers (g ++ h) ↔ SmoothLayers g ∧ SmoothLayers h := by
  induction g with
  | nil => simp [SmoothLayers]
  | cons l g ih => rw [List.cons_append, SmoothLayers, SmoothLayers, ih]; tauto

theorem smooth_move (g : List Layer) (d : Pt) : SmoothLayers (g.map (move · d)) ↔ SmoothLayers g := by
  induction g with
  | nil => simp
  | cons l g ih => rw [List.map_cons, SmoothLayers, SmoothLayers, ih]; rfl

/-- **C108**: putting consecutive layers anywhere in a picture of Normal layers into an opaque Normal group that is large enough changes no light by more
than the rounding of both pictures; in exact arithmetic nothing. -/
theorem C108_grouped (ρ : Nat → UInt16) (upper mid lower : List Layer) (name : GoString) (b : Rect) (hin : ∀ l ∈ mid, inside l.bounds b)
    (h : Smooth (.group (upper ++ (mid ++ lower)))) (ch : ColorModel) (hch : groupModel mid = some ch) (hp : ch.isPalette = false)
    (hg : ∃ cm, groupModel (upper ++ (grouped name b mid :: lower)) = some cm ∧ cm.isPalette = false) (p : Pt) (n : Nat) :
    idealLayers (upper ++ (mid ++ lower)) p = idealLayers (upper ++ (grouped name b mid :: lower)) p ∧
    ∃ c c', Img.at ρ (.group (upper ++ (mid ++ lower))) p n = some (c, n) ∧
      Img.at ρ (.group (upper ++ (grouped name b mid :: lower))) p n = some (c', n) ∧
      NearLight (intensityError (partsOf (upper ++ (mid ++ lower))) (levelsOf (upper ++ (mid ++ lower))) +
          intensityError (partsOf (upper ++ (grouped name b mid :: lower))) (levelsOf (upper ++ (grouped name b mid :: lower))) + 2)
        (coverageError (partsOf (upper ++ (mid ++ lower))) + coverageError (partsOf (upper ++ (grouped name b mid :: lower))))
        (lightOf c.rgba32) (lightOf c'.rgba32) := by
  have e : idealLayers (upper ++ (mid ++ lower)) p = idealLayers (upper ++ (grouped name b mid :: lower)) p := by
    rw [show grouped name b mid :: lower = [grouped name b mid] ++ lower from rfl, ideal_append, ideal_append, ideal_append, ideal_append,
      ideal_grouped name b mid hin]
  refine ⟨e, ?_⟩
  have h' : Smooth (.group (upper ++ (grouped name b mid :: lower))) := by
    rw [Smooth] at h ⊢
    refine ⟨hg, ?_⟩
    have h := h.2
    rw [smooth_append, smooth_append] at h
    rw [smooth_append]
    refine ⟨h.1, ?_⟩
    rw [SmoothLayers]
    refine ⟨rfl, ?_, h.2.2⟩
    unfold grouped
    rw [Smooth]
    exact ⟨⟨ch, by rw [groupModel_move]; exact hch, hp⟩, (smooth_move _ _).2 h.2.1⟩
  obtain ⟨c, hc, hl⟩ := C108_picture ρ _ h p n
  obtain ⟨c', hc', hl'⟩ := C108_picture ρ _ h' p n
  refine ⟨c, c', hc, hc', ?_⟩
  rw [← e] at hl'
  have tri : ∀ {u v w e1 e2 : ℚ}, |u - w| ≤ e1 / 65535 → |v - w| ≤ e2 / 65535 → ∀ e3, e1 + e2 = e3 → |u - v| ≤ e3 / 65535 := by
    rintro u v w e1 e2 h1 h2 _ rfl
    rw [show (e1 + e2) / 65535 = e1 / 65535 + e2 / 65535 by ring, show u - v = (u - w) + (w - v) by ring]
    rw [abs_sub_comm v w] at h2
    exact (abs_add_le _ _).trans (add_le_add h1 h2)
  exact ⟨tri hl.1 hl'.1 _ (by ring), tri hl.2.1 hl'.2.1 _ (by ring), tri hl.2.2.1 hl'.2.2.1 _ (by ring), tri hl.2.2.2 hl'.2.2.2 _ rfl⟩

-- the lower layer of the picture above between two others
example : (∀ l ∈ [smoothPicture[1]], inside l.bounds ⟨0, 0, 6, 6⟩) ∧ Smooth (.group ([smoothPicture[0]] ++ ([smoothPicture[1]] ++ smoothPicture))) ∧
    groupModel [smoothPicture[1]] = some .other ∧ groupModel ([smoothPicture[0]] ++ (grouped [] ⟨0, 0, 6, 6⟩ [smoothPicture[1]] :: smoothPicture)) = some .other := by
  refine ⟨?_, ?_, rfl, rfl⟩
  · intro l hl
    rw [List.mem_singleton] at hl
    subst hl
    exact fun _ h => h
  · have := smoothPicture_smooth
    simp only [Smooth] at this ⊢
    refine ⟨⟨.other, rfl, rfl⟩, ?_⟩
    show SmoothLayers (smoothPicture ++ smoothPicture)
    rw [smooth_append]
    exact ⟨this.2, this.2⟩

end Limage
