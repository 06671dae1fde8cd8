import Verif.Props.Again
import Verif.Props.Image
/-!
# C86: a picture looks the same after saving and loading it
-/
namespace Limage
open Spec

/-! ### Specification -/

/-- Specification: a colour that a file of the colour model represents exactly: in RGB files `NRGBA` colours and opaque ones with 8 bits per
channel, in grey files opaque greys, in indexed files opaque colours of the palette. -/
def Spec.Exact (cm : ColorModel) (c : Color) : Prop :=
  match cm with
  | .gray | .gray16 | .grayAlpha => ∃ y, Opaque8 c.rgba32 y y y
  | .palette p | .alphaPalette p => (∃ r g b, Opaque8 c.rgba32 r g b) ∧ (∃ v ∈ p, v.rgba32 = c.rgba32) ∧
      (∀ v ∈ p, ∃ r g b, Opaque8 v.rgba32 r g b) ∧ p.length ≤ 256
  | _ => (∃ r g b a, c = .nrgba r g b a) ∨ ∃ r g b, Opaque8 c.rgba32 r g b

/-- Specification: an image of the given size, at the origin, with colours that the file represents exactly. -/
def Spec.ExactLeaf (cm : ColorModel) (b : Rect) (L : Leaf) : Prop :=
  L.bounds = ⟨0, 0, b.dx, b.dy⟩ ∧ ∀ p c, Rect.mem p L.bounds → L.pixel p = some c → Exact cm c

mutual
/-- Specification: the image of a layer with bounds `b` that looks the same from a file: its colours are represented exactly, masks are at the
origin, groups are as they should be. -/
def Spec.Exactly (cm : ColorModel) (b : Rect) (i : Img) : Prop :=
  match i with
  | .group g => Flawless cm g
  | .leaf L => ExactLeaf cm b L
  | .nil => False
  | .text i _ => ∃ L, i = .leaf L ∧ ExactLeaf cm b L
  | .masked i m => (∃ L, i = .leaf L ∧ ExactLeaf cm b L) ∧ ∃ m', m = some m' ∧ m'.rect.x0 = 0 ∧ m'.rect.y0 = 0
termination_by structural i

/-- Specification: layers that look the same from a file; none of the groups takes its colour model from an image with a `color.Palette` (such
groups are drawn in another way). -/
def Spec.Flawless (cm : ColorModel) (g : List Layer) : Prop :=
  match g with
  | [] => True
  | ⟨_, b, _, _, _, im⟩ :: rest => (∀ m, im.colorModel = some m → m.isPalette = false) ∧ Exactly cm b im ∧ Flawless cm rest
termination_by structural g
end

/-! ### Colours -/

theorem Spec.Opaque8.toNRGBA {c : Color} {r g b : UInt8} (h : Opaque8 c.rgba32 r g b) :
    c.toNRGBA = ⟨(widen32 r).toUInt16, (widen32 g).toUInt16, (widen32 b).toUInt16, 0xffff⟩ := by
  have he := h.eq
  have n64 : ∀ n : NRGBA64, n.rgba = ⟨widen32 r, widen32 g, widen32 b, 0xffff⟩ →
      n = ⟨(widen32 r).toUInt16, (widen32 g).toUInt16, (widen32 b).toUInt16, 0xffff⟩ := by
    rintro ⟨r', g', b', a'⟩ hn
    unfold NRGBA64.rgba at hn
    injection hn with e1 e2 e3 e4
    have ha : a' = 0xffff := UInt16.toNat_inj.1 (by have := congrArg UInt32.toNat e4; simpa using this)
    subst ha
    have hd : ∀ x : UInt16, x.toUInt32 * (0xffff : UInt16).toUInt32 / 0xffff = x.toUInt32 := by
      intro x
      apply UInt32.toNat_inj.1
      have := x.toNat_lt
      rw [UInt32.toNat_div, UInt32.toNat_mul, UInt16.toNat_toUInt32, show ((0xffff : UInt16).toUInt32).toNat = 65535 from rfl,
        show (0xffff : UInt32).toNat = 65535 from rfl]
      omega
    rw [hd] at e1 e2 e3
    rw [← e1, ← e2, ← e3]
    simp
  have std : ∀ q : RGBA32, q = ⟨widen32 r, widen32 g, widen32 b, 0xffff⟩ →
      (if q.a = 0xffff then (⟨q.r.toUInt16, q.g.toUInt16, q.b.toUInt16, 0xffff⟩ : NRGBA64)
      else if q.a = 0 then ⟨0, 0, 0, 0⟩
      else ⟨(q.r * 0xffff / q.a).toUInt16, (q.g * 0xffff / q.a).toUInt16, (q.b * 0xffff / q.a).toUInt16, q.a.toUInt16⟩) =
      ⟨(widen32 r).toUInt16, (widen32 g).toUInt16, (widen32 b).toUInt16, 0xffff⟩ := by
    rintro q rfl
    rw [if_pos rfl]
  have w16 : ∀ x : UInt8, widen16 x = (widen32 x).toUInt16 := by
    intro x
    unfold widen16 widen32
    simp
  have inj : ∀ {x y : UInt8}, widen32 x = widen32 y → x = y := fun {x y} h => by rw [← low_widen x, h, low_widen]
  cases c with
  | nrgba64 n => exact n64 n he
  | hsla h s l a => exact n64 _ he
  | hsva h s v a => exact n64 _ he
  | nrgba r' g' b' a' =>
    have hm := nrgbaModel_opaque h
    injection hm with e1 e2
    injection e2 with e2 e3
    injection e3 with e3 e4
    subst e1 e2 e3 e4
    unfold Color.toNRGBA
    dsimp only
    rw [w16, w16, w16]
    rfl
  | lrgb r' g' b' =>
    injection he with e1 e2 e3
    unfold Color.toNRGBA
    dsimp only
    rw [w16, w16, w16, e1, e2, e3]
  | grayAlpha y a =>
    have ha : a = 255 := by
      have := h.2.2.2
      apply UInt8.toNat_inj.1
      simp only [Color.rgba32, widen32_nat] at this
      rw [show (255 : UInt8).toNat = 255 from rfl]
      omega
    subst ha
    rw [grayAlpha_opaque] at he
    injection he with e1 e2 e3
    unfold Color.toNRGBA
    dsimp only
    rw [← inj e2, ← inj e3, inj e1, w16]
    rfl
  | _ => exact std _ he

/-- what is read of a colour that is represented exactly cannot be told from it by `Composite` -/
theorem exact_back (wenv : WEnv) {cm : ColorModel} {c c' : Color} (hc : Exact cm c)
    (h : colorOf (fmtOf wenv cm) ((fmtOf wenv cm).conv c) = some c') : c'.toNRGBA = c.toNRGBA := by
  have hk := pixel_kept wenv cm c c' h
  have ho : ∀ r g b, Opaque8 c.rgba32 r g b → c'.rgba32 = c.rgba32 → c'.toNRGBA = c.toNRGBA := by
    intro r g b h1 h2
    rw [h1.toNRGBA]
    exact Opaque8.toNRGBA (by rw [h2]; exact h1)
  have hrgb : (∃ r g b a, c = .nrgba r g b a) ∨ (∃ r g b, Opaque8 c.rgba32 r g b) →
      (∀ r g b a, c = .nrgba r g b a → c' = c) ∧ (∀ r g b, Opaque8 c.rgba32 r g b → c'.rgba32 = c.rgba32) → c'.toNRGBA = c.toNRGBA := by
    rintro (⟨r, g, b, a, h1⟩ | ⟨r, g, b, h1⟩) ⟨k1, k2⟩
    · rw [k1 r g b a h1]
    · exact ho r g b h1 (k2 r g b h1)
  have hgray : (∃ y, Opaque8 c.rgba32 y y y) → (∀ y, Opaque8 c.rgba32 y y y → c'.rgba32 = c.rgba32) → c'.toNRGBA = c.toNRGBA := by
    rintro ⟨y, h1⟩ k
    exact ho y y y h1 (k y h1)
  cases cm with
  | gray => exact hgray hc hk
  | gray16 => exact hgray hc hk
  | grayAlpha => exact hgray hc hk
  | palette p => obtain ⟨⟨r, g, b, h1⟩, h2, h3, h4⟩ := hc; exact ho r g b h1 (hk r g b h1 h2 h3 h4)
  | alphaPalette p => obtain ⟨⟨r, g, b, h1⟩, h2, h3, h4⟩ := hc; exact ho r g b h1 (hk r g b h1 h2 h3 h4)
  | alpha => exact hrgb hc hk
  | other => exact hrgb hc hk

/-- two results of `At` that `Composite` cannot tell apart -/
def SameTo (x y : Option (Color × Nat)) : Prop :=
  x = y ∨ ∃ c c' n, x = some (c, n) ∧ y = some (c', n) ∧ c.toNRGBA = c'.toNRGBA

theorem transparency_same {c c' : Color} (h : c.toNRGBA = c'.toNRGBA) (o : UInt8) : (transparency c o).toNRGBA = (transparency c' o).toNRGBA := by
  unfold transparency
  split
  · exact h
  · split
    · rfl
    · dsimp only
      rw [h]

theorem composite_same {b t t' : Color} (d : UInt16) (m : Mode) (h : t.toNRGBA = t'.toNRGBA) : composite d m b t = composite d m b t' := by
  unfold composite
  rw [h]

/-! ### Layers -/

theorem notPalette_modelOf (F : Fmt) : (modelOf F).isPalette = false := by
  unfold modelOf
  split <;> rfl

/-- drawing layers that cannot be told apart -/
theorem drawLayer_same (ρ : Nat → UInt16) {m m' : ColorModel} (hm : m.isPalette = false) (hm' : m'.isPalette = false) {l l' : Layer}
    (hb : l'.bounds = l.bounds) (hmo : l'.mode = l.mode) (hi : l'.invisible = l.invisible) (ht : l'.transparency = l.transparency) (p : Pt)
    (hat : Rect.mem p l.bounds = true → ∀ n, SameTo (l.image.at ρ ⟨p.x - l.bounds.x0, p.y - l.bounds.y0⟩ n)
      (l'.image.at ρ ⟨p.x - l.bounds.x0, p.y - l.bounds.y0⟩ n)) (c : Color) (n : Nat) :
    drawLayer ρ (some m) l p c n = drawLayer ρ (some m') l' p c n := by
  unfold drawLayer layerAt
  rw [hb, hmo, hi, ht]
  by_cases h1 : l.invisible = true
  · rw [if_pos h1, if_pos h1]
  · rw [if_neg h1, if_neg h1]
    by_cases h2 : Rect.mem p l.bounds = true
    · rw [if_neg (by simpa using h2), if_neg (by simpa using h2)]
      rcases hat h2 n with h | ⟨a, a', k, e1, e2, e3⟩
      · rw [h]
        simp only [Option.bind_eq_bind, Option.bind_some, hm, hm', Bool.and_false, Bool.false_eq_true, if_false]
      · rw [e1, e2]
        simp only [Option.bind_eq_bind, Option.bind_some, hm, hm', Bool.and_false, Bool.false_eq_true, if_false]
        have h3 := transparency_same e3 (255 - l.transparency)
        show (if l.mode = Mode.dissolve then Option.map (fun c => (c, k + 1)) (composite (ρ k) l.mode c (transparency a (255 - l.transparency)))
          else Option.map (fun c => (c, k)) (composite 0 l.mode c (transparency a (255 - l.transparency)))) =
          if l.mode = Mode.dissolve then Option.map (fun c => (c, k + 1)) (composite (ρ k) l.mode c (transparency a' (255 - l.transparency)))
          else Option.map (fun c => (c, k)) (composite 0 l.mode c (transparency a' (255 - l.transparency)))
        rw [composite_same _ _ h3, composite_same _ _ h3]
    · rw [if_pos (by simpa using h2), if_pos (by simpa using h2)]

theorem at_text (ρ : Nat → UInt16) (i : Img) (t : TextData) (p : Pt) (n : Nat) : (Img.text i t).at ρ p n = i.at ρ p n := by
  conv => lhs; rw [Img.at]

/-- the image of a layer that is not a group -/
theorem leaf_same (wenv : WEnv) (cm : ColorModel) (hp : cm ≠ .palette [] ∧ cm ≠ .alphaPalette []) {P : Bytes → TextData → Prop} {l : Layer} {j : Img}
    (hng : ∀ g, l.image ≠ .group g) (hE : Exactly cm l.bounds l.image) (h : ImgBack (fmtOf wenv cm) P l j) (ρ : Nat → UInt16) (p : Pt)
    (hmem : Rect.mem p ⟨0, 0, l.bounds.dx, l.bounds.dy⟩ = true) (n : Nat) : SameTo (l.image.at ρ p n) (j.at ρ p n) := by
  have key : ∀ L L' : Leaf, ExactLeaf cm l.bounds L → PixelsBack (fmtOf wenv cm) (.leaf L) L' →
      ∃ c c', L.pixel p = some c ∧ L'.pixel p = some c' ∧ c.toNRGBA = c'.toNRGBA := by
    rintro L L' ⟨e1, e2⟩ ⟨b, f1, f2, -, -, f5⟩
    have f1 : some L.bounds = some b := f1
    cases f1
    have hdx : (⟨0, 0, L.bounds.dx, L.bounds.dy⟩ : Rect) = L.bounds := by
      rw [e1]
      show (⟨0, 0, l.bounds.dx - 0, l.bounds.dy - 0⟩ : Rect) = _
      rw [Int.sub_zero, Int.sub_zero]
    rw [hdx] at f2
    have hm : Rect.mem p L.bounds = true := by rw [e1]; exact hmem
    obtain ⟨k, k', c, g1, g2⟩ := f5 p (by rw [f2]; exact hm)
    have hq : (⟨L.bounds.x0 + p.x, L.bounds.y0 + p.y⟩ : Pt) = p := by
      rw [e1]
      show (⟨0 + p.x, 0 + p.y⟩ : Pt) = p
      rw [Int.zero_add, Int.zero_add]
    rw [hq, show (Img.leaf L).at (fmtOf wenv cm).ρ p k = (L.pixel p).map fun c => (c, k) by rw [Img.at]] at g1
    cases hL : L.pixel p with
    | none => rw [hL] at g1; cases g1
    | some c0 =>
      rw [hL] at g1
      have g1 : c0 = c := congrArg Prod.fst (Option.some.inj g1)
      subst g1
      obtain ⟨c', hc'⟩ := colorOf_some wenv cm hp c0
      exact ⟨c0, c', rfl, by rw [g2, hc'], (exact_back wenv (e2 p c0 hm hL) hc').symm⟩
  have at_leaf : ∀ L : Leaf, (Img.leaf L).at ρ p n = (L.pixel p).map fun c => (c, n) := fun L => by rw [Img.at]
  have hsame : ∀ L L' : Leaf, ExactLeaf cm l.bounds L → PixelsBack (fmtOf wenv cm) (.leaf L) L' →
      SameTo ((Img.leaf L).at ρ p n) ((Img.leaf L').at ρ p n) := by
    intro L L' h1 h2
    obtain ⟨c, c', k1, k2, k3⟩ := key L L' h1 h2
    exact .inr ⟨c, c', n, by rw [at_leaf, k1]; rfl, by rw [at_leaf, k2]; rfl, k3⟩
  cases hi : l.image with
  | group g => exact absurd hi (hng g)
  | nil => rw [hi] at hE; exact hE.elim
  | leaf L =>
    rw [hi] at hE
    have hE : ExactLeaf cm l.bounds L := by unfold Exactly at hE; exact hE
    rcases h.cases with ⟨L', hL, -, rfl⟩ | ⟨L', t, hL, ⟨t', ht⟩, rfl⟩ | ⟨L', m, m', hL, hm, -, rfl⟩
    · rw [hi] at hL
      exact hsame L L' hE hL
    · rw [textOf, hi] at ht; cases ht
    · rw [hi] at hm; cases hm
  | text i t =>
    rw [hi] at hE
    have hE : ∃ L, i = .leaf L ∧ ExactLeaf cm l.bounds L := by unfold Exactly at hE; exact hE
    obtain ⟨L, rfl, hE1⟩ := hE
    have hat : (Img.text (.leaf L) t).at ρ p n = (Img.leaf L).at ρ p n := at_text _ _ _ _ _
    have hpx : ∀ L', PixelsBack (fmtOf wenv cm) (pixelsOf l.image) L' → PixelsBack (fmtOf wenv cm) (.leaf L) L' := by
      rintro L' ⟨b, f1, f2, f3, f4, f5⟩
      rw [hi] at f1 f5
      have hb : (pixelsOf (.text (.leaf L) t)).bounds = (Img.leaf L).bounds := by unfold pixelsOf; rfl
      have ha : ∀ σ q k, (pixelsOf (.text (.leaf L) t)).at σ q k = (Img.leaf L).at σ q k := fun σ q k => at_text _ _ _ _ _
      rw [hb] at f1
      refine ⟨b, f1, f2, f3, f4, fun q hq => ?_⟩
      obtain ⟨k, k', c, g1, g2⟩ := f5 q hq
      rw [ha] at g1
      exact ⟨k, k', c, g1, g2⟩
    rw [hat]
    rcases h.cases with ⟨L', hL, -, rfl⟩ | ⟨L', t, hL, -, rfl⟩ | ⟨L', m, m', hL, hm, -, rfl⟩
    · exact hsame L L' hE1 (hpx L' hL)
    · rw [show (Img.text (.leaf L') t).at ρ p n = (Img.leaf L').at ρ p n from at_text _ _ _ _ _]
      exact hsame L L' hE1 (hpx L' hL)
    · rw [hi] at hm; cases hm
  | masked i mo =>
    rw [hi] at hE
    have hE : (∃ L, i = .leaf L ∧ ExactLeaf cm l.bounds L) ∧ ∃ m', mo = some m' ∧ m'.rect.x0 = 0 ∧ m'.rect.y0 = 0 := by
      unfold Exactly at hE; exact hE
    obtain ⟨⟨L, rfl, hE1⟩, m0, rfl, o1, o2⟩ := hE
    clear hE
    rcases h.cases with ⟨L', hL, hm, rfl⟩ | ⟨L', t, hL, ⟨t', ht⟩, rfl⟩ | ⟨L', m, m', hL, hm, ⟨hr, hgr⟩, rfl⟩
    · rw [hi] at hm; cases hm
    · rw [textOf, hi] at ht; cases ht
    · rw [hi] at hm hL
      have hm : some m0 = some m := hm
      cases hm
      have hrect : m'.rect = m0.rect := by
        rw [hr]
        obtain ⟨⟨x0, y0, x1, y1⟩, px⟩ := m0
        dsimp only at o1 o2 ⊢
        subst o1 o2
        show (⟨0, 0, x1 - 0, y1 - 0⟩ : Rect) = _
        rw [Int.sub_zero, Int.sub_zero]
      have hg : m'.grayAt p = m0.grayAt p := by
        by_cases hp : Rect.mem p m'.rect = true
        · rw [hgr p hp, o1, o2, Int.zero_add, Int.zero_add]
        · unfold GrayImg.grayAt
          rw [if_neg hp, if_neg (by rw [← hrect]; exact hp)]
      obtain ⟨c, c', k1, k2, k3⟩ := key L L' hE1 hL
      refine .inr ⟨transparency c (m0.grayAt p), transparency c' (m0.grayAt p), n, ?_, ?_, transparency_same k3 _⟩
      · rw [Img.at, at_leaf, k1]; rfl
      · rw [Img.at, at_leaf, k2, ← hg]; rfl

mutual
theorem exactly_model {cm : ColorModel} {b : Rect} {i : Img} (h : Exactly cm b i) : ∃ m, i.colorModel = some m := by
  match i with
  | .group g => unfold Exactly at h; unfold Img.colorModel; exact flawless_model h
  | .leaf L => exact ⟨L.model, by rw [Img.colorModel]⟩
  | .nil => exact h.elim
  | .text i t =>
    unfold Exactly at h
    obtain ⟨L, rfl, -⟩ := h
    exact ⟨L.model, by rw [Img.colorModel, Img.colorModel]⟩
  | .masked i m =>
    unfold Exactly at h
    obtain ⟨⟨L, rfl, -⟩, -⟩ := h
    exact ⟨L.model, by rw [Img.colorModel, Img.colorModel]⟩
termination_by structural i
theorem flawless_model {cm : ColorModel} {g : List Layer} (h : Flawless cm g) : ∃ m, groupModel g = some m := by
  match g with
  | [] => exact ⟨.alpha, by rw [groupModel]⟩
  | ⟨_, b, _, _, _, im⟩ :: rest =>
    unfold Flawless at h
    unfold groupModel
    exact exactly_model h.2.1
termination_by structural g
end

mutual
theorem img_same (wenv : WEnv) (cm : ColorModel) (hp : cm ≠ .palette [] ∧ cm ≠ .alphaPalette []) {P : Bytes → TextData → Prop} (l : Layer) (i j : Img)
    (hl : l.image = i) (hm : ∀ m, i.colorModel = some m → m.isPalette = false) (hE : Exactly cm l.bounds i)
    (h : SameImg (ImgBack (fmtOf wenv cm) P) id l i j) (ρ : Nat → UInt16) (p : Pt)
    (hmem : Rect.mem p ⟨0, 0, l.bounds.dx, l.bounds.dy⟩ = true) (n : Nat) : SameTo (i.at ρ p n) (j.at ρ p n) := by
  match i with
  | .group g =>
    unfold SameImg at h
    obtain ⟨g', rfl, h2⟩ := h
    unfold Exactly at hE
    left
    unfold Img.at
    unfold Img.colorModel at hm
    obtain ⟨m, k1⟩ := flawless_model hE
    rw [k1]
    rcases again_model (Spec.SameTree.like h2) with k2 | ⟨-, k2⟩ <;> rw [k2]
    · exact layers_same wenv cm hp g g' hE h2 ρ p _ _ (hm m k1) (notPalette_modelOf _) n
    · exact layers_same wenv cm hp g g' hE h2 ρ p _ _ (hm m k1) rfl n
  | .leaf L =>
    unfold SameImg at h
    have := leaf_same wenv cm hp (by rw [hl]; intro g hg; cases hg) (by rw [hl]; exact hE) h ρ p hmem n
    rw [hl] at this
    exact this
  | .nil => exact hE.elim
  | .text _ _ =>
    unfold SameImg at h
    have := leaf_same wenv cm hp (by rw [hl]; intro g hg; cases hg) (by rw [hl]; exact hE) h ρ p hmem n
    rw [hl] at this
    exact this
  | .masked _ _ =>
    unfold SameImg at h
    have := leaf_same wenv cm hp (by rw [hl]; intro g hg; cases hg) (by rw [hl]; exact hE) h ρ p hmem n
    rw [hl] at this
    exact this
termination_by structural i

theorem layers_same (wenv : WEnv) (cm : ColorModel) (hp : cm ≠ .palette [] ∧ cm ≠ .alphaPalette []) {P : Bytes → TextData → Prop} (g g' : List Layer)
    (hE : Flawless cm g) (h : SameTree (ImgBack (fmtOf wenv cm) P) id g g') (ρ : Nat → UInt16) (p : Pt) (m m' : ColorModel)
    (hm : m.isPalette = false) (hm' : m'.isPalette = false) (n : Nat) : layersAt ρ (some m) g p n = layersAt ρ (some m') g' p n := by
  match g, g' with
  | [], [] => rw [layersAt, layersAt]
  | [], _ :: _ => exact h.elim
  | ⟨name, b, mode, inv, tr, im⟩ :: rest, [] => exact h.elim
  | ⟨name, b, mode, inv, tr, im⟩ :: rest, l' :: rest' =>
    unfold SameTree at h
    obtain ⟨⟨-, h2, h3, h4, h5, h6⟩, h7⟩ := h
    unfold Flawless at hE
    rw [layersAt_cons, layersAt_cons, layers_same wenv cm hp rest rest' hE.2.2 h7 ρ p m m' hm hm' n]
    refine congrArg _ (funext fun x => ?_)
    obtain ⟨c, n⟩ := x
    refine drawLayer_same ρ hm hm' h2 h3 h4 h5 p ?_ c n
    intro hin n
    refine img_same wenv cm hp ⟨name, b, mode, inv, tr, im⟩ im l'.image rfl hE.1 hE.2.1 h6 ρ _ ?_ n
    unfold Rect.mem at hin ⊢
    unfold Rect.dx Rect.dy
    simp only [Bool.and_eq_true, decide_eq_true_eq] at hin ⊢
    omega
termination_by structural g
end

/-! ### C86 -/

/-- **C86** (the part that holds): a picture inside its canvas, with modes that exist in the file format, whose images start at the origin and have
colours that the file represents exactly, is after saving and loading the same at every point - for the same random numbers, if there are
Dissolve layers.
Full statement: every picture that can be saved and loaded; `C86_refuted` and `C86_indexed_refuted` show that the conditions matter. -/
theorem C86_looks_partial (wenv : WEnv) (env : Env) (sch : Sched) (hv : sch.Valid) (decompress : Bool) (g : List Layer)
    (hi : Encodable (.group g)) (l : List WCall) (h : runEncode wenv (.group g) = some (l, none)) (D : Bytes)
    (size : Nat) (hsz : ExactlyOnce l size) (hmax : size ≤ maxString)
    (cm : ColorModel) (hcm : (Img.group g).colorModel = some cm) (hnp : cm.isPalette = false) (hp : cm ≠ .alphaPalette [])
    (hd : decompress = true ∨ ∀ r ∈ placed g 0 0 0 [], maskOf r.layer.image = none)
    (hx : (groupBounds g).dx ≤ 2 ^ 31) (hy : (groupBounds g).dy ≤ 2 ^ 31)
    (hs : ∀ r ∈ placed g 0 0 0 [], Storable (fmtOf wenv cm) (parsesTo env) (groupBounds g).dx (groupBounds g).dy r)
    (hk : ∀ r ∈ placed g 0 0 0 [], r.layer.mode ∈ keptModes ((fmtOf wenv cm).typ == 0))
    (hb : ∀ m, (g.map (·.mode)).getLast? = some m → m = Mode.normal ∨ m = Mode.dissolve)
    (hE : Flawless cm g) :
    ∃ g', decodeImage env sch decompress (store D l) = .ok (.ok g') ∧
      ∀ (ρ : Nat → UInt16) (p : Pt) (n : Nat), (Img.group g').at ρ p n = (Img.group g).at ρ p n := by
  obtain ⟨g', h1, h2⟩ := C37_tree_partial wenv env sch hv decompress g hi l h D size hsz hmax cm hcm hd hx hy hs hk hb
  refine ⟨g', h1, fun ρ p n => ?_⟩
  have hp' : cm ≠ .palette [] ∧ cm ≠ .alphaPalette [] := ⟨(by rintro rfl; exact absurd hnp (by decide)), hp⟩
  have hcm : groupModel g = some cm := by unfold Img.colorModel at hcm; exact hcm
  unfold Img.at
  rw [hcm]
  rcases again_model (Spec.SameTree.like h2) with k2 | ⟨-, k2⟩ <;> rw [k2]
  · exact (layers_same wenv cm hp' g g' hE h2 ρ p _ _ hnp (notPalette_modelOf _) n).symm
  · exact (layers_same wenv cm hp' g g' hE h2 ρ p _ _ hnp rfl n).symm

/-- the hypotheses about the picture hold for one with a group, a mask, transparency and a hidden layer (see the example of C37 for the others) -/
example : Flawless .other sampleLayers ∧ ColorModel.other.isPalette = false ∧ ColorModel.other ≠ .alphaPalette [] := by
  refine ⟨?_, rfl, by simp⟩
  simp only [sampleLayers, samplePicture, Flawless, Exactly, Img.colorModel, groupModel, Option.some.injEq, forall_eq', ExactLeaf, Exact, ColorModel.isPalette,
    Img.leaf.injEq, exists_eq_left', and_true, true_and]
  refine ⟨⟨by decide, ?_⟩, by decide, ?_⟩
  · rintro p c - rfl
    exact .inl ⟨_, _, _, _, rfl⟩
  · rintro p c - rfl
    exact .inl ⟨_, _, _, _, rfl⟩

/-! ### What does not look the same -/

/-- a picture of one visible layer of one pixel -/
theorem single_at (ρ : Nat → UInt16) (l : Layer) (hb : l.bounds = ⟨0, 0, 1, 1⟩) (hinv : l.invisible = false) (htr : l.transparency = 0) (L : Leaf)
    (hi : l.image = .leaf L) (hd : l.mode ≠ Mode.dissolve) (c : Color) (hc : L.pixel ⟨0, 0⟩ = some c) (n : Nat) :
    (Img.group [l]).at ρ ⟨0, 0⟩ n =
      if L.model.isPalette then
        if c.toNRGBA.a > 0x7fff then some (.nrgba64 { c.toNRGBA with a := 0xffff }, n) else some (.alpha 0, n)
      else (composite 0 l.mode (.alpha 0) c).map fun c => (c, n) := by
  obtain ⟨nm, b, mode, inv, tr, im⟩ := l
  dsimp only at hb hinv htr hi hd
  subst hb hinv htr hi
  rw [Img.at, layersAt_cons, layersAt_nil, Option.bind_some]
  unfold drawLayer layerAt groupModel Img.colorModel
  dsimp only
  have hz : (⟨0 - 0, 0 - 0⟩ : Pt) = ⟨0, 0⟩ := rfl
  rw [if_neg (by decide), if_neg (by decide), hz, Img.at, hc]
  have ht : transparency c (255 - 0) = c := by unfold transparency; rfl
  simp only [Option.map_some, Option.bind_eq_bind, Option.bind_some, Option.pure_def, ht]
  cases hm : L.model.isPalette <;> simp [hd]

/-- C86 is false: a picture whose lowest layer has the mode Multiply is transparent, but after saving and loading it is not. -/
theorem C86_refuted (wenv : WEnv) (hw : Works wenv) : ∃ (g : List Layer) (l : List WCall),
    (∀ ρ n, (Img.group g).at ρ ⟨0, 0⟩ n = some (.nrgba 0 0 0 0, n)) ∧ runEncode wenv (.group g) = some (l, none) ∧
    ∀ (env : Env) (sch : Sched), sch.Valid → ∀ (decompress : Bool) (D : Bytes), ∃ g',
      decodeImage env sch decompress (store D l) = .ok (.ok g') ∧
      ∀ ρ n, (Img.group g').at ρ ⟨0, 0⟩ n = some (.nrgba64 ⟨0x0909, 0x0808, 0x0707, 0xffff⟩, n) := by
  obtain ⟨l, h1, h2⟩ := dots_back wenv hw (Mode.multiply, .other, .nrgba 9 8 7 255) [] (by simp) (by simp [fmtOf, encFor])
  refine ⟨_, l, ?_, h1, fun env sch hv decompress D => ?_⟩
  · intro ρ n
    rw [List.map_cons, List.map_nil, single_at ρ _ rfl rfl rfl _ rfl (by decide) (.nrgba 9 8 7 255) rfl n]
    show (composite 0 Mode.multiply (.alpha 0) (.nrgba 9 8 7 255)).map (fun c => (c, n)) = _
    rw [show composite 0 Mode.multiply (.alpha 0) (.nrgba 9 8 7 255) = some (.nrgba 0 0 0 0) by decide]
    rfl
  · obtain ⟨g', h3, h4⟩ := h2 env sch hv decompress D
    rw [List.map_cons, List.map_nil] at h4
    obtain ⟨a, r', rfl, -, e2, e3, e4, e5, e6, h4⟩ := sameTree_cons h4
    cases sameTree_nil h4
    refine ⟨_, h3, fun ρ n => ?_⟩
    have e6 : ImgBack (fmtOf wenv .other) (parsesTo env) (dot (Mode.multiply, .other, .nrgba 9 8 7 255)) a.image := e6
    obtain ⟨L, ⟨b, c1, c2, c3, -, c4⟩, ho⟩ := e6
    have c1 : some (⟨0, 0, 1, 1⟩ : Rect) = some b := c1
    cases c1
    obtain ⟨k, k', c, d1, d2⟩ := c4 ⟨0, 0⟩ (by rw [c2]; decide)
    have d1 : some (Color.nrgba 9 8 7 255, k) = some (c, k') := d1
    cases d1
    have d2 : L.pixel ⟨0, 0⟩ = some (.nrgba 9 8 7 255) := d2
    rcases ho with ⟨-, -, ho⟩ | ⟨t, _, _, ht, _⟩ | ⟨_, _, _, hm, _⟩
    · have hfix : fixBottom [a] = [{ a with mode := Mode.normal }] := by
        have e3 : a.mode = modeBack (fmtOf wenv .other) Mode.multiply := e3
        rw [(modeBack_other wenv Mode.multiply).2 (by decide)] at e3
        unfold fixBottom
        rw [show [a].getLast? = some a from rfl]
        dsimp only
        rw [e3]
        rfl
      rw [hfix, single_at ρ { a with mode := Mode.normal } e2 e4 e5 L ho (by show Mode.normal ≠ _; decide) _ d2 n, c3]
      show (composite 0 Mode.normal (.alpha 0) (.nrgba 9 8 7 255)).map (fun c => (c, n)) = _
      rw [show composite 0 Mode.normal (.alpha 0) (.nrgba 9 8 7 255) = some (.nrgba64 ⟨0x0909, 0x0808, 0x0707, 0xffff⟩) by decide]
      rfl
    · cases ht
    · cases hm

/-- the file of a picture of one pixel is small -/
theorem point_size (F : Fmt) (hF : F.bpp ≤ 4) (hp : (F.palette.getD []).length ≤ 256) (L : Leaf) (hx : L.bounds.dx = 1) (hy : L.bounds.dy = 1) :
    fileBytes F (.group [⟨[100], ⟨0, 0, L.bounds.dx, L.bounds.dy⟩, Mode.normal, false, 0, .leaf L⟩]) ≤ maxString := by
  have h1 : layersOf (.group [⟨[100], ⟨0, 0, L.bounds.dx, L.bounds.dy⟩, Mode.normal, false, 0, .leaf L⟩]) =
      [⟨⟨[100], ⟨0, 0, L.bounds.dx, L.bounds.dy⟩, Mode.normal, false, 0, .leaf L⟩, 0 + 0, 0 + 0, [] ++ [0]⟩] := rfl
  unfold fileBytes
  rw [h1]
  simp only [List.map_cons, List.map_nil, List.sum_cons, List.sum_nil, layerBytes, textBytes, textOf, pixelsOf, maskOf, maskBytes, Img.bounds, pixelBytes,
    List.length_cons, List.length_nil, List.length_append, hx, hy]
  rw [show tilesAlong 1 = 1 from rfl]
  have hm : maxString = 16777216 := rfl
  omega

/-- C86 is false for images that do not start at the origin: `At` of a layer asks for the pixel at the origin, while the encoder stores those inside the
bounds of the image. -/
theorem C86_origin_refuted (wenv : WEnv) (hw : Works wenv) : ∃ (g : List Layer) (l : List WCall),
    (∀ ρ n, (Img.group g).at ρ ⟨0, 0⟩ n = some (.nrgba64 ⟨0, 0, 0, 0⟩, n)) ∧ runEncode wenv (.group g) = some (l, none) ∧
    ∀ (env : Env) (sch : Sched), sch.Valid → ∀ (decompress : Bool) (D : Bytes), ∃ g',
      decodeImage env sch decompress (store D l) = .ok (.ok g') ∧
      ∀ ρ n, (Img.group g').at ρ ⟨0, 0⟩ n = some (.nrgba64 ⟨0x0909, 0x0808, 0x0707, 0xffff⟩, n) := by
  let L : Leaf := ⟨⟨1, 0, 2, 1⟩, .other, fun p => some (if Rect.mem p ⟨1, 0, 2, 1⟩ then .nrgba 9 8 7 255 else .nrgba 0 0 0 0)⟩
  have hall := fun env sch hv decompress => C40_wrapped_partial wenv env sch hv decompress L [100] ((utf8Valid_iff _).1 (by decide)) (by decide) (by decide)
    (fun _ => rfl) hw (point_size _ (bpp_le wenv _) (by simp [fmtOf, encFor, L]) L rfl rfl)
  obtain ⟨l, h1, -⟩ := hall exEnv exSched ⟨fun _ => List.Perm.refl _, fun _ => List.Perm.refl _⟩ true
  refine ⟨_, l, ?_, h1, fun env sch hv decompress D => ?_⟩
  · intro ρ n
    rw [single_at ρ _ rfl rfl rfl L rfl (by show Mode.normal ≠ _; decide) (.nrgba 0 0 0 0) rfl n]
    show (composite 0 Mode.normal (.alpha 0) (.nrgba 0 0 0 0)).map (fun c => (c, n)) = _
    rw [show composite 0 Mode.normal (.alpha 0) (.nrgba 0 0 0 0) = some (.nrgba64 ⟨0, 0, 0, 0⟩) by decide]
    rfl
  · obtain ⟨l', h1', h2⟩ := hall env sch hv decompress
    rw [h1] at h1'
    cases h1'
    obtain ⟨L', h3, b, c1, c2, c3, -, c4⟩ := h2 D
    refine ⟨_, h3, fun ρ n => ?_⟩
    have c1 : some (⟨1, 0, 2, 1⟩ : Rect) = some b := c1
    cases c1
    obtain ⟨k, k', c, d1, d2⟩ := c4 ⟨0, 0⟩ (by rw [c2]; decide)
    have d1 : some (Color.nrgba 9 8 7 255, k) = some (c, k') := d1
    cases d1
    have d2 : L'.pixel ⟨0, 0⟩ = some (.nrgba 9 8 7 255) := d2
    rw [single_at ρ _ rfl rfl rfl L' rfl (by show Mode.normal ≠ _; decide) _ d2 n, c3]
    show (composite 0 Mode.normal (.alpha 0) (.nrgba 9 8 7 255)).map (fun c => (c, n)) = _
    rw [show composite 0 Mode.normal (.alpha 0) (.nrgba 9 8 7 255) = some (.nrgba64 ⟨0x0909, 0x0808, 0x0707, 0xffff⟩) by decide]
    rfl

/-- C86 is false for indexed pictures: a half transparent pixel is shown as opaque white before saving, and as half transparent grey after loading. -/
theorem C86_indexed_refuted (wenv : WEnv) (hw : Works wenv) : ∃ (g : List Layer) (l : List WCall),
    (∀ ρ n, (Img.group g).at ρ ⟨0, 0⟩ n = some (.nrgba64 ⟨0xffff, 0xffff, 0xffff, 0xffff⟩, n)) ∧ runEncode wenv (.group g) = some (l, none) ∧
    ∀ (env : Env) (sch : Sched), sch.Valid → ∀ (decompress : Bool) (D : Bytes), ∃ g',
      decodeImage env sch decompress (store D l) = .ok (.ok g') ∧
      ∀ ρ n, (Img.group g').at ρ ⟨0, 0⟩ n = some (.nrgba64 ⟨0x8080, 0x8080, 0x8080, 0x8080⟩, n) := by
  let L : Leaf := ⟨⟨0, 0, 1, 1⟩, .palette [.nrgba 255 255 255 128], fun _ => some (.nrgba 255 255 255 128)⟩
  have hall := fun env sch hv decompress => C40_wrapped_partial wenv env sch hv decompress L [100] ((utf8Valid_iff _).1 (by decide)) (by decide) (by decide)
    (fun _ => rfl) hw (point_size _ (bpp_le wenv _) (by simp [fmtOf, encFor, L]) L rfl rfl)
  obtain ⟨l, h1, -⟩ := hall exEnv exSched ⟨fun _ => List.Perm.refl _, fun _ => List.Perm.refl _⟩ true
  refine ⟨_, l, ?_, h1, fun env sch hv decompress D => ?_⟩
  · intro ρ n
    rw [single_at ρ _ rfl rfl rfl L rfl (by show Mode.normal ≠ _; decide) (.nrgba 255 255 255 128) rfl n]
    rfl
  · obtain ⟨l', h1', h2⟩ := hall env sch hv decompress
    rw [h1] at h1'
    cases h1'
    obtain ⟨L', h3, b, c1, c2, c3, -, c4⟩ := h2 D
    refine ⟨_, h3, fun ρ n => ?_⟩
    have c1 : some (⟨0, 0, 1, 1⟩ : Rect) = some b := c1
    cases c1
    obtain ⟨k, k', c, d1, d2⟩ := c4 ⟨0, 0⟩ (by rw [c2]; decide)
    have d1 : some (Color.nrgba 255 255 255 128, k) = some (c, k') := d1
    cases d1
    have d2 : L'.pixel ⟨0, 0⟩ = some (.nrgba 128 128 128 128) := by rw [d2]; rfl
    rw [single_at ρ _ rfl rfl rfl L' rfl (by show Mode.normal ≠ _; decide) _ d2 n, c3]
    show (composite 0 Mode.normal (.alpha 0) (.nrgba 128 128 128 128)).map (fun c => (c, n)) = _
    rw [show composite 0 Mode.normal (.alpha 0) (.nrgba 128 128 128 128) = some (.nrgba64 ⟨0x8080, 0x8080, 0x8080, 0x8080⟩) by decide]
    rfl

example : Works goodSink := fun _ => rfl

end Limage
