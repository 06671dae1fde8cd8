import Verif.Props.Pixel
import Verif.Props.Grouping
/-!
# C141: several masks and opacities on one image
-/
namespace Limage

namespace Spec

/-- the image with the masks put on it one after another -/
def behindMasks (i : Img) : List GrayImg → Img
  | [] => i
  | m :: ms => behindMasks (.masked i (some m)) ms

/-- the product of the values of the masks at the point -/
def share (p : Pt) : List GrayImg → Nat
  | [] => 1
  | m :: ms => (m.pix p).toNat * share p ms

/-- every mask has the point -/
def AllAt (p : Pt) (ms : List GrayImg) : Prop := ∀ m ∈ ms, inRect m.rect p

/-- a mask with the same value everywhere in the rectangle -/
def evenMask (r : Rect) (o : UInt8) : GrayImg := ⟨r, fun _ => o⟩

end Spec
open Spec

theorem transparency_shade (c : Color) (o : UInt8) (h : o ≠ 0) :
    (transparency c o).toNRGBA.r = c.toNRGBA.r ∧ (transparency c o).toNRGBA.g = c.toNRGBA.g ∧ (transparency c o).toNRGBA.b = c.toNRGBA.b := by
  obtain ⟨h1, -, h3⟩ := C20_opacity c o
  by_cases h255 : o = 255
  · rw [h1 h255]; exact ⟨rfl, rfl, rfl⟩
  · obtain ⟨k, e, er, eg, eb, -⟩ := h3 h h255
    rw [e]; exact ⟨er, eg, eb⟩

theorem transparency_clear {c : Color} (h : c.toNRGBA = ⟨0, 0, 0, 0⟩) (o : UInt8) : (transparency c o).toNRGBA = ⟨0, 0, 0, 0⟩ := by
  obtain ⟨h1, h2, h3⟩ := C20_opacity c o
  by_cases h255 : o = 255
  · rw [h1 h255]; exact h
  · by_cases h0 : o = 0
    · rw [h2 h0]; rfl
    · obtain ⟨k, e, er, eg, eb, ea⟩ := h3 h0 h255
      rw [e]
      obtain ⟨r, g, b, a⟩ := k
      rw [h] at er eg eb ea
      dsimp only at er eg eb ea
      have : a = 0 := UInt16.toNat_inj.1 (by rw [ea]; simp)
      show (⟨r, g, b, a⟩ : NRGBA64) = _
      rw [er, eg, eb, this]

/-- the colour after all masks -/
def masked_all (p : Pt) : Color → List GrayImg → Color
  | c, [] => c
  | c, m :: ms => masked_all p (transparency c (m.grayAt p)) ms

theorem behindMasks_at (ρ : Nat → UInt16) (p : Pt) : ∀ (ms : List GrayImg) {i : Img} {n n' : Nat} {c : Color},
    i.at ρ p n = some (c, n') → (behindMasks i ms).at ρ p n = some (masked_all p c ms, n')
  | [], _, _, _, _, h => h
  | m :: ms, i, n, n', c, h => by
    rw [behindMasks, masked_all]
    refine behindMasks_at ρ p ms ?_
    rw [Img.at, h]; rfl

theorem share_le (p : Pt) : ∀ ms : List GrayImg, share p ms ≤ 255 ^ ms.length
  | [] => by simp [share]
  | m :: ms => by
    rw [share, List.length_cons, Nat.pow_succ, Nat.mul_comm]
    exact Nat.mul_le_mul (share_le p ms) (u8_le _)

theorem share_perm (p : Pt) {ms ms' : List GrayImg} (h : ms.Perm ms') : share p ms = share p ms' := by
  induction h with
  | nil => rfl
  | cons x _ ih => rw [share, share, ih]
  | swap x y l => simp only [share]; rw [Nat.mul_left_comm]
  | trans _ _ i j => exact i.trans j

theorem masked_all_alpha (p : Pt) : ∀ (ms : List GrayImg) (c : Color), AllAt p ms →
    (masked_all p c ms).toNRGBA.a.toNat * 255 ^ ms.length ≤ share p ms * c.toNRGBA.a.toNat ∧
    share p ms * c.toNRGBA.a.toNat ≤ ((masked_all p c ms).toNRGBA.a.toNat + ms.length) * 255 ^ ms.length ∧
    (ms ≠ [] → share p ms * c.toNRGBA.a.toNat < ((masked_all p c ms).toNRGBA.a.toNat + ms.length) * 255 ^ ms.length)
  | [], c, _ => by
    refine ⟨?_, ?_, fun h => absurd rfl h⟩ <;> simp [masked_all, share]
  | m :: ms, c, h => by
    obtain ⟨i1, i2, -⟩ := masked_all_alpha p ms (transparency c (m.grayAt p)) fun x hx => h x (List.mem_cons_of_mem _ hx)
    have hg : m.grayAt p = m.pix p := by rw [GrayImg.grayAt, if_pos ((mem_iff ..).2 (h m (List.mem_cons_self ..)))]
    have hs := share_le p ms
    rw [transparency_alpha, hg] at i1 i2
    rw [masked_all, share, List.length_cons, hg, Nat.pow_succ]
    generalize (masked_all p (transparency c (m.pix p)) ms).toNRGBA.a.toNat = A at *
    have hD : 0 < 255 ^ ms.length := Nat.pow_pos (by decide)
    generalize 255 ^ ms.length = D at *
    generalize share p ms = S at *
    generalize ms.length = k at *
    have h1 := Nat.div_mul_le_self ((m.pix p).toNat * c.toNRGBA.a.toNat) 255
    have h2 : (m.pix p).toNat * c.toNRGBA.a.toNat ≤ 255 * ((m.pix p).toNat * c.toNRGBA.a.toNat / 255) + 254 := by omega
    generalize hx : (m.pix p).toNat * c.toNRGBA.a.toNat = x at *
    generalize x / 255 = v at *
    have e1 : (m.pix p).toNat * S * c.toNRGBA.a.toNat = S * x := by
      rw [← hx, Nat.mul_comm (m.pix p).toNat S, Nat.mul_assoc]
    rw [e1]
    have a1 : S * (v * 255) ≤ S * x := Nat.mul_le_mul_left S h1
    have a2 : S * x ≤ S * (255 * v + 254) := Nat.mul_le_mul_left S h2
    rw [Nat.mul_add, ← Nat.mul_assoc, Nat.mul_comm S 255, Nat.mul_assoc] at a2
    rw [← Nat.mul_assoc] at a1
    have e2 : A * (D * 255) = (A * D) * 255 := (Nat.mul_assoc ..).symm
    have e3 : (A + (k + 1)) * (D * 255) = ((A + k) * D) * 255 + D * 255 := by
      rw [← Nat.add_assoc, Nat.add_mul (A + k) 1, Nat.one_mul, Nat.mul_assoc]
    have e4 : S * x < (A + (k + 1)) * (D * 255) := by omega
    exact ⟨by omega, Nat.le_of_lt e4, fun _ => e4⟩

theorem masked_all_shade (p : Pt) : ∀ (ms : List GrayImg) (c : Color), (∀ m ∈ ms, m.grayAt p ≠ 0) →
    (masked_all p c ms).toNRGBA.r = c.toNRGBA.r ∧ (masked_all p c ms).toNRGBA.g = c.toNRGBA.g ∧ (masked_all p c ms).toNRGBA.b = c.toNRGBA.b
  | [], _, _ => ⟨rfl, rfl, rfl⟩
  | m :: ms, c, h => by
    obtain ⟨a, b, d⟩ := masked_all_shade p ms (transparency c (m.grayAt p)) fun x hx => h x (List.mem_cons_of_mem _ hx)
    obtain ⟨a', b', d'⟩ := transparency_shade c (m.grayAt p) (h m (List.mem_cons_self ..))
    exact ⟨a.trans a', b.trans b', d.trans d'⟩

theorem masked_all_clear (p : Pt) : ∀ (ms : List GrayImg) {c : Color}, c.toNRGBA = ⟨0, 0, 0, 0⟩ → (masked_all p c ms).toNRGBA = ⟨0, 0, 0, 0⟩
  | [], _, h => h
  | _ :: ms, _, h => masked_all_clear p ms (transparency_clear h _)

theorem masked_all_hidden (p : Pt) : ∀ (ms : List GrayImg) (c : Color) {m : GrayImg}, m ∈ ms → m.grayAt p = 0 →
    (masked_all p c ms).toNRGBA = ⟨0, 0, 0, 0⟩
  | x :: ms, c, m, hm, h0 => by
    rw [masked_all]
    rcases List.mem_cons.1 hm with e | hm
    · subst e
      refine masked_all_clear p ms ?_
      rw [h0, (C20_opacity c 0).2.1 rfl]; rfl
    · exact masked_all_hidden p ms _ hm h0

/-- **C141**: with any number of masks on an image, one over the other, the alpha of a point is the alpha of the image times
the values of all the masks, rounded down and at most the number of masks too small; the colour is kept. -/
theorem C141_several (ρ : Nat → UInt16) (i : Img) (ms : List GrayImg) (p : Pt) (n n' : Nat) (c : Color) (h : i.at ρ p n = some (c, n'))
    (hp : AllAt p ms) (h0 : ∀ m ∈ ms, m.pix p ≠ 0) :
    ∃ t, (behindMasks i ms).at ρ p n = some (t, n') ∧
      t.toNRGBA.a.toNat * 255 ^ ms.length ≤ share p ms * c.toNRGBA.a.toNat ∧
      (ms ≠ [] → share p ms * c.toNRGBA.a.toNat < (t.toNRGBA.a.toNat + ms.length) * 255 ^ ms.length) ∧
      t.toNRGBA.r = c.toNRGBA.r ∧ t.toNRGBA.g = c.toNRGBA.g ∧ t.toNRGBA.b = c.toNRGBA.b := by
  obtain ⟨h1, -, h3⟩ := masked_all_alpha p ms c hp
  refine ⟨_, behindMasks_at ρ p ms h, h1, h3, ?_⟩
  refine masked_all_shade p ms c fun m hm => ?_
  rw [GrayImg.grayAt, if_pos ((mem_iff ..).2 (hp m hm))]
  exact h0 m hm

example : (exLeaf ⟨0, 0, 1, 1⟩ (.gray 7)).at (fun _ => 0) ⟨0, 0⟩ 0 = some (.gray 7, 0) ∧
    AllAt ⟨0, 0⟩ [evenMask ⟨0, 0, 1, 1⟩ 9, evenMask ⟨0, 0, 2, 1⟩ 100] ∧
    (∀ m ∈ [evenMask ⟨0, 0, 1, 1⟩ 9, evenMask ⟨0, 0, 2, 1⟩ 100], m.pix ⟨0, 0⟩ ≠ 0) := by
  refine ⟨?_, ?_, ?_⟩
  · rw [exLeaf, Img.at]; rfl
  · simp [AllAt, inRect, evenMask]
  · simp [evenMask]

/-- **C141**: a point that one of the masks does not have, or for which it is zero, is clear, whatever the others are. -/
theorem C141_hidden (ρ : Nat → UInt16) (i : Img) (ms : List GrayImg) (p : Pt) (n n' : Nat) (c : Color) (h : i.at ρ p n = some (c, n'))
    (m : GrayImg) (hm : m ∈ ms) (h0 : ¬ inRect m.rect p ∨ m.pix p = 0) :
    ∃ t, (behindMasks i ms).at ρ p n = some (t, n') ∧ t.toNRGBA = ⟨0, 0, 0, 0⟩ := by
  refine ⟨_, behindMasks_at ρ p ms h, masked_all_hidden p ms c hm ?_⟩
  rw [GrayImg.grayAt]
  split
  · rename_i hin
    rcases h0 with h0 | h0
    · exact absurd ((mem_iff ..).1 hin) h0
    · exact h0
  · rfl

example : (exLeaf ⟨0, 0, 1, 1⟩ (.gray 7)).at (fun _ => 0) ⟨0, 0⟩ 0 = some (.gray 7, 0) ∧
    evenMask ⟨1, 0, 2, 1⟩ 100 ∈ [evenMask ⟨0, 0, 1, 1⟩ 9, evenMask ⟨1, 0, 2, 1⟩ 100] ∧
    ¬ inRect (evenMask ⟨1, 0, 2, 1⟩ 100).rect ⟨0, 0⟩ := by
  refine ⟨?_, by simp, by simp [inRect, evenMask]⟩
  rw [exLeaf, Img.at]; rfl

/-- **C141**: in another order the masks give the same colour, and an alpha that differs by less than the number of masks. -/
theorem C141_order (ρ : Nat → UInt16) (i : Img) (ms ms' : List GrayImg) (hperm : ms.Perm ms') (p : Pt) (n n' : Nat) (c : Color)
    (h : i.at ρ p n = some (c, n')) :
    ∃ t t', (behindMasks i ms).at ρ p n = some (t, n') ∧ (behindMasks i ms').at ρ p n = some (t', n') ∧
      t.toNRGBA.a.toNat ≤ t'.toNRGBA.a.toNat + (ms.length - 1) ∧ t'.toNRGBA.a.toNat ≤ t.toNRGBA.a.toNat + (ms.length - 1) ∧
      t.toNRGBA.r = t'.toNRGBA.r ∧ t.toNRGBA.g = t'.toNRGBA.g ∧ t.toNRGBA.b = t'.toNRGBA.b := by
  refine ⟨_, _, behindMasks_at ρ p ms h, behindMasks_at ρ p ms' h, ?_⟩
  by_cases hz : ∃ m ∈ ms, m.grayAt p = 0
  · obtain ⟨m, hm, h0⟩ := hz
    rw [masked_all_hidden p ms c hm h0, masked_all_hidden p ms' c (hperm.mem_iff.1 hm) h0]
    simp
  · have hne : ∀ m ∈ ms, m.grayAt p ≠ 0 := fun m hm h0 => hz ⟨m, hm, h0⟩
    have hin : AllAt p ms := fun m hm => by
      refine Classical.byContradiction fun hc => hne m hm ?_
      rw [GrayImg.grayAt, if_neg]
      rw [mem_iff]; exact hc
    obtain ⟨x1, x2, x3⟩ := masked_all_shade p ms c hne
    obtain ⟨y1, y2, y3⟩ := masked_all_shade p ms' c fun m hm => hne m (hperm.mem_iff.2 hm)
    refine ⟨?_, ?_, x1.trans y1.symm, x2.trans y2.symm, x3.trans y3.symm⟩ <;>
    · obtain ⟨a1, a2, a3⟩ := masked_all_alpha p ms c hin
      obtain ⟨b1, b2, b3⟩ := masked_all_alpha p ms' c fun m hm => hin m (hperm.mem_iff.2 hm)
      rw [← share_perm p hperm, ← hperm.length_eq] at b1 b2 b3
      by_cases he : ms = []
      · subst he
        obtain rfl := List.Perm.eq_nil hperm.symm
        simp
      · have ha := a3 he
        have hb := b3 fun e => he (by subst e; exact List.Perm.eq_nil hperm)
        have c1 := Nat.lt_of_mul_lt_mul_right (Nat.lt_of_le_of_lt a1 hb)
        have c2 := Nat.lt_of_mul_lt_mul_right (Nat.lt_of_le_of_lt b1 ha)
        omega

example : [evenMask ⟨0, 0, 1, 1⟩ 9, evenMask ⟨0, 0, 2, 1⟩ 100].Perm [evenMask ⟨0, 0, 2, 1⟩ 100, evenMask ⟨0, 0, 1, 1⟩ 9] ∧
    (exLeaf ⟨0, 0, 1, 1⟩ (.gray 7)).at (fun _ => 0) ⟨0, 0⟩ 0 = some (.gray 7, 0) := by
  refine ⟨List.Perm.swap .., ?_⟩
  rw [exLeaf, Img.at]; rfl

/-- **C141**: the order can be seen: the difference of the last statement cannot be left out. -/
theorem C141_sharp : ∃ (m m' : GrayImg) (i : Img) (t t' : Color),
    (behindMasks i [m, m']).at (fun _ => 0) ⟨0, 0⟩ 0 = some (t, 0) ∧ (behindMasks i [m', m]).at (fun _ => 0) ⟨0, 0⟩ 0 = some (t', 0) ∧
    t.toNRGBA.a ≠ t'.toNRGBA.a := by
  have h : (exLeaf ⟨0, 0, 1, 1⟩ (.nrgba 0 0 0 7)).at (fun _ => 0) ⟨0, 0⟩ 0 = some (.nrgba 0 0 0 7, 0) := by
    rw [exLeaf, Img.at]; rfl
  refine ⟨evenMask ⟨0, 0, 1, 1⟩ 25, evenMask ⟨0, 0, 1, 1⟩ 16, exLeaf ⟨0, 0, 1, 1⟩ (.nrgba 0 0 0 7), _, _,
    behindMasks_at _ _ _ h, behindMasks_at _ _ _ h, by decide⟩

/-- **C141**: with two masks on an opaque image the order cannot be seen. -/
theorem C141_opaque (ρ : Nat → UInt16) (i : Img) (m m' : GrayImg) (p : Pt) (n n' : Nat) (c : Color)
    (h : i.at ρ p n = some (c, n')) (ho : c.toNRGBA.a = 0xffff) :
    ∃ t t', (behindMasks i [m, m']).at ρ p n = some (t, n') ∧ (behindMasks i [m', m]).at ρ p n = some (t', n') ∧ t.toNRGBA = t'.toNRGBA := by
  obtain ⟨t, t', h1, h2, -, -, hr, hg, hb⟩ := C141_order ρ i [m, m'] [m', m] (List.Perm.swap ..) p n n' c h
  refine ⟨t, t', h1, h2, ?_⟩
  have ha : t.toNRGBA.a = t'.toNRGBA.a := by
    rw [behindMasks_at ρ p _ h] at h1 h2
    obtain ⟨rfl, -⟩ := Prod.mk.inj (Option.some.inj h1)
    obtain ⟨rfl, -⟩ := Prod.mk.inj (Option.some.inj h2)
    refine UInt16.toNat_inj.1 ?_
    simp only [masked_all, transparency_alpha, ho, show (0xffff : UInt16).toNat = 255 * 257 from rfl]
    have e : ∀ x : Nat, x * (255 * 257) / 255 = x * 257 := fun x => by omega
    rw [e, e, Nat.mul_left_comm]
  generalize t.toNRGBA = x at *
  generalize t'.toNRGBA = y at *
  obtain ⟨a, b, c, d⟩ := x
  obtain ⟨a', b', c', d'⟩ := y
  dsimp only at *
  rw [hr, hg, hb, ha]

example : (exLeaf ⟨0, 0, 1, 1⟩ (.gray 7)).at (fun _ => 0) ⟨0, 0⟩ 0 = some (.gray 7, 0) ∧ (Color.gray 7).toNRGBA.a = 0xffff := by
  refine ⟨?_, by decide⟩
  rw [exLeaf, Img.at]; rfl

/-- **C141**: the opacity of a layer works like a mask with the same value everywhere: in any group, at any place in it and
with any mode, a layer with such a mask in place of its opacity gives the same picture. -/
theorem C141_even (ρ : Nat → UInt16) (above below : List Layer) (l : Layer) (r : Rect)
    (hr : ∀ p, inRect l.bounds p → inRect r ⟨p.x - l.bounds.x0, p.y - l.bounds.y0⟩) (p : Pt) (n : Nat) :
    Img.at ρ (.group (above ++ { l with transparency := 0, image := .masked l.image (some (evenMask r (255 - l.transparency))) } :: below)) p n =
      Img.at ρ (.group (above ++ l :: below)) p n := by
  have hm : groupModel (({ l with transparency := 0, image := .masked l.image (some (evenMask r (255 - l.transparency))) } : Layer) :: below) =
      groupModel (l :: below) := by
    rw [groupModel_cons, groupModel_cons]
    show Img.colorModel (.masked _ _) = _
    rw [Img.colorModel]
  rw [at_group, at_group, groupModel_append above hm]
  generalize groupModel (above ++ l :: below) = cm
  induction above generalizing n with
  | nil =>
    rw [List.nil_append, List.nil_append, layersAt_cons, layersAt_cons]
    cases layersAt ρ cm below p n with
    | none => rfl
    | some x =>
      obtain ⟨c, k⟩ := x
      rw [Option.bind_some, Option.bind_some]
      dsimp only
      by_cases hs : shows p l
      · have e : layerAt ρ { l with transparency := 0, image := .masked l.image (some (evenMask r (255 - l.transparency))) } p k =
            layerAt ρ l p k := by
          unfold layerAt
          dsimp only
          rw [Img.at]
          cases l.image.at ρ ⟨p.x - l.bounds.x0, p.y - l.bounds.y0⟩ k with
          | none => rfl
          | some y =>
            obtain ⟨t, k'⟩ := y
            have hg : (evenMask r (255 - l.transparency)).grayAt ⟨p.x - l.bounds.x0, p.y - l.bounds.y0⟩ = 255 - l.transparency := by
              rw [GrayImg.grayAt, if_pos]
              · rfl
              · rw [mem_iff]; exact hr p hs.2
            show some (transparency (transparency t (GrayImg.grayAt _ _)) (255 - 0), k') = _
            rw [hg, show (255 - 0 : UInt8) = 255 from rfl, (C20_opacity _ 255).1 rfl]; rfl
        unfold drawLayer
        rw [e]
      · rw [drawLayer_hidden _ _ hs, drawLayer_hidden]
        exact hs
  | cons a above ih =>
    rw [List.cons_append, List.cons_append, layersAt_cons, layersAt_cons, ih]

example : ∀ p, inRect (⟨3, 4, 13, 24⟩ : Rect) p → inRect ⟨0, 0, 10, 20⟩ ⟨p.x - 3, p.y - 4⟩ := by
  intro p h
  simp only [inRect] at *
  omega

end Limage
