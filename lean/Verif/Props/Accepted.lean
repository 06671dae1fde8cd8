import Verif.Props.Readable
import Verif.Props.Config
import Verif.Props.AnyFile
/-! # What every accepted file is read as (C91) -/
namespace Limage

/-! ## Specification -/

namespace Spec

/-- `s` are the layers of the image or of a group in it -/
inductive GroupIn (s : List Layer) : List Layer → Prop
  | self : GroupIn s s
  | deeper {g t : List Layer} {x : Layer} : x ∈ g → x.image = .group t → GroupIn s t → GroupIn s g

/-- the pixels of an image are those of `x`, with texts and masks taken off -/
inductive PixelsOf (x : Leaf) : Img → Prop
  | leaf : PixelsOf x (.leaf x)
  | text {i : Img} {t : TextData} : PixelsOf x i → PixelsOf x (.text i t)
  | masked {i : Img} {m : Option GrayImg} : PixelsOf x i → PixelsOf x (.masked i m)

/-- `m` is the mask of an image whose pixels are those of `x` -/
inductive MaskOf (m : GrayImg) (x : Leaf) : Img → Prop
  | mask {i : Img} : PixelsOf x i → MaskOf m x (.masked i (some m))
  | text {i : Img} {t : TextData} : MaskOf m x i → MaskOf m x (.text i t)
  | masked {i : Img} {m' : Option GrayImg} : MaskOf m x i → MaskOf m x (.masked i m')

/-- colour models of the layers of a file by its base type: full colour, grey, indexed -/
def modelsOf (base : Nat) (pal : List Color) (m : ColorModel) : Prop :=
  (base = 0 ∧ m = .other) ∨ (base = 1 ∧ (m = .gray ∨ m = .grayAlpha)) ∨
    (base = 2 ∧ (m = .palette pal ∨ m = .alphaPalette pal))

/-- an image of a colour model without alpha (the full colour models are not told apart here) -/
def noAlpha (m : ColorModel) : Prop := m = .gray ∨ ∃ pal, m = .palette pal

/-- modes without a formula of their own -/
def plainMode (m : Mode) : Prop := m = Mode.normal ∨ m = Mode.behind

end Spec

/-! ## One layer -/

/-- the colours of the pixels of images of type `k` -/
def kindColour (k : Nat) (pal : List Color) (c : Color) : Prop :=
  match k with
  | 0 => ∃ r g b, c = .lrgb r g b
  | 1 => ∃ r g b a, c = .nrgba r g b a
  | 2 => ∃ y, c = .gray y
  | 3 => ∃ y a, c = .grayAlpha y a
  | 4 => ∃ v ∈ pal, c = v ∨ c = .nrgba (v.rgba32.r >>> 8).toUInt8 (v.rgba32.g >>> 8).toUInt8 (v.rgba32.b >>> 8).toUInt8 255
  | _ => ∃ v ∈ pal, ∃ a, c = .nrgba (v.rgba32.r >>> 8).toUInt8 (v.rgba32.g >>> 8).toUInt8 (v.rgba32.b >>> 8).toUInt8 a

/-- Images of a layer of type `k` that is as large as `R`; group layers have none. -/
inductive Framed (R : Rect) (k : Nat) (pal : List Color) : Img → Prop
  | nil : Framed R k pal .nil
  | leaf (x : Leaf) : k < 6 → x.bounds = R → x.model = kindModel k pal →
      (∀ p c, Rect.mem p x.bounds = true → x.pixel p = some c → kindColour k pal c) → Framed R k pal (.leaf x)
  | text {i : Img} (t : TextData) : Framed R k pal i → Framed R k pal (.text i t)
  | masked {i : Img} (m : GrayImg) : Spec.sameRect m.rect R → Framed R k pal i → Framed R k pal (.masked i (some m))

theorem readEager_frame {c : Ctx} {k bpp w h : Nat} {ts : List UInt64} {r r' : R} {im : EagerImg}
    (e : readEager c k bpp w h ts r = .ok (some im, r')) :
    k < 6 ∧ im.kind = k ∧ im.palette = c.palette ∧ im.width = w ∧ im.height = h := by
  unfold readEager at e
  by_cases hk : k < 6
  · rw [if_pos hk] at e
    obtain ⟨_, r1, _, e⟩ := M.bind_inv e
    obtain ⟨s, r2, _, e⟩ := M.bind_inv e
    cases e
    exact ⟨hk, rfl, rfl, rfl, rfl⟩
  · rw [if_neg hk] at e
    obtain ⟨_, r1, _, e⟩ := M.bind_inv e
    cases e

theorem readLazy_frame {c : Ctx} {k bpp w h : Nat} {ts : List UInt64} {r r' : R} {im : LazyImg}
    (e : readLazy c k bpp w h ts r = .ok (some im, r')) :
    k < 6 ∧ im.kind = k ∧ im.palette = c.palette ∧ im.width = w ∧ im.height = h := by
  unfold readLazy at e
  obtain ⟨_, r1, _, e⟩ := M.bind_inv e
  obtain ⟨s, r2, _, e⟩ := M.bind_inv e
  by_cases hk : k < 6
  · rw [if_pos hk] at e
    cases e
    exact ⟨hk, rfl, rfl, rfl, rfl⟩
  · rw [if_neg hk] at e
    cases e

theorem readImage_frame {c : Ctx} {w h k : UInt32} {r r' : R} {d : DecImg}
    (e : readImage c w h k r = .ok (some d, r')) : k.toNat < 6 ∧ d.leaf.bounds = sizeRect w.toNat h.toNat ∧
      d.leaf.model = kindModel k.toNat c.palette := by
  unfold readImage at e
  obtain ⟨x, r1, _, e⟩ := M.bind_inv e
  cases x with
  | none => cases e
  | some x =>
    dsimp only at e
    split at e
    · obtain ⟨im, r2, h2, e⟩ := M.bind_inv e
      cases im with
      | none => cases e
      | some im =>
        cases e
        obtain ⟨h1, h2, h3, h4, h5⟩ := readEager_frame h2
        refine ⟨h1, ?_, ?_⟩
        · show sizeRect im.width im.height = _
          rw [h4, h5]
        · show kindModel im.kind im.palette = _
          rw [h2, h3]
    · obtain ⟨im, r2, h2, e⟩ := M.bind_inv e
      cases im with
      | none => cases e
      | some im =>
        cases e
        obtain ⟨h1, h2, h3, h4, h5⟩ := readLazy_frame h2
        refine ⟨h1, ?_, ?_⟩
        · show sizeRect im.width im.height = _
          rw [h4, h5]
        · show kindModel im.kind im.palette = _
          rw [h2, h3]

theorem eagerColor_kind {k : Nat} (hk : k < 6) {pal : List Color} {px : Bytes} {c : Color} (h : eagerColor k pal px = some c) : kindColour k pal c := by
  have : k = 0 ∨ k = 1 ∨ k = 2 ∨ k = 3 ∨ k = 4 ∨ k = 5 := by omega
  rcases this with rfl | rfl | rfl | rfl | rfl | rfl
  · cases h; exact ⟨_, _, _, rfl⟩
  · cases h; exact ⟨_, _, _, _, rfl⟩
  · cases h; exact ⟨_, rfl⟩
  · cases h; exact ⟨_, _, rfl⟩
  · exact ⟨c, List.mem_of_getElem? h, .inl rfl⟩
  · have h : IdxPix.toColor pal ⟨px.getD 0 0, px.getD 1 0⟩ = some c := h
    unfold IdxPix.toColor at h
    split at h
    · cases h
    · rename_i v hv
      cases h
      exact ⟨v, List.mem_of_getElem? hv, _, rfl⟩

theorem lazyColor_kind {k : Nat} (hk : k < 6) {pal : List Color} {px : Bytes} {c : Color} (h : lazyColor k pal px = some c) : kindColour k pal c := by
  have : k = 0 ∨ k = 1 ∨ k = 2 ∨ k = 3 ∨ k = 4 ∨ k = 5 := by omega
  rcases this with rfl | rfl | rfl | rfl | rfl | rfl
  · cases h; exact ⟨_, _, _, rfl⟩
  · cases h; exact ⟨_, _, _, _, rfl⟩
  · cases h; exact ⟨_, rfl⟩
  · cases h; exact ⟨_, _, rfl⟩
  · have h : (match pal[(px.getD 0 0).toNat]? with
      | none => none
      | some v => some (Color.nrgba (v.rgba32.r >>> 8).toUInt8 (v.rgba32.g >>> 8).toUInt8 (v.rgba32.b >>> 8).toUInt8 255)) = some c := h
    split at h
    · cases h
    · rename_i v hv
      cases h
      exact ⟨v, List.mem_of_getElem? hv, .inr rfl⟩
  · have h : (match pal[(px.getD 0 0).toNat]? with
      | none => none
      | some v => some (Color.nrgba (v.rgba32.r >>> 8).toUInt8 (v.rgba32.g >>> 8).toUInt8 (v.rgba32.b >>> 8).toUInt8 (px.getD 1 0))) = some c := h
    split at h
    · cases h
    · rename_i v hv
      cases h
      exact ⟨v, List.mem_of_getElem? hv, _, rfl⟩

theorem readImage_colour {c : Ctx} {w h k : UInt32} {r r' : R} {d : DecImg}
    (e : readImage c w h k r = .ok (some d, r')) (p : Pt) (x : Color) (hm : Rect.mem p d.leaf.bounds = true) (hx : d.leaf.pixel p = some x) :
    kindColour k.toNat c.palette x := by
  unfold readImage at e
  obtain ⟨a, r1, _, e⟩ := M.bind_inv e
  cases a with
  | none => cases e
  | some a =>
    dsimp only at e
    split at e
    · obtain ⟨im, r2, h2, e⟩ := M.bind_inv e
      cases im with
      | none => cases e
      | some im =>
        cases e
        obtain ⟨h1, h2, h3, h4, h5⟩ := readEager_frame h2
        have hx : im.at p = some x := hx
        unfold EagerImg.at at hx
        rw [h2, h3] at hx
        split at hx
        · exact eagerColor_kind h1 hx
        · exact eagerColor_kind h1 hx
    · obtain ⟨im, r2, h2, e⟩ := M.bind_inv e
      cases im with
      | none => cases e
      | some im =>
        cases e
        obtain ⟨h1, h2, h3, h4, h5⟩ := readLazy_frame h2
        have hm : Rect.mem p (sizeRect im.width im.height) = true := hm
        have hx : (match im.at Cache.fresh p with
          | .ok (c, _) => c
          | _ => none) = some x := hx
        have hin : 0 ≤ p.x ∧ p.x < im.width ∧ 0 ≤ p.y ∧ p.y < im.height := by
          unfold Rect.mem sizeRect at hm
          simp only [Bool.and_eq_true, decide_eq_true_eq] at hm
          omega
        unfold LazyImg.at at hx
        rw [if_pos hin] at hx
        split at hx
        · rename_i c' st h6
          split at h6
          · cases h6; cases hx
          · split at h6
            · cases h6
              rw [h2, h3] at hx
              exact lazyColor_kind h1 hx
            · cases h6
            · cases h6
        · cases hx

theorem layerImage_frame {c : Ctx} {g : Bool} {w h k : UInt32} {r r' : R} {i : Img}
    (e : layerImage c g w h k r = .ok (some i, r')) : Framed (sizeRect w.toNat h.toNat) k.toNat c.palette i ∧
      (g = false → k.toNat < 6) := by
  unfold layerImage at e
  cases g with
  | true => cases e; exact ⟨.nil, by intro h; cases h⟩
  | false =>
    rw [if_neg (by decide)] at e
    obtain ⟨x, r1, h1, e⟩ := M.bind_inv e
    cases x with
    | none => cases e
    | some d =>
      cases e
      have h4 := readImage_colour h1
      obtain ⟨h1, h2, h3⟩ := readImage_frame h1
      exact ⟨.leaf _ h1 h2 h3 h4, fun _ => h1⟩

theorem layerText_frame {c : Ctx} {ps : List Parasite} {im : Img} {r r' : R} {i : Img} {R : Rect} {k : Nat}
    {pal : List Color} (hi : Framed R k pal im) (e : layerText c ps im r = .ok (some i, r')) : Framed R k pal i := by
  unfold layerText at e
  cases hp : getParasite ps textParasiteName with
  | none => rw [hp] at e; cases e; exact hi
  | some t =>
    rw [hp] at e
    dsimp only at e
    cases ht : c.env.parseText t.data with
    | panic => rw [ht] at e; cases e
    | hang => rw [ht] at e; cases e
    | ok d =>
      rw [ht] at e
      cases d with
      | none =>
        obtain ⟨_, r1, _, e⟩ := M.bind_inv e
        cases e
      | some d => cases e; exact .text _ hi

theorem readChannel_rect {c : Ctx} {r r' : R} {m : GrayImg} (e : readChannel c r = .ok (some m, r')) :
    ∃ w h : Nat, m.rect = sizeRect w h := by
  unfold readChannel at e
  obtain ⟨w, r1, _, e⟩ := M.bind_inv e
  obtain ⟨h, r2, _, e⟩ := M.bind_inv e
  obtain ⟨_, r3, _, e⟩ := M.bind_inv e
  obtain ⟨_, r4, _, e⟩ := M.bind_inv e
  obtain ⟨p, r5, _, e⟩ := M.bind_inv e
  obtain ⟨_, r6, _, e⟩ := M.bind_inv e
  obtain ⟨x, r7, _, e⟩ := M.bind_inv e
  cases x with
  | none => cases e
  | some d =>
    cases d with
    | eager im => cases e; exact ⟨im.width, im.height, rfl⟩
    | lazy im => cases e

theorem moved_mask {w h w' h' : Nat} {off : Pt} (e : ((sizeRect w h).add off).eq (sizeRect w' h') = true) :
    Spec.sameRect (sizeRect w' h') (sizeRect w h) := by
  unfold Rect.eq at e
  rw [Bool.or_eq_true] at e
  rcases e with e | e
  · left
    have e := of_decide_eq_true e
    unfold sizeRect Rect.add at *
    injection e with e1 e2 e3 e4
    dsimp only at e1 e2 e3 e4
    congr 1 <;> omega
  · right
    rw [Bool.and_eq_true] at e
    obtain ⟨e1, e2⟩ := e
    unfold Rect.empty sizeRect Rect.add at *
    simp only [Bool.or_eq_true, decide_eq_true_eq] at e1 e2
    constructor
    · rintro p ⟨h1, h2, h3, h4⟩
      dsimp only at *; omega
    · rintro p ⟨h1, h2, h3, h4⟩
      dsimp only at *; omega

theorem readMask_frame {c : Ctx} {w h : Nat} {off : Pt} {k : Nat} {pal : List Color} {im im' : Img} {r r' : R}
    (hi : Framed (sizeRect w h) k pal im) (e : readMask c ((sizeRect w h).add off) im r = .ok (im', r')) :
    Framed (sizeRect w h) k pal im' := by
  unfold readMask at e
  obtain ⟨x, r1, h1, e⟩ := M.bind_inv e
  cases x with
  | none => cases e; exact hi
  | some m =>
    dsimp only at e
    obtain ⟨w', h', hr⟩ := readChannel_rect h1
    by_cases hb : ((sizeRect w h).add off).eq m.rect
    · rw [if_pos hb] at e; cases e
      refine .masked m ?_ hi
      rw [hr] at hb ⊢
      exact moved_mask hb
    · rw [if_neg hb] at e
      obtain ⟨_, r2, _, e⟩ := M.bind_inv e
      cases e; exact hi

theorem layerProp_mode {c : Ctx} (hb : c.baseType ≠ 0) {typ plength : UInt32} {s s' : LProps} {r r' : R}
    (hs : Spec.plainMode s.mode) (e : layerProp c typ plength s r = .ok (s', r')) : Spec.plainMode s'.mode := by
  unfold layerProp at e
  by_cases h0 : typ = 9 ∨ typ = 28 ∨ typ = 11 ∨ typ = 12 ∨ typ = 10 ∨ typ = 13
  · rw [if_pos h0] at e
    obtain ⟨_, _, _, e⟩ := M.bind_inv e
    cases e; exact hs
  rw [if_neg h0] at e
  clear h0
  by_cases h0 : typ = 6
  · rw [if_pos h0] at e
    obtain ⟨_, _, _, e⟩ := M.bind_inv e
    obtain ⟨_, _, _, e⟩ := M.bind_inv e
    cases e; exact hs
  rw [if_neg h0] at e
  clear h0
  by_cases h0 : typ = 21
  · rw [if_pos h0] at e
    obtain ⟨_, _, _, e⟩ := M.bind_inv e
    cases e; exact hs
  rw [if_neg h0] at e
  clear h0
  by_cases h0 : typ = 20 ∨ typ = 5 ∨ typ = 31 ∨ typ = 26
  · rw [if_pos h0] at e
    obtain ⟨_, _, _, e⟩ := M.bind_inv e
    cases e; exact hs
  rw [if_neg h0] at e
  clear h0
  by_cases h0 : typ = 8
  · rw [if_pos h0] at e
    obtain ⟨_, _, _, e⟩ := M.bind_inv e
    cases e; exact hs
  rw [if_neg h0] at e
  clear h0
  by_cases h0 : typ = 2
  · rw [if_pos h0] at e
    cases e; exact hs
  rw [if_neg h0] at e
  clear h0
  by_cases h0 : typ = 29
  · rw [if_pos h0] at e
    cases e; exact hs
  rw [if_neg h0] at e
  clear h0
  by_cases h0 : typ = 30
  · rw [if_pos h0] at e
    obtain ⟨_, _, _, e⟩ := M.bind_inv e
    cases e; exact hs
  rw [if_neg h0] at e
  clear h0
  by_cases h0 : typ = 7
  · rw [if_pos h0] at e
    obtain ⟨_, _, _, e⟩ := M.bind_inv e
    cases e
    dsimp only
    rw [if_pos hb]
    split
    · exact Or.inr rfl
    · exact Or.inl rfl
  rw [if_neg h0] at e
  clear h0
  by_cases h0 : typ = 15
  · rw [if_pos h0] at e
    obtain ⟨_, _, _, e⟩ := M.bind_inv e
    obtain ⟨_, _, _, e⟩ := M.bind_inv e
    cases e; exact hs
  rw [if_neg h0] at e
  clear h0
  by_cases h0 : typ = 33
  · rw [if_pos h0] at e
    obtain ⟨_, _, _, e⟩ := M.bind_inv e
    cases e; exact hs
  rw [if_neg h0] at e
  clear h0
  obtain ⟨_, _, _, e⟩ := M.bind_inv e
  cases e; exact hs

theorem layerProps_mode {c : Ctx} (hb : c.baseType ≠ 0) : ∀ (f : Nat) {s s' : LProps} {r r' : R},
    Spec.plainMode s.mode → layerProps c f s r = .ok (s', r') → Spec.plainMode s'.mode := by
  intro f
  induction f with
  | zero => intro s s' r r' _ e; cases e
  | succ f ih =>
    intro s s' r r' hs e
    unfold layerProps at e
    obtain ⟨typ, r1, _, e⟩ := M.bind_inv e
    obtain ⟨pl, r2, _, e⟩ := M.bind_inv e
    split at e
    · obtain ⟨_, r3, _, e⟩ := M.bind_inv e
      cases e; exact hs
    · obtain ⟨s1, r3, h3, e⟩ := M.bind_inv e
      exact ih (layerProp_mode hb hs h3) e

/-- what a layer read without error is -/
theorem readLayer_frame {c : Ctx} {r r' : R} {l : DLayer} (e : readLayer c r = .ok (l, r')) (he : r'.err = none) :
    ∃ (w h : Nat) (off : Pt) (k : Nat), l.layer.bounds = (sizeRect w h).add off ∧ k / 2 = c.baseType.toNat ∧
      (l.alpha = true ↔ k % 2 = 1) ∧ Framed (sizeRect w h) k c.palette l.layer.image ∧
      (c.baseType ≠ 0 → Spec.plainMode l.layer.mode) := by
  unfold readLayer at e
  obtain ⟨w, r1, _, e⟩ := M.bind_inv e
  obtain ⟨h, r2, _, e⟩ := M.bind_inv e
  obtain ⟨t, r3, _, e⟩ := M.bind_inv e
  by_cases ht : t >>> 1 ≠ c.baseType
  · rw [if_pos ht] at e
    obtain ⟨_, r4, h4, e⟩ := M.bind_inv e
    cases e
    exact absurd he (setError_isSome h4)
  rw [if_neg ht] at e
  have hk : t.toNat / 2 = c.baseType.toNat := by
    have h1 : t >>> 1 = c.baseType := by simpa using ht
    rw [← h1, UInt32.toNat_shiftRight]
    simp [Nat.shiftRight_eq_div_pow]
  have ha : (decide (t &&& 1 = 1) = true) ↔ t.toNat % 2 = 1 := by
    rw [decide_eq_true_iff, ← UInt32.toNat_inj, UInt32.toNat_and]
    show t.toNat &&& 1 = 1 ↔ _
    rw [Nat.and_one_is_mod]
  obtain ⟨name, r4, _, e⟩ := M.bind_inv e
  obtain ⟨s, r5, h5, e⟩ := M.bind_inv e
  obtain ⟨hp, r6, _, e⟩ := M.bind_inv e
  obtain ⟨mp, r7, _, e⟩ := M.bind_inv e
  obtain ⟨_, r8, _, e⟩ := M.bind_inv e
  have hmode : c.baseType ≠ 0 → Spec.plainMode s.mode := fun hb => layerProps_mode hb _ (Or.inl rfl) h5
  dsimp only at e
  obtain ⟨im, r9, h9, e⟩ := M.bind_inv e
  cases im with
  | none => cases e; exact ⟨w.toNat, h.toNat, s.off, t.toNat, rfl, hk, ha, .nil, hmode⟩
  | some im =>
    have hb := (layerImage_frame h9).1
    dsimp only at e
    obtain ⟨im2, r10, h10, e⟩ := M.bind_inv e
    cases im2 with
    | none => cases e; exact ⟨w.toNat, h.toNat, s.off, t.toNat, rfl, hk, ha, hb, hmode⟩
    | some im2 =>
      have hb2 := layerText_frame hb h10
      dsimp only at e
      by_cases hm : mp ≠ 0
      · rw [if_pos hm] at e
        obtain ⟨_, r11, _, e⟩ := M.bind_inv e
        obtain ⟨im3, r12, h12, e⟩ := M.bind_inv e
        cases e
        exact ⟨w.toNat, h.toNat, s.off, t.toNat, rfl, hk, ha, readMask_frame hb2 h12, hmode⟩
      · rw [if_neg hm] at e; cases e; exact ⟨w.toNat, h.toNat, s.off, t.toNat, rfl, hk, ha, hb2, hmode⟩

/-! ## The pixels of a layer -/

theorem framed_pixels {R : Rect} {k : Nat} {pal : List Color} {i : Img} (h : Framed R k pal i) {x : Leaf}
    (hx : Spec.PixelsOf x i) : k < 6 ∧ x.bounds = R ∧ x.model = kindModel k pal := by
  induction h with
  | nil => cases hx
  | leaf y h1 h2 h3 h4 => cases hx; exact ⟨h1, h2, h3⟩
  | text t _ ih => cases hx with | text hx => exact ih hx
  | masked m _ _ ih => cases hx with | masked hx => exact ih hx

theorem framed_colour {R : Rect} {k : Nat} {pal : List Color} {i : Img} (h : Framed R k pal i) {x : Leaf}
    (hx : Spec.PixelsOf x i) : ∀ p c, Rect.mem p x.bounds = true → x.pixel p = some c → kindColour k pal c := by
  induction h with
  | nil => cases hx
  | leaf y h1 h2 h3 h4 => cases hx; exact h4
  | text t _ ih => cases hx with | text hx => exact ih hx
  | masked m _ _ ih => cases hx with | masked hx => exact ih hx

theorem framed_mask {R : Rect} {k : Nat} {pal : List Color} {i : Img} (h : Framed R k pal i) {x : Leaf} {m : GrayImg}
    (hx : Spec.MaskOf m x i) : Spec.sameRect m.rect R := by
  induction h with
  | nil => cases hx
  | leaf y h1 h2 h3 h4 => cases hx
  | text t _ ih => cases hx with | text hx => exact ih hx
  | masked m' h1 _ ih =>
    cases hx with
    | mask _ => exact h1
    | masked hx => exact ih hx

theorem kindModel_models {k : Nat} (hk : k < 6) (pal : List Color) : Spec.modelsOf (k / 2) pal (kindModel k pal) ∧
    (k % 2 = 1 → ¬ Spec.noAlpha (kindModel k pal)) := by
  have : k = 0 ∨ k = 1 ∨ k = 2 ∨ k = 3 ∨ k = 4 ∨ k = 5 := by omega
  unfold Spec.modelsOf Spec.noAlpha kindModel
  rcases this with rfl | rfl | rfl | rfl | rfl | rfl <;> simp

/-! ## The tree -/

/-- layers in the heap of a file with the canvas `c`, base type `b` and palette `pal` -/
def Sound (c : Rect) (b : Nat) (pal : List Color) (x : HLayer) : Prop :=
  ∃ (w h : Nat) (off o : Pt) (k : Nat) (i : Img), x.image = .val i ∧
    x.bounds = (((sizeRect w h).add off).inter c).sub o ∧ k / 2 = b ∧ Framed (sizeRect w h) k pal i ∧
    (b ≠ 0 → Spec.plainMode x.mode)

/-- the image of the layer has alpha -/
def WithAlpha (x : HLayer) : Prop := ∀ i l, x.image = .val i → Spec.PixelsOf l i → ¬ Spec.noAlpha l.model

theorem groupStep_alpha {bounds : Rect} {l : DLayer} {s s' : GState} (h : groupStep bounds l s = .ok s') :
    s.alpha = true := by
  unfold groupStep at h
  cases ha : s.alpha with
  | true => rfl
  | false => rw [if_pos ha] at h; cases h

theorem makeGroups_sound {c : Rect} {b : Nat} {pal : List Color} : ∀ {ls : List DLayer} {s s' : GState}, GInv s →
    (∀ l ∈ ls, ∃ (w h : Nat) (off : Pt) (k : Nat), l.layer.bounds = (sizeRect w h).add off ∧ k / 2 = b ∧
      (l.alpha = true ↔ k % 2 = 1) ∧ Framed (sizeRect w h) k pal l.layer.image ∧
      (b ≠ 0 → Spec.plainMode l.layer.mode)) →
    (∀ i, ∀ x ∈ s.items i, Sound c b pal x) → (∀ i, ∀ x ∈ (s.items i).dropLast, WithAlpha x) →
    (s.alpha = true → ∀ i, ∀ x ∈ s.items i, WithAlpha x) → makeGroups c ls s = .ok s' →
    (∀ i, ∀ x ∈ s'.items i, Sound c b pal x) ∧ (∀ i, ∀ x ∈ (s'.items i).dropLast, WithAlpha x) := by
  intro ls
  induction ls with
  | nil => intro s s' _ _ h2 h3 _ h; cases h; exact ⟨h2, h3⟩
  | cons l ls ih =>
    intro s s' hi hl h2 h3 h4 h
    unfold makeGroups at h
    cases hs : groupStep c l s with
    | error e => rw [hs] at h; cases h
    | ok s1 =>
      rw [hs] at h
      obtain ⟨w, ht, off, k, hb, hkb, ha, hf, hm⟩ := hl l List.mem_cons_self
      obtain ⟨gi, g, x, hgi, hg, hlk, hx, hit, _, hal, _⟩ := groupStep_ok hi hs
      have hA := h4 (groupStep_alpha hs)
      refine ih (groupStep_inv hi hs) (fun l hl' => hl l (List.mem_cons_of_mem _ hl')) ?_ ?_ ?_ h
      · intro i y hy
        rw [hit] at hy
        by_cases hig : i = gi
        · rw [if_pos hig] at hy
          rcases List.mem_append.1 hy with hy | hy
          · exact h2 gi y hy
          · rw [List.mem_singleton.1 hy, hx]
            exact ⟨w, ht, off, ⟨g.ox, g.oy⟩, k, _, rfl, by dsimp only; rw [hb], hkb, hf, hm⟩
        · rw [if_neg hig] at hy; exact h2 i y hy
      · intro i y hy
        rw [hit] at hy
        by_cases hig : i = gi
        · rw [if_pos hig, List.dropLast_concat] at hy
          exact hA gi y hy
        · rw [if_neg hig] at hy; exact h3 i y hy
      · intro ht' i y hy
        rw [hit] at hy
        by_cases hig : i = gi
        · rw [if_pos hig] at hy
          rcases List.mem_append.1 hy with hy | hy
          · exact hA gi y hy
          · rw [List.mem_singleton.1 hy, hx]
            intro i' l' hi' hp
            cases hi'
            obtain ⟨q1, q2, q3⟩ := framed_pixels hf hp
            rw [q3]
            exact (kindModel_models q1 pal).2 (ha.1 (by rw [← hal]; exact ht'))
        · rw [if_neg hig] at hy; exact hA i y hy

/-- the layers of one group of the finished tree -/
def Finished (c : Rect) (b : Nat) (pal : List Color) (s : List Layer) : Prop :=
  (∀ l ∈ s, (∃ t, l.image = .group t ∧ (b ≠ 0 → Spec.plainMode l.mode)) ∨ ∃ x : HLayer, Sound c b pal x ∧ x.image = .val l.image ∧ x.bounds = l.bounds ∧ x.mode = l.mode) ∧
  (∀ l ∈ s.dropLast, ∀ x, Spec.PixelsOf x l.image → ¬ Spec.noAlpha x.model)

theorem groupTree_finished {c : Rect} {b : Nat} {pal : List Color} {s : GState}
    (h1 : ∀ i, ∀ x ∈ s.items i, Sound c b pal x) (h2 : ∀ i, ∀ x ∈ (s.items i).dropLast, WithAlpha x) (P : List Nat) :
    ∀ f i g, Spec.GroupIn g (groupTree s P f i) → Finished c b pal g := by
  intro f
  induction f with
  | zero =>
    intro i g hg
    cases hg with
    | self => exact ⟨(fun l hl => by cases hl), (fun l hl => by cases hl)⟩
    | deeper hx _ _ => cases hx
  | succ f ih =>
    intro i g hg
    have hmem : ∀ (k : Nat) (hk : k < (s.items i).length), ∀ l, l = (⟨(s.items i)[k].name, (s.items i)[k].bounds, (s.items i)[k].mode, (s.items i)[k].invisible, (s.items i)[k].transparency,
      match childAt s P i k with
      | some c => .group (groupTree s P f c)
      | none =>
        match (s.items i)[k].image with
        | .val i => i
        | .slice _ => .nil⟩ : Layer) → (∃ c, l.image = .group (groupTree s P f c)) ∨ (s.items i)[k].image = .val l.image := by
      intro k hk l hl
      obtain ⟨_, _, _, _, _, im, him, _⟩ := h1 i _ (List.getElem_mem hk)
      cases hc : childAt s P i k with
      | some c => left; exact ⟨c, by rw [hl, hc]⟩
      | none => right; rw [hl, hc, him]
    cases hg with
    | self =>
      unfold groupTree
      constructor
      · intro l hl
        obtain ⟨k, hk, he⟩ := List.mem_mapIdx.1 hl
        have hs := h1 i _ (List.getElem_mem hk)
        rcases hmem k hk l he.symm with ⟨c, hc⟩ | hv
        · left
          refine ⟨_, hc, fun hb => ?_⟩
          obtain ⟨_, _, _, _, _, _, _, _, _, _, hm⟩ := hs
          rw [← he]; exact hm hb
        · right
          exact ⟨_, hs, hv, by rw [← he], by rw [← he]⟩
      · intro l hl x hx
        rw [List.dropLast_eq_take, List.length_mapIdx] at hl
        obtain ⟨k, hk, he⟩ := List.mem_iff_getElem.1 hl
        rw [List.getElem_take, List.getElem_mapIdx] at he
        rw [List.length_take, List.length_mapIdx] at hk
        rcases hmem k (by omega) l he.symm with ⟨c, hc⟩ | hv
        · rw [hc] at hx; cases hx
        · refine h2 i _ ?_ _ x hv hx
          rw [List.dropLast_eq_take]
          refine List.mem_iff_getElem.2 ⟨k, by rw [List.length_take]; omega, ?_⟩
          rw [List.getElem_take]
    | deeper hx hi hg =>
      unfold groupTree at hx
      obtain ⟨k, hk, he⟩ := List.mem_mapIdx.1 hx
      rcases hmem k hk _ he.symm with ⟨c, hc⟩ | hv
      · rw [hc] at hi
        cases hi
        exact ih c g hg
      · rw [hi] at hv
        obtain ⟨_, _, _, _, _, im, him, _, _, hf, _⟩ := h1 i _ (List.getElem_mem hk)
        rw [hv] at him
        cases him
        cases hf

theorem groupIn_fixBottom {s g : List Layer} (h : Spec.GroupIn s (fixBottom g)) :
    s = fixBottom g ∨ Spec.GroupIn s g := by
  cases h with
  | self => exact Or.inl rfl
  | deeper hx hi hg =>
    right
    unfold fixBottom at hx
    cases hl : g.getLast? with
    | none => rw [hl] at hx; exact .deeper hx hi hg
    | some l =>
      rw [hl] at hx
      dsimp only at hx
      split at hx
      · exact .deeper hx hi hg
      · rcases List.mem_append.1 hx with hx | hx
        · exact .deeper (List.dropLast_subset _ hx) hi hg
        · rw [List.mem_singleton.1 hx] at hi
          exact .deeper (List.mem_of_getLast? hl) hi hg

theorem finished_fixBottom {c : Rect} {b : Nat} {pal : List Color} {g : List Layer} (h : Finished c b pal g) :
    Finished c b pal (fixBottom g) := by
  unfold fixBottom
  cases hl : g.getLast? with
  | none => exact h
  | some l =>
    dsimp only
    split
    · exact h
    · constructor
      · intro x hx
        rcases List.mem_append.1 hx with hx | hx
        · exact h.1 x (List.dropLast_subset _ hx)
        · rw [List.mem_singleton.1 hx]
          rcases h.1 l (List.mem_of_getLast? hl) with ⟨t, ht, hm⟩ | ⟨y, hy, h1, h2, h3⟩
          · exact Or.inl ⟨t, ht, fun _ => Or.inl rfl⟩
          · right
            obtain ⟨w, hh, off, o, k, i, q1, q2, q3, q4, q5⟩ := hy
            exact ⟨{ y with mode := 0 }, ⟨w, hh, off, o, k, i, q1, q2, q3, q4, fun _ => Or.inl rfl⟩, h1, h2, rfl⟩
      · rw [List.dropLast_concat]
        exact h.2

theorem fixBottom_bottom {g : List Layer} {l : Layer} (h : (fixBottom g).getLast? = some l) :
    l.mode = Mode.normal ∨ l.mode = Mode.dissolve := by
  unfold fixBottom at h
  cases hl : g.getLast? with
  | none => rw [hl] at h; dsimp only at h; rw [hl] at h; cases h
  | some x =>
    rw [hl] at h
    dsimp only at h
    split at h
    · rename_i hm
      rw [hl] at h; cases h; exact hm
    · rw [List.getLast?_concat] at h
      cases h; exact Or.inl rfl

/-- `Decode` and `DecodeCompressed` return finished trees -/
theorem decode_finished {env : Env} {sch : Sched} (hv : sch.Valid) {dec : Bool} {D : Bytes} {g : List Layer}
    (h : decodeImage env sch dec D = .ok (.ok g)) :
    ∃ hd r, readHead (newReader D) = .ok (.ok hd, r) ∧
      (∀ s, Spec.GroupIn s g → Finished (sizeRect hd.width.toNat hd.height.toNat) hd.baseType.toNat hd.props.palette s) ∧
      ∀ l, g.getLast? = some l → l.mode = Mode.normal ∨ l.mode = Mode.dissolve := by
  unfold decodeImage at h
  split at h
  · cases h
  · cases h
  · cases h
  · rename_i hd r hh
    unfold decodeLayers at h
    split at h
    · cases h
    · cases h
    · cases h
    · rename_i ls hl
      cases hm : makeGroups (sizeRect hd.width.toNat hd.height.toNat) ls GState.start with
      | error e => rw [hm] at h; cases h
      | ok s =>
        rw [hm] at h
        dsimp only at h
        have hi := makeGroups_inv ginv_start hm
        rw [makeImage_tree hi _ (hv.2 _)] at h
        cases h
        have hstart : ∀ i, GState.start.items i = [] := by
          intro i
          rcases Nat.eq_zero_or_pos i with rfl | hi0
          · rfl
          · unfold GState.items
            rw [List.getD_eq_getElem?_getD, List.getElem?_eq_none (by exact hi0)]
            rfl
        have hls : ∀ l ∈ ls, ∃ (w h : Nat) (off : Pt) (k : Nat), l.layer.bounds = (sizeRect w h).add off ∧
            k / 2 = hd.baseType.toNat ∧ (l.alpha = true ↔ k % 2 = 1) ∧
            Framed (sizeRect w h) k hd.props.palette l.layer.image ∧
            (hd.baseType.toNat ≠ 0 → Spec.plainMode l.layer.mode) := by
          intro l hl'
          obtain ⟨p, _, r2, r3, e, he⟩ := readLayers_layers hv hl l hl'
          obtain ⟨w, ht, off, k, a1, a2, a3, a4, a5⟩ := readLayer_frame e he
          refine ⟨w, ht, off, k, a1, a2, a3, a4, fun hb => a5 fun h0 => hb ?_⟩
          have h0 : hd.baseType = 0 := h0
          rw [h0]; rfl
        obtain ⟨k1, k2⟩ := makeGroups_sound ginv_start hls
          (fun i x hx => by rw [hstart] at hx; cases hx) (fun i x hx => by rw [hstart] at hx; cases hx)
          (fun _ i x hx => by rw [hstart] at hx; cases hx) hm
        refine ⟨hd, r, hh, fun t ht => ?_, fun l hl => fixBottom_bottom hl⟩
        rcases groupIn_fixBottom ht with rfl | ht
        · exact finished_fixBottom (groupTree_finished k1 k2 _ _ _ _ .self)
        · exact groupTree_finished k1 k2 _ _ _ _ ht

theorem cut_inside {w h : Nat} {off o : Pt} {c : Rect} {b : Rect}
    (hb : b = (((sizeRect w h).add off).inter c).sub o) (p : Pt) (hp : Spec.inRect b p) :
    Spec.inRect (sizeRect w h) ⟨p.x - b.x0, p.y - b.y0⟩ := by
  obtain ⟨h1, h2, h3, h4⟩ := hp
  rw [hb] at *
  unfold Rect.sub Rect.inter Rect.add sizeRect Rect.zero at *
  dsimp only at *
  split at h2
  · rename_i he
    rw [if_pos he] at *
    dsimp only at *
    omega
  · rename_i he
    rw [if_neg he] at *
    dsimp only at *
    refine ⟨?_, ?_, ?_, ?_⟩ <;> dsimp only <;> omega

/-- C91: Whatever `Decode` or `DecodeCompressed` accept, in the image and in every group of it
the pixels of each layer start at the origin and reach as far as the layer, so that every point of the layer has a pixel,
their colour model is one of those of the base type of the file, with the same palette everywhere,
a mask is as large as the pixels it belongs to,
layers of grey and indexed files have one of the modes Normal and Behind,
and no layer but the last of its group is without alpha.
The layer at the bottom of the image is drawn in mode Normal or Dissolve. -/
theorem C91_accepted (env : Env) (sch : Sched) (hv : sch.Valid) (dec : Bool) (D : Bytes) (g : List Layer)
    (h : decodeImage env sch dec D = .ok (.ok g)) :
    (∃ pal, ∀ s, Spec.GroupIn s g →
      (∀ l ∈ s, ∀ x, Spec.PixelsOf x l.image →
        x.bounds.x0 = 0 ∧ x.bounds.y0 = 0 ∧
        (∀ p, Spec.inRect l.bounds p → Spec.inRect x.bounds ⟨p.x - l.bounds.x0, p.y - l.bounds.y0⟩) ∧
        Spec.modelsOf (fromBE ((D.drop 22).take 4)) pal x.model ∧
        ∀ m, Spec.MaskOf m x l.image → Spec.sameRect m.rect x.bounds) ∧
      (fromBE ((D.drop 22).take 4) ≠ 0 → ∀ l ∈ s, Spec.plainMode l.mode) ∧
      ∀ l ∈ s.dropLast, ∀ x, Spec.PixelsOf x l.image → ¬ Spec.noAlpha x.model) ∧
    ∀ l, g.getLast? = some l → l.mode = Mode.normal ∨ l.mode = Mode.dissolve := by
  obtain ⟨hd, r, hh, hf, hlast⟩ := decode_finished hv h
  refine ⟨⟨hd.props.palette, fun s hs => ?_⟩, hlast⟩
  rw [readHead_baseType D hd r hh]
  obtain ⟨f1, f2⟩ := hf s hs
  refine ⟨fun l hl x hx => ?_, fun hb l hl => ?_, f2⟩
  · rcases f1 l hl with ⟨t, ht, _⟩ | ⟨y, ⟨w, ht, off, o, k, i, q1, q2, q3, q4, _⟩, y1, y2, _⟩
    · rw [ht] at hx; cases hx
    · rw [q1] at y1
      cases y1
      obtain ⟨p1, p2, p3⟩ := framed_pixels q4 hx
      rw [p2, p3]
      refine ⟨rfl, rfl, ?_, ?_, fun m hm => framed_mask q4 hm⟩
      · exact cut_inside (y2.symm.trans q2)
      · rw [← q3]; exact (kindModel_models p1 _).1
  · rcases f1 l hl with ⟨t, _, hm⟩ | ⟨y, ⟨_, _, _, _, _, _, _, _, _, _, q⟩, _, _, y3⟩
    · exact hm hb
    · rw [← y3]; exact q hb

/-! ### Examples -/

/-- the layers of a decoded image with their bounds and modes -/
def outline : Outcome (Except Err (List Layer)) → List (Rect × Mode)
  | .ok (.ok g) => g.map fun l => (l.bounds, l.mode)
  | _ => []

-- two layers, one of them in mode Multiply, which a grey image does not keep
example : outline (decodeImage exEnv exSched true greyMultiply) =
    [(⟨0, 0, 1, 1⟩, Mode.normal), (⟨0, 0, 1, 1⟩, Mode.normal)] := by decide +kernel
example : ∀ dec g, decodeImage exEnv exSched dec greyMultiply = .ok (.ok g) → ∀ l ∈ g, Spec.plainMode l.mode := by
  intro dec g h
  obtain ⟨⟨pal, hp⟩, _⟩ := C91_accepted exEnv exSched ⟨fun _ => List.Perm.refl _, fun _ => List.Perm.refl _⟩ dec _ g h
  exact (hp g .self).2.1 (by decide +kernel)

/-- a grey file with a layer without alpha on top of another -/
def greyNoAlpha : Bytes :=
  [103, 105, 109, 112, 32, 120, 99, 102, 32, 118, 48, 48, 51, 0] ++ be 4 1 ++ be 4 1 ++ be 4 1 ++
  be 4 17 ++ be 4 1 ++ [1] ++ be 4 0 ++ be 4 0 ++ be 4 59 ++ be 4 129 ++ be 4 0 ++ be 4 0 ++
  -- 59: layer
  be 4 1 ++ be 4 1 ++ be 4 2 ++ be 4 0 ++ be 4 0 ++ be 4 0 ++ be 4 91 ++ be 4 0 ++
  -- 91: hierarchy, 111: level, 127: tile
  be 4 1 ++ be 4 1 ++ be 4 1 ++ be 4 111 ++ be 4 0 ++ be 4 1 ++ be 4 1 ++ be 4 127 ++ be 4 0 ++ [0, 100] ++
  -- 129: layer
  be 4 1 ++ be 4 1 ++ be 4 2 ++ be 4 0 ++ be 4 0 ++ be 4 0 ++ be 4 91 ++ be 4 0

/-- the error of a refused file -/
def refusal : Outcome (Except Err (List Layer)) → Option Err
  | .ok (.error e) => some e
  | _ => none

example : refusal (decodeImage exEnv exSched true greyNoAlpha) = some .missingAlpha := by decide +kernel
-- its second layer alone is accepted
example : outline (decodeImage exEnv exSched true (greyNoAlpha.take 43 ++ be 4 129 ++ be 4 0 ++ be 4 0 ++ be 4 0 ++ greyNoAlpha.drop 59)) =
    [(⟨0, 0, 1, 1⟩, Mode.normal)] := by decide +kernel

end Limage
