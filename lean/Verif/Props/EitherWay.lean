import Verif.Props.Inside
import Verif.Props.Compressed
import Verif.Props.PixelBound
import Verif.Proofs.ReadLayers
/-!
# Whole files with and without decompressing

What `DecodeCompressed` accepts is accepted by `Decode`, and the two pictures cannot be told apart, neither by looking at them nor by saving
them.
-/
namespace Limage
open Spec

/-! ## Relations -/

theorem seen_refl_all : ∀ i : Img, ∀ R, Seen R i i := by
  refine Img.induct ?_ ?_ ?_ ?_ ?_
  · intro L R
    rw [Seen]
    refine ⟨L, rfl, rfl, rfl, fun q _ => ?_⟩
    cases L.pixel q with
    | none => exact .inl ⟨rfl, rfl⟩
    | some c => exact .inr ⟨c, c, rfl, rfl, .refl c⟩
  · intro R; rw [Seen]
  · intro i t h R; rw [Seen]; exact ⟨i, rfl, h R⟩
  · intro i m h R
    rw [Seen]
    refine ⟨i, m, rfl, ?_, h R⟩
    cases m with
    | none => trivial
    | some m => exact ⟨rfl, fun _ _ => rfl⟩
  · intro g h R
    rw [Seen]
    refine ⟨g, rfl, ?_⟩
    induction g with
    | nil => rw [SeenAll]
    | cons l g ih =>
      obtain ⟨name, b, mode, inv, tr, im⟩ := l
      rw [SeenAll]
      exact ⟨im, g, rfl, h _ List.mem_cons_self _, ih fun l hl => h l (List.mem_cons_of_mem _ hl)⟩

theorem seen_mono : ∀ (i : Img) {j : Img} {R R' : Rect}, (∀ q, inRect R' q → inRect R q ∨ ∀ b, i.bounds = some b → inRect b q) →
    Seen R i j → Seen R' i j := by
  refine Img.induct ?_ ?_ ?_ ?_ ?_
  · intro L j R R' hR h
    rw [Seen] at h ⊢
    obtain ⟨K, rfl, h1, h2, h3⟩ := h
    refine ⟨K, rfl, h1, h2, fun q hq => h3 q ?_⟩
    rcases hq with hq | hq
    · exact .inl hq
    · rcases hR q hq with h | h
      · exact .inr h
      · exact .inl (h _ rfl)
  · intro j R R' _ h; rw [Seen] at h ⊢; exact h
  · intro i t ih j R R' hR h
    rw [Seen] at h ⊢
    obtain ⟨k, rfl, h⟩ := h
    exact ⟨k, rfl, ih hR h⟩
  · intro i m ih j R R' hR h
    rw [Seen] at h ⊢
    obtain ⟨k, m', rfl, hm, h⟩ := h
    exact ⟨k, m', rfl, hm, ih hR h⟩
  · intro g _ j R R' _ h
    rw [Seen] at h ⊢
    exact h

/-- layers that differ at most in pixels that are not seen -/
def SeenLayer (drawn : Bool) (l l' : Layer) : Prop :=
  l.name = l'.name ∧ l.bounds = l'.bounds ∧ l.mode = l'.mode ∧ l.invisible = l'.invisible ∧ l.transparency = l'.transparency ∧
    Seen (if drawn = true ∧ l.invisible = false then ⟨0, 0, l.bounds.dx, l.bounds.dy⟩ else Rect.zero) l.image l'.image

theorem seenAll_iff (drawn : Bool) : ∀ g k : List Layer, SeenAll drawn g k ↔ List.Forall₂ (SeenLayer drawn) g k := by
  intro g
  induction g with
  | nil =>
    intro k
    rw [SeenAll]
    constructor
    · rintro rfl; exact .nil
    · intro h; cases h; rfl
  | cons l g ih =>
    intro k
    obtain ⟨name, b, mode, inv, tr, im⟩ := l
    rw [SeenAll]
    constructor
    · rintro ⟨im', rest', rfl, h1, h2⟩
      exact .cons ⟨rfl, rfl, rfl, rfl, rfl, h1⟩ ((ih _).1 h2)
    · intro h
      cases h with
      | cons h1 h2 =>
        rename_i l' rest'
        obtain ⟨name', b', mode', inv', tr', im'⟩ := l'
        obtain ⟨e1, e2, e3, e4, e5, h1⟩ := h1
        dsimp only at e1 e2 e3 e4 e5
        subst e1 e2 e3 e4 e5
        exact ⟨im', rest', rfl, h1, (ih _).2 h2⟩

theorem seenAll_top {g k : List Layer} (h : SeenAll true g k) : SeenTop (.group g) (.group k) := by
  refine ⟨k, rfl, ?_⟩
  rw [seenAll_iff] at h ⊢
  refine h.imp ?_
  rintro l l' ⟨e1, e2, e3, e4, e5, h⟩
  refine ⟨e1, e2, e3, e4, e5, seen_mono _ (fun q hq => ?_) h⟩
  rw [if_neg (fun h => by cases h.1)] at hq
  simp only [inRect, Rect.zero] at hq
  omega

/-! ## Pixels -/

theorem lazyColor_four {pal : List Color} {px : Bytes} {c : Color} (h : lazyColor 4 pal px = some c) : ∃ r g b, c = .nrgba r g b 255 := by
  unfold lazyColor at h
  change (match pal[(px.getD 0 0).toNat]? with
      | none => none
      | some v => some (Color.nrgba ((Color.rgba32 v).r >>> 8).toUInt8 ((Color.rgba32 v).g >>> 8).toUInt8 ((Color.rgba32 v).b >>> 8).toUInt8 255)) = some c at h
  cases hv : pal[(px.getD 0 0).toNat]? with
  | none => rw [hv] at h; cases h
  | some v =>
    rw [hv] at h
    injection h with h
    exact ⟨_, _, _, h.symm⟩

theorem indist_opaque (r g b : UInt8) : Indist (.nrgba r g b 255) (.lrgb r g b) := by
  have h1 := lrgb_opaque r g b
  have h8 := widen_high
  refine ⟨h1, ?_, ?_, ?_⟩
  · rfl
  · show (r, g, b, 255) = _
    unfold nrgbaModel Color.rgba32
    dsimp only
    rw [if_pos rfl, h8, h8, h8]
  · show (let q := (Color.nrgba r g b 255).rgba32; ((19595 * q.r + 38470 * q.g + 7471 * q.b + 0x8000) >>> 24).toUInt8) = _
    rw [h1]
    rfl

theorem lazy_indist {k : Nat} {pal : List Color} (hpal : RGBPalette pal) {im : LazyImg} (hk : im.kind = k) (hp : im.palette = pal) {st st' : Cache}
    {p : Pt} {col : Option Color} (hin : 0 ≤ p.x ∧ p.x < im.width ∧ 0 ≤ p.y ∧ p.y < im.height) (h : im.at st p = .ok (col, st')) {x : Option Color}
    {px : Bytes} (hx : x = eagerColor k pal px) (hs : SameColour col x) (he : k ≠ 4 → col = x) :
    col = none ∧ x = none ∨ ∃ c c', col = some c ∧ x = some c' ∧ Indist c c' := by
  by_cases h4 : k = 4
  · subst h4
    have hx4 : ∀ c, x = some c → ∃ r g b, c = .lrgb r g b := by
      intro c hc
      rw [hx] at hc
      exact hpal c (List.mem_of_getElem? hc)
    have hc4 : ∀ c, col = some c → ∃ r g b, c = .nrgba r g b 255 := by
      intro c hc
      subst hc
      unfold LazyImg.at at h
      rw [hk, hp, if_pos hin] at h
      split at h
      · cases h
      · split at h
        · rename_i o st2 _
          injection h with h
          injection h with h _
          exact lazyColor_four h
        · cases h
        · cases h
    unfold SameColour at hs
    cases hcol : col with
    | none =>
      rw [hcol] at hs
      cases hxx : x with
      | none => exact .inl ⟨rfl, rfl⟩
      | some c => rw [hxx] at hs; cases hs
    | some c =>
      rw [hcol] at hs
      cases hxx : x with
      | none => rw [hxx] at hs; cases hs
      | some c' =>
        rw [hxx] at hs
        obtain ⟨r, g, b, rfl⟩ := hc4 c hcol
        obtain ⟨r', g', b', rfl⟩ := hx4 c' hxx
        simp only [Option.map_some, Option.some.injEq] at hs
        rw [lrgb_opaque] at hs
        have hw : ∀ x y : UInt8, widen32 x = widen32 y → x = y := by
          intro x y e
          have := congrArg (fun z : UInt32 => (z >>> 8).toUInt8) e
          have h8 := widen_high
          rwa [h8, h8] at this
        unfold Color.rgba32 at hs
        injection hs with a1 a2 a3 _
        rw [hw _ _ a1, hw _ _ a2, hw _ _ a3]
        exact .inr ⟨_, _, rfl, rfl, indist_opaque _ _ _⟩
  · rw [he h4]
    cases x with
    | none => exact .inl ⟨rfl, rfl⟩
    | some c => exact .inr ⟨c, c, rfl, rfl, .refl c⟩

theorem readImage_lazy {c : Ctx} {w h k : UInt32} {r r' : R} {im : LazyImg} (hok : readImage c w h k r = .ok (some (.lazy im), r')) :
    im.palette = c.palette := by
  unfold readImage at hok
  obtain ⟨x, r1, -, hok⟩ := M.bind_inv hok
  cases x with
  | none => cases hok
  | some x =>
    dsimp only at hok
    split at hok
    · obtain ⟨o, _, _, hok⟩ := M.bind_inv hok
      cases o <;> cases hok
    · obtain ⟨o, r2, h2, hok⟩ := M.bind_inv hok
      cases o with
      | none => cases hok
      | some im2 =>
        have hm : im2 = im := by
          simp only [M.pure_apply, Option.map_some, Outcome.ok.injEq, Prod.mk.injEq, Option.some.injEq, DecImg.lazy.injEq] at hok
          exact hok.1
        subst hm
        unfold readLazy at h2
        obtain ⟨_, r3, _, h2⟩ := M.bind_inv h2
        obtain ⟨ts, r4, _, h2⟩ := M.bind_inv h2
        split at h2
        · simp only [M.pure_apply, Outcome.ok.injEq, Prod.mk.injEq, Option.some.injEq] at h2
          rw [← h2.1]
        · cases h2

/-- without decompressing, images of compressed files are left compressed -/
theorem readImage_notEager {c : Ctx} (hd : c.decompress = false) (hc : c.compression ≠ 0) {w h k : UInt32} {r r' : R} {im : EagerImg}
    (hok : readImage c w h k r = .ok (some (.eager im), r')) : False := by
  unfold readImage at hok
  obtain ⟨x, r1, -, hok⟩ := M.bind_inv hok
  cases x with
  | none => cases hok
  | some x =>
    dsimp only at hok
    rw [if_neg (by rw [hd]; simpa using hc)] at hok
    obtain ⟨o, _, _, hok⟩ := M.bind_inv hok
    cases o <;> cases hok

theorem lazy_leaf {c : Ctx} {w h k : UInt32} {r r' : R} {im : LazyImg} (hpal : RGBPalette c.palette) (hlim : r.limit ≤ maxString)
    (hok : readImage c w h k r = .ok (some (.lazy im), r')) (he : r'.err = none) :
    ∃ im', readImage { c with decompress := true } w h k r = .ok (some (.eager im'), r') ∧
      Seen Rect.zero (.leaf (DecImg.leaf (.lazy im))) (.leaf (DecImg.leaf (.eager im'))) := by
  obtain ⟨im', h1, h2, h3, h4, h5, h6⟩ := C32_same_pixels c w h k r r' im hpal hlim hok he
  have hp := readImage_lazy hok
  refine ⟨im', h1, ?_⟩
  rw [Seen]
  refine ⟨_, rfl, by unfold DecImg.leaf; dsimp only; rw [h2, h3], by unfold DecImg.leaf; dsimp only; rw [h4, h5], fun q hq => ?_⟩
  have hq : inRect (sizeRect im.width im.height) q := by
    rcases hq with hq | hq
    · exact hq
    · simp only [inRect, Rect.zero] at hq; omega
  obtain ⟨q1, q2, q3, q4⟩ := hq
  obtain ⟨col, st', e1, e2, e3⟩ := h6 Cache.fresh .fresh q q1 q2 q3 q4
  unfold DecImg.leaf
  dsimp only
  rw [e1]
  dsimp only
  refine lazy_indist (hp ▸ hpal) (k := im.kind) (pal := im.palette) rfl rfl ⟨q1, q2, q3, q4⟩ e1 (px := im'.px q.x.toNat q.y.toNat) ?_ e2 e3
  unfold EagerImg.at
  rw [if_pos (by rw [h2, h3]; exact ⟨q1, q2, q3, q4⟩), h4, h5]

/-! ## Layers -/

/-- a mask cannot be read without decompressing -/
theorem readMask_lazy {c : Ctx} (hd : c.decompress = false) (hc : c.compression ≠ 0) {b : Rect} {im im' : Img} {r r' : R}
    (e : readMask c b im r = .ok (im', r')) : r'.err ≠ none := by
  unfold readMask at e
  obtain ⟨x, r1, h1, e⟩ := M.bind_inv e
  have hx : x = none ∧ r1.err ≠ none := by
    unfold readChannel at h1
    obtain ⟨_, _, _, h1⟩ := M.bind_inv h1
    obtain ⟨_, _, _, h1⟩ := M.bind_inv h1
    obtain ⟨_, _, _, h1⟩ := M.bind_inv h1
    obtain ⟨_, _, _, h1⟩ := M.bind_inv h1
    obtain ⟨_, _, _, h1⟩ := M.bind_inv h1
    obtain ⟨_, _, _, h1⟩ := M.bind_inv h1
    obtain ⟨y, r2, h2, h1⟩ := M.bind_inv h1
    cases y with
    | none =>
      cases h1
      exact ⟨rfl, readImage_none (by decide) h2⟩
    | some y =>
      cases y with
      | eager im => exact (readImage_notEager hd hc h2).elim
      | lazy im => cases h1
  obtain ⟨rfl, hx⟩ := hx
  cases e
  exact hx

/-- layers as they are read, before they are placed in groups -/
def TwinLayer (l l' : DLayer) : Prop :=
  l.layer.name = l'.layer.name ∧ l.layer.bounds = l'.layer.bounds ∧ l.layer.mode = l'.layer.mode ∧ l.layer.invisible = l'.layer.invisible ∧
    l.layer.transparency = l'.layer.transparency ∧ l.alpha = l'.alpha ∧ l.group = l'.group ∧ l.itemPath = l'.itemPath ∧
    Seen Rect.zero l.layer.image l'.layer.image ∧
    ∃ w h off, l.layer.bounds = (sizeRect w h).add off ∧ ∀ b, l.layer.image.bounds = some b → b = sizeRect w h

theorem layerImage_twin {c : Ctx} (hd : c.decompress = false) (hc : c.compression ≠ 0) (hpal : RGBPalette c.palette) {g : Bool} {w h k : UInt32}
    {r r' : R} {im : Img} (hlim : r.limit ≤ maxString) (e : layerImage c g w h k r = .ok (some im, r')) (he : r'.err = none) :
    ∃ im', layerImage { c with decompress := true } g w h k r = .ok (some im', r') ∧ Seen Rect.zero im im' := by
  unfold layerImage at e ⊢
  cases g with
  | true => cases e; exact ⟨.nil, rfl, seen_refl_all _ _⟩
  | false =>
    rw [if_neg (by decide)] at e ⊢
    obtain ⟨x, r1, h1, e⟩ := M.bind_inv e
    cases x with
    | none => cases e
    | some d =>
      cases e
      cases d with
      | eager im => exact (readImage_notEager hd hc h1).elim
      | lazy im =>
        obtain ⟨im', h2, h3⟩ := lazy_leaf hpal hlim h1 he
        exact ⟨_, by rw [M.bind_ok h2]; rfl, h3⟩

theorem layerText_twin {c : Ctx} {ps : List Parasite} {im im2 jm : Img} {r r' : R} (e : layerText c ps im r = .ok (some im2, r'))
    (h : Seen Rect.zero im jm) : ∃ jm2, layerText { c with decompress := true } ps jm r = .ok (some jm2, r') ∧ Seen Rect.zero im2 jm2 := by
  unfold layerText at e ⊢
  cases hp : getParasite ps textParasiteName with
  | none => rw [hp] at e; cases e; exact ⟨jm, rfl, h⟩
  | some t =>
    rw [hp] at e
    dsimp only at e ⊢
    cases ht : c.env.parseText t.data with
    | panic => rw [ht] at e; cases e
    | hang => rw [ht] at e; cases e
    | ok d =>
      rw [ht] at e
      cases d with
      | none =>
        dsimp only at e
        obtain ⟨_, _, _, e⟩ := M.bind_inv e
        cases e
      | some d =>
        cases e
        refine ⟨.text jm d, rfl, ?_⟩
        rw [Seen]
        exact ⟨jm, rfl, h⟩

theorem framed_bounds {R : Rect} {k : Nat} {pal : List Color} {i : Img} (h : Framed R k pal i) : ∀ b, i.bounds = some b → b = R := by
  induction h with
  | nil => intro b e; cases e
  | leaf x _ hb _ _ => intro b e; cases e; exact hb
  | text t _ ih => exact ih
  | masked m _ _ ih => exact ih

theorem layerProps_either (c : Ctx) : ∀ (f : Nat) (s : LProps), layerProps { c with decompress := true } f s = layerProps c f s := by
  intro f
  induction f with
  | zero => intro s; rfl
  | succ f ih =>
    intro s
    unfold layerProps
    simp only [ih]
    rfl

theorem readLayer_twin {c : Ctx} (hd : c.decompress = false) (hc : c.compression ≠ 0) (hb : c.baseType.toNat ≤ 2) (hpal : RGBPalette c.palette)
    {r r' : R} {l : DLayer} (hlim : r.limit ≤ maxString) (e : readLayer c r = .ok (l, r')) (he : r'.err = none) :
    ∃ l', readLayer { c with decompress := true } r = .ok (l', r') ∧ TwinLayer l l' := by
  obtain ⟨w0, h0, off, k0, f1, -, -, f2, -⟩ := readLayer_frame e he
  have hframe : ∃ w h off, l.layer.bounds = (sizeRect w h).add off ∧ ∀ b, l.layer.image.bounds = some b → b = sizeRect w h :=
    ⟨w0, h0, off, f1, framed_bounds f2⟩
  clear f1 f2
  unfold readLayer at e ⊢
  obtain ⟨w, r1, h1, e⟩ := M.bind_inv e
  obtain ⟨h, r2, h2, e⟩ := M.bind_inv e
  obtain ⟨t, r3, h3, e⟩ := M.bind_inv e
  rw [M.bind_ok h1, M.bind_ok h2, M.bind_ok h3]
  by_cases ht : t >>> 1 ≠ c.baseType
  · rw [if_pos ht] at e
    obtain ⟨_, r4, h4, e⟩ := M.bind_inv e
    cases e
    exact absurd he (setError_isSome h4)
  rw [if_neg ht] at e
  rw [if_neg (show ¬ (t >>> 1 ≠ c.baseType) from ht)]
  have htn : t.toNat < 6 := by
    have h1 : t >>> 1 = c.baseType := by simpa using ht
    rw [← h1, UInt32.toNat_shiftRight] at hb
    simp [Nat.shiftRight_eq_div_pow] at hb
    omega
  obtain ⟨name, r4, h4, e⟩ := M.bind_inv e
  obtain ⟨s, r5, h5, e⟩ := M.bind_inv e
  obtain ⟨hp, r6, h6, e⟩ := M.bind_inv e
  obtain ⟨mp, r7, h7, e⟩ := M.bind_inv e
  obtain ⟨_, r8, h8, e⟩ := M.bind_inv e
  have h5' : readLayerProperties { c with decompress := true } r4 = .ok (s, r5) := by
    unfold readLayerProperties at h5 ⊢
    rw [layerProps_either]
    exact h5
  rw [M.bind_ok h4, M.bind_ok h5', M.bind_ok h6, M.bind_ok h7, M.bind_ok h8]
  dsimp only at e ⊢
  have hlim8 : r8.limit ≤ maxString := by
    have k1 := readUint32_keeps _ _ _ h1
    have k2 := readUint32_keeps _ _ _ h2
    have k3 := readUint32_keeps _ _ _ h3
    have k4 := ((readString_ext (t := [])).keeps _ _ _ h4)
    have k5 := ((readLayerProperties_ext (t := []) c).keeps _ _ _ h5)
    have k6 := (readPtr_keeps _ _ _ _ h6)
    have k7 := (readPtr_keeps _ _ _ _ h7)
    have k8 := (goto_keeps _ _ _ _ h8)
    rw [((((((((k1.trans k2).trans k3).trans k4).trans k5).trans k6).trans k7).trans k8)).2.1]
    exact hlim
  obtain ⟨im, r9, h9, e⟩ := M.bind_inv e
  cases im with
  | none =>
    cases e
    unfold layerImage at h9
    split at h9
    · cases h9
    · obtain ⟨x, r10, h10, h9⟩ := M.bind_inv h9
      cases x with
      | some d => cases h9
      | none =>
        cases h9
        exact absurd he (readImage_none htn h10)
  | some im =>
    dsimp only at e
    obtain ⟨im2, r10, h10, e⟩ := M.bind_inv e
    cases im2 with
    | none =>
      cases e
      exact absurd rfl (layerText_still he h10).2
    | some im2 =>
      dsimp only at e
      by_cases hm : mp ≠ 0
      · rw [if_pos hm] at e
        obtain ⟨_, r11, h11, e⟩ := M.bind_inv e
        obtain ⟨im3, r12, h12, e⟩ := M.bind_inv e
        cases e
        exact absurd he (readMask_lazy hd hc h12)
      · rw [if_neg hm] at e; cases e
        have he10 := he
        obtain rfl := (layerText_still he h10).1
        obtain ⟨jm, j1, j2⟩ := layerImage_twin hd hc hpal hlim8 h9 he
        obtain ⟨jm2, j3, j4⟩ := layerText_twin h10 j2
        rw [M.bind_ok j1]
        dsimp only
        rw [M.bind_ok j3]
        dsimp only
        rw [if_neg hm]
        exact ⟨_, rfl, rfl, rfl, rfl, rfl, rfl, rfl, rfl, rfl, j4, hframe⟩

theorem layerAtPtr_twin {c : Ctx} (hd : c.decompress = false) (hc : c.compression ≠ 0) (hb : c.baseType.toNat ≤ 2) (hpal : RGBPalette c.palette)
    {D : Bytes} {p : UInt64} {l : DLayer} (h : layerAtPtr c D p = .ok (l, none)) :
    ∃ l', layerAtPtr { c with decompress := true } D p = .ok (l', none) ∧ TwinLayer l l' := by
  unfold layerAtPtr at h ⊢
  cases hm : (do goto p; readLayer c : M DLayer) (newReader D) with
  | panic => rw [hm] at h; cases h
  | hang => rw [hm] at h; cases h
  | ok x =>
    obtain ⟨l1, r'⟩ := x
    rw [hm] at h
    dsimp only at h
    have he : r'.err = none ∧ l1 = l := by
      cases hr : r'.err with
      | none => rw [hr] at h; cases h; exact ⟨rfl, rfl⟩
      | some e => rw [hr] at h; cases h
    obtain ⟨he, rfl⟩ := he
    obtain ⟨_, r1, h1, h2⟩ := M.bind_inv hm
    have hlim : r1.limit ≤ maxString := by
      rw [(goto_keeps _ _ _ _ h1).2.1]
      exact Nat.le_refl _
    obtain ⟨l', e1, e2⟩ := readLayer_twin hd hc hb hpal hlim h2 he
    refine ⟨l', ?_, e2⟩
    rw [M.bind_ok h1, e1]
    dsimp only
    rw [he]

theorem readLayers_of {c : Ctx} {D : Bytes} {ps : List UInt64} {ls' : List DLayer}
    (h2 : ps.map (layerAtPtr c D) = (ls'.map fun l => (l, none)).map .ok) (sch' : Sched) : readLayers sch' c D ps = .ok (ls', none) := by
  unfold readLayers
  rw [h2, gather_map_ok]
  dsimp only
  rw [List.map_map, List.map_map]
  have e1 : ((fun x : DLayer × Option Err => x.1) ∘ fun l => (l, none)) = id := rfl
  rw [e1, List.map_id]
  have e2 : firstErr (ls'.map ((fun x : DLayer × Option Err => x.2) ∘ fun l => (l, none))) (sch'.layers ps.length) = none := by
    generalize sch'.layers ps.length = is
    induction is with
    | nil => rfl
    | cons i is ih =>
      unfold firstErr
      have : (ls'.map ((fun x : DLayer × Option Err => x.2) ∘ fun l => (l, none))).getD i none = none := by
        rw [List.getD_eq_getElem?_getD, List.getElem?_map]
        cases ls'[i]? <;> rfl
      rw [this]
      exact ih
  rw [e2]

theorem readLayers_noErr_any {sch : Sched} (hs : sch.Valid) {c : Ctx} {D : Bytes} {ps : List UInt64} {ls : List DLayer}
    (h : readLayers sch c D ps = .ok (ls, none)) (sch' : Sched) : readLayers sch' c D ps = .ok (ls, none) :=
  readLayers_of (by rw [readLayers_noErr hs h, List.map_map]; rfl) sch'

theorem readLayers_twin {sch : Sched} (hs : sch.Valid) {c : Ctx} (hd : c.decompress = false) (hc : c.compression ≠ 0)
    (hb : c.baseType.toNat ≤ 2) (hpal : RGBPalette c.palette) {D : Bytes} {ps : List UInt64} {ls : List DLayer}
    (h : readLayers sch c D ps = .ok (ls, none)) :
    ∃ ls', (∀ sch' : Sched, readLayers sch' { c with decompress := true } D ps = .ok (ls', none)) ∧ List.Forall₂ TwinLayer ls ls' := by
  have h1 := readLayers_noErr hs h
  have h2 : ∃ ls', ps.map (layerAtPtr { c with decompress := true } D) = (ls'.map fun l => (l, none)).map .ok ∧ List.Forall₂ TwinLayer ls ls' := by
    clear h
    induction ps generalizing ls with
    | nil =>
      cases ls with
      | nil => exact ⟨[], rfl, .nil⟩
      | cons l ls => cases h1
    | cons p ps ih =>
      cases ls with
      | nil => cases h1
      | cons l ls =>
        rw [List.map_cons, List.map_cons] at h1
        injection h1 with a1 a2
        obtain ⟨ls', b1, b2⟩ := ih a2
        obtain ⟨l', c1, c2⟩ := layerAtPtr_twin hd hc hb hpal a1
        exact ⟨l' :: ls', by rw [List.map_cons, c1, b1]; rfl, .cons c2 b2⟩
  obtain ⟨ls', h2, h3⟩ := h2
  refine ⟨ls', fun sch' => ?_, h3⟩
  exact readLayers_of h2 sch'

/-! ## Groups -/

/-- layers placed in groups -/
def TwinPlaced (x y : HLayer) : Prop :=
  x.name = y.name ∧ x.bounds = y.bounds ∧ x.mode = y.mode ∧ x.invisible = y.invisible ∧ x.transparency = y.transparency ∧
    ∃ i j, x.image = .val i ∧ y.image = .val j ∧ Seen ⟨0, 0, x.bounds.dx, x.bounds.dy⟩ i j

structure TwinState (s s' : GState) : Prop where
  arrays : List.Forall₂ (List.Forall₂ TwinPlaced) s.arrays s'.arrays
  objs : s.objs = s'.objs
  map : s.map = s'.map
  n : s.n = s'.n
  alpha : s.alpha = s'.alpha

theorem twins_getD {α : Type} {P : α → α → Prop} : ∀ {a b : List (List α)}, List.Forall₂ (List.Forall₂ P) a b → ∀ i,
    List.Forall₂ P (a.getD i []) (b.getD i [])
  | _, _, .nil, _ => .nil
  | _, _, .cons h _, 0 => h
  | _, _, .cons _ h, i + 1 => twins_getD h i

theorem twins_set {α : Type} {P : α → α → Prop} {x y : α} (hxy : P x y) : ∀ {a b : List α}, List.Forall₂ P a b → ∀ i,
    List.Forall₂ P (a.set i x) (b.set i y)
  | _, _, .nil, _ => .nil
  | _, _, .cons _ h, 0 => .cons hxy h
  | _, _, .cons h1 h, i + 1 => .cons h1 (twins_set hxy h i)

theorem twins_append {α : Type} {P : α → α → Prop} : ∀ {a b a' b' : List α}, List.Forall₂ P a b → List.Forall₂ P a' b' →
    List.Forall₂ P (a ++ a') (b ++ b')
  | _, _, _, _, .nil, h => h
  | _, _, _, _, .cons h1 h, h' => .cons h1 (twins_append h h')

theorem groupStep_twin {bounds : Rect} {l l' : DLayer} {s s' s1 : GState} (hl : TwinLayer l l') (hs : TwinState s s')
    (h : groupStep bounds l s = .ok s1) : ∃ s1', groupStep bounds l' s' = .ok s1' ∧ TwinState s1 s1' := by
  obtain ⟨arrays, objs, map, n, alpha⟩ := s
  obtain ⟨arrays', objs', map', n', alpha'⟩ := s'
  obtain ⟨ha, e1, e2, e3, e4⟩ := hs
  dsimp only at ha e1 e2 e3 e4
  subst e1 e2 e3 e4
  obtain ⟨f1, f2, f3, f4, f5, f6, f7, f8, hseen, w, ht, off, hb, hfr⟩ := hl
  unfold groupStep at h ⊢
  dsimp only at h ⊢
  rw [← f8]
  by_cases hal : alpha = false
  · rw [if_pos hal] at h; cases h
  rw [if_neg hal] at h ⊢
  cases hk : lookupKey map (pathKey (if l.itemPath = [] then [n] else l.itemPath).dropLast) with
  | none => rw [hk] at h; cases h
  | some gi =>
    rw [hk] at h
    dsimp only at h ⊢
    cases hg : objs[gi]? with
    | none => rw [hg] at h; cases h
    | some g =>
      rw [hg] at h
      dsimp only at h ⊢
      have hit := twins_getD ha g.cur
      have hnew : TwinPlaced ⟨l.layer.name, (l.layer.bounds.inter bounds).sub ⟨g.ox, g.oy⟩, l.layer.mode, l.layer.invisible, l.layer.transparency, .val l.layer.image⟩
          ⟨l'.layer.name, (l'.layer.bounds.inter bounds).sub ⟨g.ox, g.oy⟩, l'.layer.mode, l'.layer.invisible, l'.layer.transparency, .val l'.layer.image⟩ := by
        refine ⟨f1, by rw [f2], f3, f4, f5, _, _, rfl, rfl, seen_mono _ (fun q hq => ?_) hseen⟩
        dsimp only at hq
        refine .inr fun b hbb => ?_
        rw [hfr b hbb]
        have := cut_inside (w := w) (h := ht) (off := off) (o := ⟨g.ox, g.oy⟩) (c := bounds)
          (b := (l.layer.bounds.inter bounds).sub ⟨g.ox, g.oy⟩) (by rw [hb])
          ⟨q.x + ((l.layer.bounds.inter bounds).sub ⟨g.ox, g.oy⟩).x0, q.y + ((l.layer.bounds.inter bounds).sub ⟨g.ox, g.oy⟩).y0⟩ (by
            generalize (l.layer.bounds.inter bounds).sub ⟨g.ox, g.oy⟩ = z at hq
            simp only [inRect, Rect.dx, Rect.dy] at hq ⊢
            omega)
        dsimp only at this
        rwa [Int.add_sub_cancel, Int.add_sub_cancel] at this
      have harr := twins_set (twins_append hit (.cons hnew .nil)) ha g.cur
      rw [← f7]
      by_cases hgr : l.group = true
      · rw [if_pos hgr] at h ⊢
        injection h with h
        subst h
        refine ⟨_, rfl, twins_append harr (.cons .nil .nil), ?_, rfl, rfl, f6⟩
        dsimp only
        rw [f2, hit.length_eq, ha.length_eq]
      · rw [if_neg hgr] at h ⊢
        injection h with h
        subst h
        exact ⟨_, rfl, harr, rfl, rfl, rfl, f6⟩

theorem makeGroups_twin {bounds : Rect} : ∀ {ls ls' : List DLayer} {s s' s1 : GState}, List.Forall₂ TwinLayer ls ls' → TwinState s s' →
    makeGroups bounds ls s = .ok s1 → ∃ s1', makeGroups bounds ls' s' = .ok s1' ∧ TwinState s1 s1' := by
  intro ls ls' s s' s1 hl
  induction hl generalizing s s' with
  | nil => intro hs h; cases h; exact ⟨s', rfl, hs⟩
  | cons h1 _ ih =>
    intro hs h
    unfold makeGroups at h ⊢
    rename_i l l' ls ls' _
    cases hg : groupStep bounds l s with
    | error e => rw [hg] at h; cases h
    | ok s2 =>
      rw [hg] at h
      obtain ⟨s2', e1, e2⟩ := groupStep_twin h1 hs hg
      rw [e1]
      exact ih e2 h

theorem twins_mapIdx {α β : Type} {P : α → α → Prop} {Q : β → β → Prop} : ∀ {a b : List α} (_ : List.Forall₂ P a b) (f g : Nat → α → β)
    (_ : ∀ k x y, P x y → Q (f k x) (g k y)), List.Forall₂ Q (a.mapIdx f) (b.mapIdx g) := by
  intro a b h
  induction h with
  | nil => intro f g _; exact .nil
  | cons h1 _ ih =>
    intro f g hf
    rw [List.mapIdx_cons, List.mapIdx_cons]
    exact .cons (hf _ _ _ h1) (ih _ _ fun k x y hxy => hf _ _ _ hxy)

theorem groupTree_twin {s s' : GState} (hs : TwinState s s') (P : List Nat) : ∀ f i, SeenAll true (groupTree s P f i) (groupTree s' P f i) := by
  intro f
  induction f with
  | zero => intro i; rw [groupTree, groupTree, SeenAll]
  | succ f ih =>
    intro i
    rw [seenAll_iff]
    unfold groupTree
    refine twins_mapIdx (twins_getD hs.arrays i) _ _ ?_
    rintro k x y ⟨e1, e2, e3, e4, e5, a, b, ha, hb, hab⟩
    refine ⟨e1, e2, e3, e4, e5, ?_⟩
    dsimp only
    have hc : childAt s P i k = childAt s' P i k := by
      unfold childAt GState.parentOf
      rw [hs.objs]
    rw [← hc]
    cases childAt s P i k with
    | some c =>
      dsimp only
      rw [Seen]
      exact ⟨_, rfl, ih c⟩
    | none =>
      dsimp only
      rw [ha, hb]
      dsimp only
      refine seen_mono _ (fun q hq => .inl ?_) hab
      split at hq
      · exact hq
      · simp only [inRect, Rect.zero] at hq; omega

theorem twins_last {α : Type} {P : α → α → Prop} {x : α} : ∀ {a b : List α}, List.Forall₂ P (a ++ [x]) b →
    ∃ b' y, b = b' ++ [y] ∧ List.Forall₂ P a b' ∧ P x y
  | [], _, .cons h .nil => ⟨[], _, rfl, .nil, h⟩
  | _ :: _, _, .cons h1 h =>
    have ⟨b', y, e, h2, h3⟩ := twins_last h
    ⟨_ :: b', y, by rw [e]; rfl, .cons h1 h2, h3⟩

theorem fixBottom_twin {g k : List Layer} (h : SeenAll true g k) : SeenAll true (fixBottom g) (fixBottom k) := by
  have h' := (seenAll_iff ..).1 h
  rcases List.eq_nil_or_concat g with rfl | ⟨g', l, rfl⟩
  · cases h'; exact h
  · rw [List.concat_eq_append] at h' h ⊢
    obtain ⟨k', l', rfl, h1, h2⟩ := twins_last h'
    unfold fixBottom
    rw [List.getLast?_concat, List.getLast?_concat]
    dsimp only
    obtain ⟨a1, a2, a3, a4, a5, a6⟩ := h2
    rw [← a3]
    split
    · exact h
    · rw [List.dropLast_concat, List.dropLast_concat, seenAll_iff]
      exact twins_append h1 (.cons ⟨a1, a2, rfl, a4, a5, a6⟩ .nil)

/-! ## Palettes -/

theorem readPalette_rgb : ∀ (n : Nat) {r r' : R} {p : List Color}, readPalette n r = .ok (p, r') → RGBPalette p := by
  intro n
  induction n with
  | zero => intro r r' p h; cases h; intro c hc; cases hc
  | succ n ih =>
    intro r r' p h
    unfold readPalette at h
    obtain ⟨a, _, _, h⟩ := M.bind_inv h
    obtain ⟨b, _, _, h⟩ := M.bind_inv h
    obtain ⟨c, _, _, h⟩ := M.bind_inv h
    obtain ⟨cs, _, h1, h⟩ := M.bind_inv h
    cases h
    intro x hx
    rcases List.mem_cons.1 hx with rfl | hx
    · exact ⟨_, _, _, rfl⟩
    · exact ih h1 x hx

/-- leaves a palette of opaque colours -/
def LeavesRGB (m : M (Except Err IProps)) : Prop := ∀ r s' r', m r = .ok (.ok s', r') → RGBPalette s'.palette

theorem LeavesRGB.ok {s : IProps} (hs : RGBPalette s.palette) : LeavesRGB (pure (.ok s)) := by
  intro r s' r' h; cases h; exact hs

theorem LeavesRGB.error (e : Err) : LeavesRGB (pure (.error e)) := by
  intro r s' r' h; cases h

theorem LeavesRGB.bind {α : Type} {m : M α} {f : α → M (Except Err IProps)} (h : ∀ a, LeavesRGB (f a)) : LeavesRGB (m >>= f) := by
  intro r s' r' e
  obtain ⟨a, _, _, e⟩ := M.bind_inv e
  exact h a _ _ _ e

theorem LeavesRGB.ite {c : Prop} [Decidable c] {a b : M (Except Err IProps)} (ha : LeavesRGB a) (hb : LeavesRGB b) :
    LeavesRGB (if c then a else b) := by
  split
  · exact ha
  · exact hb

theorem LeavesRGB.map (n : Nat) (s : IProps) : LeavesRGB (do let p ← readPalette n; return .ok { s with palette := p }) := by
  intro r s' r' e
  obtain ⟨a, _, h, e⟩ := M.bind_inv e
  cases e
  exact readPalette_rgb _ h

theorem imageProp_rgb {bt t n : UInt32} {s s' : IProps} (hs : RGBPalette s.palette) {r r' : R} (h : imageProp bt t n s r = .ok (.ok s', r')) :
    RGBPalette s'.palette := by
  have : LeavesRGB (imageProp bt t n s) := by
    unfold imageProp
    repeat' first
      | exact .ok hs
      | exact .error _
      | exact .map _ _
      | refine .ite ?_ ?_
      | refine .bind fun _ => ?_
  exact this _ _ _ h

theorem imageProps_rgb {bt : UInt32} : ∀ (f : Nat) {s s' : IProps} (_ : RGBPalette s.palette) {r r' : R} (_ : imageProps bt f s r = .ok (.ok s', r')),
    RGBPalette s'.palette := by
  intro f
  induction f with
  | zero => intro s s' _ r r' h; cases h
  | succ f ih =>
    intro s s' hs r r' h
    unfold imageProps at h
    obtain ⟨t, _, _, h⟩ := M.bind_inv h
    obtain ⟨n, _, _, h⟩ := M.bind_inv h
    split at h
    · split at h
      · cases h
      · cases h; exact hs
    · obtain ⟨x, _, h1, h⟩ := M.bind_inv h
      cases x with
      | error e => cases h
      | ok s2 => exact ih (imageProp_rgb hs h1) h

theorem readHead_rgb {r r' : R} {h : Head} (e : readHead r = .ok (.ok h, r')) : RGBPalette h.props.palette := by
  unfold readHead at e
  obtain ⟨x, _, _, e⟩ := M.bind_inv e
  cases x with
  | error er => cases e
  | ok mode =>
    dsimp only at e
    obtain ⟨_, _, _, e⟩ := M.bind_inv e
    obtain ⟨_, _, _, e⟩ := M.bind_inv e
    obtain ⟨_, _, _, e⟩ := M.bind_inv e
    obtain ⟨_, _, _, e⟩ := M.bind_inv e
    obtain ⟨y, _, hy, e⟩ := M.bind_inv e
    cases y with
    | error er => cases e
    | ok props =>
      dsimp only at e
      obtain ⟨_, _, _, e⟩ := M.bind_inv e
      obtain ⟨z, _, _, e⟩ := M.bind_inv e
      cases z with
      | some er => cases e
      | none =>
        cases e
        exact imageProps_rgb _ (by intro c hc; cases hc) hy

/-! ## Files that are not compressed -/

theorem readImage_plain {c : Ctx} (hc : c.compression = 0) (w h k : UInt32) : readImage { c with decompress := true } w h k = readImage c w h k := by
  unfold readImage
  congr 1
  funext x
  cases x with
  | none => rfl
  | some x =>
    dsimp only
    rw [if_pos (by simp), if_pos (by rw [hc]; simp)]
    rfl

theorem readLayer_plain {c : Ctx} (hc : c.compression = 0) : readLayer { c with decompress := true } = readLayer c := by
  have h1 : ∀ g w h k, layerImage { c with decompress := true } g w h k = layerImage c g w h k := by
    intro g w h k
    unfold layerImage
    rw [readImage_plain hc]
  have h2 : ∀ b im, readMask { c with decompress := true } b im = readMask c b im := by
    intro b im
    unfold readMask readChannel
    simp only [readImage_plain hc]
  have h3 : readLayerProperties { c with decompress := true } = readLayerProperties c := by
    funext r
    unfold readLayerProperties
    rw [layerProps_either]
  unfold readLayer
  simp only [h1, h2, h3]
  rfl

theorem decodeLayers_plain {env : Env} {sch : Sched} {D : Bytes} {h : Head} (hc : h.props.compression = 0) :
    decodeLayers env sch true D h = decodeLayers env sch false D h := by
  have e : readLayers sch (h.ctx env true) D h.ptrs = readLayers sch (h.ctx env false) D h.ptrs := by
    unfold readLayers
    have : layerAtPtr (h.ctx env true) D = layerAtPtr (h.ctx env false) D := by
      funext p
      unfold layerAtPtr
      have := readLayer_plain (c := h.ctx env false) hc
      rw [← this]
      rfl
    rw [this]
  unfold decodeLayers
  rw [e]

/-! ## C115 -/

theorem seenAll_refl (drawn : Bool) : ∀ g : List Layer, SeenAll drawn g g := by
  intro g
  rw [seenAll_iff]
  induction g with
  | nil => exact .nil
  | cons l g ih => exact .cons ⟨rfl, rfl, rfl, rfl, rfl, seen_refl_all _ _⟩ ih

theorem decode_twin {env : Env} {sch sch' : Sched} (hs : sch.Valid) (hs' : sch'.Valid) {D : Bytes} (hb : fromBE ((D.drop 22).take 4) ≤ 2) {g : List Layer}
    (h : decodeImage env sch false D = .ok (.ok g)) : ∃ g', decodeImage env sch' true D = .ok (.ok g') ∧ SeenAll true g g' := by
  unfold decodeImage at h ⊢
  cases hr : readHead (newReader D) with
  | panic => rw [hr] at h; cases h
  | hang => rw [hr] at h; cases h
  | ok x =>
    obtain ⟨x, r⟩ := x
    rw [hr] at h
    cases x with
    | error e => cases h
    | ok hd =>
      dsimp only at h ⊢
      rw [readHead_baseType D hd r hr] at hb
      by_cases hc : hd.props.compression = 0
      · rw [decodeLayers_plain hc]
        refine ⟨g, ?_, seenAll_refl _ g⟩
        unfold decodeLayers at h ⊢
        cases hl : readLayers sch (hd.ctx env false) D hd.ptrs with
        | panic => rw [hl] at h; cases h
        | hang => rw [hl] at h; cases h
        | ok y =>
          obtain ⟨ls, e⟩ := y
          rw [hl] at h
          cases e with
          | some e => cases h
          | none =>
            dsimp only at h
            rw [readLayers_noErr_any hs hl sch']
            dsimp only
            cases hm : makeGroups (sizeRect hd.width.toNat hd.height.toNat) ls GState.start with
            | error e => rw [hm] at h; cases h
            | ok s =>
              rw [hm] at h
              dsimp only at h ⊢
              rw [makeImage_tree (makeGroups_inv ginv_start hm) _ (hs.2 _)] at h
              rw [makeImage_tree (makeGroups_inv ginv_start hm) _ (hs'.2 _)]
              exact h
      · unfold decodeLayers at h ⊢
        cases hl : readLayers sch (hd.ctx env false) D hd.ptrs with
        | panic => rw [hl] at h; cases h
        | hang => rw [hl] at h; cases h
        | ok y =>
          obtain ⟨ls, e⟩ := y
          rw [hl] at h
          cases e with
          | some e => cases h
          | none =>
            dsimp only at h
            obtain ⟨ls', hl', htw⟩ := readLayers_twin hs (c := hd.ctx env false) rfl hc hb (readHead_rgb hr) hl
            have hl'' : readLayers sch' (hd.ctx env true) D hd.ptrs = .ok (ls', none) := hl' sch'
            rw [hl'']
            dsimp only
            cases hm : makeGroups (sizeRect hd.width.toNat hd.height.toNat) ls GState.start with
            | error e => rw [hm] at h; cases h
            | ok s =>
              rw [hm] at h
              dsimp only at h
              obtain ⟨s', hm', hss⟩ := makeGroups_twin htw (s' := GState.start) ⟨.cons .nil .nil, rfl, rfl, rfl, rfl⟩ hm
              rw [hm']
              dsimp only
              rw [makeImage_tree (makeGroups_inv ginv_start hm) _ (hs.2 _)] at h
              rw [makeImage_tree (makeGroups_inv ginv_start hm') _ (hs'.2 _)]
              cases h
              refine ⟨_, rfl, fixBottom_twin ?_⟩
              rw [← hss.objs, ← hss.map]
              exact groupTree_twin hss _ _ _

/-- C115 (without unknown base types): what `DecodeCompressed` accepts is accepted by `Decode`, whatever the order in which layers and groups
are worked on; the two pictures have the same bounds, colour model and colours, and `Encode` writes the same of both. -/
theorem C115_either_partial (env : Env) (sch sch' : Sched) (hs : sch.Valid) (hs' : sch'.Valid) (D : Bytes)
    (hb : fromBE ((D.drop 22).take 4) ≤ 2) (g : List Layer) (h : decodeImage env sch false D = .ok (.ok g)) :
    ∃ g', decodeImage env sch' true D = .ok (.ok g') ∧ (Img.group g).bounds = (Img.group g').bounds ∧
      (Img.group g).colorModel = (Img.group g').colorModel ∧ (∀ ρ p n, (Img.group g).at ρ p n = (Img.group g').at ρ p n) ∧
      ∀ wenv, runEncode wenv (.group g) = runEncode wenv (.group g') := by
  obtain ⟨g', h1, h2⟩ := decode_twin (sch' := sch') hs hs' hb h
  have h3 : Seen Rect.zero (.group g) (.group g') := by rw [Seen]; exact ⟨g', rfl, h2⟩
  have h4 := bounds_seen _ h3
  refine ⟨g', h1, h4.1, h4.2, fun ρ p n => ?_, fun wenv => C113_inside wenv _ _ (seenAll_top h2)⟩
  have h5 := h4.2
  rw [Img.colorModel, Img.colorModel] at h5
  rw [Img.at, Img.at, ← h5]
  exact layersAt_seen _ _ _ h2 _ _

/-- An indexed layer of one pixel, run-length encoded. -/
def indexedPacked : Bytes :=
  fileTypeID ++ [118, 48, 48, 51, 0] ++ be 4 1 ++ be 4 1 ++ be 4 2 ++ be 4 1 ++ be 4 7 ++ be 4 1 ++ [1, 2, 3] ++ be 4 17 ++ be 4 1 ++ [1] ++
  be 4 0 ++ be 4 0 ++ be 4 66 ++ be 4 0 ++
  -- 66: layer
  be 4 1 ++ be 4 1 ++ be 4 5 ++ be 4 0 ++ be 4 0 ++ be 4 0 ++ be 4 98 ++ be 4 0 ++
  -- 98: hierarchy, 114: level, 130: tile
  be 4 1 ++ be 4 1 ++ be 4 2 ++ be 4 114 ++ be 4 1 ++ be 4 1 ++ be 4 130 ++ be 4 0 ++ [0, 0, 0, 77]

/-- The hypotheses of C115 are met by a file with a compressed layer; the colours really are kept in different ways. -/
example : (decodeImage exEnv exSched false indexedPacked).isImage = true ∧ fromBE ((indexedPacked.drop 22).take 4) ≤ 2 ∧ exSched.Valid :=
  ⟨by decide +kernel, by decide +kernel, fun _ => List.Perm.refl _, fun _ => List.Perm.refl _⟩

/-- A layer of one pixel in a run-length encoded file with base type 3. -/
def strangePacked : Bytes :=
  fileTypeID ++ [118, 48, 48, 51, 0] ++ be 4 1 ++ be 4 1 ++ be 4 3 ++ be 4 17 ++ be 4 1 ++ [1] ++ be 4 0 ++ be 4 0 ++ be 4 51 ++ be 4 0 ++
  be 4 1 ++ be 4 1 ++ be 4 7 ++ be 4 0 ++ be 4 0 ++ be 4 0 ++ be 4 83 ++ be 4 0 ++
  be 4 1 ++ be 4 1 ++ be 4 0 ++ be 4 99 ++ be 4 1 ++ be 4 1 ++ be 4 51 ++ be 4 0

set_option maxRecDepth 100000 in
/-- C115 is false for unknown base types, and the other way round: `DecodeCompressed` accepts a file that crashes `Decode`, and `Decode` accepts
one that crashes `DecodeCompressed`. -/
theorem C115_refuted :
    ((decodeImage exEnv exSched false strangePacked).isImage = true ∧ ∀ env sch, decodeImage env sch true strangePacked = .panic) ∧
    ((decodeImage exEnv exSched true maskedLayer).isImage = true ∧ ∀ env sch, decodeImage env sch false maskedLayer = .panic) := by
  refine ⟨⟨by decide +kernel, ?_⟩, by decide +kernel, C47_compressed_refuted⟩
  intro env sch
  rw [← Outcome.isPanic_iff]
  cbv

end Limage
