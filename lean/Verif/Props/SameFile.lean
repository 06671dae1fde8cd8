import Verif.Props.Inside
import Verif.Props.Limits
import Verif.Props.XcfResave
/-!
# C144: a loaded picture is saved as the file it was loaded from
-/
namespace Limage
open Spec

mutual
/-- Specification: an image like those that are loaded from a file with the colour model `cm`: without text, its images having the
colour model of the file. -/
def Spec.Native (cm : ColorModel) (i : Img) : Prop :=
  match i with
  | .group g => NativeLayers cm g
  | .leaf L => L.model = modelBack cm
  | .nil => False
  | .text _ _ => False
  | .masked i _ => i.colorModel = some (modelBack cm)
termination_by structural i

/-- Specification: such layers -/
def Spec.NativeLayers (cm : ColorModel) (g : List Layer) : Prop :=
  match g with
  | [] => True
  | ⟨_, _, _, _, _, im⟩ :: rest => Native cm im ∧ NativeLayers cm rest
termination_by structural g
end

theorem modelOf_back (wenv : WEnv) (cm : ColorModel) : modelOf (fmtOf wenv cm) = modelBack cm := by
  cases cm with
  | palette p => exact congrArg ColorModel.alphaPalette (paletteBack_high wenv (.palette p) p rfl)
  | alphaPalette p => exact congrArg ColorModel.alphaPalette (paletteBack_high wenv (.alphaPalette p) p rfl)
  | _ => rfl

theorem grayModel_formula (c : Color) (h : ∀ y, c ≠ .gray y) :
    grayModel c = ((19595 * c.rgba32.r + 38470 * c.rgba32.g + 7471 * c.rgba32.b + 0x8000) >>> 24).toUInt8 := by
  cases c <;> first | rfl | exact absurd rfl (h _)

/-- opaque colours of 8 bits per channel cannot be told apart if their values are the same -/
theorem indist_opaque8 {c c' : Color} {r g b : UInt8} (h : Opaque8 c.rgba32 r g b) (he : c'.rgba32 = c.rgba32) : Indist c c' := by
  have h' : Opaque8 c'.rgba32 r g b := by rw [he]; exact h
  refine ⟨he.symm, by rw [h.toNRGBA, h'.toNRGBA], by rw [nrgbaModel_opaque h, nrgbaModel_opaque h'], ?_⟩
  by_cases hg : g = r ∧ b = r
  · obtain ⟨rfl, rfl⟩ := hg
    rw [grayModel_opaque h, grayModel_opaque h']
  · have key : ∀ c : Color, Opaque8 c.rgba32 r g b → ∀ y, c ≠ .gray y := by
      rintro c hc y rfl
      obtain ⟨e1, e2, e3, -⟩ := hc
      apply hg
      have f1 : (Color.gray y).rgba32.g = (Color.gray y).rgba32.r := rfl
      have f2 : (Color.gray y).rgba32.b = (Color.gray y).rgba32.r := rfl
      rw [f1] at e2
      rw [f2] at e3
      constructor <;> apply UInt8.toNat_inj.1 <;> omega
    rw [grayModel_formula c (key c h), grayModel_formula c' (key c' h'), he]

theorem exact_indist (wenv : WEnv) {cm : ColorModel} {c c' : Color} (hc : Exact cm c)
    (h : colorOf (fmtOf wenv cm) ((fmtOf wenv cm).conv c) = some c') : Indist c c' := by
  have hk := pixel_kept wenv cm c c' h
  have hrgb : (∃ r g b a, c = .nrgba r g b a) ∨ (∃ r g b, Opaque8 c.rgba32 r g b) →
      (∀ r g b a, c = .nrgba r g b a → c' = c) ∧ (∀ r g b, Opaque8 c.rgba32 r g b → c'.rgba32 = c.rgba32) → Indist c c' := by
    rintro (⟨r, g, b, a, h1⟩ | ⟨r, g, b, h1⟩) ⟨k1, k2⟩
    · rw [k1 r g b a h1]; exact Indist.refl _
    · exact indist_opaque8 h1 (k2 r g b h1)
  have hgray : (∃ y, Opaque8 c.rgba32 y y y) → (∀ y, Opaque8 c.rgba32 y y y → c'.rgba32 = c.rgba32) → Indist c c' := by
    rintro ⟨y, h1⟩ k
    exact indist_opaque8 h1 (k y h1)
  cases cm with
  | gray => exact hgray hc hk
  | gray16 => exact hgray hc hk
  | grayAlpha => exact hgray hc hk
  | palette p => obtain ⟨⟨r, g, b, h1⟩, h2, h3, h4⟩ := hc; exact indist_opaque8 h1 (hk r g b h1 h2 h3 h4)
  | alphaPalette p => obtain ⟨⟨r, g, b, h1⟩, h2, h3, h4⟩ := hc; exact indist_opaque8 h1 (hk r g b h1 h2 h3 h4)
  | alpha => exact hrgb hc hk
  | other => exact hrgb hc hk

theorem mem_inRect {r : Rect} {p : Pt} : Rect.mem p r = true ↔ inRect r p := by
  unfold Rect.mem inRect
  simp only [Bool.and_eq_true, decide_eq_true_eq]
  omega

theorem leaf_seen (wenv : WEnv) (cm : ColorModel) (hp : cm ≠ .palette [] ∧ cm ≠ .alphaPalette []) {l : Layer} {L L' : Leaf} {R : Rect}
    (hR : ∀ q, inRect R q → inRect ⟨0, 0, l.bounds.dx, l.bounds.dy⟩ q)
    (hm : L.model = modelBack cm) (hE : ExactLeaf cm l.bounds L) (h : PixelsBack (fmtOf wenv cm) (.leaf L) L') : Seen R (.leaf L) (.leaf L') := by
  obtain ⟨e1, e2⟩ := hE
  obtain ⟨b, f1, f2, f3, -, f5⟩ := h
  have f1 : some L.bounds = some b := f1
  cases f1
  have hdx : (⟨0, 0, L.bounds.dx, L.bounds.dy⟩ : Rect) = L.bounds := by
    rw [e1]
    show (⟨0, 0, l.bounds.dx - 0, l.bounds.dy - 0⟩ : Rect) = _
    rw [Int.sub_zero, Int.sub_zero]
  rw [hdx] at f2
  unfold Seen
  refine ⟨L', rfl, f2.symm, by rw [hm, f3, modelOf_back], fun q hq => .inr ?_⟩
  have hin : Rect.mem q L.bounds = true := by
    rw [mem_inRect]
    rcases hq with hq | hq
    · exact hq
    · rw [e1]; exact hR q hq
  obtain ⟨k, k', c, g1, g2⟩ := f5 q (by rw [f2]; exact hin)
  have hq : (⟨L.bounds.x0 + q.x, L.bounds.y0 + q.y⟩ : Pt) = q := by
    rw [e1]
    show (⟨0 + q.x, 0 + q.y⟩ : Pt) = q
    rw [Int.zero_add, Int.zero_add]
  rw [hq, show (Img.leaf L).at (fmtOf wenv cm).ρ q k = (L.pixel q).map fun c => (c, k) by rw [Img.at]] at g1
  cases hL : L.pixel q with
  | none => rw [hL] at g1; cases g1
  | some c0 =>
    rw [hL] at g1
    have g1 : c0 = c := congrArg Prod.fst (Option.some.inj g1)
    subst g1
    obtain ⟨c', hc'⟩ := colorOf_some wenv cm hp c0
    exact ⟨c0, c', rfl, by rw [g2, hc'], exact_indist wenv (e2 q c0 hin hL) hc'⟩

/-- the image of a layer that is not a group -/
theorem layer_seen (wenv : WEnv) (cm : ColorModel) (hp : cm ≠ .palette [] ∧ cm ≠ .alphaPalette []) {P : Bytes → TextData → Prop} {l : Layer} {j : Img}
    (hng : ∀ g, l.image ≠ .group g) (hN : Native cm l.image) (hE : Exactly cm l.bounds l.image) (h : ImgBack (fmtOf wenv cm) P l j) {R : Rect}
    (hR : ∀ q, inRect R q → inRect ⟨0, 0, l.bounds.dx, l.bounds.dy⟩ q) : Seen R l.image j := by
  cases hi : l.image with
  | group g => exact absurd hi (hng g)
  | nil => rw [hi] at hE; exact hE.elim
  | text i t => rw [hi] at hN; exact hN.elim
  | leaf L =>
    rw [hi] at hE hN
    have hE : ExactLeaf cm l.bounds L := by unfold Exactly at hE; exact hE
    have hN : L.model = modelBack cm := by unfold Native at hN; exact hN
    rcases h.cases with ⟨L', hL, -, rfl⟩ | ⟨L', t, hL, ⟨t', ht⟩, rfl⟩ | ⟨L', m, m', hL, hm, -, rfl⟩
    · rw [hi] at hL
      exact leaf_seen wenv cm hp hR hN hE hL
    · rw [textOf, hi] at ht; cases ht
    · rw [hi] at hm; cases hm
  | masked i mo =>
    rw [hi] at hE
    rw [hi] at hN
    have hE : (∃ L, i = .leaf L ∧ ExactLeaf cm l.bounds L) ∧ ∃ m', mo = some m' ∧ m'.rect.x0 = 0 ∧ m'.rect.y0 = 0 := by
      unfold Exactly at hE; exact hE
    replace hN : i.colorModel = some (modelBack cm) := by unfold Native at hN; exact hN
    obtain ⟨⟨L, rfl, hE1⟩, m0, rfl, o1, o2⟩ := hE
    have hM : L.model = modelBack cm := by
      unfold Img.colorModel at hN
      exact Option.some.inj hN
    rcases h.cases with ⟨L', hL, hm, rfl⟩ | ⟨L', t, hL, ⟨t', ht⟩, rfl⟩ | ⟨L', m, m', hL, hm, ⟨hr, hgr⟩, rfl⟩
    · rw [hi] at hm; cases hm
    · rw [textOf, hi] at ht; cases ht
    · rw [hi] at hm hL
      have hm : some m0 = some m := hm
      cases hm
      have hrect : m'.rect = m0.rect := by
        rw [hr]
        obtain ⟨⟨x0, y0, x1, y1⟩, px⟩ := m0
        dsimp only at o1 o2 ⊢
        subst o1 o2
        show (⟨0, 0, x1 - 0, y1 - 0⟩ : Rect) = _
        rw [Int.sub_zero, Int.sub_zero]
      unfold Seen
      refine ⟨_, _, rfl, ⟨hrect.symm, fun q hq => ?_⟩, leaf_seen wenv cm hp hR hM hE1 hL⟩
      have h1 : Rect.mem q m0.rect = true := mem_inRect.2 hq
      have h2 : Rect.mem q m'.rect = true := by rw [hrect]; exact h1
      have h3 := hgr q h2
      rw [o1, o2, Int.zero_add, Int.zero_add] at h3
      unfold GrayImg.grayAt at h3
      rw [if_pos h2, if_pos h1] at h3
      exact h3.symm

mutual
theorem img_seen (wenv : WEnv) (cm : ColorModel) (hp : cm ≠ .palette [] ∧ cm ≠ .alphaPalette []) {P : Bytes → TextData → Prop} (l : Layer) (i j : Img)
    (hl : l.image = i) (hN : Native cm i) (hE : Exactly cm l.bounds i)
    (h : SameImg (ImgBack (fmtOf wenv cm) P) id l i j) {R : Rect}
    (hR : ∀ q, inRect R q → inRect ⟨0, 0, l.bounds.dx, l.bounds.dy⟩ q) : Seen R i j := by
  match i with
  | .group g =>
    unfold SameImg at h
    obtain ⟨g', rfl, h2⟩ := h
    unfold Exactly at hE
    unfold Native at hN
    unfold Seen
    exact ⟨g', rfl, layers_seen wenv cm hp true g g' hN hE h2⟩
  | .leaf L =>
    unfold SameImg at h
    have := layer_seen wenv cm hp (by rw [hl]; intro g hg; cases hg) (by rw [hl]; exact hN) (by rw [hl]; exact hE) h hR
    rw [hl] at this
    exact this
  | .nil => exact hE.elim
  | .text _ _ => exact hN.elim
  | .masked _ _ =>
    unfold SameImg at h
    have := layer_seen wenv cm hp (by rw [hl]; intro g hg; cases hg) (by rw [hl]; exact hN) (by rw [hl]; exact hE) h hR
    rw [hl] at this
    exact this
termination_by structural i

theorem layers_seen (wenv : WEnv) (cm : ColorModel) (hp : cm ≠ .palette [] ∧ cm ≠ .alphaPalette []) {P : Bytes → TextData → Prop} (drawn : Bool)
    (g g' : List Layer) (hN : NativeLayers cm g) (hE : Flawless cm g) (h : SameTree (ImgBack (fmtOf wenv cm) P) id g g') : SeenAll drawn g g' := by
  match g, g' with
  | [], [] => unfold SeenAll; rfl
  | [], _ :: _ => exact h.elim
  | ⟨name, b, mode, inv, tr, im⟩ :: rest, [] => exact h.elim
  | ⟨name, b, mode, inv, tr, im⟩ :: rest, l' :: rest' =>
    unfold SameTree at h
    obtain ⟨⟨h1, h2, h3, h4, h5, h6⟩, h7⟩ := h
    unfold Flawless at hE
    unfold NativeLayers at hN
    unfold SeenAll
    refine ⟨l'.image, rest', ?_, ?_, layers_seen wenv cm hp drawn rest rest' hN.2 hE.2.2 h7⟩
    · obtain ⟨n', b', m', i', t', im'⟩ := l'
      dsimp only [id] at h1 h2 h3 h4 h5
      subst h1 h2 h3 h4 h5
      rfl
    · refine img_seen wenv cm hp ⟨name, b, mode, inv, tr, im⟩ im l'.image rfl hN.1 hE.2.1 h6 fun q hq => ?_
      split at hq
      · exact hq
      · unfold inRect Rect.zero at hq
        exact absurd hq (by dsimp only; omega)
termination_by structural g
end

/-- **C144** (the part that holds): a picture made of images as they are loaded - without text, with the colour model of the file, at the origin,
with colours that the file represents exactly - is saved and loaded; saving what was loaded makes the same writes with the same result
as saving the picture itself, on every destination.
Full statement: every picture that can be saved and loaded; see `C144_refuted`. -/
theorem C144_saved_partial (wenv : WEnv) (env : Env) (sch : Sched) (hv : sch.Valid) (decompress : Bool) (g : List Layer)
    (hi : Encodable (.group g)) (l : List WCall) (h : runEncode wenv (.group g) = some (l, none)) (D : Bytes)
    (size : Nat) (hsz : ExactlyOnce l size) (hmax : size ≤ maxString)
    (cm : ColorModel) (hcm : (Img.group g).colorModel = some cm) (hp : cm ≠ .palette [] ∧ cm ≠ .alphaPalette [])
    (hd : decompress = true ∨ ∀ r ∈ placed g 0 0 0 [], maskOf r.layer.image = none)
    (hx : (groupBounds g).dx ≤ 2 ^ 31) (hy : (groupBounds g).dy ≤ 2 ^ 31)
    (hs : ∀ r ∈ placed g 0 0 0 [], Storable (fmtOf wenv cm) (parsesTo env) (groupBounds g).dx (groupBounds g).dy r)
    (hk : ∀ r ∈ placed g 0 0 0 [], r.layer.mode ∈ keptModes ((fmtOf wenv cm).typ == 0))
    (hb : ∀ m, (g.map (·.mode)).getLast? = some m → m = Mode.normal ∨ m = Mode.dissolve)
    (hN : NativeLayers cm g) (hE : Flawless cm g) :
    ∃ g', decodeImage env sch decompress (store D l) = .ok (.ok g') ∧ ∀ wenv', runEncode wenv' (.group g') = runEncode wenv' (.group g) := by
  obtain ⟨g', h1, h2⟩ := C37_tree_partial wenv env sch hv decompress g hi l h D size hsz hmax cm hcm hd hx hy hs hk hb
  refine ⟨g', h1, fun wenv' => (C113_inside wenv' _ _ ?_).symm⟩
  unfold SeenTop
  exact ⟨g', rfl, layers_seen wenv cm hp false g g' hN hE h2⟩

/-- the hypotheses about the picture hold for one with a group, a mask, transparency and a hidden layer (see the examples of C37 and C86 for the others) -/
example : NativeLayers .other sampleLayers := by
  simp only [sampleLayers, samplePicture, NativeLayers, Native, Img.colorModel, modelBack, and_self]

mutual
theorem plain_nativeIn (cm : ColorModel) (hcm : cm = .other ∨ cm = .alpha) (i : Img) (ox oy : Int) (path : List Nat)
    (h : ∀ r ∈ placedIn i ox oy path, PlainLayer r.layer ∧ ∀ i t, r.layer.image ≠ .text i t) (t : List Layer) (ht : i = .group t) : NativeLayers cm t := by
  match i with
  | .group g =>
    injection ht with ht
    subst ht
    unfold placedIn at h
    exact plain_native cm hcm g _ _ _ _ h
  | .leaf _ => cases ht
  | .nil => cases ht
  | .text _ _ => cases ht
  | .masked _ _ => cases ht
termination_by structural i
theorem plain_native (cm : ColorModel) (hcm : cm = .other ∨ cm = .alpha) (g : List Layer) (n : Nat) (ox oy : Int) (path : List Nat)
    (h : ∀ r ∈ placed g n ox oy path, PlainLayer r.layer ∧ ∀ i t, r.layer.image ≠ .text i t) : NativeLayers cm g := by
  match g with
  | [] => unfold NativeLayers; trivial
  | ⟨name, b, mode, inv, tr, im⟩ :: rest =>
    have hmod : modelBack cm = .other := by rcases hcm with rfl | rfl <;> rfl
    unfold placed at h
    unfold NativeLayers
    refine ⟨?_, plain_native cm hcm rest _ _ _ _ fun r hr => h r (List.mem_cons_of_mem _ (List.mem_append_right _ hr))⟩
    have hin := plain_nativeIn cm hcm im _ _ _ (fun r hr => h r (List.mem_cons_of_mem _ (List.mem_append_left _ hr)))
    obtain ⟨h1, h2⟩ := h _ List.mem_cons_self
    rcases h1 with ⟨t, ht⟩ | ⟨x, hx, hi | ⟨t, hi⟩ | ⟨m, hi, hr⟩⟩
    · have ht : im = .group t := ht
      subst ht
      unfold Native
      exact hin t rfl
    · have hi : im = .leaf x := hi
      subst hi
      unfold Native
      rw [hx.model, hmod]
    · have hi : im = .text (.leaf x) t := hi
      exact absurd hi (h2 _ _)
    · have hi : im = .masked (.leaf x) (some m) := hi
      subst hi
      unfold Native Img.colorModel
      rw [hx.model, hmod]
termination_by structural g
end

/-- **C144**, for files of any program: a picture loaded from an RGB file, with layers that lie on the canvas and were not cut off, without text and
the mode Luminance, is saved; what is loaded from that file is saved as the same file. -/
theorem C144_loaded_partial (env₀ : Env) (sch₀ : Sched) (hv₀ : sch₀.Valid) (D₀ : Bytes) (g : List Layer) (h : decodeImage env₀ sch₀ true D₀ = .ok (.ok g))
    (hrgb : fromBE ((D₀.drop 22).take 4) = 0) (henc : Encodable (.group g)) (hx : (groupBounds g).dx ≤ 2 ^ 31) (hy : (groupBounds g).dy ≤ 2 ^ 31)
    (hr : ∀ r ∈ placed g 0 0 0 [], Resavable (groupBounds g).dx (groupBounds g).dy r) (hlum : ∀ r ∈ placed g 0 0 0 [], r.layer.mode ≠ Mode.luminance)
    (htext : ∀ r ∈ placed g 0 0 0 [], ∀ i t, r.layer.image ≠ .text i t) (wenv : WEnv) (hw : Works wenv) :
    ∃ l size, runEncode wenv (.group g) = some (l, none) ∧ ExactlyOnce l size ∧
      (size ≤ maxString → ∀ (env : Env) (sch : Sched), sch.Valid → ∀ (decompress : Bool) (D : Bytes),
        (decompress = true ∨ ∀ r ∈ placed g 0 0 0 [], maskOf r.layer.image = none) →
        ∃ g', decodeImage env sch decompress (store D l) = .ok (.ok g') ∧ runEncode wenv (.group g') = some (l, none)) := by
  have hnt : ∀ r ∈ placed g 0 0 0 [], textOf r.layer = none := by
    intro r hr
    have := htext r hr
    unfold textOf
    cases hi : r.layer.image with
    | text i t => exact absurd hi (this i t)
    | _ => rfl
  obtain ⟨l, size, h1, h2, h3⟩ := C124_resave_partial env₀ sch₀ hv₀ D₀ g h hrgb henc hx hy hr hlum wenv hw (noText_fits wenv hnt)
  refine ⟨l, size, h1, h2, fun hmax env sch hv decompress D hd => ?_⟩
  obtain ⟨g', h4, ⟨cm, h5, htyp⟩, -⟩ := h3 hmax env sch hv decompress D hd (fun r hr t d ht => by rw [hnt r hr] at ht; cases ht)
  have hc : cm = .other ∨ cm = .alpha := by
    cases cm with
    | other => exact .inl rfl
    | alpha => exact .inr rfl
    | gray => cases htyp
    | gray16 => cases htyp
    | grayAlpha => cases htyp
    | palette p => cases htyp
    | alphaPalette p => cases htyp
  have hpl := plainLayers hv₀ h hrgb hr
  refine ⟨g', h4, ?_⟩
  rw [← h1]
  refine (C113_inside wenv _ _ ?_).symm
  unfold SeenTop
  exact ⟨g', rfl, layers_seen wenv cm (by rcases hc with rfl | rfl <;> simp) false g g'
    (plain_native cm hc g 0 0 0 [] fun r hr => ⟨hpl r hr, htext r hr⟩) (plain_flawless cm hc g 0 0 0 [] hpl) h5⟩

/-- a file with two layers is loaded and saved; what is loaded from that is saved as the same file -/
example : ∃ g l g', decodeImage exEnv exSched true (twoXcf 3) = .ok (.ok g) ∧ g.map (·.mode) = [Mode.multiply, Mode.normal] ∧
    runEncode goodSink (.group g) = some (l, none) ∧ decodeImage exEnv exSched false (store [] l) = .ok (.ok g') ∧
    runEncode goodSink (.group g') = some (l, none) := by
  obtain ⟨p, q, h⟩ := isTwo_iff two_multiply
  obtain ⟨l, size, h1, h2, h3⟩ := C144_loaded_partial exEnv exSched exSched_valid _ _ h (by decide) (two_encodable _ _ _) (by rw [two_bounds]; decide)
    (by rw [two_bounds]; decide) (two_resavable _ _ _)
    (by
        rw [two_placed]
        intro r hr
        simp only [List.mem_cons, List.not_mem_nil, or_false] at hr
        rcases hr with rfl | rfl
        · exact (show Mode.multiply ≠ Mode.luminance by decide)
        · exact (show Mode.normal ≠ Mode.luminance by decide))
    (by rw [two_placed]; intro r hr i t hi; simp only [List.mem_cons, List.not_mem_nil, or_false] at hr; rcases hr with rfl | rfl <;> cases hi) goodSink
    (fun _ => rfl)
  obtain ⟨g', h4, h5⟩ := h3 (Nat.le_trans (encode_size goodSink _ (two_encodable _ _ _) l h1 .other rfl size h2) (two_size _ _ _ _)) exEnv exSched exSched_valid false []
    (.inr (by rw [two_placed]; intro r hr; simp only [List.mem_cons, List.not_mem_nil, or_false] at hr; rcases hr with rfl | rfl <;> rfl))
  exact ⟨_, l, g', h, rfl, h1, h4, h5⟩

/-- **C144** is false for grey files with pixels that are half transparent: what is loaded is saved as another file. -/
theorem C144_refuted (wenv : WEnv) (hw : Works wenv) : ∃ (g : List Layer) (l : List WCall), runEncode wenv (.group g) = some (l, none) ∧
    ∀ (env : Env) (sch : Sched), sch.Valid → ∀ (decompress : Bool) (D : Bytes), ∃ (g' : List Layer) (l' : List WCall),
      decodeImage env sch decompress (store D l) = .ok (.ok g') ∧ runEncode wenv (.group g') = some (l', none) ∧ store D l' ≠ store D l := by
  obtain ⟨g, l, -, h1, h2⟩ := C85_refuted wenv wenv hw hw
  refine ⟨g, l, h1, fun env sch hv decompress D => ?_⟩
  obtain ⟨g', l', h3, h4, h5, h6⟩ := h2 env sch hv decompress D
  refine ⟨g', l', h3, h5, fun he => ?_⟩
  obtain ⟨g'', h7, h8⟩ := h6 env sch hv decompress D
  rw [he, h3] at h7
  cases h7
  rw [h4] at h8
  exact absurd h8 (by decide)

/-! ## Pictures without groups -/

/-- a point moved to where a rectangle starts -/
def shiftTo (b : Rect) (p : Pt) : Pt := ⟨b.x0 + p.x, b.y0 + p.y⟩

theorem flatMap_map_shift (b : Rect) (f : Nat → List Pt) (n : Nat) (g : Nat → List Pt) (h : ∀ j, g j = (f j).map (shiftTo b)) :
    (List.range n).flatMap g = ((List.range n).flatMap f).map (shiftTo b) := by
  rw [List.map_flatMap]
  exact congrArg (fun k => (List.range n).flatMap k) (funext h)

theorem tileOrigins_shift (b : Rect) : tileOrigins b = (tileOrigins ⟨0, 0, b.dx, b.dy⟩).map (shiftTo b) := by
  have e1 : steps64 b.y0 b.y1 = steps64 0 b.dy := by unfold steps64 Rect.dy; rw [Int.sub_zero]
  have e2 : steps64 b.x0 b.x1 = steps64 0 b.dx := by unfold steps64 Rect.dx; rw [Int.sub_zero]
  unfold tileOrigins
  rw [e1, e2]
  refine flatMap_map_shift b _ _ _ fun j => ?_
  rw [List.map_map]
  refine List.map_congr_left fun i _ => ?_
  show (⟨_, _⟩ : Pt) = ⟨_, _⟩
  congr 1
  · show b.x0 + 64 * (i : Int) = b.x0 + (0 + 64 * (i : Int)); omega
  · show b.y0 + 64 * (j : Int) = b.y0 + (0 + 64 * (j : Int)); omega

theorem tilePoints_shift (b : Rect) (o : Pt) : tilePoints b (shiftTo b o) = (tilePoints ⟨0, 0, b.dx, b.dy⟩ o).map (shiftTo b) := by
  have e1 : b.y1 - (shiftTo b o).y = b.dy - o.y := by show b.y1 - (b.y0 + o.y) = b.y1 - b.y0 - o.y; omega
  have e2 : b.x1 - (shiftTo b o).x = b.dx - o.x := by show b.x1 - (b.x0 + o.x) = b.x1 - b.x0 - o.x; omega
  unfold tilePoints
  rw [e1, e2]
  refine flatMap_map_shift b _ _ _ fun j => ?_
  rw [List.map_map]
  refine List.map_congr_left fun i _ => ?_
  show (⟨_, _⟩ : Pt) = ⟨_, _⟩
  congr 1
  · show b.x0 + o.x + (i : Int) = b.x0 + (o.x + (i : Int)); omega
  · show b.y0 + o.y + (j : Int) = b.y0 + (o.y + (j : Int)); omega

/-- `L'` is `L` moved to the origin, as far as `f` tells -/
def ShownAs (f : Color → Bytes) (L L' : Leaf) : Prop :=
  L'.bounds = ⟨0, 0, L.bounds.dx, L.bounds.dy⟩ ∧
    ∀ p, inRect L'.bounds p → ∃ c c', L.pixel (shiftTo L.bounds p) = some c ∧ L'.pixel p = some c' ∧ f c' = f c

theorem pixelsAt_shift {f : Color → Bytes} {L L' : Leaf} (h : ShownAs f L L') : ∀ (ps : List Pt), (∀ p ∈ ps, inRect L'.bounds p) → ∀ (env : WEnv) (s : WS),
    ∃ cs cs', pixelsAt (.leaf L) (ps.map (shiftTo L.bounds)) env s = some (cs, s, []) ∧ pixelsAt (.leaf L') ps env s = some (cs', s, []) ∧
      cs'.map f = cs.map f
  | [], _, env, s => ⟨[], [], rfl, rfl, rfl⟩
  | p :: ps, hps, env, s => by
    obtain ⟨cs, cs', e1, e2, e3⟩ := pixelsAt_shift h ps (fun q hq => hps q (List.mem_cons_of_mem _ hq)) env s
    obtain ⟨c, c', f1, f2, f3⟩ := h.2 p (hps p List.mem_cons_self)
    refine ⟨c :: cs, c' :: cs', ?_, ?_, by rw [List.map_cons, List.map_cons, e3, f3]⟩
    · rw [List.map_cons, pixelsAt_cons, Img.at, f1]
      show (pixelsAt (.leaf L) _ env s).map _ = _
      rw [e1]
      rfl
    · rw [pixelsAt_cons, Img.at, f2]
      show (pixelsAt (.leaf L') _ env s).map _ = _
      rw [e2]
      rfl

theorem writeTiles_shift {f : Color → Bytes} {L L' : Leaf} (h : ShownAs f L L') (ch : Nat) : ∀ (os : List Pt),
    (∀ o ∈ os, ∀ p ∈ tilePoints L'.bounds o, inRect L'.bounds p) → ∀ pw,
    writeTiles (.leaf L) f ch L.bounds (os.map (shiftTo L.bounds)) pw = writeTiles (.leaf L') f ch L'.bounds os pw
  | [], _, _ => rfl
  | o :: os, ho, pw => by
    rw [List.map_cons]
    unfold writeTiles
    funext env s
    show W.bind _ _ env s = W.bind _ _ env s
    unfold W.bind
    obtain ⟨cs, cs', e1, e2, e3⟩ := pixelsAt_shift h (tilePoints L'.bounds o) (ho o List.mem_cons_self) env s
    rw [tilePoints_shift, ← h.1, e1, e2]
    dsimp only
    rw [e3]
    have : ∀ pw, writeTiles (.leaf L) f ch L.bounds (os.map (shiftTo L.bounds)) pw = writeTiles (.leaf L') f ch L'.bounds os pw :=
      writeTiles_shift h ch os fun o' ho' => ho o' (List.mem_cons_of_mem _ ho')
    simp only [this]

theorem writeImage_shift {f : Color → Bytes} {L L' : Leaf} (h : ShownAs f L L') (ch : Nat) :
    writeImage (.leaf L) f ch = writeImage (.leaf L') f ch := by
  have hb : ∀ L : Leaf, (Img.leaf L).bounds = some L.bounds := fun L => by rw [Img.bounds]
  have hdx : L'.bounds.dx = L.bounds.dx := by rw [h.1]; show L.bounds.dx - 0 = _; omega
  have hdy : L'.bounds.dy = L.bounds.dy := by rw [h.1]; show L.bounds.dy - 0 = _; omega
  have hos : tileOrigins L.bounds = (tileOrigins L'.bounds).map (shiftTo L.bounds) := by rw [tileOrigins_shift, ← h.1]
  have ht : ∀ pw, writeTiles (.leaf L) f ch L.bounds (tileOrigins L.bounds) pw = writeTiles (.leaf L') f ch L'.bounds (tileOrigins L'.bounds) pw := by
    rw [hos]
    exact writeTiles_shift h ch _ (tilePoints_inside L'.bounds)
  unfold writeImage
  rw [hb, hb]
  funext env s
  show W.bind _ _ env s = W.bind _ _ env s
  unfold W.bind W.get
  simp only [Option.map_some, ht, hdx, hdy]

theorem writeMask_shift {m m' : GrayImg} (h : MaskBack m m') (pw : PW) : writeMask (some m) pw = writeMask (some m') pw := by
  have hdx : m'.rect.dx = m.rect.dx := by rw [h.1]; show m.rect.dx - 0 = _; omega
  have hdy : m'.rect.dy = m.rect.dy := by rw [h.1]; show m.rect.dy - 0 = _; omega
  have hi : writeImage m.img grayToBuf 1 = writeImage m'.img grayToBuf 1 := by
    refine writeImage_shift ⟨h.1, fun p hp => ⟨_, _, rfl, rfl, ?_⟩⟩ 1
    show grayToBuf (.gray (m'.grayAt p)) = grayToBuf (.gray (m.grayAt (shiftTo m.rect p)))
    rw [h.2 p (mem_inRect.2 hp)]
    rfl
  unfold writeMask writeChannel
  simp only [hi, hdx, hdy]

/-- Specification: a layer with pixels of its own, with or without a mask -/
def Spec.OwnPixels (l : Layer) : Prop := ∃ L, l.image = .leaf L ∨ ∃ m, l.image = .masked (.leaf L) (some m)

theorem rgbAlpha_again (wenv : WEnv) (cm : ColorModel) (hc : cm = .other ∨ cm = .alpha) (c c' : Color)
    (h : colorOf (fmtOf wenv cm) ((fmtOf wenv cm).conv c) = some c') : rgbAlphaToBuf c' = rgbAlphaToBuf c := by
  have e : colorOf (fmtOf wenv cm) ((fmtOf wenv cm).conv c) = some (.nrgba (nrgbaModel c).1 (nrgbaModel c).2.1 (nrgbaModel c).2.2.1 (nrgbaModel c).2.2.2) := by
    rcases hc with rfl | rfl <;> rfl
  rw [e] at h
  cases h
  rfl

theorem writeOwn_shift (wenv : WEnv) (cm : ColorModel) (hc : cm = .other ∨ cm = .alpha) {P : Bytes → TextData → Prop} {l : Layer} {j : Img}
    (ho : OwnPixels l) (h : ImgBack (fmtOf wenv cm) P l j) (ox oy : UInt32) (groups : List UInt32) (pw : PW) :
    writeOwn (encFor .other) l ox oy groups pw = writeOwn (encFor .other) { l with image := j } ox oy groups pw ∧
      (∀ i ∈ [l.image, j], (∀ pw, writeSub (encFor .other) i ox oy groups pw = pure pw) ∧ layerCountIn i = 0) := by
  have key : ∀ L L' : Leaf, PixelsBack (fmtOf wenv cm) (.leaf L) L' → ShownAs rgbAlphaToBuf L L' := by
    rintro L L' ⟨b, f1, f2, -, -, f5⟩
    have f1 : some L.bounds = some b := f1
    cases f1
    refine ⟨f2, fun p hp => ?_⟩
    obtain ⟨k, k', c, g1, g2⟩ := f5 p (mem_inRect.2 hp)
    rw [show (Img.leaf L).at (fmtOf wenv cm).ρ ⟨L.bounds.x0 + p.x, L.bounds.y0 + p.y⟩ k = (L.pixel (shiftTo L.bounds p)).map fun c => (c, k) by rw [Img.at]; rfl] at g1
    cases hL : L.pixel (shiftTo L.bounds p) with
    | none => rw [hL] at g1; cases g1
    | some c0 =>
      rw [hL] at g1
      have g1 : c0 = c := congrArg Prod.fst (Option.some.inj g1)
      subst g1
      obtain ⟨c', hc'⟩ := colorOf_some wenv cm (by rcases hc with rfl | rfl <;> simp) c0
      exact ⟨c0, c', rfl, by rw [g2, hc'], rgbAlpha_again wenv cm hc c0 c' hc'⟩
  obtain ⟨name, b, mode, inv, tr, im⟩ := l
  obtain ⟨L, hi | ⟨m, hi⟩⟩ := ho
  · dsimp only at hi
    subst hi
    rcases h.cases with ⟨L', hL, -, rfl⟩ | ⟨L', t, hL, ⟨t', ht⟩, rfl⟩ | ⟨L', m, m', hL, hm, -, rfl⟩
    · refine ⟨?_, ?_⟩
      · unfold writeOwn writeProperties writeLayerData
        have h1 := writeImage_shift (key L L' hL) (encFor .other).channels
        have h2 : writeImage (.leaf L) (encFor .other).func (encFor .other).channels = writeImage (.leaf L') (encFor .other).func (encFor .other).channels := h1
        dsimp only [layerContent, layerTextData, isGroup]
        simp only [h2]
      · intro i hi
        simp only [List.mem_cons, List.not_mem_nil, or_false] at hi
        rcases hi with rfl | rfl <;> exact ⟨fun pw => by rw [writeSub], by rw [layerCountIn]⟩
    · cases ht
    · cases hm
  · dsimp only at hi
    subst hi
    rcases h.cases with ⟨L', hL, hm, rfl⟩ | ⟨L', t, hL, ⟨t', ht⟩, rfl⟩ | ⟨L', m0, m', hL, hm, hmb, rfl⟩
    · cases hm
    · cases ht
    · cases hm
      refine ⟨?_, ?_⟩
      · unfold writeOwn writeProperties writeLayerData
        have h2 : writeImage (.leaf L) (encFor .other).func (encFor .other).channels = writeImage (.leaf L') (encFor .other).func (encFor .other).channels :=
          writeImage_shift (key L L' hL) (encFor .other).channels
        have h3 := fun pw => writeMask_shift hmb pw
        dsimp only [layerContent, layerTextData, isGroup]
        simp only [h2, h3]
      · intro i hi
        simp only [List.mem_cons, List.not_mem_nil, or_false] at hi
        rcases hi with rfl | rfl <;> exact ⟨fun pw => by rw [writeSub], by rw [layerCountIn]⟩

theorem writeLayers_shift (wenv : WEnv) (cm : ColorModel) (hc : cm = .other ∨ cm = .alpha) {P : Bytes → TextData → Prop} : ∀ (g g' : List Layer),
    (∀ l ∈ g, OwnPixels l) → SameTree (ImgBack (fmtOf wenv cm) P) id g g' → ∀ (n : Nat) (ox oy : UInt32) (groups : List UInt32) (pw : PW),
    writeLayers (encFor .other) g' n ox oy groups pw = writeLayers (encFor .other) g n ox oy groups pw ∧ layerCount g' = layerCount g ∧
      g'.map (fun l => l.bounds) = g.map (fun l => l.bounds)
  | [], g', _, h, n, ox, oy, groups, pw => by
    cases sameTree_nil h
    exact ⟨rfl, rfl, rfl⟩
  | l :: g, g', ho, h, n, ox, oy, groups, pw => by
    obtain ⟨l', r', rfl, h1, h2, h3, h4, h5, h6, h7⟩ := sameTree_cons h
    have hl := ho l List.mem_cons_self
    have hP : ImgBack (fmtOf wenv cm) P l l'.image := by
      obtain ⟨L, hi | ⟨m, hi⟩⟩ := hl
      · rw [hi] at h6; unfold SameImg at h6; exact h6
      · rw [hi] at h6; unfold SameImg at h6; exact h6
    have hl' : l' = { l with image := l'.image } := by
      obtain ⟨n', b', m', i', t', im'⟩ := l'
      obtain ⟨n0, b0, m0, i0, t0, im0⟩ := l
      dsimp only [id] at h1 h2 h3 h4 h5
      subst h1 h2 h3 h4 h5
      rfl
    generalize hj : l'.image = j at hP hl'
    subst hl'
    have ih := fun n pw => writeLayers_shift wenv cm hc g r' (fun x hx => ho x (List.mem_cons_of_mem _ hx)) h7 n ox oy groups pw
    obtain ⟨name, b, mode, inv, tr, im⟩ := l
    dsimp only
    refine ⟨?_, ?_, ?_⟩
    · rw [writeLayers, writeLayers]
      obtain ⟨k1, k2⟩ := writeOwn_shift wenv cm hc hl hP (ox + u32 b.x0) (oy + u32 b.y0) (groups ++ [UInt32.ofNat n]) pw
      have s1 := (k2 im (by simp)).1
      have s2 := (k2 j (by simp)).1
      refine W.bind_congr k1.symm fun pw => ?_
      rw [s1, s2]
      exact W.bind_congr rfl fun pw => (ih (n + 1) pw).1
    · obtain ⟨-, k2⟩ := writeOwn_shift wenv cm hc hl hP 0 0 [] pw
      rw [layerCount, layerCount, (k2 im (by simp)).2, (k2 j (by simp)).2, (ih 0 pw).2.1]
    · rw [List.map_cons, List.map_cons, (ih 0 pw).2.2]

/-- **C144** for RGB pictures without groups and text, of any colours: what is loaded from the file is saved as the same file. -/
theorem C144_flat_partial (wenv : WEnv) (env : Env) (sch : Sched) (hv : sch.Valid) (decompress : Bool) (g : List Layer)
    (hi : Encodable (.group g)) (l : List WCall) (h : runEncode wenv (.group g) = some (l, none)) (D : Bytes)
    (size : Nat) (hsz : ExactlyOnce l size) (hmax : size ≤ maxString)
    (cm : ColorModel) (hcm : (Img.group g).colorModel = some cm) (hrgb : cm = .other ∨ cm = .alpha)
    (hd : decompress = true ∨ ∀ r ∈ placed g 0 0 0 [], maskOf r.layer.image = none)
    (hx : (groupBounds g).dx ≤ 2 ^ 31) (hy : (groupBounds g).dy ≤ 2 ^ 31)
    (hs : ∀ r ∈ placed g 0 0 0 [], Storable (fmtOf wenv cm) (parsesTo env) (groupBounds g).dx (groupBounds g).dy r)
    (hk : ∀ r ∈ placed g 0 0 0 [], r.layer.mode ∈ keptModes ((fmtOf wenv cm).typ == 0))
    (hb : ∀ m, (g.map (·.mode)).getLast? = some m → m = Mode.normal ∨ m = Mode.dissolve)
    (hown : ∀ l ∈ g, OwnPixels l) :
    ∃ g', decodeImage env sch decompress (store D l) = .ok (.ok g') ∧ ∀ wenv', runEncode wenv' (.group g') = runEncode wenv' (.group g) := by
  obtain ⟨g', h1, h2⟩ := C37_tree_partial wenv env sch hv decompress g hi l h D size hsz hmax cm hcm hd hx hy hs hk hb
  refine ⟨g', h1, fun wenv' => ?_⟩
  have hw := writeLayers_shift wenv cm hrgb g g' hown h2
  have hbd : (Img.group g').bounds = (Img.group g).bounds := by
    rw [Img.bounds, Img.bounds, groupBounds_congr (hw 0 0 0 [] ⟨0, none, 0⟩).2.2]
  have hmod : ∃ cm', (Img.group g').colorModel = some cm' ∧ encFor cm' = encFor .other := by
    have e : (Img.group g').colorModel = groupModel g' := by rw [Img.colorModel]
    rw [e]
    rcases again_model (Spec.SameTree.like h2) with k | ⟨-, k⟩
    · refine ⟨_, k, ?_⟩
      rcases hrgb with rfl | rfl <;> rfl
    · exact ⟨_, k, rfl⟩
  obtain ⟨cm', hcm', he'⟩ := hmod
  have he : encFor cm = encFor .other := by rcases hrgb with rfl | rfl <;> rfl
  have hcont : writeContent (encFor .other) (.group g') = writeContent (encFor .other) (.group g) := by
    unfold writeContent
    dsimp only
    rw [(hw 0 0 0 [] ⟨0, none, 0⟩).2.1]
    simp only [fun pw => (hw 0 0 0 [] pw).1]
  unfold runEncode encode
  rw [hbd, hcm', hcm]
  have hget : ∀ (x : ColorModel) (k : ColorModel → W Unit), (W.get (some x) >>= k) = k x := by
    intro x k
    funext env s
    show W.bind _ _ env s = _
    unfold W.bind W.get
    dsimp only [Option.map_some]
    cases k x env s with
    | none => rfl
    | some y => rfl
  simp only [hget, he, he', hcont]

/-- the hypothesis about the layers holds for a pixel of 16 bits per channel, which the file does not represent exactly (see the examples of C37 for
the others) -/
example : (∀ l ∈ [(Mode.normal, ColorModel.other, Color.nrgba64 ⟨0x1234, 0x5678, 0x9abc, 0x8000⟩)].map dot, OwnPixels l) ∧
    ¬ Exact .other (.nrgba64 ⟨0x1234, 0x5678, 0x9abc, 0x8000⟩) := by
  refine ⟨fun l hl => ?_, ?_⟩
  · simp only [List.map_cons, List.map_nil, List.mem_cons, List.not_mem_nil, or_false] at hl
    subst hl
    exact ⟨_, .inl rfl⟩
  · rintro (⟨r, g, b, a, h⟩ | ⟨r, g, b, h⟩)
    · cases h
    · exact absurd h.2.2.2 (by decide)

end Limage
