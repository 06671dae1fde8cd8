import Verif.Props.PixelBack
import Verif.Props.AnyFile
/-!
# `Encode` writes files as documented

C36 says that a file holds what `Encode` means to store, where it means to store it.  Here that is compared with the description of the format
that files of all programs are described with (`Spec/XcfAny`): properties, modes by the numbers they have in GIMP, text layers as parasites.
-/
namespace Limage
open Spec

/-! ## Specification -/

/-- version 3 -/
def Spec.version3 : Version := ⟨[118, 48, 48, 51], false, false⟩

/-- the grey value of a colour made opaque -/
def Spec.greyOf (c : Color) : UInt8 :=
  if c.rgba32.a = 0xffff then grayModel c else grayModel (.nrgba64 { c.toNRGBA with a := 0xffff })

/-- the colour, made opaque, with 8 bits per channel -/
def Spec.bytesOf (c : Color) : Color := .lrgb (nrgbaModel c).1 (nrgbaModel c).2.1 (nrgbaModel c).2.2.1

/-- How the colours of a picture with the colour model `cm` are represented in a file that has an alpha channel in every layer: grey pictures by
grey values, those with a palette by indices, all others as RGB, and none of them with alpha multiplied in. -/
def Spec.documented (cm : ColorModel) (parses : Bytes → TextData → Prop) (opacity : UInt32 → UInt8) (ρ : Nat → UInt16) : Coding :=
  match cm with
  | .gray | .gray16 | .grayAlpha => ⟨1, [], true, fun _ c => [greyOf c, (c.rgba32.a >>> 8).toUInt8], parses, opacity, ρ⟩
  | .palette p | .alphaPalette p =>
    ⟨2, p.map rgbModel, true, fun _ c => [UInt8.ofNat (paletteIndex p (bytesOf c)), (nrgbaModel c).2.2.2], parses, opacity, ρ⟩
  | _ => ⟨0, [], true, fun _ c => [(nrgbaModel c).1, (nrgbaModel c).2.1, (nrgbaModel c).2.2.1, (nrgbaModel c).2.2.2], parses, opacity, ρ⟩

/-- the colours that are stored as they are: all in RGB files, opaque ones in grey files, opaque ones with 8 bits per channel in indexed files -/
def Spec.StoredAsIs (cm : ColorModel) (c : Color) : Prop :=
  match cm with
  | .gray | .gray16 | .grayAlpha => c.rgba32.a = 0xffff
  | .palette _ | .alphaPalette _ => ∃ r g b, Opaque8 c.rgba32 r g b
  | _ => True

/-- the modes that have a number in the files (`gimpModes`), apart from those under numbers that `Encode` does not use -/
def Spec.documentedModes : List Mode :=
  [.normal, .dissolve, .behind, .multiply, .screen, .overlay, .difference, .addition, .subtract, .darkenOnly, .lightenOnly, .hue,
   .saturation, .color, .value, .divide, .dodge, .burn, .hardLight, .softLight, .grainExtract, .grainMerge, .colorErase, .chroma, .lightness,
   .vividLight, .pinLight, .linearLight, .hardMix, .exclusion, .linearBurn, .erase, .merge, .split, .passThrough]

/-! ## Proofs -/

theorem pixelsAt_in {D : Bytes} {p : Nat} {b : Rect} {bpp : Nat} {S S' : Pt → Bytes → Prop} (h : PixelsAt D p b bpp S) (hS : ∀ q bs, S q bs → S' q bs) :
    PixelsIn D version3 true p b bpp S' := by
  obtain ⟨level, tiles, h1, h2, h3⟩ := h
  refine ⟨level, tiles, [], ?_, h2, h3.imp ?_⟩
  · rw [List.flatMap_nil, List.append_nil]
    exact h1
  · rintro t ij ⟨px, a, b⟩
    exact ⟨px, a, b.imp hS⟩

theorem maskAt_in {D : Bytes} {p : Nat} {m : GrayImg} (h : MaskAt D p m) : MaskIn D version3 true p m := by
  obtain ⟨k, h1, h2⟩ := h
  refine ⟨[], text [], [], k, .inl rfl, by simp, ?_, pixelsAt_in h2 fun _ _ h => h⟩
  unfold propList
  rw [List.flatMap_nil, List.nil_append]
  have hv : version3.off = num := rfl
  rw [hv]
  simpa only [List.append_assoc] using h1

/-- the properties of a layer as they are written -/
def layerPropsOf (F : Fmt) (r : Placed) (t : Option Bytes) : List (Nat × Bytes) :=
  [(6, num (255 - r.layer.transparency.toNat)), (8, num (if r.layer.invisible then 0 else 1)), (15, int r.ox ++ int r.oy)] ++
  (if 1 < r.path.length then [(30, r.path.flatMap num)] else []) ++
  (match t with | none => [] | some d => [(26, num 1), (21, parasite textName 0 d)]) ++
  (if isGroupLayer r.layer then [(29, [])] else []) ++ [(7, num (F.mode r.layer.mode))]

theorem layerHead_props (F : Fmt) (r : Placed) (t : Option Bytes) :
    layerHead F r t = int r.layer.bounds.dx ++ int r.layer.bounds.dy ++ num (2 * F.typ + 1) ++ text r.layer.name ++ propList (layerPropsOf F r t) := by
  have hp : ∀ d, parasite textName 0 d = text textName ++ num 0 ++ num d.length ++ d := fun _ => rfl
  unfold layerHead kindProps propList layerPropsOf textProps
  cases t <;> by_cases h1 : 1 < r.path.length <;> cases isGroupLayer r.layer <;>
    simp [h1, hp, List.append_assoc]

theorem layerAt_in {D : Bytes} {F : Fmt} {C : Coding} {p : Nat} {r : Placed} (h : LayerAt D F p r) (hF : FmtOk F)
    (h1 : C.typ = F.typ) (h2 : C.rle = true) (h4 : C.ρ = F.ρ)
    (h3 : isGroupLayer r.layer = false → ∀ q n c n', (pixelsOf r.layer.image).at F.ρ q n = some (c, n') → C.conv true c = F.conv c)
    (h5 : ∀ t dx dy d, F.text t dx dy = some d → C.parses d t) (h6 : gimpModes[F.mode r.layer.mode]? = some r.layer.mode) :
    LayerIn D version3 C (fun _ => true) p r := by
  obtain ⟨t, hp, m, ht, hh, ⟨b, hb, hpix⟩, hm⟩ := h
  refine ⟨text r.layer.name, layerPropsOf F r t, hp, m, .inl rfl, ?_, ?_, ?_⟩
  · have keys : (layerPropsOf F r t).map (·.1) = [6, 8, 15] ++ (if 1 < r.path.length then [30] else []) ++ (if t.isSome then [26, 21] else []) ++
        (if isGroupLayer r.layer then [29] else []) ++ [7] := by
      unfold layerPropsOf
      cases t <;> by_cases h1 : 1 < r.path.length <;> cases isGroupLayer r.layer <;> simp [h1]
    refine ⟨?_, ⟨match t with | none => [] | some d => [(textName, 0, d)], ?_, ?_, ?_, ?_⟩, ?_, ?_, ?_, ?_, ?_, ?_⟩
    · rw [keys]
      by_cases h1 : 1 < r.path.length <;> cases isGroupLayer r.layer <;> cases t.isSome <;> simp [h1]
    · intro x hx
      simp only [layerPropsOf, List.mem_append, List.mem_cons, List.not_mem_nil, or_false] at hx
      rcases hx with (((hx | hx) | hx) | hx) | hx
      · rcases hx with rfl | rfl | rfl
        · exact .opacity
        · exact .visible
        · exact .offsets
      · split at hx
        · rcases List.mem_singleton.1 hx with rfl
          exact .path ‹_›
        · cases hx
      · cases t with
        | none => cases hx
        | some d =>
          simp only [List.mem_cons, List.not_mem_nil, or_false] at hx
          rcases hx with rfl | rfl
          · exact .number 26 1 (by simp)
          · have := LayerProp.parasites (C := C) (r := r) (pars := [(textName, 0, d)])
            simpa using this
      · split at hx
        · rcases List.mem_singleton.1 hx with rfl
          exact .group ‹_›
        · cases hx
      · subst hx
        exact .mode _ h6
    · intro x hx
      cases t with
      | none => cases hx
      | some d =>
        rcases List.mem_singleton.1 hx with rfl
        exact ⟨(utf8Valid_iff textName).1 (by decide), by simp [textName]⟩
    · intro hx
      cases t with
      | none => rfl
      | some d =>
        rw [keys] at hx
        simp at hx
    · rcases ht with ⟨e1, e2⟩ | ⟨td, e1, e2, e3⟩
      · subst e2
        exact .inl ⟨e1, rfl⟩
      · cases t with
        | none => cases e2
        | some d => exact .inr ⟨td, d, e1, by simp [textData], h5 _ _ _ _ e3.symm⟩
    · exact .inl (by rw [keys]; simp)
    · exact .inl (by rw [keys]; simp)
    · exact .inl (by rw [keys]; simp)
    · exact .inl (by rw [keys]; simp)
    · by_cases h1 : 1 < r.path.length
      · exact .inl (by rw [keys]; simp [h1])
      · exact .inr (by omega)
    · cases hg : isGroupLayer r.layer with
      | false => exact .inr rfl
      | true => exact .inl (by rw [keys]; simp [hg])
  · rw [layerHead_props] at hh
    rw [if_pos rfl, h1]
    exact hh
  · cases hg : isGroupLayer r.layer with
    | true =>
      rw [if_pos rfl]
      constructor
      · obtain ⟨level, tiles, a, -⟩ := hpix
        have := HasAt.le a (by simp [num, be])
        omega
      · have : maskOf r.layer.image = none := by
          unfold isGroupLayer at hg
          split at hg
          · rename_i e
            rw [e]
            rfl
          · cases hg
        rw [this] at hm
        exact hm
    | false =>
      rw [if_neg (by simp)]
      refine ⟨⟨b, hb, ?_⟩, ?_⟩
      · have e : bppOf C.typ true = F.bpp := by
          rw [h1]
          rcases hF.kind with ⟨a, b⟩ | ⟨a, b⟩ | ⟨a, b⟩ <;> rw [a, b] <;> rfl
        rw [e, h2]
        refine pixelsAt_in hpix ?_
        rintro q bs ⟨n, n', c, a, rfl⟩
        exact ⟨n, n', c, by rw [h4]; exact a, (h3 hg _ _ _ _ a).symm⟩
      · cases hk : maskOf r.layer.image with
        | none => rw [hk] at hm; exact hm
        | some k =>
          rw [hk] at hm
          rw [h2]
          exact maskAt_in hm

theorem fileAt_in {D : Bytes} {F : Fmt} {C : Coding} {i : Img} (h : FileAt D F i) (hF : FmtOk F)
    (h1 : C.typ = F.typ) (h2 : C.rle = true) (h4 : C.ρ = F.ρ) (hc : C.palette = F.palette.getD [])
    (h5 : ∀ t dx dy d, F.text t dx dy = some d → C.parses d t) (h6 : ∀ r ∈ layersOf i, gimpModes[F.mode r.layer.mode]? = some r.layer.mode)
    (h3 : ∀ r ∈ layersOf i, isGroupLayer r.layer = false → ∀ q n c n', (pixelsOf r.layer.image).at F.ρ q n = some (c, n') → C.conv true c = F.conv c) :
    ∃ b, i.bounds = some b ∧ FileIn D version3 C (fun _ _ => True) (fun _ => true) b (layersOf i) := by
  obtain ⟨b, hb, ptrs, hh, hl⟩ := h
  refine ⟨b, hb, fun _ _ => rfl, 0, (match F.palette with | none => [] | some p => [(1, num p.length ++ p.flatMap fun c => [c.1, c.2.1, c.2.2])]) ++ [(17, [1])],
    ptrs, [], ?_, ?_, ?_⟩
  · constructor
    · intro x hx
      rcases List.mem_append.1 hx with hx | hx
      · cases hp : F.palette with
        | none => rw [hp] at hx; cases hx
        | some p =>
          rw [hp] at hx
          rcases List.mem_singleton.1 hx with rfl
          exact ⟨by simp, by simp, .colors p, trivial⟩
      · rcases List.mem_singleton.1 hx with rfl
        exact ⟨by simp, by simp, .compression 1 (by decide), trivial⟩
    · intro x hx e
      rcases List.mem_append.1 hx with hx | hx
      · cases hp : F.palette with
        | none => rw [hp] at hx; cases hx
        | some p =>
          rw [hp] at hx
          rcases List.mem_singleton.1 hx with rfl
          rw [hc, hp]
          rfl
      · rcases List.mem_singleton.1 hx with rfl
        cases e
    · cases hp : F.palette with
      | none => exact .inr (by rw [hc, hp]; rfl)
      | some p => exact .inl (by simp)
    · intro x hx e
      rcases List.mem_append.1 hx with hx | hx
      · cases hp : F.palette with
        | none => rw [hp] at hx; cases hx
        | some p =>
          rw [hp] at hx
          rcases List.mem_singleton.1 hx with rfl
          cases e
      · rcases List.mem_singleton.1 hx with rfl
        rw [h2]
        rfl
    · exact .inl (by simp)
  · have e : (version3.magic ++ int b.dx ++ int b.dy ++ num C.typ ++ (if version3.precision then num 0 else []) ++
        propList ((match F.palette with | none => [] | some p => [(1, num p.length ++ p.flatMap fun c => [c.1, c.2.1, c.2.2])]) ++ [(17, [1])]) ++
        ptrs.flatMap version3.off ++ version3.off 0 ++ [].flatMap version3.off ++ version3.off 0) = fileHead F b ++ ptrs.flatMap num ++ num 0 ++ num 0 := by
      have hv : version3.off = num := rfl
      have hm : version3.magic = fileMagic := rfl
      unfold fileHead propList colorMap
      rw [hv, hm, h1]
      cases F.palette <;> simp [version3, List.append_assoc]
    rw [e]
    exact hh
  · have : ∀ {ps : List Nat} {ls : List Placed}, List.Forall₂ (LayerAt D F) ps ls → (∀ r ∈ ls, gimpModes[F.mode r.layer.mode]? = some r.layer.mode) →
        (∀ r ∈ ls, isGroupLayer r.layer = false → ∀ q n c n', (pixelsOf r.layer.image).at F.ρ q n = some (c, n') → C.conv true c = F.conv c) →
        List.Forall₂ (LayerIn D version3 C fun _ => true) ps ls := by
      intro ps ls h
      induction h with
      | nil => intro _ _; exact .nil
      | cons a _ ih =>
        intro hm hc
        exact .cons (layerAt_in a hF h1 h2 h4 (hc _ List.mem_cons_self) h5 (hm _ List.mem_cons_self))
          (ih (fun r hr => hm r (List.mem_cons_of_mem _ hr)) fun r hr => hc r (List.mem_cons_of_mem _ hr))
    exact this hl h6 h3

theorem documented_conv (env : WEnv) (cm : ColorModel) (parses : Bytes → TextData → Prop) (opacity : UInt32 → UInt8) (c : Color) (h : StoredAsIs cm c) :
    (documented cm parses opacity env.ρ).conv true c = (fmtOf env cm).conv c := by
  have grey : c.rgba32.a = 0xffff → [greyOf c, (c.rgba32.a >>> 8).toUInt8] = grayAlphaToBuf c := by
    intro h
    unfold greyOf
    rw [if_pos h]
    rfl
  have pal : ∀ p, (∃ r g b, Opaque8 c.rgba32 r g b) → [UInt8.ofNat (paletteIndex p (bytesOf c)), (nrgbaModel c).2.2.2] = paletteAlphaToBuf p c := by
    rintro p ⟨r, g, b, h⟩
    have hn := nrgbaModel_opaque h
    unfold paletteAlphaToBuf bytesOf
    obtain ⟨h1, h2, h3, h4⟩ := h
    rw [hn]
    dsimp only
    have e : ∀ {x : UInt32} {k : UInt8}, x.toNat = 257 * k.toNat → x.toUInt8 = k := by
      intro x k h
      rw [show x = widen32 k from UInt32.toNat_inj.1 (by rw [h, widen32_nat]), low_widen]
    rw [e h1, e h2, e h3, show c.rgba32.a.toUInt8 = 255 from e (k := 255) h4]
  cases cm with
  | gray => exact grey h
  | gray16 => exact grey h
  | grayAlpha => exact grey h
  | palette p => exact pal p h
  | alphaPalette p => exact pal p h
  | _ => rfl

theorem documented_mode : ∀ m ∈ documentedModes, gimpModes[(modeID m).toNat]? = some m := by decide

/-- C134, what holds: a file that `Encode` writes is a file of version 3 as documented (`FileIn`), holding the layers of the picture in their
order, with an alpha channel in each of them - if the modes of the layers are among those that have numbers, texts are described so that they are
read again (`parses`), and, in grey and indexed pictures, the colours are opaque. -/
theorem C134_documented_partial (env : WEnv) (i : Img) (hi : Encodable i) (l : List WCall) (h : runEncode env i = some (l, none)) (D : Bytes)
    (parses : Bytes → TextData → Prop) (hp : ∀ t dx dy d, env.text t dx dy = some d → parses d t) (opacity : UInt32 → UInt8)
    (hm : ∀ r ∈ layersOf i, r.layer.mode ∈ documentedModes)
    (hc : ∀ cm, i.colorModel = some cm → ∀ r ∈ layersOf i, isGroupLayer r.layer = false → ∀ q n c n',
      (pixelsOf r.layer.image).at env.ρ q n = some (c, n') → StoredAsIs cm c) :
    ∃ size cm b, ExactlyOnce l size ∧ i.colorModel = some cm ∧ i.bounds = some b ∧
      FileIn ((store D l).take size) version3 (documented cm parses opacity env.ρ) (fun _ _ => True) (fun _ => true) b (layersOf i) := by
  obtain ⟨size, cm, h1, h2, h3⟩ := C36_layout env i hi l h D
  have e : (documented cm parses opacity env.ρ).typ = (fmtOf env cm).typ ∧ (documented cm parses opacity env.ρ).rle = true ∧
      (documented cm parses opacity env.ρ).ρ = (fmtOf env cm).ρ ∧ (documented cm parses opacity env.ρ).palette = (fmtOf env cm).palette.getD [] ∧
      (documented cm parses opacity env.ρ).parses = parses := by
    cases cm <;> exact ⟨rfl, rfl, rfl, rfl, rfl⟩
  obtain ⟨b, h4, h5⟩ := fileAt_in h3 (fmtOk_fmtOf env cm) e.1 e.2.1 e.2.2.1 e.2.2.2.1 (by rw [e.2.2.2.2]; exact fun t dx dy d h => hp t _ _ d h)
    (fun r hr => documented_mode _ (hm r hr)) fun r hr hg q n c n' hat => documented_conv env cm parses opacity c (hc cm h2 r hr hg q n c n' hat)
  exact ⟨size, cm, b, h1, h2, h4, h5⟩

/-- The hypotheses of C134 are met by pictures of layers with different modes. -/
example : ∃ l, runEncode goodSink (.group [dot (Mode.hardMix, .other, .nrgba 9 8 7 6), dot (Mode.normal, .other, .nrgba 9 8 7 255)]) = some (l, none) ∧
    Encodable (.group [dot (Mode.hardMix, .other, .nrgba 9 8 7 6), dot (Mode.normal, .other, .nrgba 9 8 7 255)]) ∧
    ∀ r ∈ layersOf (.group [dot (Mode.hardMix, .other, .nrgba 9 8 7 6), dot (Mode.normal, .other, .nrgba 9 8 7 255)]), r.layer.mode ∈ documentedModes := by
  obtain ⟨l, h, -⟩ := dots_back goodSink (fun _ => rfl) (Mode.hardMix, .other, .nrgba 9 8 7 6) [(Mode.normal, .other, .nrgba 9 8 7 255)] (by simp)
    (by simp [fmtOf, encFor])
  refine ⟨l, h, dots_encodable [(Mode.hardMix, .other, .nrgba 9 8 7 6), (Mode.normal, .other, .nrgba 9 8 7 255)] (by simp), fun r hr => ?_⟩
  obtain ⟨x, hx, k, -, rfl⟩ := placed_dots [(Mode.hardMix, .other, .nrgba 9 8 7 6), (Mode.normal, .other, .nrgba 9 8 7 255)] 0 r hr
  simp only [List.mem_cons, List.not_mem_nil, or_false] at hx
  rcases hx with rfl | rfl
  · exact (by decide : Mode.hardMix ∈ documentedModes)
  · exact (by decide : Mode.normal ∈ documentedModes)

theorem dots_fits (xs : List (Mode × ColorModel × Color)) (hx : xs.length ≤ 1000) : ∀ r ∈ placed (xs.map dot) 0 0 0 [], Fits 1 1 r := by
  intro r hr
  have h := dots_storable (fmtOf goodSink .other) (fun _ _ => True) xs hx r hr
  exact ⟨h.name, h.x, h.y, h.size, h.mask, h.path⟩

/-- C134 fails for the other modes: the number that is written for them stands for another mode.  A picture of two layers, the lower one Normal,
is not stored as documented whatever the way colours (as RGB) and texts are represented. -/
theorem C134_modes_refuted (wenv : WEnv) (hw : Works wenv) (m : Mode) (hm : m ∉ documentedModes) :
    ∃ (g : List Layer) (l : List WCall), g.map (·.mode) = [m, Mode.normal] ∧ (∀ r ∈ placed g 0 0 0 [], Fits 1 1 r) ∧
      runEncode wenv (.group g) = some (l, none) ∧
      ∀ (env : Env) (C : Coding) (D : Bytes), C.Ok → C.typ = 0 → C.rle = true → C.opacity = env.floatOpacity → C.parses = parsesTo env →
        ∀ alpha, ¬ FileIn ((store D l).take maxString) version3 C (Handled (C.typ == 2)) alpha ⟨0, 0, 1, 1⟩ (placed g 0 0 0 []) := by
  obtain ⟨l, h1, h2⟩ := dots_back wenv hw (m, .other, .nrgba 9 8 7 255) [(Mode.normal, .other, .nrgba 9 8 7 255)] (by simp) (by simp [fmtOf, encFor])
  have sv : exSched.Valid := ⟨fun _ => .refl _, fun _ => .refl _⟩
  have hfit := dots_fits [(m, .other, .nrgba 9 8 7 255), (Mode.normal, .other, .nrgba 9 8 7 255)] (by simp)
  refine ⟨_, l, rfl, hfit, h1, fun env C D hC ht hr ho hP alpha hf => ?_⟩
  obtain ⟨g', h3, h4⟩ := C89_partial env exSched sv true _ version3 (by simp [allVersions, version3]) C hC hr ho hP alpha _ _ hf (by decide) (by decide) hfit
    (.inl rfl) (.inl ht) (by intro m h; simp [dot] at h; exact .inl h.symm)
  obtain ⟨g'', h5, h6⟩ := h2 env exSched sv true D
  rw [h5] at h3
  injection h3 with h3
  injection h3 with h3
  subst h3
  rw [List.map_cons, List.map_cons, List.map_nil] at h4 h6
  obtain ⟨a, r', rfl, -, -, e1, -, -, -, h6⟩ := sameTree_cons h6
  obtain ⟨b, r', rfl, -, -, e2, -, -, -, h6⟩ := sameTree_cons h6
  cases sameTree_nil h6
  obtain ⟨a', r', e, -, -, f1, -, -, -, h4⟩ := sameTree_cons h4
  have hk : a.mode = m := by
    rcases fixBottom_cases [a, b] with h | ⟨init, c, h, h'⟩
    · rw [h] at e
      injection e with e
      rw [e, f1]
      rfl
    · have hi : init = [a] ∧ c = b := by
        have := List.append_inj' (show [a] ++ [b] = init ++ [c] from h) rfl
        exact ⟨this.1.symm, by injection this.2 with e; exact e.symm⟩
      rw [h', hi.1] at e
      injection e with e
      rw [e, f1]
      rfl
  have hin : m ∈ keptModes true := (modeBack_other wenv m).1 (e1.symm.trans hk)
  have : ∀ m ∈ keptModes true, m ∈ documentedModes := by decide
  exact hm (this m hin)

/-- six modes of limage without a number in the files, and one whose number is not used -/
example : Works goodSink ∧ ∀ m ∈ [Mode.luminance, Mode.luminosity, Mode.plus, Mode.destinationIn, Mode.destinationOut, Mode.sourceAtop, Mode.destinationAtop],
    m ∉ documentedModes :=
  ⟨fun _ => rfl, by decide⟩

end Limage
