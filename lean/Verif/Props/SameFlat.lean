import Verif.Props.SameFile
/-!
# C144 for grey and indexed pictures without groups

`SameFile.lean` has RGB pictures of any colours.  Here are grey pictures whose pixels are opaque or fully transparent, and indexed pictures whose
pixels are opaque and whose palette has no colour twice.
-/
namespace Limage
open Spec

/-- `L'` is `L` moved to the origin, as far as `f'` tells of it what `f` tells of `L` -/
def ShownBy (f f' : Color → Bytes) (L L' : Leaf) : Prop :=
  L'.bounds = ⟨0, 0, L.bounds.dx, L.bounds.dy⟩ ∧
    ∀ p, inRect L'.bounds p → ∃ c c', L.pixel (shiftTo L.bounds p) = some c ∧ L'.pixel p = some c' ∧ f' c' = f c

theorem pixelsAt_shown {f f' : Color → Bytes} {L L' : Leaf} (h : ShownBy f f' L L') : ∀ (ps : List Pt), (∀ p ∈ ps, inRect L'.bounds p) → ∀ (env : WEnv) (s : WS),
    ∃ cs cs', pixelsAt (.leaf L) (ps.map (shiftTo L.bounds)) env s = some (cs, s, []) ∧ pixelsAt (.leaf L') ps env s = some (cs', s, []) ∧
      cs'.map f' = cs.map f
  | [], _, env, s => ⟨[], [], rfl, rfl, rfl⟩
  | p :: ps, hps, env, s => by
    obtain ⟨cs, cs', e1, e2, e3⟩ := pixelsAt_shown h ps (fun q hq => hps q (List.mem_cons_of_mem _ hq)) env s
    obtain ⟨c, c', f1, f2, f3⟩ := h.2 p (hps p List.mem_cons_self)
    refine ⟨c :: cs, c' :: cs', ?_, ?_, by rw [List.map_cons, List.map_cons, e3, f3]⟩
    · rw [List.map_cons, pixelsAt_cons, Img.at, f1]
      show (pixelsAt (.leaf L) _ env s).map _ = _
      rw [e1]
      rfl
    · rw [pixelsAt_cons, Img.at, f2]
      show (pixelsAt (.leaf L') _ env s).map _ = _
      rw [e2]
      rfl

theorem writeTiles_shown {f f' : Color → Bytes} {L L' : Leaf} (h : ShownBy f f' L L') (ch : Nat) : ∀ (os : List Pt),
    (∀ o ∈ os, ∀ p ∈ tilePoints L'.bounds o, inRect L'.bounds p) → ∀ pw,
    writeTiles (.leaf L) f ch L.bounds (os.map (shiftTo L.bounds)) pw = writeTiles (.leaf L') f' ch L'.bounds os pw
  | [], _, _ => rfl
  | o :: os, ho, pw => by
    rw [List.map_cons]
    unfold writeTiles
    funext env s
    show W.bind _ _ env s = W.bind _ _ env s
    unfold W.bind
    obtain ⟨cs, cs', e1, e2, e3⟩ := pixelsAt_shown h (tilePoints L'.bounds o) (ho o List.mem_cons_self) env s
    rw [tilePoints_shift, ← h.1, e1, e2]
    dsimp only
    rw [e3]
    have : ∀ pw, writeTiles (.leaf L) f ch L.bounds (os.map (shiftTo L.bounds)) pw = writeTiles (.leaf L') f' ch L'.bounds os pw :=
      writeTiles_shown h ch os fun o' ho' => ho o' (List.mem_cons_of_mem _ ho')
    simp only [this]

theorem writeImage_shown {f f' : Color → Bytes} {L L' : Leaf} (h : ShownBy f f' L L') (ch : Nat) :
    writeImage (.leaf L) f ch = writeImage (.leaf L') f' ch := by
  have hb : ∀ L : Leaf, (Img.leaf L).bounds = some L.bounds := fun L => by rw [Img.bounds]
  have hdx : L'.bounds.dx = L.bounds.dx := by rw [h.1]; show L.bounds.dx - 0 = _; omega
  have hdy : L'.bounds.dy = L.bounds.dy := by rw [h.1]; show L.bounds.dy - 0 = _; omega
  have hos : tileOrigins L.bounds = (tileOrigins L'.bounds).map (shiftTo L.bounds) := by rw [tileOrigins_shift, ← h.1]
  have ht : ∀ pw, writeTiles (.leaf L) f ch L.bounds (tileOrigins L.bounds) pw = writeTiles (.leaf L') f' ch L'.bounds (tileOrigins L'.bounds) pw := by
    rw [hos]
    exact writeTiles_shown h ch _ (tilePoints_inside L'.bounds)
  unfold writeImage
  rw [hb, hb]
  funext env s
  show W.bind _ _ env s = W.bind _ _ env s
  unfold W.bind W.get
  simp only [Option.map_some, ht, hdx, hdy]

/-- Specification: a layer with pixels of its own, with or without a mask, and all of them are as `Q` says -/
def Spec.PixelsAre (Q : Color → Prop) (l : Layer) : Prop :=
  ∃ L, (l.image = .leaf L ∨ ∃ m, l.image = .masked (.leaf L) (some m)) ∧ ∀ p c, inRect L.bounds p → L.pixel p = some c → Q c

/-- two ways to write pixels: `e'` writes what was loaded as `e` wrote what was saved -/
structure WritesAgain (wenv : WEnv) (cm : ColorModel) (Q : Color → Prop) (e e' : Enc) : Prop where
  typ : e'.typ = e.typ
  channels : e'.channels = e.channels
  nonempty : cm ≠ .palette [] ∧ cm ≠ .alphaPalette []
  func : ∀ c c', Q c → colorOf (fmtOf wenv cm) ((fmtOf wenv cm).conv c) = some c' → e'.func c' = e.func c

theorem writeOwn_shown {wenv : WEnv} {cm : ColorModel} {Q : Color → Prop} {e e' : Enc} (hE : WritesAgain wenv cm Q e e') {P : Bytes → TextData → Prop}
    {l : Layer} {j : Img} (ho : PixelsAre Q l) (h : ImgBack (fmtOf wenv cm) P l j) (ox oy : UInt32) (groups : List UInt32) (pw : PW) :
    writeOwn e l ox oy groups pw = writeOwn e' { l with image := j } ox oy groups pw ∧
      (∀ i ∈ [l.image, j], ∀ e, (∀ pw, writeSub e i ox oy groups pw = pure pw) ∧ layerCountIn i = 0) := by
  have key : ∀ L L' : Leaf, (∀ p c, inRect L.bounds p → L.pixel p = some c → Q c) → PixelsBack (fmtOf wenv cm) (.leaf L) L' → ShownBy e.func e'.func L L' := by
    rintro L L' hQ ⟨b, f1, f2, -, -, f5⟩
    have f1 : some L.bounds = some b := f1
    cases f1
    refine ⟨f2, fun p hp => ?_⟩
    obtain ⟨k, k', c, g1, g2⟩ := f5 p (mem_inRect.2 hp)
    rw [show (Img.leaf L).at (fmtOf wenv cm).ρ ⟨L.bounds.x0 + p.x, L.bounds.y0 + p.y⟩ k = (L.pixel (shiftTo L.bounds p)).map fun c => (c, k) by rw [Img.at]; rfl] at g1
    cases hL : L.pixel (shiftTo L.bounds p) with
    | none => rw [hL] at g1; cases g1
    | some c0 =>
      rw [hL] at g1
      have g1 : c0 = c := congrArg Prod.fst (Option.some.inj g1)
      subst g1
      obtain ⟨c', hc'⟩ := colorOf_some wenv cm hE.nonempty c0
      have hin : inRect L.bounds (shiftTo L.bounds p) := by
        rw [f2] at hp
        unfold inRect at hp ⊢
        simp only [shiftTo, Rect.dx, Rect.dy] at hp ⊢
        omega
      exact ⟨c0, c', rfl, by rw [g2, hc'], hE.func c0 c' (hQ _ _ hin hL) hc'⟩
  obtain ⟨name, b, mode, inv, tr, im⟩ := l
  obtain ⟨L, hi | ⟨m, hi⟩, hQ⟩ := ho
  · dsimp only at hi
    subst hi
    rcases h.cases with ⟨L', hL, -, rfl⟩ | ⟨L', t, hL, ⟨t', ht⟩, rfl⟩ | ⟨L', m, m', hL, hm, -, rfl⟩
    · refine ⟨?_, ?_⟩
      · unfold writeOwn writeProperties writeLayerData
        have h2 := writeImage_shown (key L L' hQ hL) e.channels
        dsimp only [layerContent, layerTextData, isGroup]
        simp only [h2, hE.typ, hE.channels]
      · intro i hi e
        simp only [List.mem_cons, List.not_mem_nil, or_false] at hi
        rcases hi with rfl | rfl <;> exact ⟨fun pw => by rw [writeSub], by rw [layerCountIn]⟩
    · cases ht
    · cases hm
  · dsimp only at hi
    subst hi
    rcases h.cases with ⟨L', hL, hm, rfl⟩ | ⟨L', t, hL, ⟨t', ht⟩, rfl⟩ | ⟨L', m0, m', hL, hm, hmb, rfl⟩
    · cases hm
    · cases ht
    · cases hm
      refine ⟨?_, ?_⟩
      · unfold writeOwn writeProperties writeLayerData
        have h2 := writeImage_shown (key L L' hQ hL) e.channels
        have h3 := fun pw => writeMask_shift hmb pw
        dsimp only [layerContent, layerTextData, isGroup]
        simp only [h2, h3, hE.typ, hE.channels]
      · intro i hi e
        simp only [List.mem_cons, List.not_mem_nil, or_false] at hi
        rcases hi with rfl | rfl <;> exact ⟨fun pw => by rw [writeSub], by rw [layerCountIn]⟩

theorem writeLayers_shown {wenv : WEnv} {cm : ColorModel} {Q : Color → Prop} {e e' : Enc} (hE : WritesAgain wenv cm Q e e') {P : Bytes → TextData → Prop} :
    ∀ (g g' : List Layer), (∀ l ∈ g, PixelsAre Q l) → SameTree (ImgBack (fmtOf wenv cm) P) id g g' →
    ∀ (n : Nat) (ox oy : UInt32) (groups : List UInt32) (pw : PW),
    writeLayers e' g' n ox oy groups pw = writeLayers e g n ox oy groups pw ∧ layerCount g' = layerCount g ∧
      g'.map (fun l => l.bounds) = g.map (fun l => l.bounds)
  | [], g', _, h, n, ox, oy, groups, pw => by
    cases sameTree_nil h
    exact ⟨by rw [writeLayers, writeLayers], rfl, rfl⟩
  | l :: g, g', ho, h, n, ox, oy, groups, pw => by
    obtain ⟨l', r', rfl, h1, h2, h3, h4, h5, h6, h7⟩ := sameTree_cons h
    have hl := ho l List.mem_cons_self
    have hP : ImgBack (fmtOf wenv cm) P l l'.image := by
      obtain ⟨L, hi | ⟨m, hi⟩, -⟩ := hl
      · rw [hi] at h6; unfold SameImg at h6; exact h6
      · rw [hi] at h6; unfold SameImg at h6; exact h6
    have hl' : l' = { l with image := l'.image } := by
      obtain ⟨n', b', m', i', t', im'⟩ := l'
      obtain ⟨n0, b0, m0, i0, t0, im0⟩ := l
      dsimp only [id] at h1 h2 h3 h4 h5
      subst h1 h2 h3 h4 h5
      rfl
    generalize hj : l'.image = j at hP hl'
    subst hl'
    have ih := fun n pw => writeLayers_shown hE g r' (fun x hx => ho x (List.mem_cons_of_mem _ hx)) h7 n ox oy groups pw
    obtain ⟨name, b, mode, inv, tr, im⟩ := l
    dsimp only
    refine ⟨?_, ?_, ?_⟩
    · rw [writeLayers, writeLayers]
      obtain ⟨k1, k2⟩ := writeOwn_shown hE hl hP (ox + u32 b.x0) (oy + u32 b.y0) (groups ++ [UInt32.ofNat n]) pw
      have s1 := (k2 im (by simp) e).1
      have s2 := (k2 j (by simp) e').1
      refine W.bind_congr k1.symm fun pw => ?_
      rw [s1, s2]
      exact W.bind_congr rfl fun pw => (ih (n + 1) pw).1
    · obtain ⟨-, k2⟩ := writeOwn_shown hE hl hP 0 0 [] pw
      rw [layerCount, layerCount, (k2 im (by simp) e).2, (k2 j (by simp) e).2, (ih 0 pw).2.1]
    · rw [List.map_cons, List.map_cons, (ih 0 pw).2.2]

theorem flat_again (wenv : WEnv) (env : Env) (sch : Sched) (hv : sch.Valid) (decompress : Bool) (g : List Layer)
    (hi : Encodable (.group g)) (l : List WCall) (h : runEncode wenv (.group g) = some (l, none)) (D : Bytes)
    (size : Nat) (hsz : ExactlyOnce l size) (hmax : size ≤ maxString)
    (cm : ColorModel) (hcm : (Img.group g).colorModel = some cm) (hna : cm ≠ .alpha)
    (hd : decompress = true ∨ ∀ r ∈ placed g 0 0 0 [], maskOf r.layer.image = none)
    (hx : (groupBounds g).dx ≤ 2 ^ 31) (hy : (groupBounds g).dy ≤ 2 ^ 31)
    (hs : ∀ r ∈ placed g 0 0 0 [], Storable (fmtOf wenv cm) (parsesTo env) (groupBounds g).dx (groupBounds g).dy r)
    (hk : ∀ r ∈ placed g 0 0 0 [], r.layer.mode ∈ keptModes ((fmtOf wenv cm).typ == 0))
    (hb : ∀ m, (g.map (·.mode)).getLast? = some m → m = Mode.normal ∨ m = Mode.dissolve)
    {Q : Color → Prop} (hE : WritesAgain wenv cm Q (encFor cm) (encFor (modelOf (fmtOf wenv cm))))
    (hpal : writeColorMap (encFor (modelOf (fmtOf wenv cm))).palette = writeColorMap (encFor cm).palette)
    (hown : ∀ l ∈ g, PixelsAre Q l) :
    ∃ g', decodeImage env sch decompress (store D l) = .ok (.ok g') ∧ ∀ wenv', runEncode wenv' (.group g') = runEncode wenv' (.group g) := by
  obtain ⟨g', h1, h2⟩ := C37_tree_partial wenv env sch hv decompress g hi l h D size hsz hmax cm hcm hd hx hy hs hk hb
  refine ⟨g', h1, fun wenv' => ?_⟩
  have hw := writeLayers_shown hE g g' hown h2
  have hbd : (Img.group g').bounds = (Img.group g).bounds := by
    rw [Img.bounds, Img.bounds, groupBounds_congr (hw 0 0 0 [] ⟨0, none, 0⟩).2.2]
  have hcm' : (Img.group g').colorModel = some (modelOf (fmtOf wenv cm)) := by
    have e : ∀ g, (Img.group g).colorModel = groupModel g := fun g => by rw [Img.colorModel]
    rw [e] at hcm ⊢
    rcases again_model (Spec.SameTree.like h2) with k | ⟨k, -⟩
    · exact k
    · rw [k] at hcm
      exact absurd (Option.some.inj hcm).symm hna
  generalize modelOf (fmtOf wenv cm) = cm' at hcm' hE hpal hw
  have hcont : writeContent (encFor cm') (.group g') = writeContent (encFor cm) (.group g) := by
    unfold writeContent
    dsimp only
    rw [(hw 0 0 0 [] ⟨0, none, 0⟩).2.1]
    simp only [fun pw => (hw 0 0 0 [] pw).1]
  unfold runEncode encode
  rw [hbd, hcm', hcm]
  have hget : ∀ (x : ColorModel) (k : ColorModel → W Unit), (W.get (some x) >>= k) = k x := by
    intro x k
    funext env s
    show W.bind _ _ env s = _
    unfold W.bind W.get
    dsimp only [Option.map_some]
    cases k x env s with
    | none => rfl
    | some y => rfl
  simp only [hget, hE.typ, hpal, hcont]

/-- Specification: opaque (to 8 bits), or without any colour and coverage -/
def Spec.AllOrNothing (c : Color) : Prop := c.rgba32.a.toNat / 256 = 255 ∨ c.rgba32 = ⟨0, 0, 0, 0⟩

theorem grey_writesAgain (wenv : WEnv) (cm : ColorModel) (hg : cm = .gray ∨ cm = .gray16 ∨ cm = .grayAlpha) :
    WritesAgain wenv cm AllOrNothing (encFor cm) (encFor (modelOf (fmtOf wenv cm))) := by
  have e : (fmtOf wenv cm).conv = grayAlphaToBuf ∧ (fmtOf wenv cm).typ = 1 ∧ encFor cm = encFor .gray ∧
      encFor (modelOf (fmtOf wenv cm)) = encFor .gray ∧ cm ≠ .palette [] ∧ cm ≠ .alphaPalette [] := by
    rcases hg with rfl | rfl | rfl <;> exact ⟨rfl, rfl, rfl, rfl, by simp, by simp⟩
  obtain ⟨e1, e2, e3, e4, e5⟩ := e
  rw [e3, e4]
  refine ⟨rfl, rfl, e5, fun c c' hc h => ?_⟩
  rw [e1] at h
  have h : some (Color.grayAlpha (grayModel c) (c.rgba32.a >>> 8).toUInt8) = some c' := by
    rw [← h]; unfold colorOf; rw [e2]; rfl
  cases h
  show grayAlphaToBuf _ = grayAlphaToBuf c
  have hb : (c.rgba32.a >>> 8).toUInt8 = UInt8.ofNat (c.rgba32.a.toNat / 256) := high_byte _
  rcases hc with hc | hc
  · have ha : (c.rgba32.a >>> 8).toUInt8 = 255 := by rw [hb, hc]; rfl
    unfold grayAlphaToBuf grayAlphaModel
    dsimp only
    rw [ha]
    rw [grayModel_opaque (y := grayModel c) (by
      rw [grayAlpha_opaque]
      exact ⟨widen32_nat _, widen32_nat _, widen32_nat _, rfl⟩), grayAlpha_opaque]
    exact congrArg (fun x => [grayModel c, x]) (show ((0xffff : UInt32) >>> 8).toUInt8 = 255 by decide)
  · have hng : ∀ y, c ≠ .gray y := by
      rintro y rfl
      have h : (0xffff : UInt32) = 0 := congrArg (fun q : RGBA32 => q.a) hc
      exact absurd h (by decide)
    unfold grayAlphaToBuf grayAlphaModel
    dsimp only
    rw [grayModel_formula c hng, hc]
    decide

theorem index_of_own {q : List (UInt8 × UInt8 × UInt8)} (hq : q.Nodup) {k : Nat} {r g b : UInt8} (hk : q[k]? = some (r, g, b)) :
    paletteIndex (q.map fun c => .lrgb c.1 c.2.1 c.2.2) (.lrgb r g b) = k := by
  have h8 : ∀ r g b : UInt8, Opaque8 (Color.lrgb r g b).rgba32 r g b := fun r g b =>
    ⟨widen32_nat _, widen32_nat _, widen32_nat _, rfl⟩
  have hmem : Color.lrgb r g b ∈ q.map fun c => Color.lrgb c.1 c.2.1 c.2.2 :=
    List.mem_map.2 ⟨(r, g, b), List.mem_of_getElem? hk, rfl⟩
  obtain ⟨w, hw, hmin, -⟩ := C19_nearest (q.map fun c => .lrgb c.1 c.2.1 c.2.2) (List.ne_nil_of_mem hmem) (.lrgb r g b) (valid_opaque8 (h8 r g b)) (by
    intro v hv
    obtain ⟨x, -, rfl⟩ := List.mem_map.1 hv
    exact valid_opaque8 (h8 _ _ _))
  have hz := hmin _ hmem
  generalize paletteIndex (q.map fun c => Color.lrgb c.1 c.2.1 c.2.2) (.lrgb r g b) = i at hw
  rw [List.getElem?_map] at hw
  cases hi : q[i]? with
  | none => rw [hi] at hw; cases hw
  | some x =>
    rw [hi] at hw
    cases hw
    obtain ⟨r', g', b'⟩ := x
    rw [show dist (Color.lrgb r g b).rgba32 (Color.lrgb r g b).rgba32 = 0 by simp [dist, quarterSq]] at hz
    have e1 := h8 r g b
    have e2 := h8 r' g' b'
    unfold dist at hz
    dsimp only at hz
    rw [e1.1, e1.2.1, e1.2.2.1, e2.1, e2.2.1, e2.2.2.1] at hz
    have hr : r = r' := (quarterSq_zero (x := r) (y := r') (by omega))
    have hg : g = g' := (quarterSq_zero (x := g) (y := g') (by omega))
    have hb : b = b' := (quarterSq_zero (x := b) (y := b') (by omega))
    subst hr hg hb
    obtain ⟨li, ei⟩ := List.getElem?_eq_some_iff.1 hi
    obtain ⟨lk, ek⟩ := List.getElem?_eq_some_iff.1 hk
    exact (List.Nodup.getElem_inj_iff hq).1 (ei.trans ek.symm)

/-- Specification: the coverage that indexed files store, the lower byte of the 16-bit value, is full -/
def Spec.StoredOpaque (c : Color) : Prop := c.rgba32.a.toNat % 256 = 255

/-- Specification: no two colours of the palette have the same upper bytes -/
def Spec.PaletteDiffers (p : List Color) : Prop :=
  (p.map fun c => (c.rgba32.r.toNat / 256 % 256, c.rgba32.g.toNat / 256 % 256, c.rgba32.b.toNat / 256 % 256)).Nodup

theorem paletteDiffers_nodup {p : List Color} (h : PaletteDiffers p) : (p.map rgbModel).Nodup := by
  have : ((p.map rgbModel).map fun c : UInt8 × UInt8 × UInt8 => (c.1.toNat, c.2.1.toNat, c.2.2.toNat)).Nodup := by
    rw [List.map_map]
    refine cast (congrArg List.Nodup (List.map_congr_left fun c _ => ?_)) h
    show _ = ((c.rgba32.r >>> 8).toUInt8.toNat, (c.rgba32.g >>> 8).toUInt8.toNat, (c.rgba32.b >>> 8).toUInt8.toNat)
    rw [high_byte, high_byte, high_byte]
    simp only [UInt8.toNat_ofNat']
  exact this.of_map _

theorem indexed_writesAgain (wenv : WEnv) (cm : ColorModel) (p : List Color) (hp : p ≠ []) (hc : cm = .palette p ∨ cm = .alphaPalette p)
    (hd : PaletteDiffers p) : WritesAgain wenv cm StoredOpaque (encFor cm) (encFor (modelOf (fmtOf wenv cm))) := by
  have e : (fmtOf wenv cm).conv = paletteAlphaToBuf p ∧ (fmtOf wenv cm).typ = 2 ∧ (fmtOf wenv cm).palette = some (p.map rgbModel) ∧
      encFor cm = encFor (.palette p) ∧
      encFor (modelOf (fmtOf wenv cm)) = encFor (.palette ((p.map rgbModel).map fun c => .lrgb c.1 c.2.1 c.2.2)) ∧
      cm ≠ .palette [] ∧ cm ≠ .alphaPalette [] := by
    rcases hc with rfl | rfl <;> exact ⟨rfl, rfl, rfl, rfl, rfl, by simp [hp], by simp [hp]⟩
  obtain ⟨e1, e2, e3, e4, e5, e6⟩ := e
  rw [e4, e5]
  refine ⟨rfl, rfl, e6, fun c c' hc h => ?_⟩
  have ha : c.rgba32.a.toUInt8 = 255 := UInt8.toNat_inj.1 (by rw [UInt32.toNat_toUInt8]; exact hc)
  rw [e1] at h
  unfold paletteAlphaToBuf at h
  dsimp only at h
  rw [ha] at h
  show paletteAlphaToBuf _ c' = paletteAlphaToBuf p c
  unfold paletteAlphaToBuf
  dsimp only
  rw [ha]
  generalize paletteIndex p (.lrgb c.rgba32.r.toUInt8 c.rgba32.g.toUInt8 c.rgba32.b.toUInt8) = i at h ⊢
  unfold colorOf at h
  rw [e2, e3] at h
  replace h : ((p.map rgbModel)[(UInt8.ofNat i).toNat]?).map (fun c => Color.nrgba c.1 c.2.1 c.2.2 255) = some c' := h
  cases hk : (p.map rgbModel)[(UInt8.ofNat i).toNat]? with
  | none => rw [hk] at h; cases h
  | some x =>
    rw [hk] at h
    obtain ⟨r, g, b⟩ := x
    cases h
    rw [nrgba_opaque]
    dsimp only
    rw [low_widen, low_widen, low_widen, index_of_own (paletteDiffers_nodup hd) hk, UInt8.ofNat_toNat]
    rfl

theorem writeColors_again : ∀ p : List Color, writeColors ((p.map rgbModel).map fun c => .lrgb c.1 c.2.1 c.2.2) = writeColors p
  | [] => rfl
  | c :: p => by
    rw [List.map_cons, List.map_cons, writeColors, writeColors, writeColors_again p]
    have : rgbModel (.lrgb (rgbModel c).1 (rgbModel c).2.1 (rgbModel c).2.2) = rgbModel c := by
      show ((widen32 _ >>> 8).toUInt8, (widen32 _ >>> 8).toUInt8, (widen32 _ >>> 8).toUInt8) = _
      rw [shr8_widen, shr8_widen, shr8_widen]
    rw [this]

theorem writeColorMap_again (p : List Color) :
    writeColorMap (some ((p.map rgbModel).map fun c => .lrgb c.1 c.2.1 c.2.2)) = writeColorMap (some p) := by
  unfold writeColorMap
  dsimp only
  rw [writeColors_again, List.length_map, List.length_map]

/-- **C144** for grey pictures without groups and text, of any colours that are opaque or fully transparent: what is loaded from the file is saved as
the same file. -/
theorem C144_grey_partial (wenv : WEnv) (env : Env) (sch : Sched) (hv : sch.Valid) (decompress : Bool) (g : List Layer)
    (hi : Encodable (.group g)) (l : List WCall) (h : runEncode wenv (.group g) = some (l, none)) (D : Bytes)
    (size : Nat) (hsz : ExactlyOnce l size) (hmax : size ≤ maxString)
    (cm : ColorModel) (hcm : (Img.group g).colorModel = some cm) (hgrey : cm = .gray ∨ cm = .gray16 ∨ cm = .grayAlpha)
    (hd : decompress = true ∨ ∀ r ∈ placed g 0 0 0 [], maskOf r.layer.image = none)
    (hx : (groupBounds g).dx ≤ 2 ^ 31) (hy : (groupBounds g).dy ≤ 2 ^ 31)
    (hs : ∀ r ∈ placed g 0 0 0 [], Storable (fmtOf wenv cm) (parsesTo env) (groupBounds g).dx (groupBounds g).dy r)
    (hk : ∀ r ∈ placed g 0 0 0 [], r.layer.mode ∈ keptModes ((fmtOf wenv cm).typ == 0))
    (hb : ∀ m, (g.map (·.mode)).getLast? = some m → m = Mode.normal ∨ m = Mode.dissolve)
    (hown : ∀ l ∈ g, PixelsAre AllOrNothing l) :
    ∃ g', decodeImage env sch decompress (store D l) = .ok (.ok g') ∧ ∀ wenv', runEncode wenv' (.group g') = runEncode wenv' (.group g) :=
  flat_again wenv env sch hv decompress g hi l h D size hsz hmax cm hcm (by rcases hgrey with rfl | rfl | rfl <;> simp) hd hx hy hs hk hb
    (grey_writesAgain wenv cm hgrey) (by rcases hgrey with rfl | rfl | rfl <;> rfl) hown

/-- the hypotheses about the pixels hold for a layer of an opaque colour that is not grey, and of one with nothing in it -/
example : (∀ l ∈ [(Mode.normal, ColorModel.gray, Color.rgba 10 200 30 255), (Mode.normal, ColorModel.gray, Color.rgba 0 0 0 0)].map dot,
    PixelsAre AllOrNothing l) ∧ grayAlphaToBuf (.rgba 10 200 30 255) ≠ grayAlphaToBuf (.rgba 0 0 0 0) := by
  refine ⟨fun l hl => ?_, by decide⟩
  simp only [List.map_cons, List.map_nil, List.mem_cons, List.not_mem_nil, or_false] at hl
  rcases hl with rfl | rfl
  · exact ⟨_, .inl rfl, fun p c _ h => by cases h; exact .inl (by decide)⟩
  · exact ⟨_, .inl rfl, fun p c _ h => by cases h; exact .inr (by decide)⟩

/-- **C144** for indexed pictures without groups and text, of any opaque colours, also such as the palette has not: what is loaded from the file is
saved as the same file, if no two colours of the palette are stored alike. -/
theorem C144_indexed_partial (wenv : WEnv) (env : Env) (sch : Sched) (hv : sch.Valid) (decompress : Bool) (g : List Layer)
    (hi : Encodable (.group g)) (l : List WCall) (h : runEncode wenv (.group g) = some (l, none)) (D : Bytes)
    (size : Nat) (hsz : ExactlyOnce l size) (hmax : size ≤ maxString)
    (cm : ColorModel) (hcm : (Img.group g).colorModel = some cm) (p : List Color) (hne : p ≠ []) (hpal : cm = .palette p ∨ cm = .alphaPalette p)
    (hdiff : PaletteDiffers p)
    (hd : decompress = true ∨ ∀ r ∈ placed g 0 0 0 [], maskOf r.layer.image = none)
    (hx : (groupBounds g).dx ≤ 2 ^ 31) (hy : (groupBounds g).dy ≤ 2 ^ 31)
    (hs : ∀ r ∈ placed g 0 0 0 [], Storable (fmtOf wenv cm) (parsesTo env) (groupBounds g).dx (groupBounds g).dy r)
    (hk : ∀ r ∈ placed g 0 0 0 [], r.layer.mode ∈ keptModes ((fmtOf wenv cm).typ == 0))
    (hb : ∀ m, (g.map (·.mode)).getLast? = some m → m = Mode.normal ∨ m = Mode.dissolve)
    (hown : ∀ l ∈ g, PixelsAre StoredOpaque l) :
    ∃ g', decodeImage env sch decompress (store D l) = .ok (.ok g') ∧ ∀ wenv', runEncode wenv' (.group g') = runEncode wenv' (.group g) :=
  flat_again wenv env sch hv decompress g hi l h D size hsz hmax cm hcm (by rcases hpal with rfl | rfl <;> simp) hd hx hy hs hk hb
    (indexed_writesAgain wenv cm p hne hpal hdiff) (by rcases hpal with rfl | rfl <;> exact writeColorMap_again p) hown

/-- the hypotheses about palette and pixels hold for two colours and a pixel of a third one -/
example : PaletteDiffers [.rgba 10 20 30 255, .rgba 200 210 220 255] ∧
    (∀ l ∈ [(Mode.normal, ColorModel.palette [.rgba 10 20 30 255, .rgba 200 210 220 255], Color.rgba 190 190 190 255)].map dot,
      PixelsAre StoredOpaque l) ∧
    paletteAlphaToBuf [.rgba 10 20 30 255, .rgba 200 210 220 255] (.rgba 190 190 190 255) = [1, 255] := by
  refine ⟨by unfold PaletteDiffers; decide, fun l hl => ?_, by decide⟩
  simp only [List.map_cons, List.map_nil, List.mem_cons, List.not_mem_nil, or_false] at hl
  subst hl
  exact ⟨_, .inl rfl, fun p c _ h => by cases h; exact (by decide : (Color.rgba 190 190 190 255).rgba32.a.toNat % 256 = 255)⟩

end Limage
