import Verif.Props.OraPixels
import Verif.Props.Draws
/-!
# The merged image of OpenRaster files, and what pictures return: C95 and C97
-/
namespace Limage
open Spec

/-! ## C97: a picture returns proper colours -/

theorem rgba_alpha0 : Premul (Color.alpha 0).rgba32 := by
  refine ⟨?_, ?_, ?_, ?_⟩ <;> decide

theorem composite_proper (draw : UInt16) (m : Mode) (b t c : Color) (h : composite draw m b t = some c) : Premul c.rgba32 := by
  have hn : ∀ {x : Option NRGBA64}, x.map Color.nrgba64 = some c → Premul c.rgba32 := by
    intro x hx
    obtain ⟨y, -, rfl⟩ := Option.map_eq_some_iff.1 hx
    exact y.premul
  have hl : ∀ b t : NRGBA64, compositeColor b t = some c → Premul c.rgba32 := by
    intro b t h
    unfold compositeColor at h
    obtain ⟨x, -, h⟩ := Option.bind_eq_some_iff.1 h
    obtain ⟨y, -, h⟩ := Option.bind_eq_some_iff.1 h
    cases h
    exact C17_premultiplied _ trivial
  unfold composite at h
  dsimp only at h
  cases hf : channelFunc m with
  | some f =>
    rw [hf] at h
    dsimp only at h
    unfold compositeChannels at h
    by_cases h0 : b.toNRGBA.a = 0
    · rw [if_pos h0] at h
      cases h
      refine ⟨?_, ?_, ?_, ?_⟩ <;> decide
    · rw [if_neg h0] at h
      obtain ⟨x, -, h⟩ := Option.bind_eq_some_iff.1 h
      obtain ⟨y, -, h⟩ := Option.bind_eq_some_iff.1 h
      obtain ⟨z, -, h⟩ := Option.bind_eq_some_iff.1 h
      cases h
      exact NRGBA64.premul _
  | none =>
    rw [hf] at h
    dsimp only at h
    by_cases e : m = Mode.behind
    · rw [if_pos e] at h
      cases h
      exact NRGBA64.premul _
    rw [if_neg e] at h; clear e
    by_cases e : m = Mode.dissolve
    · rw [if_pos e] at h
      cases h
      exact NRGBA64.premul _
    rw [if_neg e] at h; clear e
    by_cases e : m = Mode.hue
    · rw [if_pos e] at h
      unfold compositeHue at h
      dsimp only at h
      by_cases hq : t.toNRGBA.rgba.r = t.toNRGBA.rgba.g ∧ t.toNRGBA.rgba.r = t.toNRGBA.rgba.b
      · rw [if_pos hq] at h
        cases h
        exact NRGBA64.premul _
      · rw [if_neg hq] at h
        obtain ⟨x, -, h⟩ := Option.bind_eq_some_iff.1 h
        obtain ⟨y, -, h⟩ := Option.bind_eq_some_iff.1 h
        cases h
        exact C17_premultiplied _ trivial
    rw [if_neg e] at h; clear e
    by_cases e : m = Mode.saturation
    · rw [if_pos e] at h
      unfold compositeSaturation at h
      obtain ⟨x, -, h⟩ := Option.bind_eq_some_iff.1 h
      obtain ⟨y, -, h⟩ := Option.bind_eq_some_iff.1 h
      cases h
      exact C17_premultiplied _ trivial
    rw [if_neg e] at h; clear e
    by_cases e : m = Mode.color
    · rw [if_pos e] at h
      exact hl _ _ h
    rw [if_neg e] at h; clear e
    by_cases e : m = Mode.value
    · rw [if_pos e] at h
      unfold compositeValue at h
      obtain ⟨x, -, h⟩ := Option.bind_eq_some_iff.1 h
      obtain ⟨y, -, h⟩ := Option.bind_eq_some_iff.1 h
      cases h
      exact C17_premultiplied _ trivial
    rw [if_neg e] at h; clear e
    by_cases e : m = Mode.luminosity
    · rw [if_pos e] at h
      exact hl _ _ h
    rw [if_neg e] at h; clear e
    by_cases e : m = Mode.plus
    · rw [if_pos e] at h
      exact hn h
    rw [if_neg e] at h; clear e
    by_cases e : m = Mode.destinationIn
    · rw [if_pos e] at h
      exact hn h
    rw [if_neg e] at h; clear e
    by_cases e : m = Mode.destinationOut
    · rw [if_pos e] at h
      exact hn h
    rw [if_neg e] at h; clear e
    by_cases e : m = Mode.sourceAtop
    · rw [if_pos e] at h
      exact hn h
    rw [if_neg e] at h; clear e
    by_cases e : m = Mode.destinationAtop
    · rw [if_pos e] at h
      exact hn h
    rw [if_neg e] at h
    exact hn h

theorem drawLayer_proper {ρ : Nat → UInt16} {cm : Option ColorModel} {l : Layer} {p : Pt} {c c' : Color} {n n' : Nat} (hc : Premul c.rgba32)
    (h : drawLayer ρ cm l p c n = some (c', n')) : Premul c'.rgba32 := by
  by_cases hs : shows p l
  · rw [drawLayer_shows _ _ hs] at h
    obtain ⟨cm, -, h⟩ := Option.bind_eq_some_iff.1 h
    obtain ⟨⟨t, k⟩, -, h⟩ := Option.bind_eq_some_iff.1 h
    dsimp only at h
    split at h
    · split at h
      · cases h
        exact NRGBA64.premul _
      · cases h
        exact hc
    split at h
    · obtain ⟨x, hx, e⟩ := Option.map_eq_some_iff.1 h
      cases e
      exact composite_proper _ _ _ _ _ hx
    · obtain ⟨x, hx, e⟩ := Option.map_eq_some_iff.1 h
      cases e
      exact composite_proper _ _ _ _ _ hx
  · rw [drawLayer_hidden _ _ hs] at h
    cases h
    exact hc

theorem layersAt_proper (ρ : Nat → UInt16) (cm : Option ColorModel) (p : Pt) (n : Nat) :
    ∀ (g : List Layer) (c : Color) (n' : Nat), layersAt ρ cm g p n = some (c, n') → Premul c.rgba32
  | [], c, n', h => by
    rw [layersAt_nil] at h
    cases h
    exact rgba_alpha0
  | l :: g, c, n', h => by
    rw [layersAt_cons] at h
    obtain ⟨⟨c₁, n₁⟩, h1, h2⟩ := Option.bind_eq_some_iff.1 h
    exact drawLayer_proper (layersAt_proper ρ cm p n g c₁ n₁ h1) h2

/-- C97: every colour that `At` of a picture returns is a proper colour, with channels that are at most its alpha, and an alpha of at most 65535, whatever
the images of its layers return. -/
theorem C97_picture (ρ : Nat → UInt16) (g : List Layer) (p : Pt) (n : Nat) (c : Color) (n' : Nat) (h : Img.at ρ (.group g) p n = some (c, n')) :
    Premul c.rgba32 := by
  rw [at_group] at h
  exact layersAt_proper ρ _ p n g c n' h

/-- a picture with a half transparent layer -/
example : ∃ c, Img.at (fun _ => 0) (.group [⟨[], ⟨0, 0, 4, 4⟩, Mode.normal, false, 50, .leaf ⟨⟨0, 0, 4, 4⟩, .other, fun _ => some (.gray 99)⟩⟩]) ⟨1, 1⟩ 0 = some (c, 0) ∧
    Premul c.rgba32 := by
  have h : ∃ c, Img.at (fun _ => 0) (.group [⟨[], ⟨0, 0, 4, 4⟩, Mode.normal, false, 50, .leaf ⟨⟨0, 0, 4, 4⟩, .other, fun _ => some (.gray 99)⟩⟩]) ⟨1, 1⟩ 0 =
    some (c, 0) := ⟨_, rfl⟩
  obtain ⟨c, h⟩ := h
  exact ⟨c, h, C97_picture _ _ _ _ c 0 h⟩

/-- C97 for layers, texts and masked images: they return proper colours if their images do. -/
theorem C97_transparency (c : Color) (t : UInt8) (h : Premul c.rgba32) : Premul (transparency c t).rgba32 := by
  unfold transparency
  split
  · exact h
  split
  · exact NRGBA64.premul _
  · exact NRGBA64.premul _

-- a colour that is not proper, and what a picture makes of it
example : ¬Premul (Color.rgba 255 0 0 1).rgba32 ∧
    ∃ c n, Img.at (fun _ => 0) (.group [⟨[], ⟨0, 0, 1, 1⟩, Mode.normal, false, 0, .leaf ⟨⟨0, 0, 1, 1⟩, .other, fun _ => some (.rgba 255 0 0 1)⟩⟩]) ⟨0, 0⟩ 0 = some (c, n) := by
  refine ⟨fun h => absurd h.1 (by decide), ?_⟩
  have : (Img.at (fun _ => 0) (.group [⟨[], ⟨0, 0, 1, 1⟩, Mode.normal, false, 0, .leaf ⟨⟨0, 0, 1, 1⟩, .other, fun _ => some (.rgba 255 0 0 1)⟩⟩]) ⟨0, 0⟩ 0).isSome = true := by
    decide +kernel
  obtain ⟨⟨c, n⟩, h⟩ := Option.isSome_iff_exists.1 this
  exact ⟨c, n, h⟩

/-! ## C95: the merged image -/

/-- a group has no `Opaque` method: `png.Encode` looks at all its pixels, and stores no alpha if all are opaque -/
def Spec.LooksAtGroups (kind : Img → PngKind) : Prop :=
  ∀ g b, Img.bounds (.group g) = some b → (kind (.group g)).drops = true → ∀ q, Rect.mem q b = true →
    ∃ ρ n c n', Img.at ρ (.group g) q n = some (c, n') ∧ c.rgba32.a = 0xffff

theorem group_proper (g : List Layer) : ProperColours (.group g) := by
  intro b _ ρ q n c n' _ h
  exact C97_picture ρ g q n c n' h

theorem group_tells {kind : Img → PngKind} (hk : LooksAtGroups kind) (g : List Layer) (hd : ∀ q, dissolvesAll g q = 0) : TellsOpaque kind (.group g) := by
  intro hdr b hb ρ q n c n' hq h
  obtain ⟨ρ', m, c', m', h1, h2⟩ := hk g b hb hdr q hq
  rcases C96_steady (.group g) q (by rw [Img.dissolves]; exact hd q) with h3 | ⟨x, h3⟩
  · rw [h3] at h
    cases h
  · rw [h3] at h h1
    cases h
    cases h1
    exact h2

/-- the stack of an archive that has been written -/
theorem getStack_written {env : OraEnv} {is : List Img} {les : List ZipEntry} (hh : Holds env 0 is les) (stack merged thumb : Bytes) :
    getStack none (.of (lit "mimetype") oraMime :: les ++ [.of (lit "stack.xml") stack,
        .of (lit "mergedimage.png") merged, .of (lit "Thumbnails/thumbnail.png") thumb]) = .ok (.of (lit "stack.xml") stack) := by
  rw [getStack_last _ rfl [.of (lit "mergedimage.png") merged, .of (lit "Thumbnails/thumbnail.png") thumb] (by
    intro x hx
    simp only [List.mem_cons, List.not_mem_nil, or_false] at hx
    rcases hx with rfl | rfl
    · show lit "mergedimage.png" ≠ lit "stack.xml"; decide
    · show lit "Thumbnails/thumbnail.png" ≠ lit "stack.xml"; decide), if_pos]
  unfold mimesOk
  rw [List.all_eq_true]
  intro x hx
  have : x.name = lit "mimetype" → checkMime x = true := by
    intro hx'
    simp only [List.cons_append, List.mem_cons, List.mem_append, List.not_mem_nil, or_false] at hx
    rcases hx with rfl | hx | rfl | rfl
    · rfl
    · have := holds_name _ _ _ _ hh x hx
      rw [hx'] at this
      exact absurd this (by decide)
    · exact absurd (show lit "mergedimage.png" = lit "mimetype" from hx') (by decide)
    · exact absurd (show lit "Thumbnails/thumbnail.png" = lit "mimetype" from hx') (by decide)
  by_cases hn : x.name = lit "mimetype"
  · rw [this hn, Bool.or_true]
  · simp [hn]

/-- C95, the size: for every image that has been written, in layers or not, `DecodeConfig` returns its size. -/
theorem C95_size {env : OraEnv} (hl : OraLib env) (fails : Nat → Bool) (c : Bool) (m : OraInput) (hm : IntSize m) (es : List ZipEntry)
    (h : oraEncode env fails c m = .ok ⟨none, some es⟩) : ∃ b, m.bounds = some b ∧ oraDecodeConfig env es = .ok (b.dx, b.dy) := by
  obtain ⟨b, les, merged, thumb, hb, hh, -, -, rfl⟩ := oraEntries_ok (encode_entries h)
  refine ⟨b, hb, ?_⟩
  obtain ⟨ns, h1, h2⟩ := hl.xml (docOf env m b.dx b.dy) (docOf_plain ..)
  unfold docOf at h2
  rw [Node.cleaned] at h2
  obtain ⟨pre, kids, post, h3, h4, -, -⟩ := stripAll_one h2
  have ht : tokensAll ns = tokensAll pre ++ .start (lit "image") (back [(lit "version", lit "0.0.3"), (lit "w", itoa b.dx), (lit "h", itoa b.dy)]) ::
      (tokensAll kids ++ .stop :: tokensAll post) := by
    rw [h3, tokensAll_append, tokensAll, Node.tokens]
    simp only [List.append_assoc, List.cons_append, List.nil_append]
    rfl
  unfold oraDecodeConfig oraStart
  rw [getStack_written hh]
  show OraRes.bind (OraRes.bind (getDimensions (env.xmlRead (env.xmlWrite (stackTokens env m b.dx b.dy))).2
    (env.xmlRead (env.xmlWrite (stackTokens env m b.dx b.dy))).1) _) _ = _
  rw [stackTokens_doc, h1, ht, getDimensions_prolog true pre h4]
  unfold getDimensions
  rw [if_pos rfl, image_attrs_back (hm b hb).1 (hm b hb).2]
  rfl

/-- a plain image, whose layers cannot be read (C63), has a size -/
example : ∃ es, oraEncode libEnv (fun _ => false) false (.image (.leaf (blank 3 2))) = .ok ⟨none, some es⟩ ∧ oraDecodeConfig libEnv es = .ok (3, 2) := by
  refine ⟨_, rfl, ?_⟩
  obtain ⟨b, hb, h⟩ := C95_size libEnv_lib (fun _ => false) false (.image (.leaf (blank 3 2))) (fun b hb => by cases hb; decide) _ rfl
  cases hb
  exact h

/-- the merged image of an archive that has been written -/
theorem merged_written {env : OraEnv} (hl : OraLib env) {fails : Nat → Bool} {c : Bool} {i : Img} (hr : Readably i) {es : List ZipEntry}
    (h : oraEncode env fails c (.image i) = .ok ⟨none, some es⟩) :
    ∃ d L, ZipEntry.of (lit "mergedimage.png") d ∈ es ∧ env.decodeImage d = some L ∧ Stored env i L := by
  obtain ⟨b, les, merged, thumb, hb, -, h1, -, rfl⟩ := oraEntries_ok (encode_entries h)
  obtain ⟨b', hb', -, -, hsz⟩ := hl.png _ _ h1
  have hb' : i.bounds = some b' := hb'
  obtain ⟨L, e1, -⟩ := hsz (hr b' hb').1 (hr b' hb').2
  exact ⟨merged, L, by simp, e1, merged, h1, e1⟩

/-- Full statement: the merged image of a file that has been written shows what the picture shows, at every point, up to the 8 or 16 bits of a PNG.  Proved for
layered pictures without Dissolve layers whose first layer has neither a grey model nor a palette, and false for grey ones (`C95_grey_refuted`); for
pictures with a palette nothing is assumed of PNG files. -/
theorem C95_merged_partial {env : OraEnv} (hl : OraLib env) {ρ : Nat → UInt16} {kind : Img → PngKind} (hp : PngPixels env ρ kind) (hk : LooksAtGroups kind)
    (fails : Nat → Bool) (c : Bool) (g : List Layer) (hr : Readably (.group g)) (hd : ∀ q, dissolvesAll g q = 0) (cm : ColorModel)
    (hcm : groupModel g = some cm) (hcp : cm.isPalette = false) (hcg : cm ≠ .gray ∧ cm ≠ .gray16) (es : List ZipEntry)
    (h : oraEncode env fails c (.image (.group g)) = .ok ⟨none, some es⟩) :
    ∃ d L, ZipEntry.of (lit "mergedimage.png") d ∈ es ∧ env.decodeImage d = some L ∧ Shows ρ (.group g) L := by
  have hcm' : Img.colorModel (.group g) = some cm := by rw [Img.colorModel]; exact hcm
  obtain ⟨d, L, h1, h2, h3⟩ := merged_written hl hr h
  refine ⟨d, L, h1, h2, stored_shows hl hp hr (group_tells hk g hd) ?_ (group_proper g) ⟨cm, hcm', hcp⟩ h3⟩
  intro b cm' _ hcm'' hg
  rw [hcm'] at hcm''
  cases hcm''
  rcases hg with hg | hg
  · exact absurd hg hcg.1
  · exact absurd hg hcg.2

/-- C95 is false for pictures whose first layer has a grey model: their merged image is grey and opaque, whatever the other layers are. -/
theorem C95_grey_refuted {env : OraEnv} (hl : OraLib env) {ρ : Nat → UInt16} {kind : Img → PngKind} (hp : PngPixels env ρ kind)
    (fails : Nat → Bool) (c : Bool) (g : List Layer) (hr : Readably (.group g)) (hcm : groupModel g = some .gray) (es : List ZipEntry)
    (h : oraEncode env fails c (.image (.group g)) = .ok ⟨none, some es⟩) :
    ∃ d L, ZipEntry.of (lit "mergedimage.png") d ∈ es ∧ env.decodeImage d = some L ∧
      (∀ q, Rect.mem q L.bounds = true → ∃ y, L.pixel q = some (.gray y)) ∧
      ((∃ p x, Rect.mem p (groupBounds g) = true ∧ (∀ σ n, (Img.group g).at σ p n = some (x, n)) ∧
        (x.rgba32.a.toNat + 512 < 65535 ∨ x.rgba32.r.toNat > x.rgba32.g.toNat + 1024)) → ¬Shows ρ (.group g) L) := by
  have hcm' : Img.colorModel (.group g) = some .gray := by rw [Img.colorModel]; exact hcm
  obtain ⟨d, L, h1, h2, d', h3, h4⟩ := merged_written hl hr h
  have hb : Img.bounds (.group g) = some (groupBounds g) := rfl
  obtain ⟨k1, -, k2⟩ := hp _ _ _ _ _ h3 h4 hb hcm' rfl
  have hpix : ∀ q, Rect.mem q L.bounds = true → ∃ y, L.pixel q = some (.gray y) := by
    intro q hq
    obtain ⟨n, n', x, -, e⟩ := k2 q hq
    have k1 : kind (.group g) = .g8 := by simpa [pngKinds] using k1
    rw [k1] at e
    exact ⟨_, e⟩
  refine ⟨d, L, h1, h2, hpix, fun ⟨p, x, hpb, hx, hbad⟩ hs => ?_⟩
  obtain ⟨b, hb', hLb, hs⟩ := hs
  rw [hb] at hb'
  cases hb'
  have hq : Rect.mem ⟨p.x - (groupBounds g).x0, p.y - (groupBounds g).y0⟩ L.bounds = true := by
    rw [hLb]
    unfold Rect.mem Rect.dx Rect.dy at *
    simp only [Bool.and_eq_true, decide_eq_true_eq] at hpb ⊢
    omega
  obtain ⟨n, n', c1, c2, e1, e2, e3, -⟩ := hs _ hq
  obtain ⟨y, e4⟩ := hpix _ hq
  rw [e4] at e2
  cases e2
  have hpt : (⟨(groupBounds g).x0 + (p.x - (groupBounds g).x0), (groupBounds g).y0 + (p.y - (groupBounds g).y0)⟩ : Pt) = p := by
    obtain ⟨px, py⟩ := p
    simp only [Pt.mk.injEq]
    omega
  rw [hpt, hx] at e1
  cases e1
  obtain ⟨⟨r1, r2⟩, ⟨g1, g2⟩, -, a1, a2⟩ := e3
  have hrg : (Color.gray y).rgba32.r = (Color.gray y).rgba32.g := rfl
  have ha : (Color.gray y).rgba32.a.toNat = 65535 := rfl
  rw [hrg] at r1 r2
  omega

/-- a red layer below a grey one that is smaller -/
def greyOnRed : List Layer :=
  [⟨[], ⟨0, 0, 1, 1⟩, Mode.normal, false, 0, .leaf ⟨⟨0, 0, 1, 1⟩, .gray, fun _ => some (.gray 100)⟩⟩,
    ⟨[], ⟨0, 0, 2, 1⟩, Mode.normal, false, 0, .leaf (plain 2 1 (.rgba 255 0 0 255))⟩]

theorem groupAt_at {g : List Layer} {p : Pt} {c : Color} (hd : dissolvesAll g p = 0) (h : (Img.group g).at (fun _ => 0) p 0 = some (c, 0)) (σ : Nat → UInt16)
    (n : Nat) : (Img.group g).at σ p n = some (c, n) := by
  rcases C96_steady (.group g) p (by rw [Img.dissolves]; exact hd) with h1 | ⟨x, h1⟩
  · rw [h1] at h
    cases h
  · rw [h1] at h
    cases h
    exact h1 σ n

/-- its merged image does not show it -/
example : ∃ es d L, oraEncode (pixEnv fun _ => false) (fun _ => false) false (.image (.group greyOnRed)) = .ok ⟨none, some es⟩ ∧
    ZipEntry.of (lit "mergedimage.png") d ∈ es ∧ (pixEnv fun _ => false).decodeImage d = some L ∧ ¬Shows (fun _ => 0) (.group greyOnRed) L := by
  obtain ⟨es, h⟩ : ∃ es, oraEncode (pixEnv fun _ => false) (fun _ => false) false (.image (.group greyOnRed)) = .ok ⟨none, some es⟩ := ⟨_, rfl⟩
  obtain ⟨d, L, h1, h2, -, h3⟩ := C95_grey_refuted (pixEnv_lib _) (pixEnv_pixels _) _ _ greyOnRed (fun b hb => by cases hb; decide) rfl es h
  exact ⟨es, d, L, h, h1, h2, h3 ⟨⟨1, 0⟩, .nrgba64 ⟨0xffff, 0, 0, 0xffff⟩, by decide, groupAt_at (by decide) (by decide +kernel), .inr (by decide)⟩⟩

/-- and the merged image of a translucent picture does -/
example : ∃ es d L, oraEncode (pixEnv fun _ => false) (fun _ => false) false (.image (.group pixelTree)) = .ok ⟨none, some es⟩ ∧
    ZipEntry.of (lit "mergedimage.png") d ∈ es ∧ (pixEnv fun _ => false).decodeImage d = some L ∧ Shows (fun _ => 0) (.group pixelTree) L := by
  obtain ⟨es, h⟩ := pixelTree_written
  have hk : LooksAtGroups (kindOf fun _ => false) := by
    intro g b _ hd
    unfold kindOf at hd
    split at hd <;> cases hd
  have hdis : ∀ q, dissolvesAll pixelTree q = 0 := by
    intro q
    simp [pixelTree, dissolvesAll, Img.dissolves, show Mode.screen ≠ Mode.dissolve by decide, show Mode.normal ≠ Mode.dissolve by decide]
  obtain ⟨d, L, h1, h2, h3⟩ := C95_merged_partial (pixEnv_lib _) (pixEnv_pixels _) hk _ _ pixelTree (fun b hb => by cases hb; decide) hdis .other rfl rfl
    ⟨by decide, by decide⟩ es h
  exact ⟨es, d, L, h, h1, h2, h3⟩

end Limage
