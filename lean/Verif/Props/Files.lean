import Verif.Props.Looks
import Verif.Props.Limits
import Verif.Props.Grouping
/-!
# C106, C107: how large XCF files are, and that different pictures have different files
-/
namespace Limage
open Spec

/-! ## C106 -/

/-- **C106**: no byte of the file of a picture is behind what `fileBytes` says: 80 bytes, three for every colour of the palette, and for every layer 160
bytes, its name, four for every level of nesting, its text, and for its pixels and its mask 4130 bytes per channel for every tile of 64 by 64. -/
theorem C106_size (env : WEnv) (i : Img) (hi : Encodable i) (cm : ColorModel) (hcm : i.colorModel = some cm)
    (l : List WCall) (h : runEncode env i = some (l, none)) :
    ∀ c ∈ l, ∀ k < c.data.length, c.off + k < fileBytes (fmtOf env cm) i := by
  obtain ⟨size, hs⟩ := C34_once env i hi l h
  have hle := encode_size env i hi l h cm hcm size hs
  intro c hc k hk
  have h1 : 0 < writesTo l (c.off + k) := by
    unfold writesTo
    rw [List.countP_pos_iff]
    exact ⟨c, hc, by simp [Covers]; omega⟩
  rw [hs] at h1
  split at h1
  · omega
  · omega

/-- **C106**: a single layer of `w` by `h` points without text and mask needs at most 300 bytes, its name, 768 for a palette, and 16524 bytes per tile. -/
theorem C106_single (env : WEnv) (L : Layer) (leaf : Leaf) (hL : L.image = .leaf leaf) (w h : Nat) (hb : leaf.bounds = ⟨0, 0, w, h⟩)
    (cm : ColorModel) (hcm : (Img.group [L]).colorModel = some cm) (hp : ((fmtOf env cm).palette.getD []).length ≤ 256) :
    fileBytes (fmtOf env cm) (.group [L]) ≤ 1044 + L.name.length + 16524 * (((w + 63) / 64) * ((h + 63) / 64)) := by
  have hbpp := bpp_le env cm
  obtain ⟨name, b, m, v, t, image⟩ := L
  cases hL
  have ht : ∀ n : Nat, tilesAlong ((n : Int) - 0) = (n + 63) / 64 := by
    intro n
    unfold tilesAlong
    omega
  simp only [fileBytes, layersOf, placed, placedIn, List.nil_append, List.append_nil, List.map_cons, List.map_nil, List.sum_cons, List.sum_nil,
    layerBytes, textBytes, textOf, pixelBytes, pixelsOf, maskOf, maskBytes, Img.bounds, hb, Rect.dx, Rect.dy, ht, List.length_cons, List.length_nil]
  have : (w + 63) / 64 * ((h + 63) / 64) * (4 + 4130 * (fmtOf env cm).bpp) ≤ (w + 63) / 64 * ((h + 63) / 64) * 16524 :=
    Nat.mul_le_mul_left _ (by omega)
  omega

example : Encodable samplePicture ∧ samplePicture.colorModel = some .other ∧ fileBytes (fmtOf goodSink .other) samplePicture = 54438 :=
  ⟨samplePicture_encodable, rfl, by decide +kernel⟩

/-! ## C107 -/

/-- Specification: a picture that can be stored without loss, and the calls that write it: those of C86. -/
structure Spec.StoredBy (wenv : WEnv) (env : Env) (g : List Layer) (l : List WCall) : Prop where
  encodable : Encodable (.group g)
  written : runEncode wenv (.group g) = some (l, none)
  small : ∃ size, ExactlyOnce l size ∧ size ≤ maxString
  width : (groupBounds g).dx ≤ 2 ^ 31
  height : (groupBounds g).dy ≤ 2 ^ 31
  lossless : ∃ cm, (Img.group g).colorModel = some cm ∧ cm.isPalette = false ∧ cm ≠ .alphaPalette [] ∧
    (∀ r ∈ placed g 0 0 0 [], Storable (fmtOf wenv cm) (parsesTo env) (groupBounds g).dx (groupBounds g).dy r) ∧
    (∀ r ∈ placed g 0 0 0 [], r.layer.mode ∈ keptModes ((fmtOf wenv cm).typ == 0)) ∧ Flawless cm g
  bottom : ∀ m, (g.map (·.mode)).getLast? = some m → m = Mode.normal ∨ m = Mode.dissolve

/-- Full statement: pictures that differ at a point have different files. -/
def Spec.Distinguishes : Prop := ∀ (wenv : WEnv), Works wenv → ∀ (g g' : List Layer) (l l' : List WCall),
  runEncode wenv (.group g) = some (l, none) → runEncode wenv (.group g') = some (l', none) →
  (∃ ρ p n, (Img.group g).at ρ p n ≠ (Img.group g').at ρ p n) → store [] l ≠ store [] l'

/-- **C107** (the part that holds): of two pictures that can be stored without loss and differ at some point, the files differ, whatever was in them
before. -/
theorem C107_differ_partial (wenv : WEnv) (env : Env) (sch : Sched) (hv : sch.Valid) (g g' : List Layer) (l l' : List WCall)
    (h : StoredBy wenv env g l) (h' : StoredBy wenv env g' l') (ρ : Nat → UInt16) (p : Pt) (n : Nat)
    (hne : (Img.group g).at ρ p n ≠ (Img.group g').at ρ p n) (D D' : Bytes) : store D l ≠ store D' l' := by
  intro e
  obtain ⟨size, s1, s2⟩ := h.small
  obtain ⟨cm, c1, c2, c3, c4, c5, c6⟩ := h.lossless
  obtain ⟨r, d1, d2⟩ := C86_looks_partial wenv env sch hv true g h.encodable l h.written D size s1 s2 cm c1 c2 c3 (.inl rfl) h.width h.height c4 c5 h.bottom c6
  obtain ⟨size', s1', s2'⟩ := h'.small
  obtain ⟨cm', c1', c2', c3', c4', c5', c6'⟩ := h'.lossless
  obtain ⟨r', d1', d2'⟩ := C86_looks_partial wenv env sch hv true g' h'.encodable l' h'.written D' size' s1' s2' cm' c1' c2' c3' (.inl rfl) h'.width h'.height
    c4' c5' h'.bottom c6'
  rw [e, d1'] at d1
  cases d1
  exact hne ((d2 ρ p n).symm.trans (d2' ρ p n))

-- a picture with a group, a mask, transparency and a hidden layer can be stored without loss
example : ∃ l, StoredBy goodSink exEnv sampleLayers l := by
  obtain ⟨l, size, h1, h2, h3⟩ := encodes_small (.group sampleLayers) samplePicture_whole samplePicture_encodable goodSink
    (fun _ _ _ _ _ _ => rfl) (fun _ => rfl) sample_model (by decide +kernel)
  refine ⟨l, samplePicture_encodable, h1, ⟨size, h2, h3⟩, by rw [sample_bounds]; decide, by rw [sample_bounds]; decide,
    ⟨.other, sample_model, rfl, by simp, by rw [sample_bounds]; exact sample_storable _ _, by decide, ?_⟩, ?_⟩
  · simp only [sampleLayers, samplePicture, Flawless, Exactly, Img.colorModel, groupModel, Option.some.injEq, forall_eq', ExactLeaf, Exact,
      ColorModel.isPalette, Img.leaf.injEq, exists_eq_left', and_true, true_and]
    refine ⟨⟨by decide, ?_⟩, by decide, ?_⟩
    · rintro p c - rfl
      exact .inl ⟨_, _, _, _, rfl⟩
    · rintro p c - rfl
      exact .inl ⟨_, _, _, _, rfl⟩
  · intro m hm
    have : m = Mode.normal := by simpa [sampleLayers, samplePicture, eq_comm] using hm
    exact .inl this

/-- C107 is false in general: colours with 16 bits per channel that agree in the upper ones have the same file. -/
theorem C107_refuted : ¬Distinguishes := by
  intro h
  have e : runEncode goodSink (.group [dot (Mode.normal, .other, .nrgba64 ⟨0x1234, 0, 0, 0xffff⟩)]) =
      runEncode goodSink (.group [dot (Mode.normal, .other, .nrgba64 ⟨0x1235, 0, 0, 0xffff⟩)]) := by decide +kernel
  have hs : ((runEncode goodSink (.group [dot (Mode.normal, .other, .nrgba64 ⟨0x1234, 0, 0, 0xffff⟩)])).map (·.2)) = some none := by decide +kernel
  match h1 : runEncode goodSink (.group [dot (Mode.normal, .other, .nrgba64 ⟨0x1234, 0, 0, 0xffff⟩)]) with
  | none => rw [h1] at hs; cases hs
  | some (l, e') =>
    rw [h1] at hs
    have : e' = none := by simpa using hs
    subst this
    refine h goodSink (fun _ => rfl) _ _ l l h1 (e ▸ h1) ⟨fun _ => 0, ⟨0, 0⟩, 0, fun he => ?_⟩ rfl
    have h2 : redAlpha (Img.at (fun _ => 0) (.group [dot (Mode.normal, .other, .nrgba64 ⟨0x1234, 0, 0, 0xffff⟩)]) ⟨0, 0⟩ 0) = some (0x1234, 0xffff) := by
      decide +kernel
    have h3 : redAlpha (Img.at (fun _ => 0) (.group [dot (Mode.normal, .other, .nrgba64 ⟨0x1235, 0, 0, 0xffff⟩)]) ⟨0, 0⟩ 0) = some (0x1235, 0xffff) := by
      decide +kernel
    rw [he, h3] at h2
    revert h2
    decide

end Limage
