import Verif.Proofs.ReadFile
import Verif.Props.Layout
import Verif.Proofs.FileSize
import Verif.Props.Config
/-!
# C37 to C43, C52: what is encoded is decoded
-/
namespace Limage
open Spec

/-! ### More bytes do not matter -/

theorem LayerAt.mono {D E : Bytes} (hDE : ∀ p b, HasAt D p b → HasAt E p b) {F : Fmt} {p : Nat} {r : Placed} (h : LayerAt D F p r) :
    LayerAt E F p r := by
  have hpx : ∀ {p b bpp} {S : Pt → Bytes → Prop}, PixelsAt D p b bpp S → PixelsAt E p b bpp S := by
    rintro p b bpp S ⟨level, tiles, h1, h2, h3⟩
    refine ⟨level, tiles, hDE _ _ h1, hDE _ _ h2, h3.imp ?_⟩
    rintro t ij ⟨px, ⟨codes, g1, g2, g3⟩, g4⟩
    exact ⟨px, ⟨codes, g1, hDE _ _ g2, g3⟩, g4⟩
  obtain ⟨t, hh, m, h1, h2, ⟨b, h3, h4⟩, h5⟩ := h
  refine ⟨t, hh, m, h1, hDE _ _ h2, ⟨b, h3, hpx h4⟩, ?_⟩
  cases hm : maskOf r.layer.image with
  | none => rw [hm] at h5; exact h5
  | some m' =>
    rw [hm] at h5
    obtain ⟨q, g1, g2⟩ := h5
    exact ⟨q, hDE _ _ g1, hpx g2⟩

theorem LayersAt.mono {D E : Bytes} (hDE : ∀ p b, HasAt D p b → HasAt E p b) {F : Fmt} {b : Rect} {ls : List Placed} (h : LayersAt D F b ls) :
    LayersAt E F b ls := by
  obtain ⟨ptrs, h1, h2⟩ := h
  exact ⟨ptrs, hDE _ _ h1, h2.imp fun _ _ => LayerAt.mono hDE⟩

theorem hasAt_take_le {D : Bytes} {n m : Nat} (hnm : n ≤ m) (p : Nat) (b : Bytes) (h : HasAt (D.take n) p b) : HasAt (D.take m) p b := by
  by_cases hb : b = []
  · subst hb; exact hasAt_nil _ _
  · have hle := HasAt.le h hb
    rw [List.length_take] at hle
    have : D.take n = (D.take m).take n := by rw [List.take_take, Nat.min_eq_left hnm]
    rw [this] at h
    unfold HasAt at h ⊢
    rw [List.drop_take, List.take_take, Nat.min_eq_left (by omega)] at h
    exact h

theorem fmtOk_fmtOf (env : WEnv) (cm : ColorModel) : FmtOk (fmtOf env cm) := by
  constructor
  · cases cm <;> simp [fmtOf, encFor]
  · intro c
    cases cm <;> rfl
  · cases cm <;> simp [fmtOf, encFor]

/-! ### Modes -/

/-- Specification: the modes that survive in an RGB file, and in a grey or indexed one. -/
def Spec.keptModes (rgb : Bool) : List Mode :=
  if rgb then [Mode.normal, Mode.dissolve, Mode.behind, Mode.multiply, Mode.screen, Mode.overlay, Mode.difference, Mode.addition,
    Mode.subtract, Mode.darkenOnly, Mode.lightenOnly, Mode.hue, Mode.saturation, Mode.color, Mode.value, Mode.divide, Mode.dodge,
    Mode.burn, Mode.hardLight, Mode.softLight, Mode.grainExtract, Mode.grainMerge, Mode.colorErase, Mode.chroma, Mode.lightness,
    Mode.vividLight, Mode.pinLight, Mode.linearLight, Mode.hardMix, Mode.exclusion, Mode.linearBurn, Mode.erase, Mode.merge,
    Mode.split, Mode.passThrough]
  else [Mode.normal, Mode.behind]

theorem modeID_high (m : Mode) (h : 42 ≤ m.toNat) : modeID m = 0 := by
  have hne : ∀ k : Mode, k.toNat < 42 → m ≠ k := by
    rintro k hk rfl
    omega
  unfold modeID
  repeat rw [if_neg (hne _ (by decide))]

theorem mode_small (m : Mode) (h : m.toNat < 42) : m ∈ (List.range 42).map UInt32.ofNat := by
  rw [List.mem_map]
  exact ⟨m.toNat, List.mem_range.2 h, by simp⟩

theorem modeBack_kept (env : WEnv) (cm : ColorModel) (m : Mode) : modeBack (fmtOf env cm) m = m ↔ m ∈ keptModes ((fmtOf env cm).typ == 0) := by
  have h1 : ∀ m, modeOf (UInt32.ofNat (modeID m).toNat) = m ↔ m ∈ keptModes true := by
    intro m
    by_cases h : m.toNat < 42
    · have : ∀ m ∈ (List.range 42).map UInt32.ofNat, modeOf (UInt32.ofNat (modeID m).toNat) = m ↔ m ∈ keptModes true := by decide
      exact this m (mode_small m h)
    · rw [modeID_high m (by omega)]
      constructor
      · intro hm
        have : m = 0 := hm.symm
        subst this; exact absurd (by decide) h
      · intro hm
        have : ∀ m ∈ keptModes true, m.toNat < 42 := by decide
        exact absurd (this m hm) h
  have h2 : ∀ m, (if UInt32.ofNat (modeID m).toNat = 2 then Mode.behind else Mode.normal) = m ↔ m ∈ keptModes false := by
    intro m
    by_cases h : m.toNat < 42
    · have : ∀ m ∈ (List.range 42).map UInt32.ofNat,
          (if UInt32.ofNat (modeID m).toNat = 2 then Mode.behind else Mode.normal) = m ↔ m ∈ keptModes false := by decide
      exact this m (mode_small m h)
    · rw [modeID_high m (by omega)]
      constructor
      · intro hm
        have : m = 0 := hm.symm
        subst this; exact absurd (by decide) h
      · intro hm
        have : ∀ m ∈ keptModes false, m.toNat < 42 := by decide
        exact absurd (this m hm) h
  unfold modeBack
  by_cases ht : (fmtOf env cm).typ = 0
  · rw [if_neg (by simpa using ht), ht]
    exact h1 m
  · rw [if_pos ht, show ((fmtOf env cm).typ == 0) = false by simpa using ht]
    exact h2 m

mutual
theorem sameImg_id {P : Layer → Img → Prop} {M : Mode → Mode} (l : Layer) (i j : Img) (ox oy : Int) (path : List Nat)
    (h : SameImg P M l i j) (hm : ∀ r ∈ placedIn i ox oy path, M r.layer.mode = r.layer.mode) : SameImg P id l i j := by
  match i with
  | .group g =>
    unfold SameImg at h ⊢
    obtain ⟨g', h1, h2⟩ := h
    unfold placedIn at hm
    exact ⟨g', h1, sameTree_id g g' 0 ox oy path h2 hm⟩
  | .leaf _ => unfold SameImg at h ⊢; exact h
  | .nil => unfold SameImg at h ⊢; exact h
  | .text _ _ => unfold SameImg at h ⊢; exact h
  | .masked _ _ => unfold SameImg at h ⊢; exact h
termination_by structural i

theorem sameTree_id {P : Layer → Img → Prop} {M : Mode → Mode} (g g' : List Layer) (n : Nat) (ox oy : Int) (path : List Nat)
    (h : SameTree P M g g') (hm : ∀ r ∈ placed g n ox oy path, M r.layer.mode = r.layer.mode) : SameTree P id g g' := by
  match g, g' with
  | [], [] => exact h
  | [], _ :: _ => exact h
  | ⟨name, b, mode, inv, tr, im⟩ :: rest, [] => exact h
  | ⟨name, b, mode, inv, tr, im⟩ :: rest, l' :: rest' =>
    unfold SameTree at h ⊢
    unfold placed at hm
    obtain ⟨⟨h1, h2, h3, h4, h5, h6⟩, h7⟩ := h
    refine ⟨⟨h1, h2, ?_, h4, h5, ?_⟩, ?_⟩
    · rw [h3]; exact hm _ (List.mem_cons_self ..)
    · exact sameImg_id _ im _ (ox + b.x0) (oy + b.y0) (path ++ [n]) h6 fun r hr => hm r (by simp [hr])
    · exact sameTree_id rest rest' (n + 1) ox oy path h7 fun r hr => hm r (by simp [hr])
termination_by structural g
end

theorem sameTree_modes {P : Layer → Img → Prop} : ∀ g g' : List Layer, SameTree P id g g' → g'.map (·.mode) = g.map (·.mode)
  | [], [], _ => rfl
  | [], _ :: _, h => h.elim
  | ⟨_, _, _, _, _, _⟩ :: _, [], h => h.elim
  | ⟨name, b, mode, inv, tr, im⟩ :: rest, l' :: rest', h => by
    unfold SameTree at h
    rw [List.map_cons, List.map_cons, sameTree_modes rest rest' h.2, h.1.2.2.1]
    rfl

theorem fixBottom_same {g : List Layer} (h : ∀ m, (g.map (·.mode)).getLast? = some m → m = Mode.normal ∨ m = Mode.dissolve) :
    fixBottom g = g := by
  unfold fixBottom
  cases hl : g.getLast? with
  | none => rfl
  | some l =>
    dsimp only
    rw [if_pos]
    exact h l.mode (by rw [List.getLast?_map, hl]; rfl)

/-! ### The canvas -/

theorem canvas_range {F : Fmt} {Parses : Bytes → TextData → Prop} {g : List Layer} {b : Rect} (hb : b = groupBounds g)
    (hs : ∀ r ∈ placed g 0 0 0 [], Storable F Parses b.dx b.dy r) : 0 ≤ b.dx ∧ 0 ≤ b.dy := by
  match g with
  | [] => subst hb; exact ⟨Int.le_refl _, Int.le_refl _⟩
  | ⟨name, c, mode, inv, tr, im⟩ :: rest =>
    have := hs ⟨⟨name, c, mode, inv, tr, im⟩, 0 + c.x0, 0 + c.y0, [] ++ [0]⟩ (by unfold placed; simp)
    obtain ⟨_, ⟨a1, a2, a3⟩, ⟨a4, a5, a6⟩, _⟩ := this
    dsimp only at a1 a2 a3 a4 a5 a6
    exact ⟨by omega, by omega⟩

/-! ### Files written by `Encode` -/

theorem Spec.ExactlyOnce.unique {l : List WCall} {n m : Nat} (h1 : ExactlyOnce l n) (h2 : ExactlyOnce l m) : n = m := by
  rcases Nat.lt_trichotomy n m with h | h | h
  · have a := h1 n; rw [h2 n, if_pos h, if_neg (Nat.lt_irrefl _)] at a; cases a
  · exact h
  · have a := h1 m; rw [h2 m, if_pos h, if_neg (Nat.lt_irrefl _)] at a; cases a

/-- the file is not larger than estimated -/
theorem encode_size (wenv : WEnv) (i : Img) (hi : Encodable i) (l : List WCall) (h : runEncode wenv i = some (l, none))
    (cm : ColorModel) (hcm : i.colorModel = some cm) (size : Nat) (hsz : ExactlyOnce l size) : size ≤ fileBytes (fmtOf wenv cm) i := by
  obtain ⟨s, h', he⟩ := runEncode_some h
  have ok : AllOk l := by
    intro c hc
    apply Classical.byContradiction
    intro hf
    exact (WRuns.encode i _ _ _ _ _ h').err.2 (.inr ⟨c, hc, hf⟩) he
  have c := Seqs.encode i hi _ _ _ _ _ h' rfl ok
  have : ExactlyOnce l s.pos := by
    intro x
    rw [c.once, ind]
    simp [WS.start]
  rw [hsz.unique this]
  exact encode_bytes i hi h' hcm

/-- what is written is found when reading -/
theorem written (wenv : WEnv) (i : Img) (hi : Encodable i) (l : List WCall) (h : runEncode wenv i = some (l, none)) (D : Bytes)
    (size : Nat) (hsz : ExactlyOnce l size) (hmax : size ≤ maxString) (cm : ColorModel) (hcm : i.colorModel = some cm) :
    FileAt ((store D l).take maxString) (fmtOf wenv cm) i := by
  obtain ⟨size', cm', h1, h2, b, h3, h4⟩ := C36_layout wenv i hi l h D
  rw [hcm] at h2
  cases h2
  rw [h1.unique hsz] at h4
  exact ⟨b, h3, LayersAt.mono (hasAt_take_le hmax) h4⟩

/-- The tree of layers is decoded, up to the changes of modes. -/
theorem round_trip (wenv : WEnv) (env : Env) (sch : Sched) (hv : sch.Valid) (decompress : Bool) (g : List Layer)
    (hi : Encodable (.group g)) (l : List WCall) (h : runEncode wenv (.group g) = some (l, none)) (D : Bytes)
    (size : Nat) (hsz : ExactlyOnce l size) (hmax : size ≤ maxString)
    (cm : ColorModel) (hcm : (Img.group g).colorModel = some cm)
    (hd : decompress = true ∨ ∀ r ∈ placed g 0 0 0 [], maskOf r.layer.image = none)
    (hx : (groupBounds g).dx ≤ 2 ^ 31) (hy : (groupBounds g).dy ≤ 2 ^ 31)
    (hs : ∀ r ∈ placed g 0 0 0 [], Storable (fmtOf wenv cm) (parsesTo env) (groupBounds g).dx (groupBounds g).dy r) :
    ∃ g', decodeImage env sch decompress (store D l) = .ok (.ok (fixBottom g')) ∧
      SameTree (ImgBack (fmtOf wenv cm) (parsesTo env)) (modeBack (fmtOf wenv cm)) g g' := by
  obtain ⟨b, h1, h2⟩ := written wenv _ hi l h D size hsz hmax cm hcm
  have hb : b = groupBounds g := by
    have : (Img.group g).bounds = some (groupBounds g) := by unfold Img.bounds; rfl
    rw [h1] at this; cases this; rfl
  subst hb
  obtain ⟨c1, c2⟩ := canvas_range rfl hs
  exact decode_at env sch hv decompress _ _ (fmtOk_fmtOf wenv cm) g _ h2 hd ⟨c1, hx⟩ ⟨c2, hy⟩ hs

/-- C37 (the part that holds).  A picture whose layers are storable (`Storable`: inside a canvas that starts at (0, 0), of the size
of their images, with masks only at the origin), whose modes all exist in the file format and whose lowest layer is Normal or
Dissolve, is decoded to the same tree of layers.
Full statement: the same for every picture; `C37_refuted`, `C39_refuted`, `C41_offset_refuted` show that the conditions matter. -/
theorem C37_tree_partial (wenv : WEnv) (env : Env) (sch : Sched) (hv : sch.Valid) (decompress : Bool) (g : List Layer)
    (hi : Encodable (.group g)) (l : List WCall) (h : runEncode wenv (.group g) = some (l, none)) (D : Bytes)
    (size : Nat) (hsz : ExactlyOnce l size) (hmax : size ≤ maxString)
    (cm : ColorModel) (hcm : (Img.group g).colorModel = some cm)
    (hd : decompress = true ∨ ∀ r ∈ placed g 0 0 0 [], maskOf r.layer.image = none)
    (hx : (groupBounds g).dx ≤ 2 ^ 31) (hy : (groupBounds g).dy ≤ 2 ^ 31)
    (hs : ∀ r ∈ placed g 0 0 0 [], Storable (fmtOf wenv cm) (parsesTo env) (groupBounds g).dx (groupBounds g).dy r)
    (hk : ∀ r ∈ placed g 0 0 0 [], r.layer.mode ∈ keptModes ((fmtOf wenv cm).typ == 0))
    (hb : ∀ m, (g.map (·.mode)).getLast? = some m → m = Mode.normal ∨ m = Mode.dissolve) :
    ∃ g', decodeImage env sch decompress (store D l) = .ok (.ok g') ∧
      SameTree (ImgBack (fmtOf wenv cm) (parsesTo env)) id g g' := by
  obtain ⟨g', h1, h2⟩ := round_trip wenv env sch hv decompress g hi l h D size hsz hmax cm hcm hd hx hy hs
  have h3 := sameTree_id g g' 0 0 0 [] h2 fun r hr => (modeBack_kept wenv cm _).2 (hk r hr)
  refine ⟨g', ?_, h3⟩
  rw [h1, fixBottom_same]
  rw [sameTree_modes g g' h3]
  exact hb

/-- the layers of `samplePicture` -/
def sampleLayers : List Layer :=
  match samplePicture with
  | .group g => g
  | _ => []

theorem samplePicture_eq : samplePicture = .group sampleLayers := rfl

theorem sample_model : (Img.group sampleLayers).colorModel = some .other := by rfl

theorem sample_bounds : groupBounds sampleLayers = ⟨0, 0, 3, 2⟩ := by decide +kernel

theorem sample_storable (F : Fmt) (P : Bytes → TextData → Prop) : ∀ r ∈ placed sampleLayers 0 0 0 [], Storable F P 3 2 r := by
  intro r hr
  simp only [sampleLayers, samplePicture, placed, placedIn, List.cons_append, List.nil_append, List.mem_cons, List.not_mem_nil, or_false] at hr
  rcases hr with rfl | rfl | rfl
  · refine ⟨(utf8Valid_iff _).1 (by decide), by decide, by decide, by simp [isGroupLayer], by simp [textOf], by simp [maskOf], by decide⟩
  · refine ⟨(utf8Valid_iff _).1 (by decide), by decide, by decide, ?_, by simp [textOf], by simp [maskOf], by decide⟩
    intro _ b hb
    simp only [pixelsOf, Img.bounds, Option.some.injEq] at hb
    subst hb; decide
  · refine ⟨(utf8Valid_iff _).1 (by decide), by decide, by decide, ?_, by simp [textOf], ?_, by decide⟩
    · intro _ b hb
      simp only [pixelsOf, Img.bounds, Option.some.injEq] at hb
      subst hb; decide
    · intro m hm
      simp only [maskOf, Option.some.injEq] at hm
      subst hm; decide

/-- a picture without missing parts that is not too large can be encoded, and the file is at most 16 MiB -/
theorem encodes_small (i : Img) (hw : Whole i) (hi : Encodable i) (wenv : WEnv) (ht : TextsFit wenv i)
    (hs : ∀ k, wenv.sink k = none) {cm : ColorModel} (hcm : i.colorModel = some cm) (hb : fileBytes (fmtOf wenv cm) i ≤ maxString) :
    ∃ l size, runEncode wenv i = some (l, none) ∧ ExactlyOnce l size ∧ size ≤ maxString := by
  obtain ⟨l, h⟩ := C74_encode_succeeds wenv i hw ht hs
  obtain ⟨size, hsz⟩ := C34_once wenv i hi l h
  exact ⟨l, size, h, hsz, Nat.le_trans (encode_size wenv i hi l h cm hcm size hsz) hb⟩

/-- the hypotheses of C37 hold for a picture with a group, a mask, transparency and a hidden layer -/
example : ∃ l size, Encodable (.group sampleLayers) ∧ runEncode goodSink (.group sampleLayers) = some (l, none) ∧ ExactlyOnce l size ∧
    size ≤ maxString ∧ (Img.group sampleLayers).colorModel = some .other ∧ (groupBounds sampleLayers).dx ≤ 2 ^ 31 ∧
    (groupBounds sampleLayers).dy ≤ 2 ^ 31 ∧
    (∀ r ∈ placed sampleLayers 0 0 0 [], Storable (fmtOf goodSink .other) (parsesTo exEnv) (groupBounds sampleLayers).dx (groupBounds sampleLayers).dy r) ∧
    (∀ r ∈ placed sampleLayers 0 0 0 [], r.layer.mode ∈ keptModes ((fmtOf goodSink .other).typ == 0)) ∧
    (∀ m, (sampleLayers.map (·.mode)).getLast? = some m → m = Mode.normal ∨ m = Mode.dissolve) ∧ exSched.Valid := by
  obtain ⟨l, size, h1, h2, h3⟩ := encodes_small (.group sampleLayers) samplePicture_whole samplePicture_encodable goodSink
    (fun _ _ _ _ _ _ => rfl) (fun _ => rfl) sample_model (by decide +kernel)
  refine ⟨l, size, samplePicture_encodable, h1, h2, h3, sample_model, by rw [sample_bounds]; decide, by rw [sample_bounds]; decide, ?_, by decide, ?_,
    ⟨fun _ => List.Perm.refl _, fun _ => List.Perm.refl _⟩⟩
  · rw [sample_bounds]; exact sample_storable _ _
  · intro m hm
    have : m = Mode.normal := by simpa [sampleLayers, samplePicture, eq_comm] using hm
    exact .inl this

end Limage
