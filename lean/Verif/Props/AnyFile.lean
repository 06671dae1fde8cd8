import Verif.Proofs.AnyFile
import Verif.Props.RoundTrip
/-!
# C89: files of every version are read
-/
namespace Limage
open Spec

/-- **C89** (the part that holds).  A compressed file of any version that holds the layers of `g` is decoded to them: names, bounds,
modes, visibility, opacities, nesting, texts, masks, and every pixel in the representation of the file.  The order of properties,
properties of unknown types, the places of the parts in the file and channels have no influence; the lowest layer may lack alpha.
Conditions: the properties of the image are `Handled` (see C49); layers lie on the canvas, and masks at its origin (`Fits`); groups
have no masks (`FileIn`); layers in grey and indexed files are Normal; the lowest layer is Normal or Dissolve;
`DecodeCompressed` is not asked to read masks or indexed layers without alpha.
Full statement: the same without these conditions, and for uncompressed files; `C89_modes_refuted`, `C89_outside_refuted`, `C49_refuted`,
`C47_compressed_refuted` show that they matter, and C90 is about uncompressed files. -/
theorem C89_partial (env : Env) (sch : Sched) (hv : sch.Valid) (decompress : Bool) (D : Bytes) (V : Version) (hV : V ∈ allVersions)
    (C : Coding) (hC : C.Ok) (hr : C.rle = true) (hfo : C.opacity = env.floatOpacity) (hP : C.parses = parsesTo env)
    (alpha : Layer → Bool) (g : List Layer) (b : Rect)
    (hat : FileIn (D.take maxString) V C (Handled (C.typ == 2)) alpha b (placed g 0 0 0 []))
    (hx : 0 ≤ b.dx ∧ b.dx ≤ 2 ^ 31) (hy : 0 ≤ b.dy ∧ b.dy ≤ 2 ^ 31) (hs : ∀ r ∈ placed g 0 0 0 [], Fits b.dx b.dy r)
    (hd : decompress = true ∨ ∀ r ∈ placed g 0 0 0 [], maskOf r.layer.image = none ∧ (C.typ = 2 → alpha r.layer = true))
    (hmo : C.typ = 0 ∨ ∀ r ∈ placed g 0 0 0 [], r.layer.mode = Mode.normal)
    (hbot : ∀ m, (g.map (·.mode)).getLast? = some m → m = Mode.normal ∨ m = Mode.dissolve) :
    ∃ g', decodeImage env sch decompress D = .ok (.ok g') ∧ SameTree (C.ImgRead alpha) id g g' := by
  obtain ⟨g', h1, h2⟩ := decode_in env sch hv decompress D hV hC hfo.symm (by rw [hP]; exact fun _ _ h => h) g b hat
    (fun _ _ => .inl hr) (by
      intro r hr
      rcases hd with h | h
      · exact .inl (.inl h)
      · refine .inr ⟨(h r hr).1, ?_⟩
        intro hk
        unfold Coding.kind at hk
        have hty := hC.typ
        cases ha : alpha r.layer with
        | true => rw [ha, if_pos rfl] at hk; omega
        | false =>
          rw [ha, if_neg (by decide)] at hk
          have := (h r hr).2 (by omega)
          rw [ha] at this
          cases this)
    (fun r hr => hmo.imp_right fun h => h r hr) hx hy hs
  refine ⟨g', ?_, h2⟩
  rw [h1, fixBottom_same]
  rw [sameTree_modes g g' h2]
  exact hbot

/-! ## C90 -/

/-- every layer of a list is among those placed -/
theorem placed_has : ∀ (g : List Layer) (n : Nat) (ox oy : Int) (path : List Nat) {l : Layer}, l ∈ g → ∃ r ∈ placed g n ox oy path, r.layer = l
  | [], _, _, _, _, _, h => by cases h
  | a :: g, n, ox, oy, path, l, h => by
    unfold placed
    rcases List.mem_cons.1 h with rfl | h
    · exact ⟨_, List.mem_cons_self .., rfl⟩
    · obtain ⟨r, hr, e⟩ := placed_has g (n + 1) ox oy path h
      exact ⟨r, List.mem_cons_of_mem _ (List.mem_append_right _ hr), e⟩

/-- **C90** (the part that holds).  `Decode` and `DecodeCompressed` read uncompressed files of one channel (grey or indexed, without
alpha; by `FileIn` there is then one layer that is not a group).
Full statement: all uncompressed files; false by `C90_refuted`: pixels with more than one channel are misread. -/
theorem C90_partial (env : Env) (sch : Sched) (hv : sch.Valid) (decompress : Bool) (D : Bytes) (V : Version) (hV : V ∈ allVersions)
    (C : Coding) (hC : C.Ok) (hr : C.rle = false) (hfo : C.opacity = env.floatOpacity) (hP : C.parses = parsesTo env)
    (alpha : Layer → Bool) (g : List Layer) (b : Rect)
    (hat : FileIn (D.take maxString) V C (Handled (C.typ == 2)) alpha b (placed g 0 0 0 []))
    (hone : C.typ ≠ 0 ∧ ∀ r ∈ placed g 0 0 0 [], isGroupLayer r.layer = false → alpha r.layer = false)
    (hx : 0 ≤ b.dx ∧ b.dx ≤ 2 ^ 31) (hy : 0 ≤ b.dy ∧ b.dy ≤ 2 ^ 31) (hs : ∀ r ∈ placed g 0 0 0 [], Fits b.dx b.dy r)
    (hmo : ∀ r ∈ placed g 0 0 0 [], r.layer.mode = Mode.normal) :
    ∃ g', decodeImage env sch decompress D = .ok (.ok g') ∧ SameTree (C.ImgRead alpha) id g g' := by
  obtain ⟨g', h1, h2⟩ := decode_in env sch hv decompress D hV hC hfo.symm (by rw [hP]; exact fun _ _ h => h) g b hat
    (fun r hr => .inr fun hg => by
      rw [hone.2 r hr hg]
      have h3 := hC.typ
      have h4 := hone.1
      have h : C.typ = 1 ∨ C.typ = 2 := by omega
      rcases h with h | h <;> rw [h] <;> rfl)
    (fun _ _ => .inl (.inr hr)) (fun r hr => .inr (hmo r hr)) hx hy hs
  refine ⟨g', ?_, h2⟩
  rw [h1, fixBottom_same]
  rw [sameTree_modes g g' h2]
  intro m hm
  left
  have hm := List.mem_of_getLast? hm
  obtain ⟨l, hl, rfl⟩ := List.mem_map.1 hm
  obtain ⟨r, hr, rfl⟩ := placed_has g 0 0 0 [] hl
  exact hmo r hr

instance (D : Bytes) (p : Nat) (b : Bytes) : Decidable (HasAt D p b) := inferInstanceAs (Decidable (_ = _))

/-! ### An example -/

/-- A file of version 11 with a canvas of 2 x 1 and two layers: one of one pixel at (1, 0), with opacity and mode Multiply (30), and
one without alpha; there are properties of the unknown types 40 and 99. -/
def version11 : Bytes :=
  [103, 105, 109, 112, 32, 120, 99, 102, 32, 118, 48, 49, 49, 0] ++ be 4 2 ++ be 4 1 ++ be 4 0 ++ be 4 150 ++
  be 4 17 ++ be 4 1 ++ [1] ++ be 4 40 ++ be 4 3 ++ [1, 2, 3] ++ be 4 0 ++ be 4 0 ++ be 8 90 ++ be 8 241 ++ be 8 0 ++ be 8 0 ++
  -- 90: layer
  be 4 1 ++ be 4 1 ++ be 4 1 ++ be 4 2 ++ [97, 0] ++ be 4 15 ++ be 4 8 ++ be 4 1 ++ be 4 0 ++ be 4 6 ++ be 4 4 ++ be 4 128 ++
  be 4 7 ++ be 4 4 ++ be 4 30 ++ be 4 99 ++ be 4 1 ++ [7] ++ be 4 0 ++ be 4 0 ++ be 8 181 ++ be 8 0 ++
  -- 181: hierarchy, 209: level, 233: tile
  be 4 1 ++ be 4 1 ++ be 4 4 ++ be 8 209 ++ be 8 0 ++ be 4 1 ++ be 4 1 ++ be 8 233 ++ be 8 0 ++ [0, 10, 0, 20, 0, 30, 0, 40] ++
  -- 241: layer
  be 4 2 ++ be 4 1 ++ be 4 0 ++ be 4 1 ++ [0] ++ be 4 2 ++ be 4 0 ++ be 4 0 ++ be 4 0 ++ be 8 290 ++ be 8 0 ++
  -- 290: hierarchy (with a second level), 326: level, 350: tile
  be 4 2 ++ be 4 1 ++ be 4 3 ++ be 8 326 ++ be 8 209 ++ be 8 0 ++ be 4 2 ++ be 4 1 ++ be 8 350 ++ be 8 0 ++
  [254, 1, 4, 254, 2, 5, 254, 3, 6]

def version11Layers : List Layer :=
  [⟨[97], ⟨1, 0, 2, 1⟩, Mode.multiply, false, 127, .leaf ⟨⟨0, 0, 1, 1⟩, .other, fun _ => some (.nrgba 10 20 30 40)⟩⟩,
   ⟨[], ⟨0, 0, 2, 1⟩, Mode.normal, false, 0,
     .leaf ⟨⟨0, 0, 2, 1⟩, .other, fun p => some (if p.x = 0 then .lrgb 1 2 3 else .lrgb 4 5 6)⟩⟩]

/-- RGB with and without alpha -/
def rgbBytes (α : Bool) : Color → Bytes
  | .nrgba r g b a => [r, g, b] ++ if α then [a] else []
  | .lrgb r g b => [r, g, b] ++ if α then [255] else []
  | _ => [0, 0, 0] ++ if α then [0] else []

/-- grey with and without alpha -/
def greyBytes (α : Bool) : Color → Bytes
  | .grayAlpha y a => [y] ++ if α then [a] else []
  | _ => [0] ++ if α then [0] else []

def rgbCoding : Coding := ⟨0, [], true, rgbBytes, parsesTo exEnv, exEnv.floatOpacity, fun _ => 0⟩

def greyCoding : Coding := ⟨1, [], true, greyBytes, parsesTo exEnv, exEnv.floatOpacity, fun _ => 0⟩

theorem rgbCoding_ok : rgbCoding.Ok := by
  refine ⟨by decide, ?_, by simp [rgbCoding]⟩
  intro α c
  show (rgbBytes α c).length = _
  cases α <;> cases c <;> rfl

theorem greyCoding_ok : greyCoding.Ok := by
  refine ⟨by decide, ?_, by simp [greyCoding]⟩
  intro α c
  show (greyBytes α c).length = _
  cases α <;> cases c <;> rfl

theorem encodes_one (v : UInt8) : Encodes [0, v] [v] := ⟨[.shortRun 1 v], by simp [Op.valid, Op.plain], rfl, rfl⟩

theorem encodes_two (v w : UInt8) : Encodes [254, v, w] [v, w] := ⟨[.shortLit [v, w]], by simp [Op.valid, Op.plain], rfl, rfl⟩

/-- properties that are handled -/
theorem plain_props (C : Coding) (k : UInt8) (hk : k = if C.rle then 1 else 0) (hp : C.palette = []) (ps : List (Nat × Bytes))
    (hps : ∀ p ∈ ps, p = (17, [k]) ∨ p.1 = 40 ∧ p.2.length ≤ maxString) (h : 17 ∈ ps.map (·.1)) (indexed : Bool) :
    ImageProps C (Handled indexed) ps where
  wellFormed := by
    have hk1 : k ≤ 1 := by rw [hk]; split <;> decide
    intro p hp
    rcases hps p hp with rfl | ⟨h1, h2⟩
    · exact ⟨by show 17 ≠ 0; decide, by show 17 < 2 ^ 32; decide, Payload.compression k hk1, by show 1 ≤ maxString; decide,
        by show (17 : UInt32) ∉ [18, 25, 39]; decide, fun h => absurd (show (17 : UInt32) = 1 from h) (by decide),
        fun h => absurd (show (17 : UInt32) = 21 from h) (by decide)⟩
    · rw [h1]
      exact ⟨by decide, by decide, Payload.other 40 _ (by decide) (by decide), h2, by decide, fun h => absurd h (by decide),
        fun h => absurd h (by decide)⟩
  colors := by
    intro p hp h1
    rcases hps p hp with rfl | ⟨h2, _⟩
    · cases h1
    · omega
  palette := .inr hp
  compression := by
    intro p hp h1
    rcases hps p hp with rfl | ⟨h2, _⟩
    · rw [hk]
    · omega
  compressed := .inl h

theorem version11_file : FileIn (version11.take maxString) ⟨[118, 48, 49, 49], true, true⟩ rgbCoding
    (Handled (rgbCoding.typ == 2)) (fun l => l.mode != Mode.normal) ⟨0, 0, 2, 1⟩ (placed version11Layers 0 0 0 []) := by
  rw [List.take_of_length_le (by decide +kernel)]
  refine ⟨by simp [version11Layers, placed, placedIn, Mode.multiply, Mode.normal], 150, [(17, [1]), (40, [1, 2, 3])], [90, 241], [], ?_,
    by decide +kernel, ?_⟩
  · exact plain_props _ 1 rfl rfl _ (by simp [maxString]) (by simp) _
  refine .cons ?_ (.cons ?_ .nil)
  · refine ⟨[0, 0, 0, 2, 97, 0], [(15, int 1 ++ int 0), (6, num 128), (7, num 30), (99, [7])], 181, 0, .inl rfl, ?_, by decide +kernel, ?_⟩
    · refine ⟨by decide, ⟨[], ?_, by simp, by simp, .inl ⟨rfl, rfl⟩⟩, .inl (by decide), .inr rfl, .inl (by decide), .inl (by decide),
        .inr (by decide), .inr rfl⟩
      intro p hp
      simp only [List.mem_cons, List.not_mem_nil, or_false] at hp
      rcases hp with rfl | rfl | rfl | rfl
      · exact .offsets
      · exact .opacity
      · exact .mode 30 rfl
      · exact .other 99 _ (by decide) (by decide)
    · refine ⟨⟨⟨0, 0, 1, 1⟩, rfl, 209, [233], [], by decide +kernel, by decide +kernel, ?_⟩, rfl⟩
      refine .cons ?_ .nil
      refine ⟨[[10, 20, 30, 40]], ⟨[[0, 10], [0, 20], [0, 30], [0, 40]], rfl, by decide +kernel, ?_⟩, .cons ⟨0, 0, .nrgba 10 20 30 40, rfl, rfl⟩ .nil⟩
      intro k hk
      have : k = 0 ∨ k = 1 ∨ k = 2 ∨ k = 3 := by have h : k < 4 := hk; omega
      rcases this with rfl | rfl | rfl | rfl <;> exact encodes_one _
  · refine ⟨[0, 0, 0, 1, 0], [(2, [])], 290, 0, .inl rfl, ?_, by decide +kernel, ?_⟩
    · refine ⟨by decide, ⟨[], ?_, by simp, by simp, .inl ⟨rfl, rfl⟩⟩, .inr (.inr rfl), .inr rfl, .inr ⟨rfl, rfl⟩, .inr rfl,
        .inr (by decide), .inr rfl⟩
      intro p hp
      simp only [List.mem_cons, List.not_mem_nil, or_false] at hp
      subst hp
      exact .active
    · refine ⟨⟨⟨0, 0, 2, 1⟩, rfl, 326, [350], [209], by decide +kernel, by decide +kernel, ?_⟩, rfl⟩
      refine .cons ?_ .nil
      refine ⟨[[1, 2, 3], [4, 5, 6]], ⟨[[254, 1, 4], [254, 2, 5], [254, 3, 6]], rfl, by decide +kernel, ?_⟩,
        .cons ⟨0, 0, .lrgb 1 2 3, rfl, rfl⟩ (.cons ⟨0, 0, .lrgb 4 5 6, rfl, rfl⟩ .nil)⟩
      intro k hk
      have : k = 0 ∨ k = 1 ∨ k = 2 := by have h : k < 3 := hk; omega
      rcases this with rfl | rfl | rfl <;> exact encodes_two _ _

/-- the hypotheses of C89 hold for a file of version 11 with an opaque background -/
example (decompress : Bool) : ∃ g', decodeImage exEnv exSched decompress version11 = .ok (.ok g') ∧
    SameTree (rgbCoding.ImgRead fun l => l.mode != Mode.normal) id version11Layers g' := by
  refine C89_partial exEnv exSched ⟨fun _ => List.Perm.refl _, fun _ => List.Perm.refl _⟩ decompress version11 _ (by simp [allVersions]) rgbCoding rgbCoding_ok rfl rfl rfl _ _
    ⟨0, 0, 2, 1⟩ version11_file (by decide) (by decide) ?_ (.inr ?_) (.inl rfl) ?_
  · intro r hr
    simp only [version11Layers, placed, placedIn, List.nil_append, List.mem_cons, List.not_mem_nil, or_false] at hr
    rcases hr with rfl | rfl
    all_goals
      refine ⟨(utf8Valid_iff _).1 (by decide), by decide, by decide, ?_, by simp [maskOf], by decide⟩
      intro _ b hb
      simp only [pixelsOf, Img.bounds, Option.some.injEq] at hb
      subst hb; decide
  · intro r hr
    simp only [version11Layers, placed, placedIn, List.nil_append, List.mem_cons, List.not_mem_nil, or_false] at hr
    rcases hr with rfl | rfl <;> exact ⟨rfl, fun h => absurd h (by decide)⟩
  · intro m hm
    have : m = Mode.normal := by simpa [version11Layers, eq_comm] using hm
    exact .inl this

/-! ### What does not hold -/

/-- A grey file (version 3) with a canvas of one pixel and two layers, the upper one with mode Multiply (3); the layers share their
pixels. -/
def greyMultiply : Bytes :=
  [103, 105, 109, 112, 32, 120, 99, 102, 32, 118, 48, 48, 51, 0] ++ be 4 1 ++ be 4 1 ++ be 4 1 ++
  be 4 17 ++ be 4 1 ++ [1] ++ be 4 0 ++ be 4 0 ++ be 4 59 ++ be 4 143 ++ be 4 0 ++ be 4 0 ++
  -- 59: layer
  be 4 1 ++ be 4 1 ++ be 4 3 ++ be 4 0 ++ be 4 7 ++ be 4 4 ++ be 4 3 ++ be 4 0 ++ be 4 0 ++ be 4 103 ++ be 4 0 ++
  -- 103: hierarchy, 123: level, 139: tile
  be 4 1 ++ be 4 1 ++ be 4 2 ++ be 4 123 ++ be 4 0 ++ be 4 1 ++ be 4 1 ++ be 4 139 ++ be 4 0 ++ [0, 100, 0, 255] ++
  -- 143: layer
  be 4 1 ++ be 4 1 ++ be 4 3 ++ be 4 0 ++ be 4 0 ++ be 4 0 ++ be 4 103 ++ be 4 0

def greyMultiplyLayers : List Layer :=
  [⟨[], ⟨0, 0, 1, 1⟩, Mode.multiply, false, 0, .leaf ⟨⟨0, 0, 1, 1⟩, .grayAlpha, fun _ => some (.grayAlpha 100 255)⟩⟩,
   ⟨[], ⟨0, 0, 1, 1⟩, Mode.normal, false, 0, .leaf ⟨⟨0, 0, 1, 1⟩, .grayAlpha, fun _ => some (.grayAlpha 100 255)⟩⟩]

theorem greyMultiply_file : FileIn (greyMultiply.take maxString) ⟨[118, 48, 48, 51], false, false⟩ greyCoding
    (Handled (greyCoding.typ == 2)) (fun _ => true) ⟨0, 0, 1, 1⟩ (placed greyMultiplyLayers 0 0 0 []) := by
  rw [List.take_of_length_le (by decide +kernel)]
  refine ⟨fun _ _ => rfl, 0, [(17, [1])], [59, 143], [], ?_, by decide +kernel, ?_⟩
  · exact plain_props _ 1 rfl rfl _ (by simp) (by simp) _
  have hpx : PixelsIn greyMultiply ⟨[118, 48, 48, 51], false, false⟩ true 103 ⟨0, 0, 1, 1⟩ 2
      (greyCoding.Shown true (.leaf ⟨⟨0, 0, 1, 1⟩, .grayAlpha, fun _ => some (.grayAlpha 100 255)⟩)) := by
    refine ⟨123, [139], [], by decide +kernel, by decide +kernel, .cons ?_ .nil⟩
    refine ⟨[[100, 255]], ⟨[[0, 100], [0, 255]], rfl, by decide +kernel, ?_⟩, .cons ⟨0, 0, .grayAlpha 100 255, rfl, rfl⟩ .nil⟩
    intro k hk
    have : k = 0 ∨ k = 1 := by omega
    rcases this with rfl | rfl <;> exact encodes_one _
  refine .cons ?_ (.cons ?_ .nil)
  · refine ⟨[0, 0, 0, 0], [(7, num 3)], 103, 0, .inr rfl, ?_, by decide +kernel, ⟨⟨0, 0, 1, 1⟩, rfl, hpx⟩, rfl⟩
    refine ⟨by decide, ⟨[], ?_, by simp, by simp, .inl ⟨rfl, rfl⟩⟩, .inr (.inr rfl), .inr rfl, .inr ⟨rfl, rfl⟩, .inl (by decide),
      .inr (by decide), .inr rfl⟩
    intro p hp
    simp only [List.mem_cons, List.not_mem_nil, or_false] at hp
    subst hp
    exact .mode 3 rfl
  · refine ⟨[0, 0, 0, 0], [], 103, 0, .inr rfl, ?_, by decide +kernel, ⟨⟨0, 0, 1, 1⟩, rfl, hpx⟩, rfl⟩
    exact ⟨by decide, ⟨[], by simp, by simp, by simp, .inl ⟨rfl, rfl⟩⟩, .inr (.inr rfl), .inr rfl, .inr ⟨rfl, rfl⟩, .inr rfl,
      .inr (by decide), .inr rfl⟩

/-- modes of the layers that were decoded -/
def modesRead : Outcome (Except Err (List Layer)) → Option (List Mode)
  | .ok (.ok g) => some (g.map (·.mode))
  | _ => none

/-- Modes are lost in grey files: a file with a Multiply layer above a Normal one is read as two Normal layers. -/
theorem C89_modes_refuted :
    FileIn (greyMultiply.take maxString) ⟨[118, 48, 48, 51], false, false⟩ greyCoding (Handled (greyCoding.typ == 2)) (fun _ => true)
      ⟨0, 0, 1, 1⟩ (placed greyMultiplyLayers 0 0 0 []) ∧
    (∀ r ∈ placed greyMultiplyLayers 0 0 0 [], Fits 1 1 r) ∧
    modesRead (decodeImage exEnv exSched true greyMultiply) = some [Mode.normal, Mode.normal] ∧
    ¬ ∃ g', decodeImage exEnv exSched true greyMultiply = .ok (.ok g') ∧
      SameTree (greyCoding.ImgRead fun _ => true) id greyMultiplyLayers g' := by
  have hm : modesRead (decodeImage exEnv exSched true greyMultiply) = some [Mode.normal, Mode.normal] := by decide +kernel
  refine ⟨greyMultiply_file, ?_, hm, ?_⟩
  · intro r hr
    simp only [greyMultiplyLayers, placed, placedIn, List.nil_append, List.mem_cons, List.not_mem_nil, or_false] at hr
    rcases hr with rfl | rfl
    all_goals
      refine ⟨(utf8Valid_iff _).1 (by decide), by decide, by decide, ?_, by simp [maskOf], by decide⟩
      intro _ b hb
      simp only [pixelsOf, Img.bounds, Option.some.injEq] at hb
      subst hb; decide
  · rintro ⟨g', h1, h2⟩
    rw [h1] at hm
    simp only [modesRead, Option.some.injEq] at hm
    rw [sameTree_modes _ _ h2] at hm
    revert hm
    decide

/-- A grey file (version 3) with a canvas of one pixel and a layer of 2 x 1 that begins one pixel to the left of the canvas. -/
def greyOutside : Bytes :=
  [103, 105, 109, 112, 32, 120, 99, 102, 32, 118, 48, 48, 51, 0] ++ be 4 1 ++ be 4 1 ++ be 4 1 ++
  be 4 17 ++ be 4 1 ++ [1] ++ be 4 0 ++ be 4 0 ++ be 4 55 ++ be 4 0 ++ be 4 0 ++
  -- 55: layer
  be 4 2 ++ be 4 1 ++ be 4 3 ++ be 4 0 ++ be 4 15 ++ be 4 8 ++ [255, 255, 255, 255] ++ be 4 0 ++ be 4 0 ++ be 4 0 ++
  be 4 103 ++ be 4 0 ++
  -- 103: hierarchy, 123: level, 139: tile
  be 4 2 ++ be 4 1 ++ be 4 2 ++ be 4 123 ++ be 4 0 ++ be 4 2 ++ be 4 1 ++ be 4 139 ++ be 4 0 ++ [254, 10, 20, 1, 255]

def greyOutsideLayers : List Layer :=
  [⟨[], ⟨-1, 0, 1, 1⟩, Mode.normal, false, 0,
    .leaf ⟨⟨0, 0, 2, 1⟩, .grayAlpha, fun p => some (if p.x = 0 then .grayAlpha 10 255 else .grayAlpha 20 255)⟩⟩]

theorem greyOutside_file : FileIn (greyOutside.take maxString) ⟨[118, 48, 48, 51], false, false⟩ greyCoding
    (Handled (greyCoding.typ == 2)) (fun _ => true) ⟨0, 0, 1, 1⟩ (placed greyOutsideLayers 0 0 0 []) := by
  rw [List.take_of_length_le (by decide +kernel)]
  refine ⟨fun _ _ => rfl, 0, [(17, [1])], [55], [], ?_, by decide +kernel, .cons ?_ .nil⟩
  · exact plain_props _ 1 rfl rfl _ (by simp) (by simp) _
  · refine ⟨[0, 0, 0, 0], [(15, int (-1) ++ int 0)], 103, 0, .inr rfl, ?_, by decide +kernel, ⟨⟨0, 0, 2, 1⟩, rfl, ?_⟩, rfl⟩
    · refine ⟨by decide, ⟨[], ?_, by simp, by simp, .inl ⟨rfl, rfl⟩⟩, .inr (.inr rfl), .inr rfl, .inl (by decide), .inr rfl,
        .inr (by decide), .inr rfl⟩
      intro p hp
      simp only [List.mem_cons, List.not_mem_nil, or_false] at hp
      subst hp
      exact .offsets
    · refine ⟨123, [139], [], by decide +kernel, by decide +kernel, .cons ?_ .nil⟩
      refine ⟨[[10, 255], [20, 255]], ⟨[[254, 10, 20], [1, 255]], rfl, by decide +kernel, ?_⟩,
        .cons ⟨0, 0, .grayAlpha 10 255, rfl, rfl⟩ (.cons ⟨0, 0, .grayAlpha 20 255, rfl, rfl⟩ .nil)⟩
      intro k hk
      have h2 : k < 2 := hk
      have : k = 0 ∨ k = 1 := by omega
      rcases this with rfl | rfl
      · exact encodes_two _ _
      · exact ⟨[.shortRun 2 255], by simp [Op.valid, Op.plain], rfl, rfl⟩

/-- the colour at a point of the image that was decoded -/
def colorRead (o : Outcome (Except Err (List Layer))) (p : Pt) : Option Color :=
  match o with
  | .ok (.ok g) => ((Img.group g).at (fun _ => 0) p 0).map (·.1)
  | _ => none

/-- Layers that begin outside the canvas are read wrongly: the file shows the grey 20 on its only pixel, since the 10 lies outside;
the image that is read shows 10. -/
theorem C89_outside_refuted :
    FileIn (greyOutside.take maxString) ⟨[118, 48, 48, 51], false, false⟩ greyCoding (Handled (greyCoding.typ == 2)) (fun _ => true)
      ⟨0, 0, 1, 1⟩ (placed greyOutsideLayers 0 0 0 []) ∧
    ((Img.group greyOutsideLayers).at (fun _ => 0) ⟨0, 0⟩ 0).map (·.1.rgba32) = some (Color.gray 20).rgba32 ∧
    (colorRead (decodeImage exEnv exSched true greyOutside) ⟨0, 0⟩).map (·.rgba32) = some (Color.gray 10).rgba32 :=
  ⟨greyOutside_file, by decide +kernel, by decide +kernel⟩

/-! ### Uncompressed files -/

/-- A grey file (version 3) without compression and with a canvas of 2 x 1; the layer has no alpha. -/
def greyPlain : Bytes :=
  [103, 105, 109, 112, 32, 120, 99, 102, 32, 118, 48, 48, 51, 0] ++ be 4 2 ++ be 4 1 ++ be 4 1 ++
  be 4 17 ++ be 4 1 ++ [0] ++ be 4 0 ++ be 4 0 ++ be 4 55 ++ be 4 0 ++ be 4 0 ++
  -- 55: layer
  be 4 2 ++ be 4 1 ++ be 4 2 ++ be 4 0 ++ be 4 0 ++ be 4 0 ++ be 4 87 ++ be 4 0 ++
  -- 87: hierarchy, 107: level, 123: tile
  be 4 2 ++ be 4 1 ++ be 4 1 ++ be 4 107 ++ be 4 0 ++ be 4 2 ++ be 4 1 ++ be 4 123 ++ be 4 0 ++ [10, 20]

def greyPlainLayers : List Layer :=
  [⟨[], ⟨0, 0, 2, 1⟩, Mode.normal, false, 0,
    .leaf ⟨⟨0, 0, 2, 1⟩, .gray, fun p => some (if p.x = 0 then .grayAlpha 10 255 else .grayAlpha 20 255)⟩⟩]

/-- The same with alpha: the pixels are grey 10 with alpha 255 and grey 20 with alpha 200. -/
def greyAlphaPlain : Bytes :=
  [103, 105, 109, 112, 32, 120, 99, 102, 32, 118, 48, 48, 51, 0] ++ be 4 2 ++ be 4 1 ++ be 4 1 ++
  be 4 17 ++ be 4 1 ++ [0] ++ be 4 0 ++ be 4 0 ++ be 4 55 ++ be 4 0 ++ be 4 0 ++
  -- 55: layer
  be 4 2 ++ be 4 1 ++ be 4 3 ++ be 4 0 ++ be 4 0 ++ be 4 0 ++ be 4 87 ++ be 4 0 ++
  -- 87: hierarchy, 107: level, 123: tile
  be 4 2 ++ be 4 1 ++ be 4 2 ++ be 4 107 ++ be 4 0 ++ be 4 2 ++ be 4 1 ++ be 4 123 ++ be 4 0 ++ [10, 255, 20, 200]

def greyAlphaPlainLayers : List Layer :=
  [⟨[], ⟨0, 0, 2, 1⟩, Mode.normal, false, 0,
    .leaf ⟨⟨0, 0, 2, 1⟩, .grayAlpha, fun p => some (if p.x = 0 then .grayAlpha 10 255 else .grayAlpha 20 200)⟩⟩]

def plainCoding : Coding := { greyCoding with rle := false }

theorem plainCoding_ok : plainCoding.Ok := ⟨greyCoding_ok.typ, greyCoding_ok.conv, greyCoding_ok.palette⟩

theorem greyPlain_file : FileIn (greyPlain.take maxString) ⟨[118, 48, 48, 51], false, false⟩ plainCoding
    (Handled (plainCoding.typ == 2)) (fun _ => false) ⟨0, 0, 2, 1⟩ (placed greyPlainLayers 0 0 0 []) := by
  rw [List.take_of_length_le (by decide +kernel)]
  refine ⟨by simp [greyPlainLayers, placed, placedIn], 0, [(17, [0])], [55], [], ?_, by decide +kernel, .cons ?_ .nil⟩
  · exact plain_props _ 0 rfl rfl _ (by simp) (by simp) _
  · refine ⟨[0, 0, 0, 0], [], 87, 0, .inr rfl, ?_, by decide +kernel, ⟨⟨0, 0, 2, 1⟩, rfl, ?_⟩, rfl⟩
    · exact ⟨by decide, ⟨[], by simp, by simp, by simp, .inl ⟨rfl, rfl⟩⟩, .inr (.inr rfl), .inr rfl, .inr ⟨rfl, rfl⟩, .inr rfl,
        .inr (by decide), .inr rfl⟩
    · refine ⟨107, [123], [], by decide +kernel, by decide +kernel, .cons ?_ .nil⟩
      refine ⟨[[10], [20]], (by decide +kernel : HasAt greyPlain 123 [10, 20]),
        .cons ⟨0, 0, .grayAlpha 10 255, rfl, rfl⟩ (.cons ⟨0, 0, .grayAlpha 20 255, rfl, rfl⟩ .nil)⟩

theorem greyAlphaPlain_file : FileIn (greyAlphaPlain.take maxString) ⟨[118, 48, 48, 51], false, false⟩ plainCoding
    (Handled (plainCoding.typ == 2)) (fun _ => true) ⟨0, 0, 2, 1⟩ (placed greyAlphaPlainLayers 0 0 0 []) := by
  rw [List.take_of_length_le (by decide +kernel)]
  refine ⟨by simp [greyAlphaPlainLayers, placed, placedIn], 0, [(17, [0])], [55], [], ?_, by decide +kernel, .cons ?_ .nil⟩
  · exact plain_props _ 0 rfl rfl _ (by simp) (by simp) _
  · refine ⟨[0, 0, 0, 0], [], 87, 0, .inr rfl, ?_, by decide +kernel, ⟨⟨0, 0, 2, 1⟩, rfl, ?_⟩, rfl⟩
    · exact ⟨by decide, ⟨[], by simp, by simp, by simp, .inl ⟨rfl, rfl⟩⟩, .inr (.inr rfl), .inr rfl, .inr ⟨rfl, rfl⟩, .inr rfl,
        .inr (by decide), .inr rfl⟩
    · refine ⟨107, [123], [], by decide +kernel, by decide +kernel, .cons ?_ .nil⟩
      refine ⟨[[10, 255], [20, 200]], (by decide +kernel : HasAt greyAlphaPlain 123 [10, 255, 20, 200]),
        .cons ⟨0, 0, .grayAlpha 10 255, rfl, rfl⟩ (.cons ⟨0, 0, .grayAlpha 20 200, rfl, rfl⟩ .nil)⟩

/-- the hypotheses of C90 hold for a grey file without compression -/
example (decompress : Bool) : ∃ g', decodeImage exEnv exSched decompress greyPlain = .ok (.ok g') ∧
    SameTree (plainCoding.ImgRead fun _ => false) id greyPlainLayers g' := by
  refine C90_partial exEnv exSched ⟨fun _ => List.Perm.refl _, fun _ => List.Perm.refl _⟩ decompress greyPlain _ (by simp [allVersions])
    plainCoding plainCoding_ok rfl rfl rfl _ _ ⟨0, 0, 2, 1⟩ greyPlain_file ⟨by decide, fun _ _ _ => rfl⟩ (by decide) (by decide) ?_ ?_
  · intro r hr
    simp only [greyPlainLayers, placed, placedIn, List.nil_append, List.mem_cons, List.not_mem_nil, or_false] at hr
    subst hr
    refine ⟨(utf8Valid_iff _).1 (by decide), by decide, by decide, ?_, by simp [maskOf], by decide⟩
    intro _ b hb
    simp only [pixelsOf, Img.bounds, Option.some.injEq] at hb
    subst hb; decide
  · intro r hr
    simp only [greyPlainLayers, placed, placedIn, List.nil_append, List.mem_cons, List.not_mem_nil, or_false] at hr
    subst hr; rfl

/-- Uncompressed pixels with alpha are misread: in the file the colour of the first pixel is grey 10 with alpha 255, `Decode` and
`DecodeCompressed` return alpha 20, the grey of the second pixel. -/
theorem C90_refuted :
    FileIn (greyAlphaPlain.take maxString) ⟨[118, 48, 48, 51], false, false⟩ plainCoding (Handled (plainCoding.typ == 2)) (fun _ => true)
      ⟨0, 0, 2, 1⟩ (placed greyAlphaPlainLayers 0 0 0 []) ∧
    ((Img.group greyAlphaPlainLayers).at (fun _ => 0) ⟨0, 0⟩ 0).map (·.1.rgba32) = some (Color.grayAlpha 10 255).rgba32 ∧
    ∀ decompress, (colorRead (decodeImage exEnv exSched decompress greyAlphaPlain) ⟨0, 0⟩).map (·.rgba32) =
      some (Color.grayAlpha 10 20).rgba32 :=
  ⟨greyAlphaPlain_file, by decide +kernel, by decide +kernel⟩

end Limage
