import Verif.Proofs.RleShort
import Verif.Props.Inside
import Verif.Props.Files
/-!
# C140: pixels are compressed well
-/
namespace Limage
open Spec

namespace Spec
/-- all points of the image have the same colour -/
def Flat (i : Img) : Prop :=
  ∃ c, ∀ b, i.bounds = some b → ∀ ρ p n c' n', inRect b p → i.at ρ p n = some (c', n') → c' = c

open Classical in
/-- bytes for the pixels of an image: as for C106, but 4 bytes per channel and tile if it is flat -/
noncomputable def tightPixels (bpp : Nat) (i : Img) : Nat :=
  match i.bounds with
  | none => 0
  | some b => 32 + tilesAlong b.dx * tilesAlong b.dy * (4 + (if Flat i then 4 else 4130) * bpp)

/-- bytes for a mask -/
noncomputable def tightMask : Option GrayImg → Nat
  | none => 0
  | some m => 25 + tightPixels 1 m.img

/-- bytes for a layer and its pointer -/
noncomputable def tightLayer (F : Fmt) (r : Placed) : Nat :=
  160 + r.layer.name.length + 4 * r.path.length + textBytes F r.layer + tightPixels F.bpp (pixelsOf r.layer.image) + tightMask (maskOf r.layer.image)
end Spec

/-- **C140**: what `WriteRLE` writes for any bytes is at most twice as long as any other way to write them in the format. -/
theorem C140_best (data : Bytes) : ∃ ws, writeRLE data = some ws ∧ ∀ code, Encodes code data → ws.flatten.length ≤ 2 * code.length := by
  obtain ⟨ws, h, -⟩ := writeRLE_spec data
  refine ⟨ws, h, fun code hc => ?_⟩
  have h1 := writeRLE_short data ws h
  have h2 := runWeight_code hc
  omega

example : Encodes [4, 7, 254, 1, 2] [7, 7, 7, 7, 7, 1, 2] :=
  ⟨[.shortRun 5 7, .shortLit [1, 2]], by simp [Op.valid, Op.plain], rfl, rfl⟩

/-- **C140**: and at most four bytes for every run of equal bytes, however long the runs are. -/
theorem C140_runs (data : Bytes) (runs : List (Nat × UInt8)) (h : data = runs.flatMap fun r => List.replicate r.1 r.2) :
    ∃ ws, writeRLE data = some ws ∧ ws.flatten.length ≤ 4 * runs.length := by
  obtain ⟨ws, hw, -⟩ := writeRLE_spec data
  refine ⟨ws, hw, ?_⟩
  have h1 := writeRLE_short data ws hw
  have h2 : runWeight data ≤ 2 * runs.length := by
    subst h
    clear h1 hw
    induction runs with
    | nil => exact Nat.le_refl _
    | cons r rs ih =>
      rw [List.flatMap_cons, List.length_cons]
      have := runWeight_append_le (List.replicate r.1 r.2) (rs.flatMap fun r => List.replicate r.1 r.2)
      rw [runWeight_replicate] at this
      omega
  omega

-- a row of three colours
example : List.replicate 1000 7 ++ List.replicate 2 8 ++ List.replicate 500 (9 : UInt8) =
    [(1000, 7), (2, 8), (500, 9)].flatMap fun r : Nat × UInt8 => List.replicate r.1 r.2 := by
  rw [List.flatMap_cons, List.flatMap_cons, List.flatMap_cons, List.flatMap_nil, List.append_nil, List.append_assoc]

/-! ### Files -/

variable {env : WEnv}

theorem AtMost.flatRle (n : Nat) (v : UInt8) : AtMost env (encodeRLE (List.replicate n v)) 4 := by
  refine AtMost.get fun ws hw => (AtMost.all ws).mono ?_
  have := writeRLE_short _ ws hw
  rw [runWeight_replicate] at this
  omega

theorem AtMost.flatChannels (n : Nat) (px : Bytes) : ∀ k j, AtMost env (writeChannels (List.replicate n px) k j) (4 * k)
  | 0, _ => .pure _
  | k + 1, j => by
    unfold writeChannels
    rw [List.map_replicate]
    exact ((AtMost.flatRle n _).bind fun _ => AtMost.flatChannels n px k (j + 1)).mono (by omega)

theorem AtMost.flatTiles (i : Img) (f : Color → Bytes) (ch : Nat) (b : Rect) {c : Color}
    (hc : ∀ ρ p n c' n', inRect b p → i.at ρ p n = some (c', n') → c' = c) : ∀ (os : List Pt) (_ : ∀ o ∈ os, ∀ q ∈ tilePoints b o, inRect b q) (pw : PW),
    AtMost env (writeTiles i f ch b os pw) (os.length * (4 * ch))
  | [], _, _ => (AtMost.pure _).mono (Nat.zero_le _)
  | o :: os, ho, pw => by
    intro s a s' l h
    unfold writeTiles at h
    wstep h as cs s1 l1 k1 h1
    obtain ⟨-, p1, -, q⟩ := pixelsAt_shows (f := f) _ _ _ _ _ h1
    have hrep : cs.map f = List.replicate (cs.map f).length (f c) := by
      rw [List.eq_replicate_iff]
      refine ⟨rfl, fun x hx => ?_⟩
      have ho := ho o (List.mem_cons_self ..)
      generalize tilePoints b o = ps at q ho
      generalize cs.map f = ys at q hx
      clear h h1 p1
      induction q with
      | nil => cases hx
      | cons h _ ih =>
        rcases List.mem_cons.1 hx with rfl | hx
        · obtain ⟨n, n', c', e, rfl⟩ := h
          rw [hc _ _ _ _ _ (ho _ (List.mem_cons_self ..)) e]
        · exact ih (fun q hq => ho q (List.mem_cons_of_mem _ hq)) hx
    rw [hrep] at h
    have := ((AtMost.pos (env := env)).bind fun p => (AtMost.pointer pw p).bind fun pw' => (AtMost.flatChannels _ _ ch 0).bind fun _ =>
      AtMost.flatTiles i f ch b hc os (fun o ho' => ho o (List.mem_cons_of_mem _ ho')) pw') _ _ _ _ h
    rw [List.length_cons, Nat.add_mul]
    omega

theorem AtMost.tightImage (i : Img) (f : Color → Bytes) (ch : Nat) (hs : ∀ b, i.bounds = some b → SizeOk b) :
    AtMost env (writeImage i f ch) (tightPixels ch i) := by
  by_cases hf : Flat i
  · obtain ⟨c, hc⟩ := hf
    refine AtMost.get fun b hb => ?_
    refine ((AtMost.u32 _).bind fun _ => (AtMost.u32 _).bind fun _ => (AtMost.u32 _).bind fun _ => AtMost.pos.bind fun _ =>
      (AtMost.u32 _).bind fun _ => (AtMost.u32 _).bind fun _ => (AtMost.u32 _).bind fun _ => (AtMost.u32 _).bind fun _ =>
      (AtMost.reserveList _).bind fun _ => AtMost.flatTiles i f ch b (hc b hb) _ (tilePoints_inside b) _).mono ?_
    rw [tiles_reserved (hs b hb)]
    have : (tileOrigins b).length = tilesAlong b.dx * tilesAlong b.dy := by
      rw [tileOrigins_eq, List.length_map]
      unfold tileList
      simp [List.length_flatMap, Nat.mul_comm]
    rw [this]
    unfold tightPixels
    rw [hb]
    dsimp only
    rw [if_pos ⟨c, hc⟩, Nat.mul_add]
    generalize tilesAlong b.dx * tilesAlong b.dy = t
    omega
  · refine (AtMost.image i f ch hs).mono ?_
    unfold tightPixels pixelBytes
    cases i.bounds with
    | none => exact Nat.le_refl _
    | some b => dsimp only; rw [if_neg hf]

theorem AtMost.tightChannel (m : GrayImg) (hs : SizeOk m.rect) : AtMost env (writeChannel m) (tightMask (some m)) := by
  refine ((AtMost.u32 _).bind fun _ => (AtMost.u32 _).bind fun _ => (AtMost.string _).bind fun _ => (AtMost.u32 _).bind fun _ =>
    (AtMost.u32 _).bind fun _ => AtMost.pos.bind fun _ => (AtMost.u32 _).bind fun _ =>
    AtMost.tightImage m.img grayToBuf 1 (fun b hb => by cases hb; exact hs)).mono ?_
  unfold tightMask
  simp only [List.length_nil]
  omega

theorem costs_tight (env : WEnv) (cm : ColorModel) :
    Costs env cm fun l => 8 + tightPixels (encFor cm).channels (pixelsOf l.image) + tightMask (maskOf l.image) := by
  intro l hl
  have hm : ∀ pw, AtMost env (writeMask (maskOf l.image) pw) (tightMask (maskOf l.image)) := by
    intro pw
    have hs := hl.2
    unfold writeMask
    cases hmm : maskOf l.image with
    | none => exact ((AtMost.pointer _ _).bind fun _ => AtMost.pure _).mono (Nat.zero_le _)
    | some m => exact (AtMost.pos.bind fun _ => (AtMost.pointer _ _).bind fun _ => AtMost.tightChannel m (hs m hmm)).mono (by omega)
  unfold writeLayerData
  exact ((AtMost.reserve _).bind fun _ => AtMost.pos.bind fun _ => (AtMost.pointer _ _).bind fun _ => (AtMost.tightImage _ _ _ hl.1).bind fun _ =>
    hm _).mono (by show 4 * 2 + _ ≤ 8 + tightPixels (encFor cm).channels (pixelsOf l.image) + tightMask (maskOf l.image); omega)

/-- **C140**: a file is no larger than C106 says, where for every tile of a layer, of a group or of a mask that is all of one colour four bytes per
channel and four for the pointer are enough. -/
theorem C140_file (env : WEnv) (i : Img) (hi : Encodable i) (cm : ColorModel) (hcm : i.colorModel = some cm)
    (l : List WCall) (h : runEncode env i = some (l, none)) (size : Nat) (hsz : ExactlyOnce l size) :
    size ≤ 80 + 3 * ((fmtOf env cm).palette.getD []).length + ((layersOf i).map (tightLayer (fmtOf env cm))).sum := by
  obtain ⟨s, h', he⟩ := runEncode_some h
  have ok : AllOk l := by
    intro c hc
    apply Classical.byContradiction
    intro hf
    exact (WRuns.encode i _ _ _ _ _ h').err.2 (.inr ⟨c, hc, hf⟩) he
  have c := Seqs.encode i hi _ _ _ _ _ h' rfl ok
  have : ExactlyOnce l s.pos := by
    intro x
    rw [c.once, ind]
    simp [WS.start]
  rw [hsz.unique this]
  refine Nat.le_trans (encode_bytes_by i hi h' hcm (costs_tight env cm)) (Nat.le_of_eq ?_)
  congr 3
  funext r
  unfold layerBytesBy tightLayer
  show _ = 160 + r.layer.name.length + 4 * r.path.length + textBytes (fmtOf env cm) r.layer +
    tightPixels (encFor cm).channels (pixelsOf r.layer.image) + tightMask (maskOf r.layer.image)
  dsimp only
  omega

example : Encodable samplePicture ∧ samplePicture.colorModel = some .other ∧
    ∃ l size, runEncode goodSink samplePicture = some (l, none) ∧ ExactlyOnce l size := by
  obtain ⟨l, size, h1, h2, -⟩ := encodes_small (.group sampleLayers) samplePicture_whole samplePicture_encodable goodSink
    (fun _ _ _ _ _ _ => rfl) (fun _ => rfl) sample_model (by decide +kernel)
  exact ⟨samplePicture_encodable, rfl, l, size, h1, h2⟩

/-- **C140**: a layer of one colour of `w` by `h` points takes 20 bytes per tile of 64 by 64. -/
theorem C140_single (env : WEnv) (L : Layer) (leaf : Leaf) (hL : L.image = .leaf leaf) (w h : Nat) (hb : leaf.bounds = ⟨0, 0, w, h⟩)
    (col : Color) (hcol : ∀ p, leaf.pixel p = some col) (hi : Encodable (.group [L]))
    (cm : ColorModel) (hcm : (Img.group [L]).colorModel = some cm) (hp : ((fmtOf env cm).palette.getD []).length ≤ 256)
    (l : List WCall) (hl : runEncode env (.group [L]) = some (l, none)) (size : Nat) (hsz : ExactlyOnce l size) :
    size ≤ 1044 + L.name.length + 20 * (((w + 63) / 64) * ((h + 63) / 64)) := by
  refine Nat.le_trans (C140_file env _ hi cm hcm l hl size hsz) ?_
  have hbpp := bpp_le env cm
  obtain ⟨name, b, m, v, t, image⟩ := L
  cases hL
  have ht : ∀ n : Nat, tilesAlong ((n : Int) - 0) = (n + 63) / 64 := by
    intro n
    unfold tilesAlong
    omega
  have hflat : Flat (.leaf leaf) := by
    refine ⟨col, fun b hb ρ p n c' n' _ e => ?_⟩
    unfold Img.at at e
    rw [hcol] at e
    cases e; rfl
  have hpx : tightPixels (fmtOf env cm).bpp (.leaf leaf) = 32 + (w + 63) / 64 * ((h + 63) / 64) * (4 + 4 * (fmtOf env cm).bpp) := by
    unfold tightPixels
    rw [if_pos hflat]
    simp only [Img.bounds, hb, Rect.dx, Rect.dy, ht]
  simp only [layersOf, placed, placedIn, List.nil_append, List.append_nil, List.map_cons, List.map_nil, List.sum_cons, List.sum_nil,
    tightLayer, textBytes, textOf, pixelsOf, maskOf, tightMask, List.length_cons, List.length_nil]
  rw [hpx]
  have : (w + 63) / 64 * ((h + 63) / 64) * (4 + 4 * (fmtOf env cm).bpp) ≤ (w + 63) / 64 * ((h + 63) / 64) * 20 :=
    Nat.mul_le_mul_left _ (by omega)
  omega

/-- a red layer of 10000 by 10000 points -/
def redLayer : Layer := ⟨[82], ⟨0, 0, 10000, 10000⟩, Mode.normal, false, 0, .leaf ⟨⟨0, 0, 10000, 10000⟩, .other, fun _ => some (.nrgba 255 0 0 255)⟩⟩

example : Encodable (.group [redLayer]) ∧ (Img.group [redLayer]).colorModel = some .other ∧ ((fmtOf goodSink .other).palette.getD []).length ≤ 256 ∧
    ∃ l size, runEncode goodSink (.group [redLayer]) = some (l, none) ∧ ExactlyOnce l size := by
  have hi : Encodable (.group [redLayer]) := by
    refine ⟨?_, by decide⟩
    simp only [redLayer, EveryLayer, EveryIn, LayerSizeOk, pixelsOf, maskOf, SizeOk, Img.bounds, Option.some.injEq,
      forall_eq', reduceCtorEq, false_implies, implies_true, and_true]
    decide
  have hw : Whole (.group [redLayer]) := by
    unfold Whole WholeLayers Whole WholeLayers
    exact ⟨fun p => rfl, trivial⟩
  obtain ⟨l, h⟩ := C74_encode_succeeds goodSink _ hw (fun _ _ _ _ _ _ => rfl) fun _ => rfl
  obtain ⟨size, hs⟩ := C34_once _ _ hi l h
  exact ⟨hi, rfl, by decide, l, size, h, hs⟩

end Limage
