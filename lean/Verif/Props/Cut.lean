import Verif.Proofs.Within
import Verif.Props.RoundTrip
import Verif.Props.Truncate
import Verif.Props.Limits
/-!
# C139: a saved file that was cut off is not accepted
-/
namespace Limage
open Spec

/-- a file that ends with a layer that is not a group is not accepted without its last bytes -/
theorem cut_off (env : Env) (sch : Sched) (hv : sch.Valid) (decompress : Bool) (E : Bytes) (hE : E.length ≤ maxString) (F : Fmt)
    (hF : FmtOk F) (i : Img) (e : Nat) (hat : FileEnd E F i e)
    (hd : decompress = true ∨ ∀ r ∈ layersOf i, maskOf r.layer.image = none) {W H : Int} (hW : W ≤ 2 ^ 31) (hH : H ≤ 2 ^ 31)
    (hs : ∀ r ∈ layersOf i, Storable F (parsesTo env) W H r) (r : Placed) (hr : (layersOf i).getLast? = some r)
    (hg : isGroupLayer r.layer = false) (n : Nat) (hn : n < e) (im : List Layer) :
    decodeImage env sch decompress (E.take n) ≠ .ok (.ok im) := by
  intro h
  have hEt : E.take maxString = E := List.take_of_length_le hE
  obtain ⟨b, -, ptrs, h1, h2, h3⟩ := hat
  obtain ⟨p, hp, hlast⟩ := h3 r hr
  have h0 : HasAt E 0 fileMagic := by
    unfold fileHead at h1
    simp only [List.append_assoc] at h1
    exact (hasAt_append.1 h1).1
  have hpp : ∀ p ∈ ptrs, p ≠ 0 ∧ p < 2 ^ 32 := by
    intro p hp
    obtain ⟨x, -, hx⟩ := forall₂_right h2 hp
    exact layerAt_pos hF (by rw [hEt]; exact h0) (by rw [hEt]; exact hx)
  obtain ⟨hd', r1, g1, g2, g3⟩ := C48_no_error env sch hv decompress _ im h
  have k1 := (readHead_ext (t := E.drop n)).run _ _ _ g1 g2
  rw [newReader_ext, List.take_append_drop] at k1
  obtain ⟨r', g4⟩ := readHead_at hF (D := E) (by rw [hEt]; exact h1) hpp
  rw [k1] at g4
  injection g4 with g4
  injection g4 with g4 _
  injection g4 with g4
  subst g4
  have hpm : p ∈ ptrs := List.mem_of_getLast? hp
  obtain ⟨l, r2, e1, e2⟩ := g3 _ (List.mem_map_of_mem hpm)
  have hin : l.group = false → r2.pos ≤ n := by
    intro hl
    have hdat := (((goto_ext (t := []) _).bind fun _ => readLayer_ext _).keeps _ _ _ e1).1
    obtain ⟨_, r3, -, e1⟩ := M.bind_inv e1
    have := readLayer_within (by
      show (UInt32.ofNat F.typ).toNat < 3
      rcases hF.kind with ⟨h, _⟩ | ⟨h, _⟩ | ⟨h, _⟩ <;> rw [h] <;> decide) e1 e2 hl
    unfold R.inside at this
    rw [hdat] at this
    exact Nat.le_trans this (by simp only [newReader, List.length_take]; omega)
  have k2 := ((goto_ext (t := E.drop n) _).bind fun _ => readLayer_ext _).run _ _ _ e1 e2
  rw [newReader_ext, List.take_append_drop, M.bind_ok (goto_any (D := E) (hpp p hpm).2 rfl rfl rfl)] at k2
  have hrm : r ∈ layersOf i := List.mem_of_getLast? hr
  have hdr : decompress = true ∨ maskOf r.layer.image = none := hd.imp id fun h => h r hrm
  have hend := readLayer_end hF (by decide : (1 : UInt8) ≠ 0) rfl rfl rfl hW hH (by rw [hEt]; exact h0) hdr hg (by rw [hEt]; exact hlast) (hs r hrm) _ _ k2 e2
  obtain ⟨l', r4, q1, -, q2⟩ := readLayer_at (D := E) (c := Head.ctx ⟨0, u32 b.dx, u32 b.dy, UInt32.ofNat F.typ, ⟨paletteBack F, 1⟩,
    ptrs.map fun p => (UInt32.ofNat p).toUInt64⟩ env decompress) hF (by decide : (1 : UInt8) ≠ 0) rfl rfl rfl (Parses := parsesTo env) (fun _ _ h => h) hW hH
    (by rw [hEt]; exact h0) hdr (by rw [hEt]; exact hlast.at) (hs r hrm)
  rw [k2] at q1
  injection q1 with q1
  injection q1 with q1 _
  subst q1
  have hle := hin (q2.group.trans hg)
  have : r2.pos = e := hend
  omega

/-- C139 (the part that holds).  The file of a picture of storable layers whose last layer is not a group is not accepted if any
bytes are missing at its end, whether the pixels are decompressed at once or later.
Full statement: the same for every picture; `C139_group_refuted` shows a picture that ends with a group, after whose description
nothing is read. -/
theorem C139_cut_partial (wenv : WEnv) (env : Env) (sch : Sched) (hv : sch.Valid) (decompress : Bool) (g : List Layer)
    (hi : Encodable (.group g)) (l : List WCall) (h : runEncode wenv (.group g) = some (l, none)) (D : Bytes)
    (size : Nat) (hsz : ExactlyOnce l size) (hmax : size ≤ maxString)
    (cm : ColorModel) (hcm : (Img.group g).colorModel = some cm)
    (hd : decompress = true ∨ ∀ r ∈ placed g 0 0 0 [], maskOf r.layer.image = none)
    (hx : (groupBounds g).dx ≤ 2 ^ 31) (hy : (groupBounds g).dy ≤ 2 ^ 31)
    (hs : ∀ r ∈ placed g 0 0 0 [], Storable (fmtOf wenv cm) (parsesTo env) (groupBounds g).dx (groupBounds g).dy r)
    (r : Placed) (hr : (placed g 0 0 0 []).getLast? = some r) (hg : isGroupLayer r.layer = false) (n : Nat) (hn : n < size)
    (im : List Layer) : decodeImage env sch decompress ((store D l).take n) ≠ .ok (.ok im) := by
  obtain ⟨size', s, h', hs', hm⟩ := runEncode_made hi h D
  obtain ⟨cm', h1, h2⟩ := encode_at _ hi s l h' hm
  rw [hcm] at h1
  cases h1
  have hpos : size = s.pos := by
    obtain ⟨s1, h1, he⟩ := runEncode_some h
    rw [h1] at h'
    cases h'
    have ok : AllOk l := by
      intro c hc
      apply Classical.byContradiction
      intro hf
      exact (WRuns.encode _ _ _ _ _ _ h1).err.2 (.inr ⟨c, hc, hf⟩) he
    have c := Seqs.encode _ hi _ _ _ _ _ h1 rfl ok
    have : ExactlyOnce l s.pos := by
      intro x
      rw [c.once, ind]
      simp [WS.start]
    exact hsz.unique this
  rw [hs'.unique hsz] at h2
  have := cut_off env sch hv decompress ((store D l).take size) (by rw [List.length_take]; omega) _ (fmtOk_fmtOf wenv cm) _ _ h2 hd hx hy hs r hr hg
    n (by omega) im
  rwa [List.take_take, Nat.min_eq_left (by omega)] at this

/-- `C139_cut_partial` can be used for a picture with a group, a mask and a hidden layer -/
example : ∃ l size r, Encodable (.group sampleLayers) ∧ runEncode goodSink (.group sampleLayers) = some (l, none) ∧ ExactlyOnce l size ∧
    size ≤ maxString ∧ (Img.group sampleLayers).colorModel = some .other ∧ (groupBounds sampleLayers).dx ≤ 2 ^ 31 ∧
    (groupBounds sampleLayers).dy ≤ 2 ^ 31 ∧
    (∀ r ∈ placed sampleLayers 0 0 0 [], Storable (fmtOf goodSink .other) (parsesTo exEnv) (groupBounds sampleLayers).dx (groupBounds sampleLayers).dy r) ∧
    (placed sampleLayers 0 0 0 []).getLast? = some r ∧ isGroupLayer r.layer = false ∧ 0 < size ∧ exSched.Valid := by
  obtain ⟨l, size, h1, h2, h3⟩ := encodes_small (.group sampleLayers) samplePicture_whole samplePicture_encodable goodSink
    (fun _ _ _ _ _ _ => rfl) (fun _ => rfl) sample_model (by decide +kernel)
  refine ⟨l, size, _, samplePicture_encodable, h1, h2, h3, sample_model, by rw [sample_bounds]; decide, by rw [sample_bounds]; decide, ?_, rfl, rfl, ?_,
    ⟨fun _ => List.Perm.refl _, fun _ => List.Perm.refl _⟩⟩
  · rw [sample_bounds]; exact sample_storable _ _
  · have hk : ∀ x, runEncode goodSink (.group sampleLayers) = some x → writesTo x.1 0 = 1 := by
      have : (runEncode goodSink (.group sampleLayers)).all fun x => writesTo x.1 0 == 1 := by decide +kernel
      intro x hx
      rw [hx] at this
      simpa using this
    have := hk _ h1
    rw [h2 0] at this
    split at this
    · assumption
    · cases this

/-- a point and, below it, a group without layers -/
def endsInGroup : List Layer :=
  [⟨[80], ⟨0, 0, 1, 1⟩, Mode.normal, false, 0, .leaf ⟨⟨0, 0, 1, 1⟩, .other, fun _ => some (.nrgba 1 2 3 4)⟩⟩,
   ⟨[71], ⟨0, 0, 1, 1⟩, Mode.normal, false, 0, .group []⟩]

theorem endsInGroup_encodable : Encodable (.group endsInGroup) := by
  refine ⟨?_, by decide⟩
  simp only [endsInGroup, EveryLayer, EveryIn, LayerSizeOk, pixelsOf, maskOf, SizeOk, Img.bounds, Option.some.injEq,
    forall_eq', reduceCtorEq, false_implies, implies_true, and_true]
  decide

/-- C139, what is not so: of the file of a picture that ends with a group the last bytes, which hold the pixels written for the
group, may be missing. -/
theorem C139_group_refuted : ∃ l size n im, Encodable (.group endsInGroup) ∧ runEncode goodSink (.group endsInGroup) = some (l, none) ∧
    ExactlyOnce l size ∧ n < size ∧ decodeImage exEnv exSched true ((store [] l).take n) = .ok (.ok im) := by
  have key : (match runEncode goodSink (.group endsInGroup) with
      | some (l, none) => writesTo l 314 == 1 && (decodeImage exEnv exSched true ((store [] l).take 283)).isImage
      | _ => false) = true := by decide +kernel
  cases h : runEncode goodSink (.group endsInGroup) with
  | none => rw [h] at key; cases key
  | some x =>
    obtain ⟨l, e⟩ := x
    rw [h] at key
    cases e with
    | some e => cases key
    | none =>
      dsimp only at key
      rw [Bool.and_eq_true, beq_iff_eq] at key
      obtain ⟨size, hsz⟩ := C34_once _ _ endsInGroup_encodable l h
      have hlt : 314 < size := by
        have := key.1
        rw [hsz 314] at this
        split at this
        · assumption
        · cases this
      cases hd : decodeImage exEnv exSched true ((store [] l).take 283) with
      | panic => rw [hd] at key; cases key.2
      | hang => rw [hd] at key; cases key.2
      | ok y =>
        rw [hd] at key
        cases y with
        | error e => cases key.2
        | ok im => exact ⟨l, size, 283, im, endsInGroup_encodable, rfl, hsz, by omega, hd⟩

end Limage
