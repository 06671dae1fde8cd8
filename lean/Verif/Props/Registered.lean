import Verif.Model.Registered
import Verif.Props.Decode
import Verif.Props.Limits
import Verif.Props.Accepted
/-!
# Decoding through the package image: C94
-/
namespace Limage

namespace Spec

/-- what is still to be read -/
def unread (s : Stream) : Bytes := s.data.drop s.pos

/-- What `image.Decode` has to do with a decoder `f`: to decode what is still to be read, if that is an XCF file. -/
def Recognises {α : Type} (f : Bytes → α) (s : Stream) (r : Found α) : Prop :=
  (magic <+: unread s → r = .decoded (f (unread s))) ∧ (¬magic <+: unread s → r = .unknownFormat)

/-- readers in which any offset can be reached, themselves or in a `bufio.Reader` -/
inductive RandomAccess : Source → Prop
  | readerAt : RandomAccess .readerAt
  | seeker (p : Int) : RandomAccess (.seeker p)
  | bufioReaderAt : RandomAccess (.bufio .readerAt)
  | bufioSeeker (p : Int) : RandomAccess (.bufio (.seeker p))

end Spec

open Spec

theorem sniffed_magic {α : Type} (f : Bytes → α) (s : Stream) (h : magic <+: unread s) : sniffed f s = withReaderAt f (asReader s.source) s.data := by
  unfold sniffed
  exact if_pos (List.prefix_iff_eq_take.1 h).symm

theorem sniffed_other {α : Type} (f : Bytes → α) (s : Stream) (h : ¬magic <+: unread s) : sniffed f s = .unknownFormat := by
  unfold sniffed
  exact if_neg fun e => h (List.prefix_iff_eq_take.2 e.symm)

theorem withReaderAt_random {α : Type} (f : Bytes → α) {r : Source} (h : RandomAccess r) (data : Bytes) :
    withReaderAt f (asReader r) data = .decoded (f data) := by
  cases h <;> rfl

/-- Full statement: `image.Decode` and `image.DecodeConfig` return for every reader what `Decode` and `DecodeConfig` return for the bytes still to be
read, if these start with the signature, and `image.ErrFormat` otherwise.  Proved for readers with random access of which nothing has been read;
false for others (`C94_position_refuted`, `C94_reader_refuted`). -/
theorem C94_partial (env : Env) (sch : Sched) (r : Source) (hr : RandomAccess r) (D : Bytes) :
    Recognises (decodeImage env sch true) ⟨r, D, 0⟩ (imageDecode env sch ⟨r, D, 0⟩) ∧
    Recognises decodeConfig ⟨r, D, 0⟩ (imageDecodeConfig ⟨r, D, 0⟩) := by
  refine ⟨⟨fun h => ?_, fun h => sniffed_other _ _ h⟩, ⟨fun h => ?_, fun h => sniffed_other _ _ h⟩⟩ <;>
  exact (sniffed_magic _ _ h).trans (withReaderAt_random _ hr _)

/-- Nothing but an XCF file is claimed: other files, from whatever reader at whatever position, are left to other formats. -/
theorem C94_others (env : Env) (sch : Sched) (s : Stream) (h : ¬magic <+: unread s) :
    imageDecode env sch s = .unknownFormat ∧ imageDecodeConfig s = .unknownFormat := ⟨sniffed_other _ _ h, sniffed_other _ _ h⟩

theorem headerOk_magic {D : Bytes} (h : HeaderOk D) : magic <+: D := by
  obtain ⟨v, _, h⟩ := h
  rw [List.append_assoc] at h
  exact (List.prefix_append _ _).trans h

/-- Every file that `Decode` or `DecodeConfig` accepts is recognised. -/
theorem C94_accepted (env : Env) (sch : Sched) (r : Source) (hr : RandomAccess r) (D : Bytes)
    (h : (∃ g, decodeImage env sch true D = .ok (.ok g)) ∨ ∃ c, decodeConfig D = .ok (c, none)) :
    imageDecode env sch ⟨r, D, 0⟩ = .decoded (decodeImage env sch true D) ∧ imageDecodeConfig ⟨r, D, 0⟩ = .decoded (decodeConfig D) := by
  have hm : magic <+: D := by
    refine headerOk_magic (Classical.byContradiction fun hn => ?_)
    obtain ⟨e, -, h1, h2⟩ := C45_rejected env sch true D hn
    rcases h with ⟨g, h⟩ | ⟨c, h⟩
    · rw [h1] at h
      cases h
    · rw [h2] at h
      cases h
  obtain ⟨h1, h2⟩ := C94_partial env sch r hr D
  exact ⟨h1.1 hm, h2.1 hm⟩

/-- a file of one grey pixel -/
def onePixelFile : Bytes := greyNoAlpha.take 43 ++ be 4 129 ++ be 4 0 ++ be 4 0 ++ be 4 0 ++ greyNoAlpha.drop 59

theorem onePixelFile_accepted : ∃ g, decodeImage exEnv exSched true onePixelFile = .ok (.ok g) := by
  have h : outline (decodeImage exEnv exSched true onePixelFile) = [(⟨0, 0, 1, 1⟩, Mode.normal)] := by decide +kernel
  generalize decodeImage exEnv exSched true onePixelFile = x at h
  match x, h with
  | .ok (.ok g), _ => exact ⟨g, rfl⟩
  | .ok (.error _), h => cases h
  | .panic, h => cases h
  | .hang, h => cases h

-- the hypotheses of the claims: an accepted file, in a bufio.Reader around a seeker, and the same file behind one byte
example : RandomAccess (.bufio (.seeker 5)) ∧ (∃ g, decodeImage exEnv exSched true onePixelFile = .ok (.ok g)) ∧
    ¬HeaderOk ([0] ++ onePixelFile) ∧ magic <+: unread ⟨.other, onePixelFile, 0⟩ := by
  refine ⟨.bufioSeeker 5, onePixelFile_accepted, fun h => ?_, ?_⟩
  · exact absurd (headerOk_magic h) (by decide +kernel)
  · exact List.prefix_iff_eq_take.2 (by decide +kernel)

/-- Every file that `Encode` has written is recognised. -/
theorem C94_encoded (env : Env) (sch : Sched) (r : Source) (hr : RandomAccess r) (wenv : WEnv) (i : Img) (hi : Encodable i) (l : List WCall)
    (h : runEncode wenv i = some (l, none)) (D : Bytes) (size : Nat) (hsz : ExactlyOnce l size) (hmax : size ≤ maxString) (cm : ColorModel)
    (hcm : i.colorModel = some cm) (b : Rect) (hb : i.bounds = some b) (hx : 0 ≤ b.dx ∧ b.dx < 2 ^ 32) (hy : 0 ≤ b.dy ∧ b.dy < 2 ^ 32) :
    imageDecode env sch ⟨r, store D l, 0⟩ = .decoded (decodeImage env sch true (store D l)) ∧
    imageDecodeConfig ⟨r, store D l, 0⟩ = .decoded (.ok (⟨b.dx.toNat, b.dy.toNat, some (modelBack cm)⟩, none)) := by
  have e := C43_encoded wenv i hi l h D size hsz hmax cm hcm b hb hx hy
  obtain ⟨h1, h2⟩ := C94_accepted env sch r hr (store D l) (.inr ⟨_, e⟩)
  exact ⟨h1, h2.trans (congrArg _ e)⟩

-- a stream of another format, and what `Encode` writes of a picture with a group and a mask
example : ¬magic <+: unread ⟨.seeker 0, [137, 80, 78, 71, 13, 10, 26, 10, 0, 0, 0, 13, 73, 72], 0⟩ ∧
    ∃ l size, Encodable (.group sampleLayers) ∧ runEncode goodSink (.group sampleLayers) = some (l, none) ∧ ExactlyOnce l size ∧ size ≤ maxString ∧
      (Img.group sampleLayers).colorModel = some .other ∧ (Img.group sampleLayers).bounds = some ⟨0, 0, 3, 2⟩ := by
  obtain ⟨l, size, h1, h2, h3⟩ := encodes_small (.group sampleLayers) samplePicture_whole samplePicture_encodable goodSink
    (fun _ _ _ _ _ _ => rfl) (fun _ => rfl) sample_model (by decide +kernel)
  exact ⟨by decide, l, size, samplePicture_encodable, h1, h2, h3, sample_model, by decide +kernel⟩

/-- C94 is false for readers of which something has been read: an accepted file behind any bytes that are not the header of one is recognised, and
then refused. -/
theorem C94_position_refuted (env : Env) (sch : Sched) (r : Source) (hr : RandomAccess r) (A B : Bytes) (g : List Layer)
    (hB : decodeImage env sch true B = .ok (.ok g)) (hA : ¬HeaderOk (A ++ B)) :
    unread ⟨r, A ++ B, A.length⟩ = B ∧ (∃ e, imageDecode env sch ⟨r, A ++ B, A.length⟩ = .decoded (.ok (.error e))) ∧
    ¬Recognises (decodeImage env sch true) ⟨r, A ++ B, A.length⟩ (imageDecode env sch ⟨r, A ++ B, A.length⟩) := by
  have hu : unread ⟨r, A ++ B, A.length⟩ = B := List.drop_left
  have hm : magic <+: unread ⟨r, A ++ B, A.length⟩ := by
    rw [hu]
    refine headerOk_magic (Classical.byContradiction fun hn => ?_)
    obtain ⟨e, -, h1, -⟩ := C45_rejected env sch true B hn
    rw [h1] at hB
    cases hB
  obtain ⟨e, -, h1, -⟩ := C45_rejected env sch true (A ++ B) hA
  have h2 : imageDecode env sch ⟨r, A ++ B, A.length⟩ = .decoded (.ok (.error e)) :=
    (sniffed_magic _ _ hm).trans ((withReaderAt_random _ hr _).trans (congrArg _ h1))
  refine ⟨hu, ⟨e, h2⟩, fun h => ?_⟩
  have h3 := h.1 hm
  rw [h2, hu, hB] at h3
  cases h3

/-- C94 is false for readers with neither `ReadAt` nor `Seek`: every file is recognised and none is decoded. -/
theorem C94_reader_refuted (env : Env) (sch : Sched) (s : Stream) (hs : s.source = .other) (hm : magic <+: unread s) :
    imageDecode env sch s = .needReaderAt ∧ imageDecodeConfig s = .needReaderAt ∧
    ¬Recognises (decodeImage env sch true) s (imageDecode env sch s) := by
  have h1 : imageDecode env sch s = .needReaderAt := by
    refine (sniffed_magic _ _ hm).trans ?_
    rw [hs]
    rfl
  refine ⟨h1, ?_, fun h => ?_⟩
  · refine (sniffed_magic _ _ hm).trans ?_
    rw [hs]
    rfl
  · have := h.1 hm
    rw [h1] at this
    cases this

end Limage
