import Verif.Proofs.EncodeTotal
/-!
# C34, C35: the writes of the XCF encoder
-/
namespace Limage
open Spec

/-- the whole of `Encode` -/
theorem runEncode_some {env : WEnv} {i : Img} {l : List WCall} {e : Option Nat} (h : runEncode env i = some (l, e)) :
    ∃ s, encode i env WS.start = some ((), s, l) ∧ s.err = e := by
  unfold runEncode at h
  cases hs : encode i env WS.start with
  | none => rw [hs] at h; cases h
  | some x =>
    obtain ⟨_, s, l'⟩ := x
    rw [hs] at h
    cases h
    exact ⟨s, rfl, rfl⟩

/-- a small picture: a group with a translucent layer, over a layer with a mask -/
def samplePicture : Img :=
  let plain : Img := .leaf ⟨⟨0, 0, 2, 1⟩, .other, fun p => some (.nrgba (UInt8.ofNat p.x.toNat) 2 3 200)⟩
  let wide : Img := .leaf ⟨⟨0, 0, 1, 2⟩, .other, fun _ => some (.nrgba 9 8 7 255)⟩
  let mask : GrayImg := ⟨⟨0, 0, 1, 2⟩, fun p => UInt8.ofNat p.x.toNat⟩
  .group [⟨[71], ⟨1, 1, 3, 2⟩, Mode.normal, false, 0, .group [⟨[76, 97], ⟨0, 0, 2, 1⟩, Mode.multiply, false, 20, plain⟩]⟩,
    ⟨[], ⟨0, 0, 1, 2⟩, Mode.normal, true, 0, .masked wide (some mask)⟩]

/-- a writer that always succeeds -/
def goodSink : WEnv := ⟨fun _ => none, fun _ => 0, fun _ _ _ => some []⟩

theorem samplePicture_encodable : Encodable samplePicture := by
  refine ⟨?_, by decide⟩
  simp only [EveryLayer, EveryIn, LayerSizeOk, pixelsOf, maskOf, SizeOk, Img.bounds, Option.some.injEq,
    forall_eq', reduceCtorEq, false_implies, implies_true, and_true]
  decide

theorem samplePicture_whole : Whole samplePicture :=
  ⟨⟨fun _ => rfl, trivial⟩, ⟨fun _ => rfl, rfl⟩, trivial⟩

/-- C74.  `Encode` of an image without missing parts does not panic, whatever the writer does, provided that the text
parasites of its text layers can be made (for which texts they can is C55). -/
theorem C74_encode_total (env : WEnv) (i : Img) (hi : Whole i) (ht : TextsFit env i) :
    ∃ l e, runEncode env i = some (l, e) := by
  obtain ⟨h1, h2, -⟩ := whole_at i hi
  have hg : ImgGoes env i := by
    match i, hi with
    | .group g, h => exact goes_texts env g h 0 0 0 [] ht
    | .leaf _, h | .text _ _, h | .masked _ _, h => exact goes_text env ⟨[], Rect.zero, 0, false, 0, _⟩ h (ht _ (List.mem_singleton.2 rfl))
  have := Goes.encode i h1 h2 hg WS.start
  obtain ⟨⟨_, s, l⟩, hs⟩ := Option.isSome_iff_exists.1 this
  exact ⟨l, s.err, by unfold runEncode; rw [hs]⟩

/-- C74.  With a writer that does not fail, it succeeds. -/
theorem C74_encode_succeeds (env : WEnv) (i : Img) (hi : Whole i) (ht : TextsFit env i)
    (hs : ∀ k, env.sink k = none) : ∃ l, runEncode env i = some (l, none) := by
  obtain ⟨l, e, h⟩ := C74_encode_total env i hi ht
  obtain ⟨s, h', he⟩ := runEncode_some h
  have r := WRuns.encode i _ _ _ _ _ h'
  cases e with
  | none => exact ⟨l, h⟩
  | some k =>
    rcases r.src k he with ⟨h1, -⟩ | h1
    · exact absurd (hs k) h1
    · cases h1

/-- the picture above and a writer that never fails -/
example : Whole samplePicture ∧ TextsFit goodSink samplePicture ∧ ∀ k, goodSink.sink k = none :=
  ⟨samplePicture_whole, fun _ _ _ _ _ _ => rfl, fun _ => rfl⟩

/-- C34.  The `WriteAt` calls of an `Encode` that reports success write every byte of the range [0, size) once, and
no other byte. -/
theorem C34_once (env : WEnv) (i : Img) (hi : Encodable i) (l : List WCall) (h : runEncode env i = some (l, none)) :
    ∃ size, ExactlyOnce l size := by
  obtain ⟨s, h, he⟩ := runEncode_some h
  have ok : AllOk l := by
    intro c hc
    apply Classical.byContradiction
    intro hf
    exact (WRuns.encode i _ _ _ _ _ h).err.2 (.inr ⟨c, hc, hf⟩) he
  have c := Seqs.encode i hi _ _ _ _ _ h rfl ok
  refine ⟨s.pos, fun x => ?_⟩
  rw [c.once, ind]
  simp [WS.start]

/-- the hypotheses of C34 and C74 hold for a concrete picture -/
example : Encodable samplePicture ∧ ∃ l, runEncode goodSink samplePicture = some (l, none) :=
  ⟨samplePicture_encodable, C74_encode_succeeds _ _ samplePicture_whole (fun _ _ _ _ _ _ => rfl) fun _ => rfl⟩

/-- C34.  The result depends neither on what was in the file before, nor on the order in which the writes are carried
out: those `size` bytes are the same, and whatever was beyond them is unchanged. -/
theorem C34_contents (env : WEnv) (i : Img) (hi : Encodable i) (l : List WCall) (h : runEncode env i = some (l, none)) :
    ∃ size, ∀ (D D' : Bytes) (l1 l2 : List WCall), l1.Perm l → l2.Perm l →
      (store D l1).take size = (store D' l2).take size ∧ size ≤ (store D l1).length ∧
        ∀ x, size ≤ x → x < D.length → (store D l1)[x]? = D[x]? := by
  obtain ⟨size, hs⟩ := C34_once env i hi l h
  refine ⟨size, fun D D' l1 l2 h1 h2 => ⟨(hs.take h1 D []).trans (hs.take h2 D' []).symm, ?_, ?_⟩⟩
  · have hs1 : ExactlyOnce l1 size := fun x => (writesTo_perm h1 x).trans (hs x)
    exact hs1.length_ge D
  · intro x hx hD
    exact store_get_out l1 x D (by rw [writesTo_perm h1, hs, if_neg (by omega)]) hD

/-- the writes in the opposite order, to a file that has other bytes -/
example : ∃ l, runEncode goodSink samplePicture = some (l, none) ∧ l.reverse.Perm l ∧
    ∃ size, (store [1, 2, 3] l.reverse).take size = (store [] l).take size := by
  obtain ⟨l, h⟩ := C74_encode_succeeds goodSink samplePicture samplePicture_whole (fun _ _ _ _ _ _ => rfl) fun _ => rfl
  obtain ⟨size, hs⟩ := C34_contents _ _ samplePicture_encodable l h
  exact ⟨l, h, List.reverse_perm l, size, (hs _ _ _ _ (List.reverse_perm l) (.refl l)).1⟩

/-- C35.  `Encode` returns nil if and only if every `WriteAt` call it made succeeded; an error it returns is that of one
of its calls; and once a call failed, no further sequential write is attempted — for every image (even one with
malformed rectangles) and every behaviour of the writer. -/
theorem C35_errors (env : WEnv) (i : Img) (l : List WCall) (e : Option Nat) (h : runEncode env i = some (l, e)) :
    (e = none ↔ ∀ c ∈ l, c.failed = none) ∧
    (∀ k, e = some k → ∃ c, l[k]? = some c ∧ c.failed ≠ none) ∧
    ∀ (l1 l2 : List WCall) (c : WCall), l = l1 ++ c :: l2 → c.failed ≠ none → ∀ d ∈ l2, d.seq = false := by
  obtain ⟨s, h, he⟩ := runEncode_some h
  have r := WRuns.encode i _ _ _ _ _ h
  subst he
  refine ⟨⟨?_, ?_⟩, ?_, ?_⟩
  · intro he c hc
    apply Classical.byContradiction
    intro hf
    exact r.err.2 (.inr ⟨c, hc, hf⟩) he
  · intro ha
    apply Classical.byContradiction
    intro he
    rcases r.err.1 he with h | ⟨c, hc, hf⟩
    · exact h rfl
    · exact hf (ha c hc)
  · intro k hk
    rcases r.src k hk with ⟨h1, h2⟩ | h1
    · have hc := r.calls
      simp only [WS.start, Nat.zero_add] at hc
      rw [hc] at h2
      refine ⟨l[k], List.getElem?_eq_getElem h2, ?_⟩
      rw [r.mark k h2]
      simpa [WS.start] using h1
    · cases h1
  · rintro l1 l2 c rfl hf d hd
    have hp := r.pair
    rw [List.pairwise_append] at hp
    exact List.rel_of_pairwise_cons hp.2.1 hd hf

/-- a writer whose calls fail from the third on, after one byte -/
def badSink : WEnv := { goodSink with sink := fun k => if k < 2 then none else some 1 }

/-- the hypotheses of C35 hold for a failing writer -/
example : ∃ l e, runEncode badSink samplePicture = some (l, e) :=
  C74_encode_total _ _ samplePicture_whole fun _ _ _ _ _ _ => rfl

end Limage
