import Verif.Props.Thumbnail
import Verif.Proofs.OraPng
/-!
# OpenRaster files after an error: C123
-/
namespace Limage
open Spec

/-! ## What is left -/

theorem leftOne_cases (env : OraEnv) (junk : Bytes) (i : Img) (n : Nat) :
    (∃ d, env.png (.full (.image i)) = .ok d ∧ leftOne env junk i n = ([.of (dataName (n + 1)) d], some (n + 1))) ∨
    ((∀ d, env.png (.full (.image i)) ≠ .ok d) ∧ leftOne env junk i n = ([.of (dataName (n + 1)) junk], none)) := by
  unfold leftOne
  split
  · next d h => exact .inl ⟨d, h, rfl⟩
  · next h => exact .inr ⟨h, rfl⟩

theorem leftOne_head (env : OraEnv) (junk : Bytes) (i : Img) (n : Nat) : ∀ f ∈ (leftOne env junk i n).1, f.name.head? = some 100 := by
  rcases leftOne_cases env junk i n with ⟨d, -, h⟩ | ⟨-, h⟩ <;>
  · rw [h]
    intro f hf
    cases List.mem_singleton.1 hf
    exact dataName_head _

mutual
theorem leftLayers_head (env : OraEnv) (junk : Bytes) (i : Img) (n : Nat) : ∀ f ∈ (leftLayers env junk i n).1, f.name.head? = some 100 := by
  match i with
  | .group g => rw [leftLayers]; exact leftGroup_head env junk g n
  | .leaf _ | .nil | .text _ _ | .masked _ _ => exact leftOne_head env junk _ n
termination_by structural i
theorem leftGroup_head (env : OraEnv) (junk : Bytes) (g : List Layer) (n : Nat) : ∀ f ∈ (leftGroup env junk g n).1, f.name.head? = some 100 := by
  match g with
  | [] => nofun
  | ⟨_, _, _, _, _, im⟩ :: rest =>
    have h1 := leftLayers_head env junk im n
    rw [leftGroup]
    match h : leftLayers env junk im n with
    | (es, none) => rw [h] at h1; exact h1
    | (es, some k) =>
      rw [h] at h1
      have h2 := leftGroup_head env junk rest k
      intro f hf
      rcases List.mem_append.1 hf with hf | hf
      · exact h1 f hf
      · exact h2 f hf
termination_by structural g
end

theorem leftOne_some {env : OraEnv} {junk : Bytes} {i : Img} {n k : Nat} (h : (leftOne env junk i n).2 = some k) :
    k = n + 1 ∧ Holds env n [i] (leftOne env junk i n).1 := by
  rcases leftOne_cases env junk i n with ⟨d, h1, h2⟩ | ⟨-, h2⟩
  · rw [h2] at h ⊢
    cases h
    exact ⟨rfl, d, [], h1, rfl, rfl⟩
  · rw [h2] at h
    cases h

mutual
theorem leftLayers_some {env : OraEnv} {junk : Bytes} (i : Img) {n k : Nat} (h : (leftLayers env junk i n).2 = some k) :
    k = n + (leaves i).length ∧ Holds env n (leaves i) (leftLayers env junk i n).1 := by
  match i with
  | .group g => rw [leaves, leftLayers]; rw [leftLayers] at h; exact leftGroup_some g h
  | .leaf _ | .nil | .text _ _ | .masked _ _ => exact leftOne_some h
termination_by structural i
theorem leftGroup_some {env : OraEnv} {junk : Bytes} (g : List Layer) {n k : Nat} (h : (leftGroup env junk g n).2 = some k) :
    k = n + (leavesAll g).length ∧ Holds env n (leavesAll g) (leftGroup env junk g n).1 := by
  match g with
  | [] => cases h; exact ⟨rfl, rfl⟩
  | ⟨_, _, _, _, _, im⟩ :: rest =>
    have h1 := @leftLayers_some env junk im n
    rw [leftGroup] at h ⊢
    match hx : leftLayers env junk im n with
    | (es, none) => rw [hx] at h; cases h
    | (es, some j) =>
      rw [hx] at h h1
      obtain ⟨e1, h1⟩ := h1 rfl
      obtain ⟨e2, h2⟩ := leftGroup_some rest h
      rw [e1] at e2 h2
      rw [leavesAll, List.length_append]
      refine ⟨by omega, ?_⟩
      rw [e1]
      exact holds_append env _ _ _ _ _ h1 h2
termination_by structural g
end

theorem leftOne_none {env : OraEnv} {junk : Bytes} {i : Img} {n : Nat} (h : (leftOne env junk i n).2 = none) : ∀ d, env.png (.full (.image i)) ≠ .ok d := by
  rcases leftOne_cases env junk i n with ⟨d, h1, h2⟩ | ⟨h1, h2⟩
  · rw [h2] at h; cases h
  · exact h1

mutual
theorem leftLayers_none {env : OraEnv} {junk : Bytes} (i : Img) {n : Nat} (h : (leftLayers env junk i n).2 = none) :
    ∃ j ∈ leaves i, ∀ d, env.png (.full (.image j)) ≠ .ok d := by
  match i with
  | .group g => rw [leaves]; rw [leftLayers] at h; exact leftGroup_none g h
  | .leaf _ | .nil | .text _ _ | .masked _ _ => exact ⟨_, List.mem_singleton_self _, leftOne_none h⟩
termination_by structural i
theorem leftGroup_none {env : OraEnv} {junk : Bytes} (g : List Layer) {n : Nat} (h : (leftGroup env junk g n).2 = none) :
    ∃ j ∈ leavesAll g, ∀ d, env.png (.full (.image j)) ≠ .ok d := by
  match g with
  | [] => cases h
  | ⟨_, _, _, _, _, im⟩ :: rest =>
    have h1 := @leftLayers_none env junk im n
    rw [leftGroup] at h
    rw [leavesAll]
    match hx : leftLayers env junk im n with
    | (es, none) =>
      rw [hx] at h1
      obtain ⟨j, hj, hd⟩ := h1 rfl
      exact ⟨j, List.mem_append_left _ hj, hd⟩
    | (es, some k) =>
      rw [hx] at h
      obtain ⟨j, hj, hd⟩ := leftGroup_none rest h
      exact ⟨j, List.mem_append_right _ hj, hd⟩
termination_by structural g
end

/-- what holds the same images is the same -/
theorem holds_unique (env : OraEnv) : ∀ (is : List Img) (n : Nat) (es fs : List ZipEntry), Holds env n is es → Holds env n is fs → es = fs
  | [], _, _, _, h1, h2 => by cases h1; cases h2; rfl
  | i :: is, n, es, fs, h1, h2 => by
    obtain ⟨d, es', hd, rfl, h1⟩ := h1
    obtain ⟨d', fs', hd', rfl, h2⟩ := h2
    rw [hd] at hd'
    cases hd'
    rw [holds_unique env is (n + 1) es' fs' h1 h2]

/-- C123: if there was no error, it is the archive `Encode` describes. -/
theorem C123_whole (env : OraEnv) (fails : Nat → Bool) (junk : Bytes) (m : OraInput) (b : Rect) (hb : m.bounds = some b) (es : List ZipEntry)
    (h : oraEncode env fails false m = .ok ⟨none, some es⟩) : oraLeft env junk m b = es := by
  obtain ⟨b', les, merged, thumb, hb', hl, h1, h2, rfl⟩ := oraEntries_ok (encode_entries h)
  rw [hb] at hb'
  cases hb'
  unfold oraLeft
  match hx : leftLayers env junk m.top 0 with
  | (es, none) =>
    obtain ⟨j, hj, hd⟩ := leftLayers_none m.top (congrArg Prod.snd hx)
    obtain ⟨d, hd'⟩ := holds_png env _ _ _ hl j hj
    exact absurd hd' (hd d)
  | (es, some k) =>
    have := (leftLayers_some m.top (congrArg Prod.snd hx)).2
    rw [hx] at this
    cases holds_unique env _ _ _ _ this hl
    unfold leftPreviews
    rw [h1]
    dsimp only
    rw [h2]

theorem getStack_none : ∀ (fs : List ZipEntry), (∀ f ∈ fs, f.name ≠ lit "stack.xml" ∧ (f.name = lit "mimetype" → checkMime f = true)) →
    getStack none fs = .err .missingStack
  | [], _ => rfl
  | f :: fs, h => by
    obtain ⟨⟨h1, h2⟩, h⟩ := List.forall_mem_cons.1 h
    rw [getStack, if_neg h1]
    split
    · next hn => rw [if_pos (h2 hn)]; exact getStack_none fs h
    · exact getStack_none fs h

/-- C123: if the image of a layer could not be stored, what is left is not taken for a picture: it is refused for its missing stack. -/
theorem C123_layer (env : OraEnv) (junk : Bytes) (m : OraInput) (b : Rect) (i : Img) (hi : i ∈ leaves m.top) (h : ∀ d, env.png (.full (.image i)) ≠ .ok d) :
    oraDecode env (oraLeft env junk m b) = .err .missingStack ∧ oraDecodeConfig env (oraLeft env junk m b) = .err .missingStack := by
  have hs : getStack none (oraLeft env junk m b) = .err .missingStack := by
    unfold oraLeft
    have hh := leftLayers_head env junk m.top 0
    match hx : leftLayers env junk m.top 0 with
    | (es, some k) =>
      obtain ⟨d, hd⟩ := holds_png env _ _ _ (leftLayers_some m.top (congrArg Prod.snd hx)).2 i hi
      exact absurd hd (h d)
    | (es, none) =>
      rw [hx] at hh
      refine getStack_none _ fun f hf => ?_
      rcases List.mem_cons.1 hf with rfl | hf
      · exact ⟨by decide, fun _ => by decide⟩
      · have := hh f hf
        exact ⟨fun he => by rw [he] at this; exact absurd this (by decide), fun he => by rw [he] at this; exact absurd this (by decide)⟩
  unfold oraDecode oraDecodeConfig oraStart
  rw [hs]
  exact ⟨rfl, rfl⟩

/-- a layer with an image that has no points -/
def halfTree : List Layer :=
  [⟨[], ⟨0, 0, 2, 1⟩, Mode.normal, false, 0, .leaf (plain 2 1 (.gray 9))⟩, ⟨[], ⟨0, 0, 2, 1⟩, Mode.normal, false, 0, .leaf (plain 0 0 (.gray 9))⟩]

/-- an archive with both layers, but no stack -/
example : oraEncode libEnv (fun _ => false) false (.image (.group halfTree)) = .ok ⟨some .size, none⟩ ∧
    (oraLeft libEnv [] (.image (.group halfTree)) ⟨0, 0, 2, 1⟩).map ZipEntry.name = [lit "mimetype", lit "data/1.png", lit "data/2.png"] ∧
    oraDecode libEnv (oraLeft libEnv [] (.image (.group halfTree)) ⟨0, 0, 2, 1⟩) = .err .missingStack :=
  ⟨rfl, rfl, (C123_layer libEnv [] _ _ (.leaf (plain 0 0 (.gray 9))) (by simp [OraInput.top, leaves, leavesAll, halfTree]) nofun).1⟩

/-- C123: if the images of all layers could be stored, what is left is the whole picture, whatever became of the previews: it is read as after a call without error. -/
theorem C123_previews {env : OraEnv} (hl : OraLib env) (junk : Bytes) (m : OraInput) (g : List Layer) (hg : m.top = .group g) (b : Rect) (hb : m.bounds = some b)
    (hm : IntSize m) (hn : NearAll g) (hr : ∀ i ∈ leavesAll g, Readably i) (h : ∀ i ∈ leavesAll g, ∃ d, env.png (.full (.image i)) = .ok d) :
    ∃ g', oraDecode env (oraLeft env junk m b) = .ok g' ∧ Back env ⟨b.dx, b.dy⟩ ⟨0, 0⟩ g g' := by
  unfold oraLeft
  match hx : leftLayers env junk m.top 0 with
  | (es, none) =>
    obtain ⟨j, hj, hd⟩ := leftLayers_none m.top (congrArg Prod.snd hx)
    rw [hg, leaves] at hj
    obtain ⟨d, hd'⟩ := h j hj
    exact absurd hd' (hd d)
  | (les, some k) =>
    have hh := (leftLayers_some m.top (congrArg Prod.snd hx)).2
    rw [hx] at hh
    replace hh : Holds env 0 (leaves m.top) les := hh
    have hpost : ∀ x ∈ leftPreviews env junk m b, x.name ≠ lit "stack.xml" ∧ x.name ≠ lit "mimetype" := by
      intro x hx
      unfold leftPreviews at hx
      split at hx
      · simp only [List.mem_cons, List.not_mem_nil, or_false] at hx
        rcases hx with rfl | rfl
        · show lit "mergedimage.png" ≠ _ ∧ lit "mergedimage.png" ≠ _; decide
        · show lit "Thumbnails/thumbnail.png" ≠ _ ∧ lit "Thumbnails/thumbnail.png" ≠ _; decide
      · cases List.mem_singleton.1 hx
        show lit "mergedimage.png" ≠ _ ∧ lit "mergedimage.png" ≠ _; decide
    generalize leftPreviews env junk m b = post at hpost
    dsimp only
    obtain ⟨ns, hd, h1⟩ := hl.xml (docOf env m b.dx b.dy) (docOf_plain ..)
    have h2 : oraDecode env (.of (lit "mimetype") oraMime :: les ++ .of (lit "stack.xml") (env.xmlWrite (stackTokens env m b.dx b.dy)) :: post) =
        decodeTokens env (.of (lit "mimetype") oraMime :: les ++ .of (lit "stack.xml") (env.xmlWrite (stackTokens env m b.dx b.dy)) :: post) (tokensAll ns) true := by
      rw [oraDecode_eq, getStack_last _ rfl post (fun x hx => (hpost x hx).1), if_pos]
      · rw [OraRes.ok_bind]
        show decodeTokens env _ (env.xmlRead (env.xmlWrite (stackTokens env m b.dx b.dy))).1 (env.xmlRead (env.xmlWrite (stackTokens env m b.dx b.dy))).2 = _
        rw [stackTokens_doc, hd]
      · unfold mimesOk
        rw [List.all_eq_true]
        intro x hx
        by_cases hn : x.name = lit "mimetype"
        · have : checkMime x = true := by
            rcases List.mem_append.1 hx with hx | hx
            · rcases List.mem_cons.1 hx with rfl | hx
              · rfl
              · have := holds_name _ _ _ _ hh x hx
                rw [hn] at this
                exact absurd this (by decide)
            · exact absurd hn (hpost x hx).2
          rw [this, Bool.or_true]
        · simp [hn]
    rw [h2]
    unfold docOf at h1
    rw [Node.cleaned, cleanedAll, cleanedAll, hg, nodeOf, Node.cleaned] at h1
    obtain ⟨pre, kids, pst, h3, h4, h5, -⟩ := stripAll_one h1
    obtain ⟨pre2, stack, post2, h6, h7, h8, -⟩ := stripAll_one h5
    have hdoc : tokensAll ns = document pre (back [(lit "version", lit "0.0.3"), (lit "w", itoa b.dx), (lit "h", itoa b.dy)]) pre2 (back []) stack
        (tokensAll post2 ++ .stop :: tokensAll pst) := by
      rw [h3, h6]
      simp only [tokensAll_append, tokensAll, Node.tokens, document, List.append_assoc, List.cons_append, List.nil_append]
      rfl
    rw [hdoc, decodeTokens_document _ _ _ _ _ _ _ _ _ h4 (fun x hx => fun a n => h7 x hx _ a n), image_attrs_back (hm b hb).1 (hm b hb).2, OraRes.ok_bind,
      ← readNodes_strip, h8]
    rw [hg] at hh
    have := holds_hasAll env _ 0 [.of (lit "mimetype") oraMime] les (.of (lit "stack.xml") (env.xmlWrite (stackTokens env m b.dx b.dy)) :: post) hh (fun f hf k _ => by
      rw [List.mem_singleton.1 hf]
      intro he
      have := congrArg List.head? he
      rw [dataName_head] at this
      exact absurd this (by decide))
    rw [leaves] at this
    exact read_group hl _ ⟨b.dx, b.dy⟩ g 0 ⟨0, 0⟩ this hn hr

/-- a picture so wide that its thumbnail is empty -/
def wideTree : List Layer := [⟨[], ⟨0, 0, 300, 1⟩, Mode.normal, false, 0, .leaf (plain 300 1 (.gray 9))⟩]

/-- `Encode` reports an error, but what it wrote is read as the picture -/
example : (∀ file, oraEncode libEnv (fun _ => false) false (.image (.group wideTree)) ≠ .ok ⟨none, file⟩) ∧
    ∃ g', oraDecode libEnv (oraLeft libEnv [] (.image (.group wideTree)) ⟨0, 0, 300, 1⟩) = .ok g' ∧ Back libEnv ⟨300, 1⟩ ⟨0, 0⟩ wideTree g' := by
  refine ⟨?_, C123_previews libEnv_lib [] _ wideTree rfl _ rfl (fun b hb => by cases hb; decide) ?_ ?_ ?_⟩
  · exact C80_refuted libEnv_lib libEnv_divides _ _ _ 300 1 rfl (by decide) (by decide) (by decide) (by decide)
  · simp [wideTree, NearAll, Near]
  · intro i hi
    cases List.mem_singleton.1 (show i ∈ [Img.leaf (plain 300 1 (.gray 9))] from hi)
    exact plain_readably _ _ _ (by decide) (by decide)
  · intro i hi
    cases List.mem_singleton.1 (show i ∈ [Img.leaf (plain 300 1 (.gray 9))] from hi)
    exact ⟨_, rfl⟩

/-- C123: when `Encode` has returned, with an error or without, what it left of a layered picture (with a writer that works) is either refused for its
missing stack, or the whole picture; never a part of it. -/
theorem C123_after {env : OraEnv} (hl : OraLib env) (junk : Bytes) (m : OraInput) (g : List Layer) (hg : m.top = .group g) (b : Rect) (hb : m.bounds = some b)
    (hm : IntSize m) (hn : NearAll g) (hr : ∀ i ∈ leavesAll g, Readably i) :
    oraDecode env (oraLeft env junk m b) = .err .missingStack ∨ ∃ g', oraDecode env (oraLeft env junk m b) = .ok g' ∧ Back env ⟨b.dx, b.dy⟩ ⟨0, 0⟩ g g' := by
  by_cases h : ∀ i ∈ leavesAll g, ∃ d, env.png (.full (.image i)) = .ok d
  · exact .inr (C123_previews hl junk m g hg b hb hm hn hr h)
  · simp only [not_forall, not_exists] at h
    obtain ⟨i, hi, h⟩ := h
    exact .inl (C123_layer env junk m b i (by rw [hg, leaves]; exact hi) h).1

-- the picture above, whatever a thumbnail that cannot be made leaves behind
example (junk : Bytes) : oraDecode libEnv (oraLeft libEnv junk (.image (.group wideTree)) ⟨0, 0, 300, 1⟩) = .err .missingStack ∨
    ∃ g', oraDecode libEnv (oraLeft libEnv junk (.image (.group wideTree)) ⟨0, 0, 300, 1⟩) = .ok g' ∧ Back libEnv ⟨300, 1⟩ ⟨0, 0⟩ wideTree g' := by
  refine C123_after libEnv_lib junk _ wideTree rfl _ rfl (fun b hb => by cases hb; decide) (by simp [wideTree, NearAll, Near]) ?_
  intro i hi
  cases List.mem_singleton.1 (show i ∈ [Img.leaf (plain 300 1 (.gray 9))] from hi)
  exact plain_readably _ _ _ (by decide) (by decide)

end Limage
