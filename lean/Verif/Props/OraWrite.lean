import Verif.Proofs.OraExample
import Verif.Props.OraRead
/-!
# Properties of OpenRaster files that are written: C59 to C63
-/
namespace Limage
open Spec

/-! ## C59 -/

theorem lastOf_snoc {α : Type} (f : Bytes × Bytes → Option α) (as_ : List (Bytes × Bytes)) (a : Bytes × Bytes) (x : α) (h : f a = some x) :
    lastOf f (as_ ++ [a]) = some x := by
  unfold lastOf
  rw [List.reverse_append, List.reverse_singleton, List.singleton_append, List.findSome?_cons, h]

theorem sources_append (a b : List XmlTok) : sources (a ++ b) = sources a ++ sources b := List.filterMap_append ..

theorem sources_start {name : Bytes} (h : name ≠ lit "layer") (attrs : List (Bytes × Bytes)) (ts : List XmlTok) :
    sources (.start name attrs :: ts) = sources ts := by
  show List.filterMap _ _ = _
  rw [List.filterMap_cons]
  dsimp only
  rw [if_neg h]
  rfl

theorem sources_stop : sources [.stop] = [] := rfl

theorem sources_single (attrs : List (Bytes × Bytes)) (k : Nat) :
    sources (Node.elem (lit "layer") (attrs ++ [(lit "src", dataName k)]) []).tokens = [dataName k] := by
  rw [Node.tokens, tokensAll]
  show List.filterMap _ _ = _
  rw [List.filterMap_append, List.filterMap_cons]
  dsimp only
  rw [if_pos rfl, lastOf_snoc _ _ _ (dataName k) (if_pos rfl)]
  rfl

mutual
theorem sources_node (env : OraEnv) (attrs : List (Bytes × Bytes)) (i : Img) (n : Nat) :
    sources (nodeOf env attrs i n).1.tokens = (List.range' (n + 1) (leaves i).length).map dataName := by
  match i with
  | .group g =>
    rw [nodeOf, Node.tokens, leaves, sources_append, sources_stop, List.append_nil, sources_start (by decide), sources_nodes env g n]
  | .leaf _ | .nil | .text _ _ | .masked _ _ => exact sources_single attrs (n + 1)
termination_by structural i
theorem sources_nodes (env : OraEnv) (g : List Layer) (n : Nat) :
    sources (tokensAll (nodesOf env g n).1) = (List.range' (n + 1) (leavesAll g).length).map dataName := by
  match g with
  | [] => rfl
  | ⟨name, b, mode, invisible, tr, im⟩ :: rest =>
    rw [nodesOf, leavesAll]
    dsimp only
    rw [tokensAll, sources_append, sources_node env _ im n, nodeOf_count, sources_nodes env rest, List.length_append, ← List.map_append,
      show n + (leaves im).length + 1 = n + 1 + (leaves im).length by omega, List.range'_append_1]
termination_by structural g
end

theorem oraEntries_ok {env : OraEnv} {fails : Nat → Bool} {m : OraInput} {es : List ZipEntry} (h : oraEntries env fails m = .ok es) :
    ∃ b les merged thumb, m.bounds = some b ∧ Holds env 0 (leaves m.top) les ∧ env.png (.full m) = .ok merged ∧
      env.png (thumbPic m b.dx b.dy) = .ok thumb ∧
      es = .of (lit "mimetype") oraMime :: les ++ [.of (lit "stack.xml") (env.xmlWrite (stackTokens env m b.dx b.dy)), .of (lit "mergedimage.png") merged,
        .of (lit "Thumbnails/thumbnail.png") thumb] := by
  unfold oraEntries at h
  cases hb : m.bounds with
  | none => rw [hb] at h; cases h
  | some b =>
    rw [hb] at h
    dsimp only at h
    split at h
    · cases h
    · obtain ⟨⟨les, k⟩, h1, h⟩ := OraRes.bind_ok h
      split at h
      · cases h
      · obtain ⟨e1, h2, h⟩ := OraRes.bind_ok h
        obtain ⟨e2, h3, h⟩ := OraRes.bind_ok h
        cases h
        unfold writePng at h2 h3
        split at h2
        · cases h2
        split at h3
        · cases h3
        obtain ⟨d1, h4, h5⟩ := OraRes.bind_ok h2
        obtain ⟨d2, h6, h7⟩ := OraRes.bind_ok h3
        cases h5
        cases h7
        exact ⟨b, les, d1, d2, rfl, (oraLayers_holds _ _ _ _ _ _ h1).2, h4, h6, rfl⟩

theorem dataName_head (k : Nat) : (dataName k).head? = some 100 := rfl

theorem holds_at (env : OraEnv) : ∀ (is : List Img) (n : Nat) (es : List ZipEntry), Holds env n is es → ∀ k i, is[k]? = some i →
    ∃ d, env.png (.full (.image i)) = .ok d ∧ ZipEntry.of (dataName (n + 1 + k)) d ∈ es
  | [], _, _, _, _, _, h => by cases h
  | x :: is, n, es, h, 0, i, hi => by
    obtain ⟨d, es', hd, rfl, -⟩ := h
    cases hi
    exact ⟨d, hd, List.mem_cons_self ..⟩
  | x :: is, n, es, h, k + 1, i, hi => by
    obtain ⟨d, es', -, rfl, h⟩ := h
    obtain ⟨d', h1, h2⟩ := holds_at env is (n + 1) es' h k i hi
    rw [show n + 1 + 1 + k = n + 1 + (k + 1) by omega] at h2
    exact ⟨d', h1, List.mem_cons_of_mem _ h2⟩

/-- C59: no two entries of an archive that has been written have the same name, and as many layers are in the stack as there are images in the tree,
the source of each of which is the entry with its image. -/
theorem C59_entries (env : OraEnv) (fails : Nat → Bool) (m : OraInput) (es : List ZipEntry) (h : oraEncode env fails false m = .ok ⟨none, some es⟩) :
    (es.map fun e => e.name).Nodup ∧ ∃ ts, ZipEntry.of (lit "stack.xml") (env.xmlWrite ts) ∈ es ∧ (sources ts).length = (leaves m.top).length ∧
      ∀ (k : Nat) i, (leaves m.top)[k]? = some i → ∃ src d, (sources ts)[k]? = some src ∧ env.png (.full (.image i)) = .ok d ∧ ZipEntry.of src d ∈ es := by
  have h : oraEntries env fails m = .ok es := by
    unfold oraEncode at h
    split at h
    · next hh => cases h; exact hh
    all_goals cases h
  obtain ⟨b, les, merged, thumb, -, hl, -, -, rfl⟩ := oraEntries_ok h
  have hs : sources (stackTokens env m b.dx b.dy) = (List.range' 1 (leaves m.top).length).map dataName := by
    unfold stackTokens
    rw [writeStack_node, sources_append, sources_start (by decide), sources_node, sources_stop, List.append_nil]
  constructor
  · have hn : les.map (fun e => e.name) = _ := holds_names env _ _ _ hl
    rw [List.map_append, List.map_cons, hn]
    have hd : ((List.range' 1 (leaves m.top).length).map dataName).Nodup := by
      rw [List.Nodup, List.pairwise_map]
      exact (List.nodup_range' (step := 1)).imp fun hne he => hne (dataName_inj he)
    have hh : ∀ x ∈ (List.range' 1 (leaves m.top).length).map dataName, x.head? = some 100 := by
      intro x hx
      obtain ⟨k, -, rfl⟩ := List.mem_map.1 hx
      rfl
    show (lit "mimetype" :: (List.range' 1 (leaves m.top).length).map dataName ++
      [lit "stack.xml", lit "mergedimage.png", lit "Thumbnails/thumbnail.png"]).Nodup
    rw [List.cons_append, List.nodup_cons, List.nodup_append]
    refine ⟨fun hm => ?_, hd, by decide, fun a ha c hc he => ?_⟩
    · rcases List.mem_append.1 hm with hm | hm
      · exact absurd (hh _ hm) (by decide)
      · exact absurd hm (by decide)
    · have := hh a ha
      rw [he] at this
      simp only [List.mem_cons, List.not_mem_nil, or_false] at hc
      rcases hc with rfl | rfl | rfl <;> exact absurd this (by decide)
  · refine ⟨stackTokens env m b.dx b.dy, by simp, by rw [hs]; simp, fun k i hi => ?_⟩
    obtain ⟨d, hd, hm⟩ := holds_at env _ _ _ hl k i hi
    refine ⟨_, d, ?_, hd, List.mem_append_left _ (List.mem_cons_of_mem _ hm)⟩
    have hk : k < (leaves m.top).length := by
      rw [List.getElem?_eq_some_iff] at hi; exact hi.1
    rw [hs, List.getElem?_map, List.getElem?_range' hk]
    show some (dataName (1 + 1 * k)) = _
    rw [show 1 + 1 * k = 0 + 1 + k by omega]

/-- two layers in a tree -/
example : ∃ (es : List ZipEntry) (ts : List XmlTok), ZipEntry.of (lit "stack.xml") (libEnv.xmlWrite ts) ∈ es ∧ (sources ts).length = 2 ∧ (es.map fun e => e.name).Nodup := by
  obtain ⟨es, h⟩ := exampleTree_written
  obtain ⟨h1, ts, h2, h3, -⟩ := C59_entries libEnv _ _ es h
  exact ⟨es, ts, h2, h3, h1⟩

/-! ## What is read back -/

theorem image_attrs_back {w h : Int} (hw : -2 ^ 63 ≤ w ∧ w < 2 ^ 63) (hh : -2 ^ 63 ≤ h ∧ h < 2 ^ 63) :
    imageAttrs (back [(lit "version", lit "0.0.3"), (lit "w", itoa w), (lit "h", itoa h)]) none none = .ok ⟨w, h⟩ := by
  show imageAttrs [(lit "version", xmlBack (lit "0.0.3")), (lit "w", xmlBack (itoa w)), (lit "h", xmlBack (itoa h))] none none = _
  rw [imageAttrs, if_neg (by decide), if_neg (by decide), imageAttrs, if_pos rfl, xmlBack_itoa, atoi_itoa_int hw.1 hw.2]
  dsimp only
  rw [imageAttrs, if_neg (by decide), if_pos rfl, xmlBack_itoa, atoi_itoa_int hh.1 hh.2]
  rfl

/-- the size of an image is an `int` -/
def IntSize (m : OraInput) : Prop := ∀ b, m.bounds = some b → (-2 ^ 63 ≤ b.dx ∧ b.dx < 2 ^ 63) ∧ (-2 ^ 63 ≤ b.dy ∧ b.dy < 2 ^ 63)

theorem encode_entries {env : OraEnv} {fails : Nat → Bool} {c : Bool} {m : OraInput} {es : List ZipEntry} (h : oraEncode env fails c m = .ok ⟨none, some es⟩) :
    oraEntries env fails m = .ok es := by
  unfold oraEncode at h
  split at h
  · next hh =>
    injection h with h
    injection h with _ h
    split at h
    · cases h
    · cases h; exact hh
  all_goals cases h

theorem holds_honest (env : OraEnv) : ∀ (is : List Img) (n : Nat) (es : List ZipEntry), Holds env n is es →
    es.length = is.length ∧ ∀ e ∈ es, Honest e ∧ e.data ≠ none
  | [], _, _, h => by cases h; exact ⟨rfl, nofun⟩
  | x :: is, n, es, h => by
    obtain ⟨d, es', -, rfl, h⟩ := h
    obtain ⟨h1, h2⟩ := holds_honest env is (n + 1) es' h
    refine ⟨by rw [List.length_cons, List.length_cons, h1], fun e he => ?_⟩
    rcases List.mem_cons.1 he with rfl | he
    · exact ⟨fun d hd => by cases hd; rfl, nofun⟩
    · exact h2 e he

/-- C59, the order of the entries: the mimetype comes first and is right, then as many entries as there are images in the tree, then the stack, the merged
image and the thumbnail, and nothing else.  The directory tells how long they are. -/
theorem C59_layout (env : OraEnv) (fails : Nat → Bool) (c : Bool) (m : OraInput) (es : List ZipEntry) (h : oraEncode env fails c m = .ok ⟨none, some es⟩) :
    (∀ e ∈ es, Honest e ∧ e.data ≠ none) ∧ ∃ mime les stack merged thumb, es = mime :: les ++ [stack, merged, thumb] ∧ RightMime mime ∧
      les.length = (leaves m.top).length ∧ mime.name = lit "mimetype" ∧ stack.name = lit "stack.xml" ∧ merged.name = lit "mergedimage.png" ∧
        thumb.name = lit "Thumbnails/thumbnail.png" := by
  obtain ⟨b, les, merged, thumb, -, hl, -, -, rfl⟩ := oraEntries_ok (encode_entries h)
  obtain ⟨h1, h2⟩ := holds_honest env _ _ _ hl
  have hof : ∀ n d, Honest (.of n d) ∧ (ZipEntry.of n d).data ≠ none := fun n d => ⟨fun d hd => by cases hd; rfl, nofun⟩
  refine ⟨fun e he => ?_, _, les, _, _, _, rfl, rfl, h1, rfl, rfl, rfl, rfl⟩
  rcases List.mem_append.1 he with he | he
  · rcases List.mem_cons.1 he with rfl | he
    · exact hof _ _
    · exact h2 e he
  · simp only [List.mem_cons, List.not_mem_nil, or_false] at he
    rcases he with rfl | rfl | rfl <;> exact hof _ _

/-- six entries for two layers in a tree -/
example : ∃ es, oraEncode libEnv (fun _ => false) false (.image (.group exampleTree)) = .ok ⟨none, some es⟩ ∧ es.length = 6 ∧ ∃ e ∈ es, RightMime e ∧ Honest e := by
  obtain ⟨es, h⟩ := exampleTree_written
  obtain ⟨h1, mime, les, a, b, c, rfl, h2, h3, -⟩ := C59_layout libEnv _ _ _ es h
  have h3 : les.length = 2 := h3
  exact ⟨_, h, by simp [h3], mime, by simp, h2, (h1 mime (by simp)).1⟩

theorem holds_name (env : OraEnv) (is : List Img) (n : Nat) (es : List ZipEntry) (h : Holds env n is es) : ∀ f ∈ es, f.name.head? = some 100 := by
  intro f hf
  have := List.mem_map_of_mem (f := ZipEntry.name) hf
  rw [holds_names env is n es h] at this
  obtain ⟨k, -, hk⟩ := List.mem_map.1 this
  rw [← hk]
  rfl

theorem tokensAll_append (xs ys : List Node) : tokensAll (xs ++ ys) = tokensAll xs ++ tokensAll ys := by
  induction xs with
  | nil => rfl
  | cons x xs ih => rw [List.cons_append, tokensAll, tokensAll, ih, List.append_assoc]

/-- what `Decode` makes of an archive that has been written -/
theorem decode_written {env : OraEnv} (hl : OraLib env) {m : OraInput} {b : Rect} {les : List ZipEntry} (hh : Holds env 0 (leaves m.top) les)
    (merged thumb : Bytes) : ∃ ns, stripAll ns = [(docOf env m b.dx b.dy).cleaned] ∧
      oraDecode env (.of (lit "mimetype") oraMime :: les ++ [.of (lit "stack.xml") (env.xmlWrite (stackTokens env m b.dx b.dy)),
        .of (lit "mergedimage.png") merged, .of (lit "Thumbnails/thumbnail.png") thumb]) =
      decodeTokens env (.of (lit "mimetype") oraMime :: les ++ [.of (lit "stack.xml") (env.xmlWrite (stackTokens env m b.dx b.dy)),
        .of (lit "mergedimage.png") merged, .of (lit "Thumbnails/thumbnail.png") thumb]) (tokensAll ns) true := by
  obtain ⟨ns, h1, h2⟩ := hl.xml (docOf env m b.dx b.dy) (docOf_plain ..)
  refine ⟨ns, h2, ?_⟩
  rw [oraDecode_eq, getStack_last _ rfl [.of (lit "mergedimage.png") merged, .of (lit "Thumbnails/thumbnail.png") thumb] (by
    intro x hx
    simp only [List.mem_cons, List.not_mem_nil, or_false] at hx
    rcases hx with rfl | rfl
    · show lit "mergedimage.png" ≠ lit "stack.xml"; decide
    · show lit "Thumbnails/thumbnail.png" ≠ lit "stack.xml"; decide), if_pos]
  · rw [OraRes.ok_bind]
    show decodeTokens env _ (env.xmlRead (env.xmlWrite (stackTokens env m b.dx b.dy))).1 (env.xmlRead (env.xmlWrite (stackTokens env m b.dx b.dy))).2 = _
    rw [stackTokens_doc, h1]
  · unfold mimesOk
    rw [List.all_eq_true]
    intro x hx
    have : x.name = lit "mimetype" → checkMime x = true := by
      intro hx'
      simp only [List.cons_append, List.mem_cons, List.mem_append, List.not_mem_nil, or_false] at hx
      rcases hx with rfl | hx | rfl | rfl
      · rfl
      · have := holds_name _ _ _ _ hh x hx
        rw [hx'] at this
        exact absurd this (by decide)
      · exact absurd (show lit "mergedimage.png" = lit "mimetype" from hx') (by decide)
      · exact absurd (show lit "Thumbnails/thumbnail.png" = lit "mimetype" from hx') (by decide)
    by_cases hn : x.name = lit "mimetype"
    · rw [this hn, Bool.or_true]
    · simp [hn]

/-- C61, C63: a layered image that has been written can be read, and this is what is read. -/
theorem C61_back {env : OraEnv} (hl : OraLib env) (fails : Nat → Bool) (c : Bool) (m : OraInput) (g : List Layer) (hg : m.top = .group g)
    (hm : IntSize m) (hn : NearAll g) (hr : ∀ i ∈ leavesAll g, Readably i) (es : List ZipEntry) (h : oraEncode env fails c m = .ok ⟨none, some es⟩) :
    ∃ b g', m.bounds = some b ∧ oraDecode env es = .ok g' ∧ Back env ⟨b.dx, b.dy⟩ ⟨0, 0⟩ g g' := by
  obtain ⟨b, les, merged, thumb, hb, hh, -, -, rfl⟩ := oraEntries_ok (encode_entries h)
  obtain ⟨ns, h1, h2⟩ := decode_written hl (b := b) hh merged thumb
  rw [h2]
  unfold docOf at h1
  rw [Node.cleaned, cleanedAll, cleanedAll, hg, nodeOf, Node.cleaned] at h1
  obtain ⟨pre, kids, post, h3, h4, h5, -⟩ := stripAll_one h1
  obtain ⟨pre2, stack, post2, h6, h7, h8, -⟩ := stripAll_one h5
  have hdoc : tokensAll ns = document pre (back [(lit "version", lit "0.0.3"), (lit "w", itoa b.dx), (lit "h", itoa b.dy)]) pre2 (back []) stack
      (tokensAll post2 ++ .stop :: tokensAll post) := by
    rw [h3, h6]
    simp only [tokensAll_append, tokensAll, Node.tokens, document, List.append_assoc, List.cons_append, List.nil_append]
    rfl
  rw [hdoc, decodeTokens_document _ _ _ _ _ _ _ _ _ h4 (fun x hx => fun a n => h7 x hx _ a n), image_attrs_back (hm b hb).1 (hm b hb).2, OraRes.ok_bind,
    ← readNodes_strip, h8]
  rw [hg] at hh
  have := holds_hasAll env _ 0 [.of (lit "mimetype") oraMime] les [.of (lit "stack.xml") (env.xmlWrite (stackTokens env m b.dx b.dy)),
        .of (lit "mergedimage.png") merged, .of (lit "Thumbnails/thumbnail.png") thumb] hh (fun f hf k _ => by
    rw [List.mem_singleton.1 hf]
    intro he
    have := congrArg List.head? he
    rw [dataName_head] at this
    exact absurd this (by decide))
  rw [leaves] at this
  obtain ⟨g', h9, h10⟩ := read_group hl (.of (lit "mimetype") oraMime :: les ++ [.of (lit "stack.xml") (env.xmlWrite (stackTokens env m b.dx b.dy)),
        .of (lit "mergedimage.png") merged, .of (lit "Thumbnails/thumbnail.png") thumb]) ⟨b.dx, b.dy⟩ g 0 ⟨0, 0⟩ this hn hr
  exact ⟨b, g', hb, h9, h10⟩

theorem exampleTree_size : IntSize (.image (.group exampleTree)) := fun b hb => by
  cases hb
  decide

/-- a tree of layers that is read back -/
example : ∃ es g', oraEncode libEnv (fun _ => false) false (.image (.group exampleTree)) = .ok ⟨none, some es⟩ ∧ oraDecode libEnv es = .ok g' ∧
    Back libEnv ⟨10, 8⟩ ⟨0, 0⟩ exampleTree g' := by
  obtain ⟨es, h⟩ := exampleTree_written
  obtain ⟨b, g', h1, h2, h3⟩ := C61_back libEnv_lib _ _ _ _ rfl exampleTree_size exampleTree_near exampleTree_readable es h
  cases h1
  exact ⟨es, g', h, h2, h3⟩

/-- where a layer that is read may be: nowhere, or somewhere -/
def Proper (r : Rect) : Prop := r = Rect.zero ∨ r.empty = false

theorem inter_proper (r s : Rect) : Proper (r.inter s) := by
  unfold Rect.inter
  dsimp only
  split
  · exact .inl rfl
  · next h => exact .inr (by simpa using h)

theorem sub_origin (r : Rect) : r.sub ⟨0, 0⟩ = r := by
  unfold Rect.sub
  simp

theorem add_origin (r : Rect) : r.add ⟨0, 0⟩ = r := by
  unfold Rect.add
  simp

theorem union_proper {r s : Rect} (hr : Proper r) (hs : Proper s) : Proper (r.union s) := by
  unfold Rect.union
  split
  · exact hs
  split
  · exact hr
  · next h1 h2 =>
    refine .inr ?_
    simp only [Rect.empty, Bool.or_eq_true, decide_eq_true_eq, ge_iff_le, not_or, Bool.or_eq_false_iff, decide_eq_false_iff_not] at h1 h2 ⊢
    omega

theorem groupBounds_proper {g : List Layer} (h : ∀ l ∈ g, Proper l.bounds) : Proper (groupBounds g) := by
  have : ∀ (g : List Layer) (r : Rect), Proper r → (∀ l ∈ g, Proper l.bounds) → Proper (g.foldl (fun r l => r.union l.bounds) r) := by
    intro g
    induction g with
    | nil => intro r hr _; exact hr
    | cons l g ih => intro r hr h; exact ih _ (union_proper hr (h l (List.mem_cons_self ..))) (fun l' hl' => h l' (List.mem_cons_of_mem _ hl'))
  exact this g _ (.inl rfl) h

theorem groupBounds_congr {g g' : List Layer} (h : g.map (fun l => l.bounds) = g'.map (fun l => l.bounds)) : groupBounds g = groupBounds g' := by
  have : ∀ g : List Layer, groupBounds g = (g.map (fun l => l.bounds)).foldl Rect.union Rect.zero := by
    intro g
    unfold groupBounds
    rw [List.foldl_map]
  rw [this, this, h]

/-- what is read of a tree, layer by layer -/
theorem Spec.Back.alike {env : OraEnv} {limits : Pt} {P : Layer → Layer → Prop}
    (h1 : ∀ o l i, NotGroup l.image → Stored env l.image i → P l ⟨xmlBack l.name, oraPlaced limits o l.bounds i.bounds,
      if l.mode ∈ svgModes then l.mode else Mode.normal, l.invisible && l.transparency == 0, 0, .leaf i⟩)
    (h2 : ∀ o l g g', l.image = .group g → Back env limits ⟨o.x + (corner l.bounds).x, o.y + (corner l.bounds).y⟩ g g' →
      P l ⟨xmlBack l.name, oraPlaced limits o l.bounds (groupBounds g'),
      if l.mode ∈ svgModes then l.mode else Mode.normal, l.invisible && l.transparency == 0, 0, .group g'⟩)
    {o : Pt} {g g' : List Layer} (h : Back env limits o g g') : Alike P g g' := by
  induction h with
  | nil => exact .nil
  | single h3 h4 _ ih => exact .single h3 (fun g h => by cases h) (h1 _ _ _ h3 h4) ih
  | group h3 h4 _ ih1 ih2 => exact .group h3 rfl ih1 (h2 _ _ _ _ h3 h4) ih2

/-! ## C60 -/

/-- C60, false: no opacity is read back: layers are always opaque, and hidden layers that were translucent are visible. -/
theorem C60_refuted {env : OraEnv} (hl : OraLib env) (fails : Nat → Bool) (c : Bool) (m : OraInput) (g : List Layer) (hg : m.top = .group g)
    (hm : IntSize m) (hn : NearAll g) (hr : ∀ i ∈ leavesAll g, Readably i) (es : List ZipEntry) (h : oraEncode env fails c m = .ok ⟨none, some es⟩) :
    ∃ g', oraDecode env es = .ok g' ∧ Alike (fun l l' => l'.transparency = 0 ∧ (l.transparency ≠ 0 → l'.invisible = false)) g g' := by
  obtain ⟨b, g', -, h1, h2⟩ := C61_back hl fails c m g hg hm hn hr es h
  refine ⟨g', h1, h2.alike (fun o l i _ _ => ⟨rfl, fun ht => ?_⟩) (fun o l g g' _ _ => ⟨rfl, fun ht => ?_⟩)⟩
  all_goals
    have : (l.transparency == 0) = false := by simpa using ht
    show (l.invisible && l.transparency == 0) = false
    rw [this, Bool.and_false]

/-- C60, the part that is true: the tree of layers is read back, with the names that are text, the visibility and opacity of opaque layers, and
the modes that have a name.  Missing: other names, layers that are translucent, other modes; positions are in `C61_partial`. -/
theorem C60_partial {env : OraEnv} (hl : OraLib env) (fails : Nat → Bool) (c : Bool) (m : OraInput) (g : List Layer) (hg : m.top = .group g)
    (hm : IntSize m) (hn : NearAll g) (hr : ∀ i ∈ leavesAll g, Readably i) (es : List ZipEntry) (h : oraEncode env fails c m = .ok ⟨none, some es⟩) :
    ∃ g', oraDecode env es = .ok g' ∧ Alike (fun l l' => (XmlText l.name → l'.name = l.name) ∧
      (l.transparency = 0 → l'.transparency = l.transparency ∧ l'.invisible = l.invisible) ∧ (l.mode ∈ svgModes → l'.mode = l.mode)) g g' := by
  obtain ⟨b, g', -, h1, h2⟩ := C61_back hl fails c m g hg hm hn hr es h
  refine ⟨g', h1, h2.alike (fun o l i _ _ => ⟨xmlBack_text, fun ht => ⟨ht.symm, ?_⟩, fun hm => if_pos hm⟩)
    (fun o l g g' _ _ => ⟨xmlBack_text, fun ht => ⟨ht.symm, ?_⟩, fun hm => if_pos hm⟩)⟩
  all_goals
    show (l.invisible && l.transparency == 0) = l.invisible
    rw [ht]
    exact Bool.and_true _

/-- a layer that was translucent and hidden is read as opaque and visible; the name and the mode are kept -/
example : ∃ es g', oraEncode libEnv (fun _ => false) false (.image (.group exampleTree)) = .ok ⟨none, some es⟩ ∧ oraDecode libEnv es = .ok g' ∧
    ∃ l' ls', g' = l' :: ls' ∧ l'.transparency = 0 ∧ l'.invisible = false ∧ l'.name = lit "a" ∧ l'.mode = Mode.screen := by
  obtain ⟨es, h⟩ := exampleTree_written
  obtain ⟨g1, h1, h2⟩ := C60_refuted libEnv_lib _ _ _ _ rfl exampleTree_size exampleTree_near exampleTree_readable es h
  obtain ⟨g2, h3, h4⟩ := C60_partial libEnv_lib _ _ _ _ rfl exampleTree_size exampleTree_near exampleTree_readable es h
  rw [h1] at h3
  cases h3
  refine ⟨es, g1, h, h1, ?_⟩
  cases h2 with
  | group h5 => cases h5
  | single _ _ h5 _ =>
    cases h4 with
    | group h6 => cases h6
    | single _ _ h6 _ =>
      exact ⟨_, _, rfl, h5.1, h5.2 (by decide), h6.1 (xmlText_ascii (by decide)), h6.2.2 (by decide)⟩

/-! ## C62 -/

/-- C62: a mode is read back if and only if it has a name in OpenRaster; others are read as `Normal`. -/
theorem C62_modes_partial {env : OraEnv} (hl : OraLib env) (fails : Nat → Bool) (c : Bool) (m : OraInput) (g : List Layer) (hg : m.top = .group g)
    (hm : IntSize m) (hn : NearAll g) (hr : ∀ i ∈ leavesAll g, Readably i) (es : List ZipEntry) (h : oraEncode env fails c m = .ok ⟨none, some es⟩) :
    ∃ g', oraDecode env es = .ok g' ∧ Alike (fun l l' => (l'.mode = l.mode ↔ l.mode ∈ svgModes) ∧ (l.mode ∉ svgModes → l'.mode = Mode.normal)) g g' := by
  obtain ⟨b, g', -, h1, h2⟩ := C61_back hl fails c m g hg hm hn hr es h
  have hmode : ∀ mode : Mode, ((if mode ∈ svgModes then mode else Mode.normal) = mode ↔ mode ∈ svgModes) ∧
      (mode ∉ svgModes → (if mode ∈ svgModes then mode else Mode.normal) = Mode.normal) := by
    intro mode
    refine ⟨⟨fun hm => ?_, fun hm => if_pos hm⟩, fun hm => if_neg hm⟩
    split at hm
    · assumption
    · rw [← hm]; decide
  exact ⟨g', h1, h2.alike (fun o l i _ _ => hmode l.mode) (fun o l g g' _ _ => hmode l.mode)⟩

/-- the mode of the second layer, which has no name, is lost -/
example : ∃ es g', oraEncode libEnv (fun _ => false) false (.image (.group exampleTree)) = .ok ⟨none, some es⟩ ∧ oraDecode libEnv es = .ok g' ∧
    ∃ l₁ l₂ l₃, g' = [l₁, l₂] ∧ l₁.mode = Mode.screen ∧ l₂.image = .group [l₃] ∧ l₃.mode = Mode.normal := by
  obtain ⟨es, h⟩ := exampleTree_written
  obtain ⟨g', h1, h2⟩ := C62_modes_partial libEnv_lib _ _ _ _ rfl exampleTree_size exampleTree_near exampleTree_readable es h
  refine ⟨es, g', h, h1, ?_⟩
  cases h2 with
  | group h5 => cases h5
  | single _ _ h5 h6 =>
    cases h6 with
    | single h7 => exact absurd rfl (h7 _)
    | group h7 h8 h9 _ h11 =>
      cases h7
      cases h11
      cases h9 with
      | group h12 => cases h12
      | single _ _ h12 h13 =>
        cases h13
        exact ⟨_, _, _, rfl, h5.1.2 (by decide), h8, h12.2 (by decide)⟩

/-- C62, false: layers with the mode `Dissolve` are read with the mode `Normal`. -/
theorem C62_refuted {env : OraEnv} (hl : OraLib env) (fails : Nat → Bool) (c : Bool) (m : OraInput) (l : Layer) (hg : m.top = .group [l])
    (hmode : l.mode = Mode.dissolve) (hm : IntSize m) (hn : NearAll [l]) (hr : ∀ i ∈ leavesAll [l], Readably i) (es : List ZipEntry)
    (h : oraEncode env fails c m = .ok ⟨none, some es⟩) : ∃ l', oraDecode env es = .ok [l'] ∧ l'.mode ≠ l.mode := by
  obtain ⟨g', h1, h2⟩ := C62_modes_partial hl fails c m [l] hg hm hn hr es h
  have hd : l.mode ∉ svgModes := by rw [hmode]; decide
  cases h2 with
  | single _ _ h5 h6 => cases h6; exact ⟨_, h1, fun he => hd (h5.1.1 he)⟩
  | group _ _ _ h5 h6 => cases h6; exact ⟨_, h1, fun he => hd (h5.1.1 he)⟩

/-! ## C61 -/

theorem placed_moved {limits o : Pt} {b : Rect} (hb : 0 ≤ b.x0) (ho : 0 < o.x) (size : Rect) (hs : size.x0 = 0) : oraPlaced limits o b size ≠ b := by
  intro h
  have hx := congrArg Rect.x0 h
  unfold oraPlaced Rect.inter at hx
  dsimp only at hx
  split at hx
  · simp only [Rect.sub, Rect.zero] at hx
    omega
  · simp only [Rect.sub, Rect.add, corner, hs] at hx
    omega

theorem leavesAll_cons (l : Layer) (ls : List Layer) : leavesAll (l :: ls) = leaves l.image ++ leavesAll ls := by rw [leavesAll]

/-- C61, false: a layer in a group to the right of the origin is read with another position. -/
theorem C61_refuted {env : OraEnv} (hl : OraLib env) (fails : Nat → Bool) (c : Bool) (m : OraInput) (l x : Layer) (hg : m.top = .group [l])
    (hi : l.image = .group [x]) (hx : NotGroup x.image) (hp : 0 < l.bounds.x0 ∧ 0 ≤ x.bounds.x0)
    (hm : IntSize m) (hn : NearAll [l]) (hr : Readably x.image) (es : List ZipEntry) (h : oraEncode env fails c m = .ok ⟨none, some es⟩) :
    ∃ l' x', oraDecode env es = .ok [l'] ∧ l'.image = .group [x'] ∧ x'.bounds ≠ x.bounds := by
  have hlv : leavesAll [l] = [x.image] := by
    rw [leavesAll_cons, hi, leaves, leavesAll_cons, leaves_single hx]
    rfl
  obtain ⟨b, g', -, h1, h2⟩ := C61_back hl fails c m [l] hg hm hn (fun i hi => by rw [hlv, List.mem_singleton] at hi; rw [hi]; exact hr) es h
  cases h2 with
  | single h3 => exact absurd hi (h3 _)
  | group h3 h4 h5 =>
    rw [hi] at h3
    cases h3
    cases h5
    cases h4 with
    | group h6 => exact absurd h6 (hx _)
    | single h6 h7 h8 =>
      cases h8
      obtain ⟨d, hd1, hd2⟩ := h7
      obtain ⟨b', hb', -, -, h6⟩ := hl.png _ _ hd1
      have hrr := hr b' hb'
      obtain ⟨i', hi1, hi2⟩ := h6 hrr.1 hrr.2
      rw [hd2] at hi1
      cases hi1
      refine ⟨_, _, h1, rfl, ?_⟩
      refine placed_moved hp.2 ?_ _ (by rw [hi2])
      show 0 < 0 + (corner l.bounds).x
      unfold corner
      dsimp only
      omega

/-- the layer in the group is moved -/
example : ∃ es l' x', oraEncode libEnv (fun _ => false) false (.image (.group exampleMoved)) = .ok ⟨none, some es⟩ ∧ oraDecode libEnv es = .ok [l'] ∧
    l'.image = .group [x'] ∧ x'.bounds ≠ ⟨1, 0, 10, 8⟩ := by
  obtain ⟨es, h⟩ := exampleMoved_written
  obtain ⟨l', x', h1, h2, h3⟩ := C61_refuted libEnv_lib _ _ (.image (.group exampleMoved)) _ _ rfl rfl (fun _ h => by cases h) (by decide)
    (fun b hb => by cases hb; decide) (by simp [NearAll, Near]) (blank_readably 9 8 (by decide) (by decide)) es h
  exact ⟨es, l', x', h, h1, h2, h3⟩

theorem placed_fit {limits : Pt} {b : Rect} (h : 0 ≤ b.x0 ∧ 0 ≤ b.y0 ∧ b.x1 ≤ limits.x ∧ b.y1 ≤ limits.y) (hb : b.empty = false) :
    oraPlaced limits ⟨0, 0⟩ b ⟨0, 0, b.dx, b.dy⟩ = b := by
  unfold oraPlaced Rect.inter
  dsimp only
  simp only [Rect.empty, Bool.or_eq_false_iff, decide_eq_false_iff_not, ge_iff_le] at hb
  rw [sub_origin, if_neg]
  · cases b
    simp only [Rect.add, corner, Rect.dx, Rect.dy, Rect.mk.injEq] at *
    omega
  · simp only [Rect.add, corner, Rect.dx, Rect.dy, Rect.empty, Bool.or_eq_true, decide_eq_true_eq, ge_iff_le]
    omega

theorem placed_group {limits : Pt} {b : Rect} (h : 0 ≤ b.x0 ∧ 0 ≤ b.y0 ∧ b.x1 ≤ limits.x ∧ b.y1 ≤ limits.y) (hb : b.x0 = 0 ∧ b.y0 = 0) (hp : Proper b) :
    oraPlaced limits ⟨0, 0⟩ b b = b := by
  have hc : corner b = ⟨0, 0⟩ := by unfold corner; rw [hb.1, hb.2]; rfl
  unfold oraPlaced
  rw [hc, add_origin, sub_origin]
  unfold Rect.inter
  dsimp only
  rcases hp with rfl | hp
  · split
    · rfl
    · next h' =>
      refine absurd ?_ h'
      simp only [Rect.empty, Rect.zero, Bool.or_eq_true, decide_eq_true_eq, ge_iff_le]
      omega
  · simp only [Rect.empty, Bool.or_eq_false_iff, decide_eq_false_iff_not, ge_iff_le] at hp
    rw [if_neg]
    · cases b
      simp only [Rect.mk.injEq] at *
      omega
    · simp only [Rect.empty, Bool.or_eq_true, decide_eq_true_eq, ge_iff_le]
      omega

/-- the bounds of a layer and the image in it are those of a layer that was written -/
def SamePlace (env : OraEnv) (l l' : Layer) : Prop :=
  l'.bounds = l.bounds ∧ (NotGroup l.image → ∃ i, l'.image = .leaf i ∧ Stored env l.image i ∧ i.bounds = ⟨0, 0, l.bounds.dx, l.bounds.dy⟩)

theorem fit_single {limits : Pt} {b : Rect} {i : Img} (h : NotGroup i) (hf : Fit limits b i) : ∃ c, i.bounds = some c ∧ c.dx = b.dx ∧ c.dy = b.dy := by
  cases i with
  | group g => exact absurd rfl (h g)
  | leaf l => exact ⟨l.bounds, rfl, hf⟩
  | nil => exact hf.elim
  | text i t => exact hf
  | masked i m => exact hf

theorem fitAll_cons (limits : Pt) (l : Layer) (ls : List Layer) : FitAll limits (l :: ls) =
    ((0 ≤ l.bounds.x0 ∧ 0 ≤ l.bounds.y0 ∧ l.bounds.x1 ≤ limits.x ∧ l.bounds.y1 ≤ limits.y) ∧ Fit limits l.bounds l.image ∧ FitAll limits ls) := by rw [FitAll]

theorem back_fit {env : OraEnv} (hl : OraLib env) {limits o : Pt} {g g' : List Layer} (h : Back env limits o g g') (ho : o = ⟨0, 0⟩)
    (hf : FitAll limits g) (hr : ∀ i ∈ leavesAll g, Readably i) :
    Alike (SamePlace env) g g' ∧ g.map (fun l => l.bounds) = g'.map (fun l => l.bounds) ∧ ∀ l ∈ g', Proper l.bounds := by
  induction h with
  | nil => exact ⟨.nil, rfl, fun l hl => by cases hl⟩
  | @single o l ls ls' i h3 h4 h5 ih =>
    subst ho
    rw [fitAll_cons] at hf
    rw [leavesAll_cons] at hr
    obtain ⟨e1, e2, e3⟩ := ih rfl hf.2.2 (fun x hx => hr x (List.mem_append_right _ hx))
    have hrr := hr l.image (List.mem_append_left _ (by rw [leaves_single h3]; exact List.mem_singleton_self _))
    obtain ⟨cb, hc1, hc2, hc3⟩ := fit_single h3 hf.2.1
    have hst := h4
    obtain ⟨d, hd1, hd2⟩ := h4
    obtain ⟨b', hb', hdx, hdy, h6⟩ := hl.png _ _ hd1
    have hbb : cb = b' := by
      have : some cb = some b' := hc1.symm.trans hb'
      injection this
    subst hbb
    obtain ⟨i', hi1, hi2⟩ := h6 (hrr _ hb').1 (hrr _ hb').2
    rw [hd2] at hi1
    cases hi1
    have hne : l.bounds.empty = false := by
      simp only [Rect.empty, Rect.dx, Rect.dy, Bool.or_eq_false_iff, decide_eq_false_iff_not, ge_iff_le] at *
      omega
    have hpl : oraPlaced limits ⟨0, 0⟩ l.bounds i.bounds = l.bounds := by
      rw [hi2, hc2, hc3]
      exact placed_fit hf.1 hne
    refine ⟨.single h3 (fun g h => by cases h) ⟨hpl, fun _ => ⟨i, rfl, hst, by rw [hi2, hc2, hc3]⟩⟩ e1, ?_, fun l' hl' => ?_⟩
    · rw [List.map_cons, List.map_cons, e2]
      dsimp only
      rw [hpl]
    · rcases List.mem_cons.1 hl' with rfl | hl'
      · exact .inr (by rw [hpl]; exact hne)
      · exact e3 l' hl'
  | @group o l ls ls' g g' h3 h4 h5 ih1 ih2 =>
    subst ho
    rw [fitAll_cons] at hf
    rw [leavesAll_cons] at hr
    obtain ⟨e1, e2, e3⟩ := ih2 rfl hf.2.2 (fun x hx => hr x (List.mem_append_right _ hx))
    have hfi := hf.2.1
    rw [h3, Fit] at hfi
    obtain ⟨f1, f2, f3, f4⟩ := hfi
    obtain ⟨d1, d2, d3⟩ := ih1 (by unfold corner; rw [f1, f2]; rfl) f4 (fun x hx => hr x (List.mem_append_left _ (by rw [h3, leaves]; exact hx)))
    have hgb : groupBounds g' = l.bounds := by rw [f3]; exact (groupBounds_congr d2).symm
    have hpr : Proper l.bounds := by rw [← hgb]; exact groupBounds_proper d3
    have hpl : oraPlaced limits ⟨0, 0⟩ l.bounds (groupBounds g') = l.bounds := by
      rw [hgb]
      exact placed_group hf.1 ⟨f1, f2⟩ hpr
    refine ⟨.group h3 rfl d1 ⟨hpl, fun hg => absurd h3 (hg _)⟩ e1, ?_, fun l' hl' => ?_⟩
    · rw [List.map_cons, List.map_cons, e2]
      dsimp only
      rw [hpl]
    · rcases List.mem_cons.1 hl' with rfl | hl'
      · show Proper (oraPlaced _ _ _ _)
        rw [hpl]; exact hpr
      · exact e3 l' hl'

mutual
theorem fit_near {limits : Pt} (hw : limits.x < 2 ^ 63) (hh : limits.y < 2 ^ 63) (b : Rect) (i : Img) (h : Fit limits b i)
    (hne : ∀ x ∈ leaves i, ∃ c, x.bounds = some c ∧ 0 < c.dx ∧ 0 < c.dy) : Near i := by
  match i with
  | .group g =>
    rw [Near]
    rw [Fit] at h
    rw [leaves] at hne
    exact fitAll_near hw hh g h.2.2.2 hne
  | .leaf _ | .nil | .text _ _ | .masked _ _ => trivial
termination_by structural i
theorem fitAll_near {limits : Pt} (hw : limits.x < 2 ^ 63) (hh : limits.y < 2 ^ 63) (g : List Layer) (h : FitAll limits g)
    (hne : ∀ x ∈ leavesAll g, ∃ c, x.bounds = some c ∧ 0 < c.dx ∧ 0 < c.dy) : NearAll g := by
  match g with
  | [] => trivial
  | ⟨name, b, mode, invisible, tr, i⟩ :: ls =>
    rw [FitAll] at h
    rw [NearAll]
    rw [leavesAll] at hne
    refine ⟨?_, fit_near hw hh b i h.2.1 (fun x hx => hne x (List.mem_append_left _ hx)), fitAll_near hw hh ls h.2.2 (fun x hx => hne x (List.mem_append_right _ hx))⟩
    by_cases hg : NotGroup i
    · obtain ⟨c, hc1, hc2, hc3⟩ := fit_single hg h.2.1
      obtain ⟨c', hc4, hc5, hc6⟩ := hne i (List.mem_append_left _ (by rw [leaves_single hg]; exact List.mem_singleton_self _))
      have : c = c' := by
        have : some c = some c' := hc1.symm.trans hc4
        injection this
      subst this
      have h1 := h.1
      simp only [Rect.dx, Rect.dy] at *
      omega
    · obtain ⟨g, rfl⟩ : ∃ g, i = .group g := Classical.byContradiction fun hc => hg fun g hgg => hc ⟨g, hgg⟩
      have h2 := h.2.1
      rw [Fit] at h2
      omega
termination_by structural g
end

theorem holds_png (env : OraEnv) : ∀ (is : List Img) (n : Nat) (es : List ZipEntry), Holds env n is es → ∀ i ∈ is, ∃ d, env.png (.full (.image i)) = .ok d
  | [], _, _, _, _, h => by cases h
  | x :: is, n, es, h, i, hi => by
    obtain ⟨d, es', hd, -, h⟩ := h
    rcases List.mem_cons.1 hi with rfl | hi
    · exact ⟨d, hd⟩
    · exact holds_png env is _ _ h i hi

/-- C61, the part that is true: the tree of layers is read back with the same bounds, and with the images that were written, if the layers
have the sizes of their images and are on the canvas, and groups have the bounds of what is in them and are at the origin.  Missing: other groups,
layers of other sizes or outside of the canvas, and images whose canvas does not begin at the origin, unless their layers fit. -/
theorem C61_partial {env : OraEnv} (hl : OraLib env) (fails : Nat → Bool) (c : Bool) (m : OraInput) (g : List Layer) (hg : m.top = .group g) (b : Rect)
    (hb : m.bounds = some b) (hm : IntSize m) (hf : FitAll ⟨b.dx, b.dy⟩ g) (hr : ∀ i ∈ leavesAll g, Readably i) (es : List ZipEntry)
    (h : oraEncode env fails c m = .ok ⟨none, some es⟩) :
    ∃ g', oraDecode env es = .ok g' ∧ Alike (SamePlace env) g g' := by
  obtain ⟨_, les, _, _, -, hh, -, -, -⟩ := oraEntries_ok (encode_entries h)
  rw [hg, leaves] at hh
  have hn : NearAll g := fitAll_near (hm b hb).1.2 (hm b hb).2.2 g hf (fun x hx => by
    obtain ⟨d, hd⟩ := holds_png env _ _ _ hh x hx
    obtain ⟨c, h1, h2, h3, -⟩ := hl.png _ _ hd
    exact ⟨c, h1, h2, h3⟩)
  obtain ⟨b', g', hb', h1, h2⟩ := C61_back hl fails c m g hg hm hn hr es h
  rw [hb] at hb'
  cases hb'
  exact ⟨g', h1, (back_fit hl h2 rfl hf hr).1⟩

/-- the tree is read back with the same bounds -/
example : ∃ es g', oraEncode libEnv (fun _ => false) false (.image (.group exampleTree)) = .ok ⟨none, some es⟩ ∧ oraDecode libEnv es = .ok g' ∧
    Alike (SamePlace libEnv) exampleTree g' := by
  obtain ⟨es, h⟩ := exampleTree_written
  obtain ⟨g', h1, h2⟩ := C61_partial libEnv_lib _ _ (.image (.group exampleTree)) exampleTree rfl ⟨0, 0, 10, 8⟩ rfl exampleTree_size (by
    simp only [exampleTree, FitAll, Fit, blank]
    decide) exampleTree_readable es h
  exact ⟨es, g', h, h1, h2⟩

/-! ## C63 -/

theorem stripAll_nil : ∀ {ns : List Node}, stripAll ns = [] → ∀ x ∈ ns, Prolog x
  | [], _, _, hx => by cases hx
  | .elem _ _ _ :: _, h, _, _ => by rw [stripAll, Node.strip] at h; cases h
  | .text s :: ns, h, x, hx => by
    rcases List.mem_cons.1 hx with rfl | hx
    · intro _ _ _ h; cases h
    · exact stripAll_nil (ns := ns) h x hx
  | .other :: ns, h, x, hx => by
    rcases List.mem_cons.1 hx with rfl | hx
    · intro _ _ _ h; cases h
    · exact stripAll_nil (ns := ns) h x hx

theorem fst_end {ns : List Node} (h : ∀ x ∈ ns, Prolog x) : fst' true (.stop :: tokensAll ns) = .err .unexpectedEOF := by
  have := firstStack_pre true ns (fun x hx => by
    have := h x hx
    cases x with
    | elem a b c => exact absurd rfl (this a b c)
    | _ => trivial) []
  rw [List.append_nil] at this
  exact this

/-- C63, false: an image that is not a group can be written, but what was written can never be read. -/
theorem C63_refuted {env : OraEnv} (hl : OraLib env) (fails : Nat → Bool) (c : Bool) (m : OraInput) (hg : NotGroup m.top) (hm : IntSize m)
    (es : List ZipEntry) (h : oraEncode env fails c m = .ok ⟨none, some es⟩) : oraDecode env es = .err .unexpectedEOF := by
  obtain ⟨b, les, merged, thumb, hb, hh, -, -, rfl⟩ := oraEntries_ok (encode_entries h)
  obtain ⟨ns, h1, h2⟩ := decode_written hl (b := b) hh merged thumb
  rw [h2]
  unfold docOf at h1
  rw [Node.cleaned, cleanedAll, cleanedAll, nodeOf_single env [] hg, cleaned_layer] at h1
  obtain ⟨pre, kids, post, h3, h4, h5, h6⟩ := stripAll_one h1
  have hk : ∀ x ∈ kids, NotStack x := by
    obtain ⟨pre2, kids2, post2, h7, h8, -, h9⟩ := stripAll_one h5
    intro x hx
    rw [h7] at hx
    have hp : Prolog x → NotStack x := fun h => by
      cases x with
      | elem a b c => exact absurd rfl (h a b c)
      | _ => trivial
    rcases List.mem_append.1 hx with hx | hx
    · exact hp (h8 x hx)
    · rcases List.mem_cons.1 hx with rfl | hx
      · show lit "layer" ≠ lit "stack"; decide
      · exact hp (stripAll_nil h9 x hx)
  have ht : tokensAll ns = tokensAll pre ++ .start (lit "image") (back [(lit "version", lit "0.0.3"), (lit "w", itoa b.dx), (lit "h", itoa b.dy)]) ::
      (tokensAll kids ++ .stop :: tokensAll post) := by
    rw [h3, tokensAll_append, tokensAll, Node.tokens]
    simp only [List.append_assoc, List.cons_append, List.nil_append]
    rfl
  rw [ht]
  unfold decodeTokens
  rw [getDimensions_prolog true pre h4]
  unfold getDimensions
  rw [if_pos rfl, image_attrs_back (hm b hb).1 (hm b hb).2]
  show OraRes.bind (fst' true (tokensAll kids ++ .stop :: tokensAll post)) _ = _
  rw [firstStack_pre true kids hk, fst_end (stripAll_nil h6)]
  rfl

/-- a plain image is written, and cannot be read -/
example : ∃ es, oraEncode libEnv (fun _ => false) false (.image (.leaf (blank 3 2))) = .ok ⟨none, some es⟩ ∧ oraDecode libEnv es = .err .unexpectedEOF :=
  ⟨_, rfl, C63_refuted libEnv_lib (fun _ => false) false (.image (.leaf (blank 3 2))) (fun _ h => by cases h) (fun b hb => by cases hb; decide) _ rfl⟩

/-- C63, the part that is true: layered images that have been written can be read.  Missing: all other images. -/
theorem C63_partial {env : OraEnv} (hl : OraLib env) (fails : Nat → Bool) (c : Bool) (m : OraInput) (g : List Layer) (hg : m.top = .group g)
    (hm : IntSize m) (hn : NearAll g) (hr : ∀ i ∈ leavesAll g, Readably i) (es : List ZipEntry) (h : oraEncode env fails c m = .ok ⟨none, some es⟩) :
    ∃ g', oraDecode env es = .ok g' := by
  obtain ⟨_, g', -, h1, -⟩ := C61_back hl fails c m g hg hm hn hr es h
  exact ⟨g', h1⟩

/-- a tree of layers is accepted -/
example : ∃ es g', oraEncode libEnv (fun _ => false) false (.image (.group exampleTree)) = .ok ⟨none, some es⟩ ∧ oraDecode libEnv es = .ok g' := by
  obtain ⟨es, h⟩ := exampleTree_written
  obtain ⟨g', h1⟩ := C63_partial libEnv_lib _ _ _ _ rfl exampleTree_size exampleTree_near exampleTree_readable es h
  exact ⟨es, g', h, h1⟩

end Limage
