import Verif.Props.OraForeign
import Verif.Props.OraWrite
/-!
# C135: stack.xml is written as the OpenRaster format says

Other programs find in stack.xml an element for each layer, with its name, its place, its mode and whether it is hidden, and the entry with its image.
Unlike C59-C62 nothing is said here about the reader of this library.

Proved for layers that are not partly transparent, have one of the modes of OpenRaster and do not start left of or above the picture. For others it is
false (`C135_refuted`): opacities are not written; of hidden layers that are partly transparent an attribute is written twice, so that the document is not
XML; negative positions are left out, so that other programs put the layer at 0; and of other modes nothing is said.
-/
namespace Limage
namespace Spec

/-- the first entry of an archive with a name holds the PNG file of an image -/
def PngIs (env : OraEnv) (files : List ZipEntry) (source : Bytes) (i : Img) : Prop :=
  ∃ a f b d, files = a ++ f :: b ∧ (∀ x ∈ a, x.name ≠ source) ∧ f.name = source ∧ f.data = some d ∧ env.png (.full (.image i)) = .ok d

/-- the elements in a stack say what the layers are -/
inductive Documents (env : OraEnv) (files : List ZipEntry) : List Layer → List Node → Prop
  | nil : Documents env files [] []
  | layer {l g attrs xs} : NotGroup l.image → OraAttrs env attrs l.name ⟨l.bounds.x0, l.bounds.y0⟩ l.mode l.invisible l.transparency →
      PngIs env files ((attrOf (lit "src") attrs).getD []) l.image → Documents env files g xs →
      Documents env files (l :: g) (.elem (lit "layer") attrs [] :: xs)
  | group {l g g' attrs ns xs} : l.image = .group g' → OraAttrs env attrs l.name ⟨l.bounds.x0, l.bounds.y0⟩ l.mode l.invisible l.transparency →
      Documents env files g' ns → Documents env files g xs → Documents env files (l :: g) (.elem (lit "stack") attrs ns :: xs)

/-- a layer that can be described: solid, with a mode of OpenRaster and not left of or above the origin -/
def Sayable (b : Rect) (mode : Mode) (tr : UInt8) : Prop :=
  tr = 0 ∧ mode ∈ svgModes ∧ 0 ≤ b.x0 ∧ b.x0 < 2 ^ 63 ∧ 0 ≤ b.y0 ∧ b.y0 < 2 ^ 63

mutual
/-- all layers of an image can be described -/
def SayableIn (i : Img) : Prop :=
  match i with
  | .group g => SayableAll g
  | _ => True
termination_by structural i
/-- all layers can be described -/
def SayableAll (g : List Layer) : Prop :=
  match g with
  | [] => True
  | ⟨_, b, mode, _, tr, im⟩ :: rest => Sayable b mode tr ∧ SayableIn im ∧ SayableAll rest
termination_by structural g
end

/-- the sides of the picture are numbers of 64 bits -/
def Measured (m : OraInput) : Prop := ∀ b, m.bounds = some b → 0 ≤ b.dx ∧ b.dx < 2 ^ 63 ∧ 0 ≤ b.dy ∧ b.dy < 2 ^ 63

/-- the document that is in an archive: a picture of the given size, and the elements in its stack -/
def StackXml (env : OraEnv) (files : List ZipEntry) (w h : Int) (stack : List Node) : Prop :=
  ∃ attrs v u, ZipEntry.of (lit "stack.xml") (env.xmlWrite (Node.elem (lit "image") attrs [.elem (lit "stack") [] stack]).tokens) ∈ files ∧
    (attrs.map Prod.fst).Nodup ∧ attrOf (lit "w") attrs = some v ∧ WholeNumber v w ∧ attrOf (lit "h") attrs = some u ∧ WholeNumber u h

end Spec
open Spec

theorem attrOf_append (k : Bytes) (as bs : List (Bytes × Bytes)) : attrOf k (as ++ bs) = (attrOf k as).or (attrOf k bs) := by
  induction as with
  | nil => simp [attrOf]
  | cons a as ih =>
    obtain ⟨x, v⟩ := a
    rw [List.cons_append, attrOf, attrOf, ih]
    split <;> simp

theorem whole_itoa {n : Int} (h0 : -2 ^ 63 < n) (h : n < 2 ^ 63) : WholeNumber (itoa n) n := by
  obtain ⟨h1, h2, h3⟩ := itoa_nat n.natAbs
  refine ⟨itoa n.natAbs, h1, h2, by rw [h3]; omega, ?_⟩
  by_cases hn : n < 0
  · exact .inr ⟨itoa_neg hn, by rw [h3]; omega⟩
  · have : ((n.natAbs : Nat) : Int) = n := by omega
    exact .inl ⟨.inl (by rw [this]), by rw [h3, this]⟩

theorem op_named : ∀ m ∈ svgModes, (opOfMode m = none ∧ m = Mode.normal) ∨ ∃ op, opOfMode m = some op ∧ (op, m) ∈ opNames := by
  unfold svgModes
  simp only [List.mem_cons, List.not_mem_nil, or_false, forall_eq_or_imp, forall_eq]
  refine ⟨.inl (by decide), ?_⟩
  refine ⟨?_, ?_, ?_, ?_, ?_, ?_, ?_, ?_, ?_, ?_, ?_, ?_, ?_, ?_, ?_, ?_, ?_, ?_, ?_⟩ <;>
    exact .inr ⟨_, rfl, by decide⟩

/-- the names of attributes differ -/
theorem lits : (lit "name" = lit "x") = False ∧ (lit "name" = lit "y") = False ∧ (lit "name" = lit "composite-op") = False ∧
    (lit "name" = lit "visibility") = False ∧ (lit "name" = lit "opacity") = False ∧ (lit "name" = lit "src") = False ∧
    (lit "x" = lit "name") = False ∧ (lit "x" = lit "y") = False ∧ (lit "x" = lit "composite-op") = False ∧
    (lit "x" = lit "visibility") = False ∧ (lit "x" = lit "opacity") = False ∧ (lit "x" = lit "src") = False ∧
    (lit "y" = lit "name") = False ∧ (lit "y" = lit "x") = False ∧ (lit "y" = lit "composite-op") = False ∧
    (lit "y" = lit "visibility") = False ∧ (lit "y" = lit "opacity") = False ∧ (lit "y" = lit "src") = False ∧
    (lit "visibility" = lit "name") = False ∧ (lit "visibility" = lit "x") = False ∧ (lit "visibility" = lit "y") = False ∧
    (lit "visibility" = lit "composite-op") = False ∧ (lit "visibility" = lit "opacity") = False ∧ (lit "visibility" = lit "src") = False ∧
    (lit "composite-op" = lit "name") = False ∧ (lit "composite-op" = lit "x") = False ∧ (lit "composite-op" = lit "y") = False ∧
    (lit "composite-op" = lit "visibility") = False ∧ (lit "composite-op" = lit "opacity") = False ∧ (lit "composite-op" = lit "src") = False := by
  simp only [eq_iff_iff, iff_false]
  decide

/-- the attributes written of a layer that can be described -/
theorem stackAttrs_say (env : OraEnv) (name : GoString) (b : Rect) (mode : Mode) (invisible : Bool) (tr : UInt8) (hs : Sayable b mode tr)
    (extra : List (Bytes × Bytes)) (he : extra = [] ∨ ∃ v, extra = [(lit "src", v)]) :
    OraAttrs env (stackAttrs env name b mode invisible tr ++ extra) name ⟨b.x0, b.y0⟩ mode invisible tr ∧
      attrOf (lit "src") (stackAttrs env name b mode invisible tr ++ extra) = attrOf (lit "src") extra := by
  obtain ⟨rfl, hm, hx0, hx1, hy0, hy1⟩ := hs
  have wx := whole_itoa (n := b.x0) (by omega) hx1
  have wy := whole_itoa (n := b.y0) (by omega) hy1
  have hop := op_named mode hm
  have hc : ∀ (c : Prop) [Decidable c] (k' k v : Bytes), attrOf k (if c then [(k', v)] else []) = if c ∧ k' = k then some v else none := by
    intro c _ k' k v
    by_cases h : c <;> simp [h, attrOf]
  have all : ∀ k, attrOf k (stackAttrs env name b mode invisible 0 ++ extra) =
      ((((((if name ≠ [] ∧ lit "name" = k then some name else none).or (if b.x0 > 0 ∧ lit "x" = k then some (itoa b.x0) else none)).or
        (if b.y0 > 0 ∧ lit "y" = k then some (itoa b.y0) else none)).or (if invisible = true ∧ lit "visibility" = k then some (lit "hidden") else none)).or
        none).or (if lit "composite-op" = k then opOfMode mode else none)).or (attrOf k extra) := by
    intro k
    unfold stackAttrs
    rw [attrOf_append, attrOf_append, attrOf_append, attrOf_append, attrOf_append, attrOf_append, hc, hc, hc, hc, if_neg (show ¬((0 : UInt8) ≠ 0) by simp)]
    congr 2
    cases opOfMode mode with
    | none => simp [attrOf]
    | some op => simp [attrOf]
  have hex : ∀ k, k ≠ lit "src" → attrOf k extra = none := by
    intro k hk
    rcases he with rfl | ⟨v, rfl⟩
    · rfl
    · rw [attrOf, if_neg (Ne.symm hk)]
      rfl
  constructor
  · constructor
    · unfold stackAttrs
      rw [if_neg (show ¬((0 : UInt8) ≠ 0) by simp)]
      rcases he with rfl | ⟨v, rfl⟩ <;> rcases hop with ⟨h1, -⟩ | ⟨op, h1, -⟩ <;> rw [h1] <;> split <;> split <;> split <;> split <;> 
        (simp only [List.map_append, List.map_cons, List.map_nil]; decide)
    · rw [all, hex _ (by decide)]
      by_cases hn : name = [] <;> simp [hn, lits]
    · rw [all, hex _ (by decide)]
      by_cases hn : b.x0 > 0
      · simpa [hn, lits, Coordinate] using wx
      · simp [hn, lits, Coordinate]
        omega
    · rw [all, hex _ (by decide)]
      by_cases hn : b.y0 > 0
      · simpa [hn, lits, Coordinate] using wy
      · simp [hn, lits, Coordinate]
        omega
    · rw [all, hex _ (by decide)]
      rcases hop with ⟨h1, h2⟩ | ⟨op, h1, h2⟩
      · simpa [h1, lits, OpIs] using h2
      · simp [h1, lits, OpIs, h2]
    · rw [all, hex _ (by decide)]
      cases invisible <;> simp [lits]
    · intro v hv
      rw [all, hex _ (by decide)] at hv
      simp [lits] at hv
    · intro
      rfl
  · rw [all]
    simp [lits]

theorem hasAt_png {env : OraEnv} {files : List ZipEntry} {k : Nat} {i : Img} (h : HasAt env files k i) : PngIs env files (dataName k) i := by
  obtain ⟨d, hd, hf⟩ := h
  obtain ⟨-, a, b, h2, h3⟩ := List.find?_eq_some_iff_append.1 hf
  exact ⟨a, _, b, d, h2, fun x hx => by simpa using h3 x hx, rfl, rfl, hd⟩

mutual
theorem documents_img {env : OraEnv} {files : List ZipEntry} (i : Img) (n : Nat) (hf : HasAll env files n (leaves i)) (hs : SayableIn i)
    (g : List Layer) (hg : i = .group g) : Documents env files g (nodesOf env g n).1 := by
  match i with
  | .group g₀ =>
    have : g₀ = g := by injection hg
    rw [← this]
    rw [leaves] at hf
    exact documents_all g₀ n hf (by rw [SayableIn] at hs; exact hs)
  | .leaf _ | .nil | .text _ _ | .masked _ _ => cases hg
termination_by structural i
theorem documents_all {env : OraEnv} {files : List ZipEntry} (g : List Layer) (n : Nat) (hf : HasAll env files n (leavesAll g)) (hs : SayableAll g) :
    Documents env files g (nodesOf env g n).1 := by
  match g with
  | [] => exact .nil
  | ⟨name, b, mode, invisible, tr, im⟩ :: rest =>
    rw [leavesAll, hasAll_append] at hf
    rw [SayableAll] at hs
    rw [nodesOf]
    dsimp only
    have hrest := documents_all rest (nodeOf env (stackAttrs env name b mode invisible tr) im n).2 (by rw [nodeOf_count]; exact hf.2) hs.2.2
    by_cases hg : ∃ g', im = .group g'
    · obtain ⟨g', hg⟩ := hg
      have hin := documents_img im n hf.1 hs.2.1 g' hg
      have : (nodeOf env (stackAttrs env name b mode invisible tr) im n).1 = .elem (lit "stack") (stackAttrs env name b mode invisible tr) (nodesOf env g' n).1 := by
        rw [hg, nodeOf]
      rw [this]
      refine .group (l := ⟨name, b, mode, invisible, tr, im⟩) hg ?_ hin hrest
      have := (stackAttrs_say env name b mode invisible tr hs.1 [] (.inl rfl)).1
      rwa [List.append_nil] at this
    · have hng : NotGroup im := fun g' h => hg ⟨g', h⟩
      rw [nodeOf_single env _ hng] at hrest ⊢
      have h1 := stackAttrs_say env name b mode invisible tr hs.1 [(lit "src", dataName (n + 1))] (.inr ⟨_, rfl⟩)
      refine .layer (l := ⟨name, b, mode, invisible, tr, im⟩) hng h1.1 ?_ hrest
      rw [h1.2]
      have h2 : leaves im = [im] := by
        cases im with
        | group g' => exact absurd rfl (hng g')
        | _ => rfl
      have h3 := hf.1
      rw [h2] at h3
      exact hasAt_png h3.1
termination_by structural g
end

/-- the document that is written of a picture with layers -/
theorem stackXml_written {env : OraEnv} {fails : Nat → Bool} {c : Bool} {m : OraInput} {g : List Layer} (hg : m.top = .group g) (hm : Measured m)
    {es : List ZipEntry} (h : oraEncode env fails c m = .ok ⟨none, some es⟩) :
    ∃ b, m.bounds = some b ∧ StackXml env es b.dx b.dy (nodesOf env g 0).1 ∧ HasAll env es 0 (leavesAll g) := by
  obtain ⟨b, les, merged, thumb, hb, hh, -, -, rfl⟩ := oraEntries_ok (encode_entries h)
  have hw := hm b hb
  refine ⟨b, hb, ⟨[(lit "version", lit "0.0.3"), (lit "w", itoa b.dx), (lit "h", itoa b.dy)], itoa b.dx, itoa b.dy, ?_,
    (by decide : ([lit "version", lit "w", lit "h"] : List Bytes).Nodup), rfl,
    whole_itoa (by omega) (by omega), rfl, whole_itoa (by omega) (by omega)⟩, ?_⟩
  · rw [stackTokens_doc]
    unfold docOf
    rw [hg, nodeOf]
    simp
  · have := holds_hasAll env (leaves m.top) 0 [.of (lit "mimetype") oraMime] les [.of (lit "stack.xml") (env.xmlWrite (stackTokens env m b.dx b.dy)),
        .of (lit "mergedimage.png") merged, .of (lit "Thumbnails/thumbnail.png") thumb] hh (by
      intro f hf k _ he
      rw [List.mem_singleton] at hf
      rw [hf] at he
      have := congrArg List.head? he
      rw [dataName_head] at this
      exact absurd this (by decide))
    rw [hg, leaves] at this
    simpa using this

/-- C135: other programs find in stack.xml what the layers are. -/
theorem C135_documented_partial (env : OraEnv) (fails : Nat → Bool) (c : Bool) (m : OraInput) (g : List Layer) (hg : m.top = .group g) (hm : Measured m)
    (hs : SayableAll g) (es : List ZipEntry) (h : oraEncode env fails c m = .ok ⟨none, some es⟩) :
    ∃ b xs, m.bounds = some b ∧ StackXml env es b.dx b.dy xs ∧ Documents env es g xs := by
  obtain ⟨b, hb, h1, h2⟩ := stackXml_written hg hm h
  exact ⟨b, _, hb, h1, documents_all g 0 h2 hs⟩

/-- a group at (1, 0), with a hidden layer with a mode -/
def documentedTree : List Layer :=
  [⟨lit "a", ⟨2, 3, 6, 8⟩, Mode.screen, true, 0, .leaf (blank 4 5)⟩,
    ⟨[], ⟨1, 0, 10, 8⟩, Mode.normal, false, 0, .group [⟨lit "b", ⟨0, 7, 10, 8⟩, Mode.plus, true, 0, .leaf (blank 10 1)⟩]⟩]

example : ∃ es b xs, oraEncode libEnv (fun _ => false) false (.image (.group documentedTree)) = .ok ⟨none, some es⟩ ∧
    (Img.group documentedTree).bounds = some b ∧ StackXml libEnv es b.dx b.dy xs ∧ Documents libEnv es documentedTree xs := by
  have hm : Measured (.image (.group documentedTree)) := fun b hb => by
    cases hb
    decide
  obtain ⟨es, h⟩ : ∃ es, oraEncode libEnv (fun _ => false) false (.image (.group documentedTree)) = .ok ⟨none, some es⟩ := ⟨_, rfl⟩
  obtain ⟨b, xs, h1, h2, h3⟩ := C135_documented_partial libEnv _ _ _ _ rfl hm (by
    unfold documentedTree SayableAll SayableAll SayableAll SayableIn SayableAll SayableAll SayableIn
    unfold Sayable
    decide) es h
  exact ⟨es, b, xs, h, h1, h2, h3⟩

/-- the attributes written of any layer -/
theorem stackAttrs_fail (env : OraEnv) (name : GoString) (b : Rect) (mode : Mode) (invisible : Bool) (tr : UInt8) (extra : List (Bytes × Bytes))
    (he : extra = [] ∨ ∃ v, extra = [(lit "src", v)]) :
    attrOf (lit "opacity") (stackAttrs env name b mode invisible tr ++ extra) = none ∧
    (invisible = true → tr ≠ 0 → ¬((stackAttrs env name b mode invisible tr ++ extra).map Prod.fst).Nodup) ∧
    (b.x0 < 0 → attrOf (lit "x") (stackAttrs env name b mode invisible tr ++ extra) = none) ∧
    (b.y0 < 0 → attrOf (lit "y") (stackAttrs env name b mode invisible tr ++ extra) = none) ∧
    (mode ∉ svgModes → attrOf (lit "composite-op") (stackAttrs env name b mode invisible tr ++ extra) = none) := by
  have hc : ∀ (c : Prop) [Decidable c] (k' k v : Bytes), attrOf k (if c then [(k', v)] else []) = if c ∧ k' = k then some v else none := by
    intro c _ k' k v
    by_cases h : c <;> simp [h, attrOf]
  have all : ∀ k, attrOf k (stackAttrs env name b mode invisible tr ++ extra) =
      ((((((if name ≠ [] ∧ lit "name" = k then some name else none).or (if b.x0 > 0 ∧ lit "x" = k then some (itoa b.x0) else none)).or
        (if b.y0 > 0 ∧ lit "y" = k then some (itoa b.y0) else none)).or (if invisible = true ∧ lit "visibility" = k then some (lit "hidden") else none)).or
        (if tr ≠ 0 ∧ lit "visibility" = k then some (env.formatOpacity tr) else none)).or (if lit "composite-op" = k then opOfMode mode else none)).or
        (attrOf k extra) := by
    intro k
    unfold stackAttrs
    rw [attrOf_append, attrOf_append, attrOf_append, attrOf_append, attrOf_append, attrOf_append, hc, hc, hc, hc, hc]
    congr 2
    cases opOfMode mode with
    | none => simp [attrOf]
    | some op => simp [attrOf]
  have hex : ∀ k, k ≠ lit "src" → attrOf k extra = none := by
    intro k hk
    rcases he with rfl | ⟨v, rfl⟩
    · rfl
    · rw [attrOf, if_neg (Ne.symm hk)]
      rfl
  refine ⟨?_, fun hi ht hn => ?_, fun hx => ?_, fun hy => ?_, fun hm => ?_⟩
  · rw [all, hex _ (by decide)]
    simp [lits]
  · unfold stackAttrs at hn
    rw [if_pos hi, if_pos ht] at hn
    simp only [List.map_append, List.append_assoc] at hn
    have h1 := (List.nodup_append.1 (List.nodup_append.1 (List.nodup_append.1 hn).2.1).2.1).2.1
    exact (List.nodup_append.1 h1).2.2 (lit "visibility") (by simp) (lit "visibility") (by simp) rfl
  · rw [all, hex _ (by decide)]
    have : ¬b.x0 > 0 := by omega
    simp [lits, this]
  · rw [all, hex _ (by decide)]
    have : ¬b.y0 > 0 := by omega
    simp [lits, this]
  · rw [all, hex _ (by decide)]
    have : opOfMode mode = none := by
      cases h : opOfMode mode with
      | none => rfl
      | some op => exact absurd (List.mem_of_mem_tail (opOfMode_mem h)) hm
    simp [lits, this]

theorem nodesOf_fail (env : OraEnv) : ∀ (g : List Layer) (n : Nat), (nodesOf env g n).1.length = g.length ∧
    ∀ (k : Nat) (l : Layer), g[k]? = some l → ∃ tag attrs ns, (nodesOf env g n).1[k]? = some (.elem tag attrs ns) ∧ attrOf (lit "opacity") attrs = none ∧
      (l.invisible = true → l.transparency ≠ 0 → ¬(attrs.map Prod.fst).Nodup) ∧ (l.bounds.x0 < 0 → attrOf (lit "x") attrs = none) ∧
      (l.bounds.y0 < 0 → attrOf (lit "y") attrs = none) ∧ (l.mode ∉ svgModes → attrOf (lit "composite-op") attrs = none)
  | [], n => ⟨rfl, fun k l h => by cases h⟩
  | ⟨name, b, mode, invisible, tr, im⟩ :: rest, n => by
    rw [nodesOf]
    dsimp only
    obtain ⟨h1, h2⟩ := nodesOf_fail env rest (nodeOf env (stackAttrs env name b mode invisible tr) im n).2
    refine ⟨by rw [List.length_cons, List.length_cons, h1], fun k l hk => ?_⟩
    cases k with
    | succ k => exact h2 k l hk
    | zero =>
      cases hk
      by_cases hg : ∃ g', im = .group g'
      · obtain ⟨g', rfl⟩ := hg
        have := stackAttrs_fail env name b mode invisible tr [] (.inl rfl)
        rw [List.append_nil] at this
        exact ⟨_, _, _, rfl, this⟩
      · rw [nodeOf_single env _ (fun g' h => hg ⟨g', h⟩)]
        exact ⟨_, _, _, rfl, stackAttrs_fail env name b mode invisible tr _ (.inr ⟨_, rfl⟩)⟩

/-- C135 is false of other layers: no opacity is written of any layer; of a hidden layer that is partly transparent an attribute is written twice, which is
not XML; and negative positions and other modes are left out. -/
theorem C135_refuted (env : OraEnv) (fails : Nat → Bool) (c : Bool) (m : OraInput) (g : List Layer) (hg : m.top = .group g) (hm : Measured m)
    (es : List ZipEntry) (h : oraEncode env fails c m = .ok ⟨none, some es⟩) :
    ∃ b xs, m.bounds = some b ∧ StackXml env es b.dx b.dy xs ∧ xs.length = g.length ∧ ∀ (k : Nat) l, g[k]? = some l →
      ∃ tag attrs ns, xs[k]? = some (.elem tag attrs ns) ∧ attrOf (lit "opacity") attrs = none ∧
        (l.invisible = true → l.transparency ≠ 0 → ¬(attrs.map Prod.fst).Nodup) ∧ (l.bounds.x0 < 0 → attrOf (lit "x") attrs = none) ∧
        (l.bounds.y0 < 0 → attrOf (lit "y") attrs = none) ∧ (l.mode ∉ svgModes → attrOf (lit "composite-op") attrs = none) := by
  obtain ⟨b, hb, h1, -⟩ := stackXml_written hg hm h
  exact ⟨b, _, hb, h1, nodesOf_fail env g 0⟩

/-- a hidden, partly transparent layer makes a document that is not XML -/
example : ∃ es, ∃ b : Rect, ∃ xs tag attrs ns, oraEncode libEnv (fun _ => false) false (.image (.group exampleTree)) = .ok ⟨none, some es⟩ ∧
    StackXml libEnv es b.dx b.dy xs ∧ xs[0]? = some (Node.elem tag attrs ns) ∧ ¬(attrs.map Prod.fst).Nodup := by
  have hm : Measured (.image (.group exampleTree)) := fun b hb => by
    cases hb
    decide
  obtain ⟨es, h⟩ := exampleTree_written
  obtain ⟨b, xs, -, h2, -, h3⟩ := C135_refuted libEnv _ _ _ _ rfl hm es h
  obtain ⟨tag, attrs, ns, h4, -, h5, -⟩ := h3 0 _ rfl
  exact ⟨es, b, xs, tag, attrs, ns, h, h2, h4, h5 rfl (by decide)⟩

end Limage
