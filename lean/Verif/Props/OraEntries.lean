import Verif.Props.OraToXcf
import Verif.Props.PixelBound
import Verif.Props.OraForeign
/-!
# C127: what of an OpenRaster archive is used
-/
namespace Limage

namespace Spec

/-- a stack.xml with these tokens asks for the entry with that name: it is the source of a layer element, or such an element has no source and
the name is empty -/
def Asks (ts : List XmlTok) (name : Bytes) : Prop :=
  ∃ attrs, XmlTok.start (lit "layer") attrs ∈ ts ∧ ((lit "src", name) ∈ attrs ∨ (∀ v, (lit "src", v) ∉ attrs) ∧ name = [])

/-- a start of an element that may become a layer -/
def opensLayer : XmlTok → Bool
  | .start name _ => name = lit "layer" || name = lit "stack"
  | _ => false

/-- a layer that comes from the archive: its mode is one of those of OpenRaster; it is a group, or shows the picture in the first entry with a name
that the stack asks for -/
def FromArchive (env : OraEnv) (files : List ZipEntry) (ts : List XmlTok) (l : Layer) : Prop :=
  l.mode ∈ svgModes ∧ ((∃ g, l.image = .group g) ∨
    ∃ (a : List ZipEntry) (f : ZipEntry) (b : List ZipEntry) (d : Bytes) (L : Leaf), files = a ++ f :: b ∧ (∀ x ∈ a, x.name ≠ f.name) ∧
      Asks ts f.name ∧ f.data = some d ∧ env.decodeImage d = some L ∧ l.image = .leaf L)

end Spec
open Spec

/-! ## Tokens left are the end of the tokens -/

theorem skipTag_suffix {eof : Bool} : ∀ {ts us : List XmlTok} {n : Nat}, skipTag eof ts n = .ok us → us <:+ ts
  | [], _, _, h => by cases h
  | .start _ _ :: ts, us, n, h => (skipTag_suffix (ts := ts) (n := n + 1) h).trans (List.suffix_cons _ _)
  | .stop :: ts, us, 0, h => by cases h; exact List.suffix_cons _ _
  | .stop :: ts, us, n + 1, h => (skipTag_suffix (ts := ts) (n := n) h).trans (List.suffix_cons _ _)
  | .chars _ :: ts, us, n, h => (skipTag_suffix (ts := ts) (n := n) h).trans (List.suffix_cons _ _)
  | .other :: ts, us, n, h => (skipTag_suffix (ts := ts) (n := n) h).trans (List.suffix_cons _ _)

theorem readStack_suffix (env : OraEnv) (files : List ZipEntry) (limits : Pt) (eof : Bool) : ∀ (fuel : Nat) (o : Pt) (ts : List XmlTok) (acc g : List Layer) (us : List XmlTok),
    readStack env files limits eof fuel o ts acc = .ok (g, us) → us <:+ ts
  | 0, _, _, _, _, _, h => by simp [readStack] at h
  | _ + 1, _, [], _, _, _, h => by simp [readStack] at h
  | fuel + 1, o, .start name attrs :: ts, acc, g, us, h => by
    unfold readStack at h
    refine List.IsSuffix.trans ?_ (List.suffix_cons _ _)
    split at h
    · obtain ⟨l, -, h⟩ := OraRes.bind_ok h
      obtain ⟨⟨g', vs⟩, hg, h⟩ := OraRes.bind_ok h
      exact (readStack_suffix env files limits eof fuel _ _ _ _ _ h).trans (readStack_suffix env files limits eof fuel _ _ _ _ _ hg)
    split at h
    · obtain ⟨l, -, h⟩ := OraRes.bind_ok h
      obtain ⟨i, -, h⟩ := OraRes.bind_ok h
      obtain ⟨vs, hv, h⟩ := OraRes.bind_ok h
      exact (readStack_suffix env files limits eof fuel _ _ _ _ _ h).trans (skipTag_suffix hv)
    · obtain ⟨vs, hv, h⟩ := OraRes.bind_ok h
      exact (readStack_suffix env files limits eof fuel _ _ _ _ _ h).trans (skipTag_suffix hv)
  | _ + 1, _, .stop :: ts, _, _, _, h => by
    simp only [readStack, OraRes.ok.injEq, Prod.mk.injEq] at h
    rw [← h.2]; exact List.suffix_cons _ _
  | fuel + 1, _, .chars _ :: ts, _, _, _, h => (readStack_suffix env files limits eof fuel _ ts _ _ _ h).trans (List.suffix_cons _ _)
  | fuel + 1, _, .other :: ts, _, _, _, h => (readStack_suffix env files limits eof fuel _ ts _ _ _ h).trans (List.suffix_cons _ _)

theorem firstStack_suffix (eof : Bool) : ∀ (fuel : Nat) (ts us : List XmlTok), firstStack eof fuel ts = .ok us →
    ∃ attrs, XmlTok.start (lit "stack") attrs :: us <:+ ts
  | 0, _, _, h => by cases h
  | _ + 1, [], _, h => by cases h
  | fuel + 1, .start name attrs :: ts, us, h => by
    unfold firstStack at h
    split at h
    · rename_i hn
      cases h
      exact ⟨attrs, by rw [hn]; exact List.suffix_refl _⟩
    · obtain ⟨vs, hv, h⟩ := OraRes.bind_ok h
      obtain ⟨a, h⟩ := firstStack_suffix eof fuel vs us h
      exact ⟨a, (h.trans (skipTag_suffix hv)).trans (List.suffix_cons _ _)⟩
  | fuel + 1, .stop :: ts, us, h => let ⟨a, h⟩ := firstStack_suffix eof fuel ts us h; ⟨a, h.trans (List.suffix_cons _ _)⟩
  | fuel + 1, .chars _ :: ts, us, h => let ⟨a, h⟩ := firstStack_suffix eof fuel ts us h; ⟨a, h.trans (List.suffix_cons _ _)⟩
  | fuel + 1, .other :: ts, us, h => let ⟨a, h⟩ := firstStack_suffix eof fuel ts us h; ⟨a, h.trans (List.suffix_cons _ _)⟩

theorem getDimensions_suffix (eof : Bool) : ∀ (ts : List XmlTok) (r : Pt × List XmlTok), getDimensions eof ts = .ok r → r.2 <:+ ts
  | [], _, h => by cases h
  | .start name attrs :: ts, r, h => by
    unfold getDimensions at h
    split at h
    · obtain ⟨l, -, h⟩ := OraRes.bind_ok h
      cases h
      exact List.suffix_cons _ _
    · cases h
  | .stop :: ts, r, h => (getDimensions_suffix eof ts r h).trans (List.suffix_cons _ _)
  | .chars _ :: ts, r, h => (getDimensions_suffix eof ts r h).trans (List.suffix_cons _ _)
  | .other :: ts, r, h => (getDimensions_suffix eof ts r h).trans (List.suffix_cons _ _)

theorem Spec.Asks.mono {ts us : List XmlTok} {name : Bytes} (h : Asks us name) (hs : us <:+ ts) : Asks ts name :=
  let ⟨a, h1, h2⟩ := h; ⟨a, hs.subset h1, h2⟩

/-! ## Sources -/

theorem layerAttr_source (env : OraEnv) (l l' : LayerAttrs) (a : Bytes × Bytes) (h : layerAttr env l a = .ok l') :
    (a.1 = lit "src" → l'.source = a.2) ∧ (a.1 ≠ lit "src" → l'.source = l.source) := by
  unfold layerAttr at h
  split at h
  · cases h; exact ⟨fun e => absurd (Eq.trans (Eq.symm ‹a.1 = lit "name"›) e) (by decide), fun _ => rfl⟩
  split at h
  · split at h
    · cases h
    · cases h; exact ⟨fun e => absurd (Eq.trans (Eq.symm ‹a.1 = lit "x"›) e) (by decide), fun _ => rfl⟩
  split at h
  · split at h
    · cases h
    · cases h; exact ⟨fun e => absurd (Eq.trans (Eq.symm ‹a.1 = lit "y"›) e) (by decide), fun _ => rfl⟩
  split at h
  · split at h
    · cases h
    · cases h; exact ⟨fun e => absurd (Eq.trans (Eq.symm ‹a.1 = lit "opacity"›) e) (by decide), fun _ => rfl⟩
  split at h
  · cases h; exact ⟨fun e => absurd (Eq.trans (Eq.symm ‹a.1 = lit "visibility"›) e) (by decide), fun _ => rfl⟩
  split at h
  · cases h; exact ⟨fun e => absurd (Eq.trans (Eq.symm ‹a.1 = lit "composite-op"›) e) (by decide), fun _ => rfl⟩
  split at h
  · cases h; exact ⟨fun _ => rfl, fun hn => absurd ‹_› hn⟩
  · cases h; exact ⟨fun hn => absurd hn ‹_›, fun _ => rfl⟩

theorem processLayerAttrs_source (env : OraEnv) : ∀ (bs : List (Bytes × Bytes)) (l l' : LayerAttrs), processLayerAttrs env l bs = .ok l' →
    (lit "src", l'.source) ∈ bs ∨ (∀ v, (lit "src", v) ∉ bs) ∧ l'.source = l.source
  | [], l, l', h => by
    cases h
    exact .inr ⟨fun _ => List.not_mem_nil, rfl⟩
  | a :: bs, l, l', h => by
    obtain ⟨m, h1, h2⟩ := OraRes.bind_ok h
    obtain ⟨s1, s2⟩ := layerAttr_source env l m a h1
    rcases processLayerAttrs_source env bs m l' h2 with h | ⟨h3, h4⟩
    · exact .inl (List.mem_cons_of_mem _ h)
    · by_cases ha : a.1 = lit "src"
      · refine .inl ?_
        rw [h4, s1 ha, ← ha]
        exact List.mem_cons_self
      · refine .inr ⟨fun v hv => ?_, h4.trans (s2 ha)⟩
        rcases List.mem_cons.1 hv with e | e
        · exact ha (by rw [← e])
        · exact h3 v e

/-- the source of a layer element is asked for -/
theorem asks_start (env : OraEnv) {attrs : List (Bytes × Bytes)} {l : LayerAttrs} (h : processLayerAttrs env {} attrs = .ok l) (ts : List XmlTok) :
    Asks (.start (lit "layer") attrs :: ts) l.source :=
  ⟨attrs, List.mem_cons_self, (processLayerAttrs_source env attrs {} l h)⟩

/-! ## Entries that are not asked for -/

theorem getStack_filter (N : Bytes → Bool) (hs : N (lit "stack.xml") = true) (hm : N (lit "mimetype") = true) :
    ∀ (fs : List ZipEntry) (s : Option ZipEntry), getStack s (fs.filter fun f => N f.name) = getStack s fs
  | [], _ => rfl
  | f :: fs, s => by
    by_cases h : N f.name = true
    · rw [List.filter_cons_of_pos (p := fun f : ZipEntry => N f.name) h]
      unfold getStack
      rw [getStack_filter N hs hm fs, getStack_filter N hs hm fs]
    · rw [List.filter_cons_of_neg (p := fun f : ZipEntry => N f.name) h, getStack_filter N hs hm fs]
      conv => rhs; unfold getStack
      rw [if_neg (fun e => h (by rw [e]; exact hs)), if_neg (fun e => h (by rw [e]; exact hm))]

theorem layerSource_filter (env : OraEnv) (N : Bytes → Bool) (s : Bytes) (hs : N s = true) :
    ∀ fs : List ZipEntry, layerSource env s (fs.filter fun f => N f.name) = layerSource env s fs
  | [] => rfl
  | f :: fs => by
    by_cases h : N f.name = true
    · rw [List.filter_cons_of_pos (p := fun f : ZipEntry => N f.name) h]
      unfold layerSource
      rw [layerSource_filter env N s hs fs]
    · rw [List.filter_cons_of_neg (p := fun f : ZipEntry => N f.name) h, layerSource_filter env N s hs fs]
      conv => rhs; unfold layerSource
      rw [if_neg (fun e => h (by rw [e]; exact hs))]

theorem readStack_files (env : OraEnv) (N : Bytes → Bool) (a b : List ZipEntry) (hab : ∀ s, N s = true → layerSource env s a = layerSource env s b)
    (limits : Pt) (eof : Bool) : ∀ (fuel : Nat) (o : Pt) (ts : List XmlTok) (acc : List Layer), (∀ name, Asks ts name → N name = true) →
      readStack env a limits eof fuel o ts acc = readStack env b limits eof fuel o ts acc
  | 0, _, _, _, _ => rfl
  | _ + 1, _, [], _, _ => rfl
  | fuel + 1, o, .start name attrs :: ts, acc, hN => by
    have hts : ∀ us, us <:+ ts → ∀ name, Asks us name → N name = true :=
      fun us hs name h => hN name (h.mono (hs.trans (List.suffix_cons _ _)))
    unfold readStack
    split
    · refine OraRes.bind_congr fun l _ => ?_
      rw [readStack_files env N a b hab limits eof fuel _ ts _ (hts ts (List.suffix_refl _))]
      refine OraRes.bind_congr fun r hr => ?_
      exact readStack_files env N a b hab limits eof fuel _ r.2 _ (hts r.2 (readStack_suffix _ _ _ _ _ _ _ _ _ _ hr))
    split
    · rename_i hn
      refine OraRes.bind_congr fun l hl => ?_
      rw [hab l.source (hN _ (by rw [hn]; exact asks_start env hl ts))]
      refine OraRes.bind_congr fun i _ => ?_
      refine OraRes.bind_congr fun us hu => ?_
      exact readStack_files env N a b hab limits eof fuel _ us _ (hts us (skipTag_suffix hu))
    · refine OraRes.bind_congr fun us hu => ?_
      exact readStack_files env N a b hab limits eof fuel _ us _ (hts us (skipTag_suffix hu))
  | _ + 1, _, .stop :: ts, _, _ => rfl
  | fuel + 1, _, .chars _ :: ts, _, hN => readStack_files env N a b hab limits eof fuel _ ts _ fun n h => hN n (h.mono (List.suffix_cons _ _))
  | fuel + 1, _, .other :: ts, _, hN => readStack_files env N a b hab limits eof fuel _ ts _ fun n h => hN n (h.mono (List.suffix_cons _ _))

theorem getStack_mem : ∀ (fs : List ZipEntry) (s : Option ZipEntry) (f : ZipEntry), getStack s fs = .ok f → (f ∈ fs ∧ f.name = lit "stack.xml") ∨ s = some f
  | [], s, f, h => by
    cases s with
    | none => cases h
    | some x => cases h; exact .inr rfl
  | x :: fs, s, f, h => by
    unfold getStack at h
    split at h
    · rename_i hx
      rcases getStack_mem fs _ f h with h | h
      · exact .inl ⟨List.mem_cons_of_mem _ h.1, h.2⟩
      · cases h; exact .inl ⟨List.mem_cons_self, hx⟩
    split at h
    · split at h
      · exact (getStack_mem fs _ f h).imp_left fun h => ⟨List.mem_cons_of_mem _ h.1, h.2⟩
      · cases h
    · exact (getStack_mem fs _ f h).imp_left fun h => ⟨List.mem_cons_of_mem _ h.1, h.2⟩

theorem decodeTokens_suffix (env : OraEnv) (files : List ZipEntry) (ts : List XmlTok) (eof : Bool) (g : List Layer) (h : decodeTokens env files ts eof = .ok g) :
    ∃ limits us vs attrs, .start (lit "stack") attrs :: us <:+ ts ∧ readStack env files limits eof (us.length + 1) ⟨0, 0⟩ us [] = .ok (g, vs) := by
  obtain ⟨r, h1, h⟩ := OraRes.bind_ok h
  obtain ⟨us, h2, h⟩ := OraRes.bind_ok h
  obtain ⟨x, h3, h⟩ := OraRes.bind_ok h
  cases h
  obtain ⟨attrs, h4⟩ := firstStack_suffix _ _ _ _ h2
  exact ⟨r.1, us, x.2, attrs, h4.trans (getDimensions_suffix _ _ _ h1), h3⟩

/-- **C127**: two archives that have the same entries of certain names, in the same order, among them mimetype, stack.xml and all that the stack.xml
asks for, are read alike, errors included. -/
theorem C127_ignored (env : OraEnv) (N : Bytes → Bool) (a b : List ZipEntry) (hab : a.filter (fun f => N f.name) = b.filter fun f => N f.name)
    (hs : N (lit "stack.xml") = true) (hm : N (lit "mimetype") = true)
    (hN : ∀ f ∈ a, f.name = lit "stack.xml" → ∀ d, f.data = some d → ∀ name, Asks (env.xmlRead d).1 name → N name = true) :
    oraDecode env a = oraDecode env b ∧ oraDecodeConfig env a = oraDecodeConfig env b := by
  have hg : getStack none b = getStack none a := by rw [← getStack_filter N hs hm a, ← getStack_filter N hs hm b, hab]
  constructor
  · rw [oraDecode_eq, oraDecode_eq, hg]
    refine OraRes.bind_congr fun f hf => ?_
    have hf := (getStack_mem a none f hf).resolve_right (fun h => by cases h)
    cases hd : f.data with
    | none => rfl
    | some d =>
      have hN := hN f hf.1 hf.2 d hd
      show decodeTokens env a _ _ = decodeTokens env b _ _
      unfold decodeTokens
      refine OraRes.bind_congr fun r hr => OraRes.bind_congr fun us hus => ?_
      obtain ⟨attrs, h4⟩ := firstStack_suffix _ _ _ _ hus
      have h5 := ((List.suffix_cons _ _).trans h4).trans (getDimensions_suffix _ _ _ hr)
      unfold rs
      rw [readStack_files env N a b (fun s h => by rw [← layerSource_filter env N s h a, ← layerSource_filter env N s h b, hab]) _ _ _ _ _ _
        fun n h => hN n (h.mono h5)]
  · unfold oraDecodeConfig oraStart
    rw [hg]

-- an archive with a preview and another picture, which are not asked for
example : let b : List ZipEntry := [.of (lit "Thumbnails/thumbnail.png") [9], .of (lit "a") [1], .of (lit "c") [4], .of (lit "b") [3], .of (lit "stack.xml") [2]]
    let N : Bytes → Bool := fun n => n = lit "stack.xml" || n = lit "mimetype" || n = lit "a" || n = lit "b" || n = []
    foreignFiles.filter (fun f => N f.name) = b.filter (fun f => N f.name) ∧
      ∀ f ∈ foreignFiles, f.name = lit "stack.xml" → ∀ d, f.data = some d → ∀ name, Asks ((foreignEnv foreignStack).xmlRead d).1 name → N name = true := by
  refine ⟨by decide, ?_⟩
  rintro f - - d - name ⟨attrs, ha, h⟩
  have ha : attrs ∈ [[(lit "x", lit "1"), (lit "src", lit "b"), (lit "other", lit "n")], [],
      [(lit "composite-op", lit "svg:plus"), (lit "src", lit "a"), (lit "name", lit "n")]] := by
    simp [foreignEnv, document, foreignStack, tokensAll, Node.tokens, show ¬lit "layer" = lit "filter" from by decide,
      show ¬lit "layer" = lit "image" from by decide, show ¬lit "layer" = lit "stack" from by decide] at ha
    simpa using ha
  simp only [List.mem_cons, List.not_mem_nil, or_false] at ha
  rcases ha with rfl | rfl | rfl
  · rcases h with h | h
    · have : name = lit "b" := by simpa [show ¬lit "src" = lit "x" from by decide, show ¬lit "src" = lit "other" from by decide] using h
      rw [this]; decide
    · rw [h.2]; decide
  · rcases h with h | h
    · exact absurd h List.not_mem_nil
    · rw [h.2]; decide
  · rcases h with h | h
    · have : name = lit "a" := by simpa [show ¬lit "src" = lit "composite-op" from by decide, show ¬lit "src" = lit "name" from by decide] using h
      rw [this]; decide
    · rw [h.2]; decide

/-! ## Layers -/

theorem layerSource_entry (env : OraEnv) (s : Bytes) : ∀ (fs : List ZipEntry) (L : Leaf), layerSource env s fs = .ok L →
    ∃ (a : List ZipEntry) (f : ZipEntry) (b : List ZipEntry) (d : Bytes), fs = a ++ f :: b ∧ (∀ x ∈ a, x.name ≠ s) ∧ f.name = s ∧ f.data = some d ∧
      env.decodeImage d = some L
  | [], _, h => by cases h
  | f :: fs, L, h => by
    unfold layerSource at h
    split at h
    · rename_i hn
      split at h
      · cases h
      · rename_i d hd
        split at h
        · cases h
        · rename_i i hi
          cases h
          exact ⟨[], f, fs, d, rfl, fun _ hx => absurd hx List.not_mem_nil, hn, hd, hi⟩
    · rename_i hn
      obtain ⟨a, x, b, d, h1, h2, h3⟩ := layerSource_entry env s fs L h
      refine ⟨f :: a, x, b, d, by rw [h1]; rfl, fun y hy => ?_, h3⟩
      rcases List.mem_cons.1 hy with rfl | hy
      · exact hn
      · exact h2 y hy

/-- all layers at all depths -/
def Each (P : Layer → Prop) (g : List Layer) : Prop := ∀ s, GroupIn s g → ∀ l ∈ s, P l

theorem Each.nil (P : Layer → Prop) : Each P [] := by
  intro s h l hl
  cases h with
  | self => exact absurd hl List.not_mem_nil
  | deeper hx => exact absurd hx List.not_mem_nil

theorem Each.snoc {P : Layer → Prop} {g : List Layer} {l : Layer} (h : Each P g) (hl : P l) (hi : ∀ t, l.image = .group t → Each P t) : Each P (g ++ [l]) := by
  intro s hs x hx
  cases hs with
  | self =>
    rcases List.mem_append.1 hx with hx | hx
    · exact h _ .self x hx
    · rw [List.mem_singleton] at hx
      rw [hx]; exact hl
  | deeper hy e hs =>
    rcases List.mem_append.1 hy with hy | hy
    · exact h s (.deeper hy e hs) x hx
    · rw [List.mem_singleton] at hy
      subst hy
      exact hi _ e s hs x hx

theorem readStack_each (env : OraEnv) (files : List ZipEntry) (limits : Pt) (eof : Bool) (all : List XmlTok) : ∀ (fuel : Nat) (o : Pt) (ts : List XmlTok)
    (acc g : List Layer) (us : List XmlTok), ts <:+ all → readStack env files limits eof fuel o ts acc = .ok (g, us) →
      Each (FromArchive env files all) acc → Each (FromArchive env files all) g
  | 0, _, _, _, _, _, _, h, _ => by simp [readStack] at h
  | _ + 1, _, [], _, _, _, _, h, _ => by simp [readStack] at h
  | fuel + 1, o, .start name attrs :: ts, acc, g, us, ha, h, hc => by
    have ha' := (List.suffix_cons _ _).trans ha
    unfold readStack at h
    split at h
    · obtain ⟨l, hl, h⟩ := OraRes.bind_ok h
      obtain ⟨⟨g', vs⟩, hg, h⟩ := OraRes.bind_ok h
      refine readStack_each env files limits eof all fuel _ _ _ _ _ ((readStack_suffix _ _ _ _ _ _ _ _ _ _ hg).trans ha') h
        (hc.snoc ⟨processLayerAttrs_svg env _ _ _ hl (by decide), .inl ⟨_, rfl⟩⟩ fun t ht => ?_)
      cases ht
      exact readStack_each env files limits eof all fuel _ _ _ _ _ ha' hg (Each.nil _)
    split at h
    · rename_i hn
      obtain ⟨l, hl, h⟩ := OraRes.bind_ok h
      obtain ⟨i, hi, h⟩ := OraRes.bind_ok h
      obtain ⟨vs, hv, h⟩ := OraRes.bind_ok h
      obtain ⟨a, f, b, d, h1, h2, h3, h4, h5⟩ := layerSource_entry env _ _ _ hi
      refine readStack_each env files limits eof all fuel _ _ _ _ _ ((skipTag_suffix hv).trans ha') h
        (hc.snoc ⟨processLayerAttrs_svg env _ _ _ hl (by decide), .inr ⟨a, f, b, d, i, h1, ?_, ?_, h4, h5, rfl⟩⟩ fun t ht => by cases ht)
      · rw [h3]; exact h2
      · rw [h3]
        exact (asks_start env hl ts).mono (by rw [← hn]; exact ha)
    · obtain ⟨vs, hv, h⟩ := OraRes.bind_ok h
      exact readStack_each env files limits eof all fuel _ _ _ _ _ ((skipTag_suffix hv).trans ha') h hc
  | _ + 1, _, .stop :: ts, _, _, _, _, h, hc => by
    simp only [readStack, OraRes.ok.injEq, Prod.mk.injEq] at h
    rw [← h.1]; exact hc
  | fuel + 1, _, .chars _ :: ts, _, _, _, ha, h, hc => readStack_each env files limits eof all fuel _ ts _ _ _ ((List.suffix_cons _ _).trans ha) h hc
  | fuel + 1, _, .other :: ts, _, _, _, ha, h, hc => readStack_each env files limits eof all fuel _ ts _ _ _ ((List.suffix_cons _ _).trans ha) h hc

theorem opens_suffix {us ts : List XmlTok} (h : us <:+ ts) : us.countP opensLayer ≤ ts.countP opensLayer := h.sublist.countP_le

theorem readStack_count (env : OraEnv) (files : List ZipEntry) (limits : Pt) (eof : Bool) : ∀ (fuel : Nat) (o : Pt) (ts : List XmlTok)
    (acc g : List Layer) (us : List XmlTok), readStack env files limits eof fuel o ts acc = .ok (g, us) →
      layersInAll g + us.countP opensLayer ≤ layersInAll acc + ts.countP opensLayer
  | 0, _, _, _, _, _, h => by simp [readStack] at h
  | _ + 1, _, [], _, _, _, h => by simp [readStack] at h
  | fuel + 1, o, .start name attrs :: ts, acc, g, us, h => by
    unfold readStack at h
    split at h
    · rename_i hn
      obtain ⟨l, -, h⟩ := OraRes.bind_ok h
      obtain ⟨⟨g', vs⟩, hg, h⟩ := OraRes.bind_ok h
      have h1 := readStack_count env files limits eof fuel _ _ _ _ _ h
      have h2 := readStack_count env files limits eof fuel _ _ _ _ _ hg
      rw [count_append, count_cons] at h1
      simp only [layersIn, layersInAll] at h1 h2
      rw [List.countP_cons, hn, if_pos (by simp [opensLayer])]
      omega
    split at h
    · rename_i hn
      obtain ⟨l, -, h⟩ := OraRes.bind_ok h
      obtain ⟨i, -, h⟩ := OraRes.bind_ok h
      obtain ⟨vs, hv, h⟩ := OraRes.bind_ok h
      have h1 := readStack_count env files limits eof fuel _ _ _ _ _ h
      have h2 := opens_suffix (skipTag_suffix hv)
      rw [count_append, count_cons] at h1
      simp only [layersIn, layersInAll] at h1
      rw [List.countP_cons, hn, if_pos (by simp [opensLayer])]
      omega
    · obtain ⟨vs, hv, h⟩ := OraRes.bind_ok h
      have h1 := readStack_count env files limits eof fuel _ _ _ _ _ h
      have h2 := opens_suffix (skipTag_suffix hv)
      rw [List.countP_cons]
      omega
  | _ + 1, _, .stop :: ts, _, _, _, h => by
    simp only [readStack, OraRes.ok.injEq, Prod.mk.injEq] at h
    rw [← h.1, ← h.2]; exact Nat.le_refl _
  | fuel + 1, _, .chars _ :: ts, _, _, _, h => readStack_count env files limits eof fuel _ ts _ _ _ h
  | fuel + 1, _, .other :: ts, _, _, _, h => readStack_count env files limits eof fuel _ ts _ _ _ h

/-- **C127**: every layer of a picture that `Decode` returns, at any depth, comes from the archive, and there are fewer than elements in stack.xml
that may become layers. -/
theorem C127_layers (env : OraEnv) (files : List ZipEntry) (g : List Layer) (h : oraDecode env files = .ok g) :
    ∃ f ∈ files, ∃ d, f.name = lit "stack.xml" ∧ f.data = some d ∧
      (∀ s, GroupIn s g → ∀ l ∈ s, FromArchive env files (env.xmlRead d).1 l) ∧ layersInAll g < (env.xmlRead d).1.countP opensLayer := by
  rw [oraDecode_eq] at h
  obtain ⟨f, hf, h⟩ := OraRes.bind_ok h
  have hf := (getStack_mem files none f hf).resolve_right (fun h => by cases h)
  cases hd : f.data with
  | none => rw [hd] at h; cases h
  | some d =>
    rw [hd] at h
    obtain ⟨limits, us, vs, attrs, h1, h2⟩ := decodeTokens_suffix _ _ _ _ _ h
    refine ⟨f, hf.1, d, hf.2, hd, readStack_each _ _ _ _ _ _ _ _ _ _ _ ((List.suffix_cons _ _).trans h1) h2 (Each.nil _), ?_⟩
    have h3 := readStack_count _ _ _ _ _ _ _ _ _ _ h2
    have h4 := opens_suffix h1
    rw [List.countP_cons, if_pos (by simp [opensLayer])] at h4
    simp only [layersInAll] at h3
    omega

-- two layers, in a document with four elements that may become one
example : (∃ g, oraDecode (foreignEnv foreignStack) foreignFiles = .ok g ∧ layersInAll g = 2) ∧
    ((foreignEnv foreignStack).xmlRead [2]).1.countP opensLayer = 4 := by
  refine ⟨⟨_, rfl, ?_⟩, by decide +kernel⟩
  decide +kernel

end Limage
