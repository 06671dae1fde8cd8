import Verif.Proofs.OraRead
import Verif.Spec.Ora
/-!
# C64, C65, C66: reading OpenRaster files
-/
namespace Limage
open Spec

/-! ## C64 -/

theorem imageAttrs_returns : ∀ (attrs : List (Bytes × Bytes)) (w h : Option Int), (imageAttrs attrs w h).Returns
  | [], some _, some _ => .ok _
  | [], none, _ => .err _
  | [], some _, none => .err _
  | (name, value) :: rest, w, h => by
    unfold imageAttrs
    split
    · cases atoi value with
      | none => exact .err _
      | some n => exact imageAttrs_returns rest _ _
    split
    · cases atoi value with
      | none => exact .err _
      | some n => exact imageAttrs_returns rest _ _
    exact imageAttrs_returns rest _ _

theorem getDimensions_returns (eof : Bool) : ∀ ts : List XmlTok, (getDimensions eof ts).Returns
  | [] => .err _
  | .start name attrs :: ts => by
    unfold getDimensions
    split
    · exact (imageAttrs_returns _ _ _).bind fun _ _ => .ok _
    · exact .err _
  | .stop :: ts => getDimensions_returns eof ts
  | .chars _ :: ts => getDimensions_returns eof ts
  | .other :: ts => getDimensions_returns eof ts

theorem getStack_returns : ∀ (fs : List ZipEntry) (s : Option ZipEntry), (getStack s fs).Returns
  | [], some _ => .ok _
  | [], none => .err _
  | f :: fs, s => by
    unfold getStack
    split
    · exact getStack_returns fs _
    split
    · split
      · exact getStack_returns fs _
      · exact .err _
    exact getStack_returns fs _

theorem oraStart_returns (env : OraEnv) (files : List ZipEntry) : (oraStart env files).Returns := by
  unfold oraStart
  refine (getStack_returns _ _).bind fun f _ => ?_
  cases f.data with
  | none => exact .err _
  | some d => exact (getDimensions_returns _ _).bind fun r _ => .ok _

/-- C64: `Decode` and `DecodeConfig` return for every archive, whatever the tokens in it are. -/
theorem C64_returns (env : OraEnv) (files : List ZipEntry) :
    ((∃ g, oraDecode env files = .ok g) ∨ ∃ e, oraDecode env files = .err e) ∧
    ((∃ g, oraDecodeConfig env files = .ok g) ∨ ∃ e, oraDecodeConfig env files = .err e) := by
  constructor
  · rw [oraDecode_eq]
    refine (getStack_returns _ _).bind fun f _ => ?_
    cases f.data with
    | none => exact .err _
    | some d =>
      exact (getDimensions_returns _ _).bind fun r _ => (firstStack_returns _ _ _ (Nat.lt_succ_self _)).bind fun us _ =>
        (readStack_returns _ _ _ _ _ _ _ _ (Nat.lt_succ_self _)).bind fun r _ => .ok _
  · exact (oraStart_returns env files).bind fun r _ => .ok _

/-- an empty archive -/
example (env : OraEnv) : ∃ e, oraDecode env [] = .err e := ⟨_, rfl⟩

theorem readNodes_foreign {env : OraEnv} {files : List ZipEntry} {limits : Pt} {xs ys : List Node} (h : Foreign xs ys) :
    ∀ o, readNodes env files limits o ys = readNodes env files limits o xs := by
  have hnone : ∀ {o x}, readNode env files limits o x = .ok [] → ∀ {xs ys}, readNodes env files limits o ys = readNodes env files limits o xs →
      readNodes env files limits o (x :: ys) = readNodes env files limits o xs := by
    intro o x hx xs ys h
    rw [readNodes, hx, OraRes.ok_bind, h]
    cases readNodes env files limits o xs <;> rfl
  induction h with
  | nil => intro o; rfl
  | stack _ _ ih1 ih2 =>
    intro o
    rw [readNodes, readNodes, ih2 o]
    congr 1
    rw [readNode, readNode, if_pos rfl, if_pos rfl]
    exact OraRes.bind_congr fun l _ => by rw [ih1]
  | layer _ ih =>
    intro o
    rw [readNodes, readNodes, ih o]
    rfl
  | element hk _ ih =>
    intro o
    refine hnone ?_ (ih o)
    rw [readNode, if_neg (fun h => hk (.inl h)), if_neg (fun h => hk (.inr h))]
  | text _ ih => intro o; exact hnone rfl (ih o)
  | other _ ih => intro o; exact hnone rfl (ih o)

theorem getDimensions_prolog (eof : Bool) : ∀ (xs : List Node), (∀ x ∈ xs, Prolog x) → ∀ rest : List XmlTok, getDimensions eof (tokensAll xs ++ rest) = getDimensions eof rest
  | [], _, _ => rfl
  | .elem name attrs ns :: _, h, _ => absurd rfl (h _ (List.mem_cons_self ..) name attrs ns)
  | .text _ :: xs, h, rest => getDimensions_prolog eof xs (fun x hx => h x (List.mem_cons_of_mem _ hx)) rest
  | .other :: xs, h, rest => getDimensions_prolog eof xs (fun x hx => h x (List.mem_cons_of_mem _ hx)) rest

theorem Spec.Before.notStack {x : Node} (h : Before x) : NotStack x := by
  cases x with
  | elem name attrs ns => exact fun hn => h attrs ns (by rw [hn])
  | _ => trivial

theorem fst_stack (eof : Bool) (attrs : List (Bytes × Bytes)) (ts : List XmlTok) : fst' eof (.start (lit "stack") attrs :: ts) = .ok ts := by
  show firstStack eof (ts.length + 1 + 1) _ = _
  unfold firstStack
  rw [if_pos rfl]

theorem decodeTokens_document (env : OraEnv) (files : List ZipEntry) (prolog : List Node) (attrs : List (Bytes × Bytes)) (before : List Node)
    (sattrs : List (Bytes × Bytes)) (stack : List Node) (rest : List XmlTok) (eof : Bool) (hp : ∀ x ∈ prolog, Prolog x) (hb : ∀ x ∈ before, Before x) :
    decodeTokens env files (document prolog attrs before sattrs stack rest) eof =
      (imageAttrs attrs none none).bind fun limits => readNodes env files limits ⟨0, 0⟩ stack := by
  unfold decodeTokens document
  rw [List.append_assoc, List.append_assoc, getDimensions_prolog eof prolog hp]
  show OraRes.bind (getDimensions eof (.start (lit "image") attrs :: _)) _ = _
  unfold getDimensions
  rw [if_pos rfl, OraRes.bind_eq, OraRes.bind_assoc]
  refine OraRes.bind_congr fun limits _ => ?_
  show OraRes.bind (fst' eof (tokensAll before ++ .start (lit "stack") sattrs :: (tokensAll stack ++ .stop :: rest))) _ = _
  rw [firstStack_pre eof before (fun x hx => (hb x hx).notStack), fst_stack, OraRes.ok_bind, rs_nodes, OraRes.bind_assoc]
  cases readNodes env files limits ⟨0, 0⟩ stack <;> rfl

/-- no wrong mimetype entry -/
def mimesOk (fs : List ZipEntry) : Bool := fs.all fun x => x.name ≠ lit "mimetype" || checkMime x

theorem getStack_eq : ∀ (fs : List ZipEntry) (s : Option ZipEntry),
    getStack s fs = if mimesOk fs = true then (match (fs.reverse.find? fun f => f.name = lit "stack.xml").or s with
      | some f => .ok f
      | none => .err .missingStack) else .err .invalidMimeType
  | [], s => by cases s <;> rfl
  | f :: fs, s => by
    unfold getStack mimesOk
    rw [getStack_eq fs, getStack_eq fs, List.all_cons, List.reverse_cons, List.find?_append]
    unfold mimesOk
    by_cases h0 : f.name = lit "stack.xml"
    · simp only [h0, if_true, decide_true, List.find?_cons, ne_eq, Option.or_assoc]
      rfl
    · by_cases h1 : f.name = lit "mimetype"
      · have hx : lit "mimetype" ≠ lit "stack.xml" := by decide
        by_cases h2 : checkMime f = true
        · simp [h1, h2, hx]
        · simp [h1, h2, hx]
      · simp [h0, h1]

theorem getStack_last (f : ZipEntry) (hf : f.name = lit "stack.xml") (b : List ZipEntry) (hb : ∀ x ∈ b, x.name ≠ lit "stack.xml") (a : List ZipEntry) :
    getStack none (a ++ f :: b) = if mimesOk (a ++ b) = true then .ok f else .err .invalidMimeType := by
  have h1 : ((a ++ f :: b).reverse.find? fun f => f.name = lit "stack.xml") = some f := by
    rw [List.reverse_append, List.reverse_cons, List.append_assoc, List.find?_append, List.find?_eq_none.2 (fun x hx => by
      simpa using hb x (List.mem_reverse.1 hx))]
    simp [hf]
  have h2 : mimesOk (a ++ f :: b) = mimesOk (a ++ b) := by
    have : f.name ≠ lit "mimetype" := by rw [hf]; decide
    unfold mimesOk
    simp [this]
  rw [getStack_eq, h1, h2]
  rfl

theorem layerSource_replace (env : OraEnv) (d d' : Bytes) (hd : env.decodeImage d = none) (hd' : env.decodeImage d' = none) (name source : Bytes) (b : List ZipEntry) :
    ∀ a : List ZipEntry, layerSource env source (a ++ .of name d :: b) = layerSource env source (a ++ .of name d' :: b)
  | [] => by
    show layerSource env source (_ :: b) = layerSource env source (_ :: b)
    unfold layerSource
    show (if name = source then _ else _) = if name = source then _ else _
    split
    · show (match env.decodeImage d with | none => _ | some i => _) = match env.decodeImage d' with | none => _ | some i => _
      rw [hd, hd']
    · rfl
  | x :: a => by
    show layerSource env source (x :: (a ++ _)) = layerSource env source (x :: (a ++ _))
    unfold layerSource
    rw [layerSource_replace env d d' hd hd' name source b a]

mutual
theorem readNode_replace (env : OraEnv) (fs fs' : List ZipEntry) (limits : Pt) (h : ∀ source, layerSource env source fs = layerSource env source fs') (o : Pt)
    (x : Node) : readNode env fs limits o x = readNode env fs' limits o x := by
  match x with
  | .elem name attrs ns =>
    rw [readNode, readNode]
    split
    · exact OraRes.bind_congr fun l _ => by rw [readNodes_replace env fs fs' limits h _ ns]
    split
    · exact OraRes.bind_congr fun l _ => by rw [h]
    · rfl
  | .text s => rfl
  | .other => rfl
termination_by structural x
theorem readNodes_replace (env : OraEnv) (fs fs' : List ZipEntry) (limits : Pt) (h : ∀ source, layerSource env source fs = layerSource env source fs') (o : Pt)
    (xs : List Node) : readNodes env fs limits o xs = readNodes env fs' limits o xs := by
  match xs with
  | [] => rfl
  | x :: xs => rw [readNodes, readNodes, readNode_replace env fs fs' limits h o x, readNodes_replace env fs fs' limits h o xs]
termination_by structural xs
end

/-- C64: things put into a document that are not part of the stack of layers do not matter: before the image, before the first stack, in stacks and
layers, and after the stack. -/
theorem C64_foreign (env : OraEnv) (a b : List ZipEntry) (d d' : Bytes) (prolog prolog' : List Node) (attrs : List (Bytes × Bytes)) (before before' : List Node)
    (sattrs sattrs' : List (Bytes × Bytes)) (stack stack' : List Node) (rest rest' : List XmlTok) (eof eof' : Bool)
    (hl : ∀ f ∈ b, f.name ≠ lit "stack.xml") (hi : env.decodeImage d = none) (hi' : env.decodeImage d' = none)
    (hp : ∀ x ∈ prolog, Prolog x) (hp' : ∀ x ∈ prolog', Prolog x) (hb : ∀ x ∈ before, Before x) (hb' : ∀ x ∈ before', Before x)
    (hs : Foreign stack stack') (hr : env.xmlRead d = (document prolog attrs before sattrs stack rest, eof))
    (hr' : env.xmlRead d' = (document prolog' attrs before' sattrs' stack' rest', eof')) :
    oraDecode env (a ++ .of (lit "stack.xml") d :: b) = oraDecode env (a ++ .of (lit "stack.xml") d' :: b) := by
  rw [oraDecode_eq, oraDecode_eq, getStack_last _ rfl b hl, getStack_last _ rfl b hl]
  split
  · show decodeTokens env _ (env.xmlRead d).1 (env.xmlRead d).2 = decodeTokens env _ (env.xmlRead d').1 (env.xmlRead d').2
    rw [hr, hr', decodeTokens_document _ _ _ _ _ _ _ _ _ hp hb, decodeTokens_document _ _ _ _ _ _ _ _ _ hp' hb']
    refine OraRes.bind_congr fun limits _ => ?_
    rw [← readNodes_foreign hs]
    exact readNodes_replace _ _ _ _ (fun source => layerSource_replace env d d' hi hi' _ source b a) _ _
  · rfl

/-- a library in which the byte 1 is a picture and the byte 2 a document -/
def exampleEnv : OraEnv where
  xmlRead d := if d = [2] then (document [.other] [(lit "w", lit "10"), (lit "h", lit "+8")] [.elem (lit "layer") [] []] []
    [.text [32], .elem (lit "ignored") [] [.elem (lit "stack") [] []], .elem (lit "stack") [(lit "x", lit "2")] [.elem (lit "layer") [(lit "src", lit "a"), (lit "x", lit "-3")] [.other]]] [.stop], true)
    else (document [] [(lit "w", lit "10"), (lit "h", lit "+8")] [] []
    [.elem (lit "stack") [(lit "x", lit "2")] [.elem (lit "layer") [(lit "src", lit "a"), (lit "x", lit "-3")] []]] [], true)
  xmlWrite _ := []
  decodeImage d := if d = [1] then some ⟨⟨0, 0, 5, 5⟩, .gray, fun _ => some (.gray 7)⟩ else none
  png _ := .err .size
  opacity _ := none
  formatOpacity _ := []
  quotient _ _ := 0

/-- an archive: the document, an old mimetype entry and the picture -/
def exampleFiles : List ZipEntry := [.of (lit "a") [1], .of (lit "stack.xml") [2], .of (lit "mimetype") (lit "image/openraster")]

/-- a document with foreign elements -/
example : ∃ g, oraDecode exampleEnv exampleFiles = .ok g ∧
    oraDecode exampleEnv exampleFiles = oraDecode exampleEnv [.of (lit "a") [1], .of (lit "stack.xml") [3], .of (lit "mimetype") (lit "image/openraster")] := by
  refine ⟨_, rfl, ?_⟩
  refine (C64_foreign exampleEnv [.of (lit "a") [1]] [.of (lit "mimetype") (lit "image/openraster")] [3] [2] [] [.other] _ [] [.elem (lit "layer") [] []] [] [] _ _
    _ _ _ _ (by decide) rfl rfl nofun (fun x hx => by rw [List.mem_singleton.1 hx]; nofun) nofun
    (fun x hx => by rw [List.mem_singleton.1 hx]; exact fun _ _ h => by cases h) ?_ rfl rfl).symm
  refine .text (.element (by unfold Known; decide) (.stack (.layer .nil) .nil))

/-! ## C65 -/

theorem oraBounds_mem {limits pos : Pt} {b : Rect} {p : Pt} (h : Rect.mem p (oraBounds limits ⟨0, 0⟩ pos b) = true) :
    0 ≤ p.x ∧ p.x < limits.x ∧ 0 ≤ p.y ∧ p.y < limits.y := by
  unfold oraBounds Rect.inter at h
  dsimp only at h
  split at h
  · simp [Rect.zero, Rect.sub, Rect.mem] at h
    omega
  · simp [Rect.sub, Rect.mem, Rect.add] at h
    omega

theorem readStack_onCanvas (env : OraEnv) (files : List ZipEntry) (limits : Pt) (eof : Bool) : ∀ (fuel : Nat) (ts : List XmlTok) (acc g : List Layer) (us : List XmlTok),
    readStack env files limits eof fuel ⟨0, 0⟩ ts acc = .ok (g, us) → (∀ l ∈ acc, ∃ pos b, l.bounds = oraBounds limits ⟨0, 0⟩ pos b) →
    ∀ l ∈ g, ∃ pos b, l.bounds = oraBounds limits ⟨0, 0⟩ pos b
  | 0, _, _, _, _, h, _ => by simp [readStack] at h
  | _ + 1, [], _, _, _, h, _ => by simp [readStack] at h
  | fuel + 1, .start name attrs :: ts, acc, g, us, h, ha => by
    have hsnoc : ∀ (l : Layer) pos b, l.bounds = oraBounds limits ⟨0, 0⟩ pos b → ∀ l' ∈ acc ++ [l], ∃ pos b, l'.bounds = oraBounds limits ⟨0, 0⟩ pos b := by
      intro l pos b hl l' hl'
      rcases List.mem_append.1 hl' with h | h
      · exact ha l' h
      · rw [List.mem_singleton.1 h]; exact ⟨pos, b, hl⟩
    unfold readStack at h
    split at h
    · obtain ⟨l, -, h⟩ := OraRes.bind_ok h
      obtain ⟨⟨g', vs⟩, -, h⟩ := OraRes.bind_ok h
      exact readStack_onCanvas env files limits eof fuel _ _ _ _ h (hsnoc _ _ _ rfl)
    split at h
    · obtain ⟨l, -, h⟩ := OraRes.bind_ok h
      obtain ⟨i, -, h⟩ := OraRes.bind_ok h
      obtain ⟨vs, -, h⟩ := OraRes.bind_ok h
      exact readStack_onCanvas env files limits eof fuel _ _ _ _ h (hsnoc _ _ _ rfl)
    · obtain ⟨vs, -, h⟩ := OraRes.bind_ok h
      exact readStack_onCanvas env files limits eof fuel _ _ _ _ h ha
  | _ + 1, .stop :: ts, _, _, _, h, ha => by
    simp only [readStack, OraRes.ok.injEq, Prod.mk.injEq] at h
    rw [← h.1]; exact ha
  | fuel + 1, .chars _ :: ts, _, _, _, h, ha => readStack_onCanvas env files limits eof fuel ts _ _ _ h ha
  | fuel + 1, .other :: ts, _, _, _, h, ha => readStack_onCanvas env files limits eof fuel ts _ _ _ h ha

/-- C65: `DecodeConfig` returns the size of the canvas for every archive that `Decode` accepts, and the layers that `Decode` returns are on it. -/
theorem C65_canvas (env : OraEnv) (files : List ZipEntry) (g : List Layer) (h : oraDecode env files = .ok g) :
    ∃ w h, oraDecodeConfig env files = .ok (w, h) ∧ ∀ l ∈ g, ∀ p, Rect.mem p l.bounds = true → 0 ≤ p.x ∧ p.x < w ∧ 0 ≤ p.y ∧ p.y < h := by
  unfold oraDecode at h
  obtain ⟨⟨limits, ts, eof⟩, h0, h⟩ := OraRes.bind_ok h
  obtain ⟨us, -, h⟩ := OraRes.bind_ok h
  obtain ⟨⟨g', vs⟩, h1, h⟩ := OraRes.bind_ok h
  cases h
  refine ⟨limits.x, limits.y, ?_, ?_⟩
  · unfold oraDecodeConfig
    rw [h0]
    rfl
  · intro l hl p hp
    obtain ⟨pos, b, hb⟩ := readStack_onCanvas _ _ _ _ _ _ _ _ _ h1 nofun l hl
    rw [hb] at hp
    exact oraBounds_mem hp

/-- the layer at -3 is cut off -/
example : oraDecodeConfig exampleEnv exampleFiles = .ok (10, 8) ∧
    (match oraDecode exampleEnv exampleFiles with
    | .ok g => g.map fun l => l.bounds
    | _ => []) = [⟨0, 0, 2, 5⟩] := ⟨rfl, by decide +kernel⟩

/-! ## C66 -/

theorem checkMime_iff {f : ZipEntry} (hf : Honest f) : checkMime f = true ↔ RightMime f := by
  unfold checkMime RightMime
  cases hd : f.data with
  | none => simp
  | some d =>
    have := hf d hd
    have hm : oraMime = lit "image/openraster" := rfl
    simp only [Bool.and_eq_true, decide_eq_true_eq, Option.some.injEq, ← hm]
    constructor
    · rintro ⟨h1, h2, h3⟩
      rw [h1] at this
      rw [this, List.take_length] at h3
      exact h3
    · rintro rfl
      exact ⟨this, Nat.le_refl _, List.take_length⟩

theorem getStack_mime : ∀ (fs : List ZipEntry) (s : Option ZipEntry), (∀ f ∈ fs, Honest f) → (∃ f ∈ fs, f.name = lit "mimetype" ∧ ¬RightMime f) →
    getStack s fs = .err .invalidMimeType
  | [], _, _, h => by obtain ⟨f, h, _⟩ := h; cases h
  | f :: fs, s, hh, h => by
    have hrec : ∀ s, (f.name = lit "mimetype" → RightMime f) → getStack s fs = .err .invalidMimeType := by
      intro s hf
      obtain ⟨f', h1, h2, h3⟩ := h
      refine getStack_mime fs s (fun x hx => hh x (List.mem_cons_of_mem _ hx)) ⟨f', ?_, h2, h3⟩
      rcases List.mem_cons.1 h1 with h | h
      · subst h; exact absurd (hf h2) h3
      · exact h
    unfold getStack
    by_cases h0 : f.name = lit "stack.xml"
    · rw [if_pos h0]; exact hrec _ (fun h => by rw [h] at h0; exact absurd h0 (by decide))
    · rw [if_neg h0]
      by_cases h1 : f.name = lit "mimetype"
      · rw [if_pos h1]
        by_cases h2 : checkMime f = true
        · rw [if_pos h2]
          exact hrec _ (fun _ => (checkMime_iff (hh f (List.mem_cons_self ..))).1 h2)
        · rw [if_neg h2]
      · rw [if_neg h1]; exact hrec _ (fun h => absurd h h1)

theorem getStack_missing : ∀ (fs : List ZipEntry), (∀ f ∈ fs, Honest f) → (∀ f ∈ fs, f.name ≠ lit "stack.xml") →
    (∀ f ∈ fs, f.name = lit "mimetype" → RightMime f) → getStack none fs = .err .missingStack
  | [], _, _, _ => rfl
  | f :: fs, hh, hs, hm => by
    have hrec := getStack_missing fs (fun x hx => hh x (List.mem_cons_of_mem _ hx)) (fun x hx => hs x (List.mem_cons_of_mem _ hx))
      (fun x hx => hm x (List.mem_cons_of_mem _ hx))
    unfold getStack
    rw [if_neg (hs f (List.mem_cons_self ..))]
    by_cases h1 : f.name = lit "mimetype"
    · rw [if_pos h1, if_pos ((checkMime_iff (hh f (List.mem_cons_self ..))).2 (hm f (List.mem_cons_self ..) h1))]
      exact hrec
    · rw [if_neg h1]
      exact hrec

theorem oraStart_err {env : OraEnv} {files : List ZipEntry} {e : OraErr} (h : getStack none files = .err e) :
    oraDecode env files = .err e ∧ oraDecodeConfig env files = .err e := by
  have hs : oraStart env files = .err e := by unfold oraStart; rw [h]; rfl
  constructor
  · unfold oraDecode; rw [hs]; rfl
  · unfold oraDecodeConfig; rw [hs]; rfl

/-- C66: an archive with a mimetype entry that is not right is rejected, wherever the entry is. -/
theorem C66_mime (env : OraEnv) (files : List ZipEntry) (hh : ∀ f ∈ files, Honest f) (h : ∃ f ∈ files, f.name = lit "mimetype" ∧ ¬RightMime f) :
    oraDecode env files = .err .invalidMimeType ∧ oraDecodeConfig env files = .err .invalidMimeType :=
  oraStart_err (getStack_mime files none hh h)

/-- C66: an archive without stack.xml is rejected. -/
theorem C66_missing (env : OraEnv) (files : List ZipEntry) (hh : ∀ f ∈ files, Honest f) (hs : ∀ f ∈ files, f.name ≠ lit "stack.xml")
    (hm : ∀ f ∈ files, f.name = lit "mimetype" → RightMime f) :
    oraDecode env files = .err .missingStack ∧ oraDecodeConfig env files = .err .missingStack :=
  oraStart_err (getStack_missing files hh hs hm)

/-- an archive with the right mimetype and one other entry -/
example : oraDecode exampleEnv [.of (lit "stack") [2], .of (lit "mimetype") (lit "image/openraster")] = .err .missingStack :=
  (C66_missing _ _ (fun f hf d hd => by
    rcases List.mem_cons.1 hf with rfl | hf
    · cases hd; rfl
    · rw [List.mem_singleton.1 hf] at hd ⊢; cases hd; rfl) (by decide) (fun f hf hn => by
    rcases List.mem_cons.1 hf with rfl | hf
    · exact absurd hn (by decide)
    · rw [List.mem_singleton.1 hf]; unfold RightMime; decide)).1

/-- the mimetype entry is the last one, and has a byte more -/
example : oraDecode exampleEnv [.of (lit "stack.xml") [2], .of (lit "mimetype") (lit "image/openraster ")] = .err .invalidMimeType :=
  (C66_mime _ _ (fun f hf d hd => by
    rcases List.mem_cons.1 hf with rfl | hf
    · cases hd; rfl
    · rw [List.mem_singleton.1 hf] at hd ⊢; cases hd; rfl) ⟨_, List.mem_cons_of_mem _ (List.mem_cons_self ..), rfl, by unfold RightMime; decide⟩).1

/-- the errors of a result -/
def OraRes.Errs {α : Type} (x : OraRes α) (P : OraErr → Prop) : Prop := ∀ e, x = .err e → P e

theorem OraRes.Errs.bind {α β : Type} {x : OraRes α} {f : α → OraRes β} {P : OraErr → Prop} (hx : x.Errs P) (hf : ∀ a, (f a).Errs P) : (x.bind f).Errs P := by
  intro e h
  cases x with
  | ok a => exact hf a e h
  | err e' => cases h; exact hx _ rfl
  | _ => cases h

theorem OraRes.Errs.ok {α : Type} {a : α} {P : OraErr → Prop} : (OraRes.ok a).Errs P := fun _ h => by cases h

theorem OraRes.Errs.err {α : Type} {e : OraErr} {P : OraErr → Prop} (h : P e) : (OraRes.err e : OraRes α).Errs P := fun _ h' => by cases h'; exact h

/-- an error that is not returned by `getStack` -/
def Later (e : OraErr) : Prop := e ≠ .invalidMimeType ∧ e ≠ .missingStack

instance (e : OraErr) : Decidable (Later e) := inferInstanceAs (Decidable (_ ∧ _))

theorem imageAttrs_later : ∀ (attrs : List (Bytes × Bytes)) (w h : Option Int), (imageAttrs attrs w h).Errs Later
  | [], some _, some _ => .ok
  | [], none, _ => .err (by decide)
  | [], some _, none => .err (by decide)
  | (name, value) :: rest, w, h => by
    unfold imageAttrs
    split
    · cases atoi value with
      | none => exact .err (by decide)
      | some n => exact imageAttrs_later rest _ _
    split
    · cases atoi value with
      | none => exact .err (by decide)
      | some n => exact imageAttrs_later rest _ _
    exact imageAttrs_later rest _ _

theorem endErr_later (eof : Bool) : Later (endErr eof) := by cases eof <;> decide

theorem getDimensions_later (eof : Bool) : ∀ ts : List XmlTok, (getDimensions eof ts).Errs Later
  | [] => .err (by cases eof <;> decide)
  | .start name attrs :: ts => by
    unfold getDimensions
    split
    · exact (imageAttrs_later _ _ _).bind fun _ => .ok
    · exact .err (by decide)
  | .stop :: ts => getDimensions_later eof ts
  | .chars _ :: ts => getDimensions_later eof ts
  | .other :: ts => getDimensions_later eof ts

theorem skipTag_later (eof : Bool) : ∀ (ts : List XmlTok) (n : Nat), (skipTag eof ts n).Errs Later
  | [], _ => .err (endErr_later eof)
  | .start _ _ :: ts, n => skipTag_later eof ts (n + 1)
  | .stop :: _, 0 => .ok
  | .stop :: ts, n + 1 => skipTag_later eof ts n
  | .chars _ :: ts, n => skipTag_later eof ts n
  | .other :: ts, n => skipTag_later eof ts n

theorem firstStack_later (eof : Bool) : ∀ (fuel : Nat) (ts : List XmlTok), (firstStack eof fuel ts).Errs Later
  | 0, _ => by unfold firstStack; exact fun e h => by cases h
  | _ + 1, [] => .err (by cases eof <;> decide)
  | fuel + 1, .start name attrs :: ts => by
    unfold firstStack
    split
    · exact .ok
    · exact (skipTag_later _ _ _).bind fun us => firstStack_later eof fuel us
  | fuel + 1, .stop :: ts => firstStack_later eof fuel ts
  | fuel + 1, .chars _ :: ts => firstStack_later eof fuel ts
  | fuel + 1, .other :: ts => firstStack_later eof fuel ts

theorem layerAttr_later (env : OraEnv) (l : LayerAttrs) (a : Bytes × Bytes) : (layerAttr env l a).Errs Later := by
  unfold layerAttr
  split
  · exact .ok
  split
  · cases atoi a.2 <;> first | exact .ok | exact .err (by decide)
  split
  · cases atoi a.2 <;> first | exact .ok | exact .err (by decide)
  split
  · cases env.opacity a.2 <;> first | exact .ok | exact .err (by decide)
  split
  · exact .ok
  split
  · exact .ok
  split
  · exact .ok
  exact .ok

theorem processLayerAttrs_later (env : OraEnv) : ∀ (attrs : List (Bytes × Bytes)) (l : LayerAttrs), (processLayerAttrs env l attrs).Errs Later
  | [], _ => .ok
  | a :: rest, l => (layerAttr_later env l a).bind fun l' => processLayerAttrs_later env rest l'

theorem layerSource_later (env : OraEnv) (source : Bytes) : ∀ fs : List ZipEntry, (layerSource env source fs).Errs Later
  | [] => .err (by decide)
  | f :: fs => by
    unfold layerSource
    split
    · cases f.data with
      | none => exact .err (by decide)
      | some d => cases h : env.decodeImage d <;> simp only [h] <;> first | exact .ok | exact .err (by decide)
    · exact layerSource_later env source fs

theorem readStack_later (env : OraEnv) (files : List ZipEntry) (limits : Pt) (eof : Bool) : ∀ (fuel : Nat) (o : Pt) (ts : List XmlTok) (acc : List Layer),
    (readStack env files limits eof fuel o ts acc).Errs Later
  | 0, _, _, _ => by unfold readStack; exact fun e h => by cases h
  | _ + 1, _, [], _ => .err (endErr_later eof)
  | fuel + 1, o, .start name attrs :: ts, acc => by
    unfold readStack
    split
    · exact (processLayerAttrs_later env _ _).bind fun l => (readStack_later env files limits eof fuel _ ts _).bind fun r =>
        readStack_later env files limits eof fuel _ r.2 _
    split
    · exact (processLayerAttrs_later env _ _).bind fun l => (layerSource_later env _ _).bind fun i => (skipTag_later _ _ _).bind fun us =>
        readStack_later env files limits eof fuel _ us _
    · exact (skipTag_later _ _ _).bind fun us => readStack_later env files limits eof fuel _ us _
  | _ + 1, _, .stop :: ts, _ => .ok
  | fuel + 1, o, .chars _ :: ts, acc => readStack_later env files limits eof fuel o ts acc
  | fuel + 1, o, .other :: ts, acc => readStack_later env files limits eof fuel o ts acc

/-- C66: the two errors are returned for no other archive: with a stack.xml and no wrong mimetype entry, none of them is returned, and the last
stack.xml is the one that is read. -/
theorem C66_only (env : OraEnv) (files : List ZipEntry) (hh : ∀ f ∈ files, Honest f) (hm : ∀ f ∈ files, f.name = lit "mimetype" → RightMime f)
    (a b : List ZipEntry) (f : ZipEntry) (hf : files = a ++ f :: b) (hn : f.name = lit "stack.xml") (hb : ∀ x ∈ b, x.name ≠ lit "stack.xml") :
    getStack none files = .ok f ∧ oraDecode env files ≠ .err .invalidMimeType ∧ oraDecode env files ≠ .err .missingStack ∧
    oraDecodeConfig env files ≠ .err .invalidMimeType ∧ oraDecodeConfig env files ≠ .err .missingStack := by
  have hg : getStack none files = .ok f := by
    rw [hf, getStack_last f hn b hb, if_pos]
    unfold mimesOk
    rw [List.all_eq_true]
    intro x hx
    have hx' : x ∈ files := by
      rw [hf]
      rcases List.mem_append.1 hx with h | h
      · exact List.mem_append_left _ h
      · exact List.mem_append_right _ (List.mem_cons_of_mem _ h)
    by_cases h : x.name = lit "mimetype"
    · have := (checkMime_iff (hh x hx')).2 (hm x hx' h)
      rw [this, Bool.or_true]
    · simp [h]
  have hs : (oraStart env files).Errs Later := by
    unfold oraStart
    rw [hg]
    show OraRes.Errs (match f.data with | none => _ | some d => _) _
    cases f.data with
    | none => exact .err (by decide)
    | some d => exact (getDimensions_later _ _).bind fun r => .ok
  have h1 : (oraDecode env files).Errs Later := hs.bind fun r => (firstStack_later _ _ _).bind fun us => (readStack_later _ _ _ _ _ _ _ _).bind fun r => .ok
  have h2 : (oraDecodeConfig env files).Errs Later := hs.bind fun r => .ok
  exact ⟨hg, fun h => (h1 _ h).1 rfl, fun h => (h1 _ h).2 rfl, fun h => (h2 _ h).1 rfl, fun h => (h2 _ h).2 rfl⟩

/-- two stacks, the second of which is read -/
example : getStack none [.of (lit "stack.xml") [1], .of (lit "mimetype") (lit "image/openraster"), .of (lit "stack.xml") [2]] = .ok (.of (lit "stack.xml") [2]) :=
  (C66_only exampleEnv [.of (lit "stack.xml") [1], .of (lit "mimetype") (lit "image/openraster"), .of (lit "stack.xml") [2]] (fun f hf d hd => by
    simp only [List.mem_cons, List.not_mem_nil, or_false] at hf
    rcases hf with rfl | rfl | rfl <;> (cases hd; rfl)) (fun f hf hn => by
    simp only [List.mem_cons, List.not_mem_nil, or_false] at hf
    rcases hf with rfl | rfl | rfl
    · exact absurd hn (by decide)
    · unfold RightMime; decide
    · exact absurd hn (by decide)) [.of (lit "stack.xml") [1], .of (lit "mimetype") (lit "image/openraster")] [] _ rfl rfl (fun x hx => by cases hx)).1

end Limage
