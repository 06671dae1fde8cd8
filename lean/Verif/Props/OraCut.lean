import Verif.Props.OraRead
/-!
# C121: how much of stack.xml is needed
-/
namespace Limage
open Spec

/-! ### Specification -/

/-- Specification: the result for a document that breaks off too early: the error of the XML decoder (`eof = false`), or an error of a document that ends
too early. -/
def Spec.BrokenOff {α : Type} (eof : Bool) (r : OraRes α) : Prop :=
  if eof then ∃ x ∈ [OraErr.invalidStack, OraErr.unexpectedEOF, OraErr.eof], r = .err x else r = .err .xml

/-- the tokens of every document, and whether it ends with `io.EOF` -/
def Spec.withTokens (env : OraEnv) (ts : List XmlTok) (eof : Bool) : OraEnv := { env with xmlRead := fun _ => (ts, eof) }

/-! ### Parsers -/

/-- a parser that needs the tokens `used`, and nothing after them -/
structure ReadsTo {β : Type} (f : Bool → List XmlTok → OraRes β) (mk : List XmlTok → β) (used : List XmlTok) : Prop where
  ok : ∀ e us, f e (used ++ us) = .ok (mk us)
  cut : ∀ e c d, used = c ++ d → d ≠ [] → BrokenOff e (f e c)

theorem broken_bind {α β : Type} {e : Bool} {r : OraRes α} (h : BrokenOff e r) (f : α → OraRes β) : BrokenOff e (r.bind f) := by
  unfold BrokenOff at *
  cases e with
  | false => rw [if_neg (by decide)] at *; rw [h]; rfl
  | true =>
    rw [if_pos rfl] at *
    obtain ⟨x, hx, h⟩ := h
    exact ⟨x, hx, by rw [h]; rfl⟩

theorem broken_end (e : Bool) {α : Type} : BrokenOff e (.err (endErr e) : OraRes α) := by
  cases e with
  | false => rfl
  | true => exact ⟨.eof, by decide, rfl⟩

theorem ReadsTo.nil {β : Type} {f : Bool → List XmlTok → OraRes β} {mk : List XmlTok → β} (h : ∀ e ts, f e ts = .ok (mk ts)) : ReadsTo f mk [] where
  ok := h
  cut e c d h' hd := by
    cases c with
    | nil => exact absurd h'.symm hd
    | cons a c => cases h'

theorem ReadsTo.cons {β : Type} {f g : Bool → List XmlTok → OraRes β} {mk : List XmlTok → β} {t : XmlTok} {u : List XmlTok}
    (h0 : ∀ e, BrokenOff e (f e [])) (h : ReadsTo g mk u) (h1 : ∀ e ts, f e (t :: ts) = g e ts) : ReadsTo f mk (t :: u) where
  ok e us := by rw [List.cons_append, h1, h.ok]
  cut e c d h' hd := by
    cases c with
    | nil => exact h0 e
    | cons a c =>
      injection h' with h2 h3
      subst h2
      rw [h1]
      exact h.cut e c d h3 hd

theorem ReadsTo.bind {α β : Type} {f : Bool → List XmlTok → OraRes α} {mk : List XmlTok → α} {u : List XmlTok} (h : ReadsTo f mk u)
    {G : Bool → α → OraRes β} {mk' : List XmlTok → β} {v : List XmlTok} (h' : ReadsTo (fun e ts => G e (mk ts)) mk' v) :
    ReadsTo (fun e ts => (f e ts).bind (G e)) mk' (u ++ v) where
  ok e us := by
    rw [List.append_assoc, h.ok]
    exact h'.ok e us
  cut e c d h1 hd := by
    have whole : ∀ a, v = a ++ d → c = u ++ a → BrokenOff e ((f e c).bind (G e)) := by
      intro a h2 h3
      rw [h3, h.ok]
      exact h'.cut e a d h2 hd
    rcases List.append_eq_append_iff.1 h1 with ⟨a, h2, h3⟩ | ⟨a, h2, h3⟩
    · exact whole a h3 h2
    · cases a with
      | nil =>
        rw [List.append_nil] at h2
        exact whole [] (by rw [List.nil_append]; exact h3.symm) (by rw [List.append_nil]; exact h2.symm)
      | cons a as => exact broken_bind (h.cut e c _ h2 (by simp)) _

theorem skipTag_reads (e₀ : Bool) : ∀ (ts : List XmlTok) (n : Nat) (rest : List XmlTok), skipTag e₀ ts n = .ok rest →
    ∃ used, ts = used ++ rest ∧ ReadsTo (fun e ts => skipTag e ts n) id used
  | [], n, rest, h => by cases h
  | .start a b :: ts, n, rest, h => by
    obtain ⟨u, h1, h2⟩ := skipTag_reads e₀ ts (n + 1) rest h
    exact ⟨_ :: u, by rw [h1]; rfl, .cons (fun e => broken_end e) h2 (fun _ _ => rfl)⟩
  | .stop :: ts, 0, rest, h => by
    cases h
    exact ⟨[.stop], rfl, .cons (fun e => broken_end e) (.nil (f := fun _ ts => .ok ts) fun _ _ => rfl) (fun _ _ => rfl)⟩
  | .stop :: ts, n + 1, rest, h => by
    obtain ⟨u, h1, h2⟩ := skipTag_reads e₀ ts n rest h
    exact ⟨_ :: u, by rw [h1]; rfl, .cons (fun e => broken_end e) h2 (fun _ _ => rfl)⟩
  | .chars s :: ts, n, rest, h => by
    obtain ⟨u, h1, h2⟩ := skipTag_reads e₀ ts n rest h
    exact ⟨_ :: u, by rw [h1]; rfl, .cons (fun e => broken_end e) h2 (fun _ _ => rfl)⟩
  | .other :: ts, n, rest, h => by
    obtain ⟨u, h1, h2⟩ := skipTag_reads e₀ ts n rest h
    exact ⟨_ :: u, by rw [h1]; rfl, .cons (fun e => broken_end e) h2 (fun _ _ => rfl)⟩

theorem getDimensions_reads (e₀ : Bool) : ∀ (ts : List XmlTok) (p : Pt) (rest : List XmlTok), getDimensions e₀ ts = .ok (p, rest) →
    ∃ used, ts = used ++ rest ∧ ReadsTo getDimensions (fun r => (p, r)) used := by
  have h0 : ∀ e, BrokenOff e (getDimensions e []) := by
    intro e
    cases e with
    | false => rfl
    | true => exact ⟨.invalidStack, by decide, rfl⟩
  intro ts
  induction ts with
  | nil => intro p rest h; cases h
  | cons t ts ih =>
    intro p rest h
    cases t with
    | start name attrs =>
      unfold getDimensions at h
      split at h
      · next hn =>
        obtain ⟨q, h1, h2⟩ := OraRes.bind_ok h
        cases h2
        refine ⟨[.start name attrs], rfl, .cons (g := fun _ ts => .ok (p, ts)) h0 (.nil fun _ _ => rfl) (fun e us => ?_)⟩
        unfold getDimensions
        rw [if_pos hn, h1]
        rfl
      · cases h
    | stop => obtain ⟨u, h1, h2⟩ := ih p rest h; exact ⟨_ :: u, by rw [h1]; rfl, .cons h0 h2 (fun _ _ => rfl)⟩
    | chars s => obtain ⟨u, h1, h2⟩ := ih p rest h; exact ⟨_ :: u, by rw [h1]; rfl, .cons h0 h2 (fun _ _ => rfl)⟩
    | other => obtain ⟨u, h1, h2⟩ := ih p rest h; exact ⟨_ :: u, by rw [h1]; rfl, .cons h0 h2 (fun _ _ => rfl)⟩

theorem fst'_foreign (e : Bool) {name : Bytes} (h : name ≠ lit "stack") (attrs : List (Bytes × Bytes)) (ts : List XmlTok) :
    fst' e (.start name attrs :: ts) = (skipTag e ts 0).bind (fst' e) := by
  unfold fst'
  rw [List.length_cons, firstStack_foreign e h]
  refine OraRes.bind_congr fun us hu => ?_
  have := skipTag_shorter hu
  exact firstStack_fuel e _ _ _ (by omega) (by omega)

theorem fst'_reads (e₀ : Bool) : ∀ (n : Nat) (ts rest : List XmlTok), ts.length ≤ n → fst' e₀ ts = .ok rest → ∃ used, ts = used ++ rest ∧ ReadsTo fst' id used := by
  have h0 : ∀ e, BrokenOff e (fst' e []) := by
    intro e
    cases e with
    | false => rfl
    | true => exact ⟨.unexpectedEOF, by decide, rfl⟩
  intro n
  induction n with
  | zero =>
    intro ts rest hn h
    cases ts with
    | nil => cases h
    | cons t ts => cases hn
  | succ n ih =>
    intro ts rest hn h
    cases ts with
    | nil => cases h
    | cons t ts =>
      rw [List.length_cons] at hn
      cases t with
      | start name attrs =>
        by_cases hs : name = lit "stack"
        · subst hs
          have h : OraRes.ok ts = .ok rest := h
          cases h
          exact ⟨[.start (lit "stack") attrs], rfl, .cons (g := fun _ ts => .ok ts) h0 (.nil fun _ _ => rfl) (fun _ _ => rfl)⟩
        · rw [fst'_foreign _ hs] at h
          obtain ⟨us, h1, h2⟩ := OraRes.bind_ok h
          have := skipTag_shorter h1
          obtain ⟨u, k1, k2⟩ := skipTag_reads _ _ _ _ h1
          obtain ⟨v, k3, k4⟩ := ih us rest (by omega) h2
          refine ⟨.start name attrs :: (u ++ v), by rw [k1, k3]; simp, .cons h0 (k2.bind (G := fst') k4) (fun e us => fst'_foreign e hs attrs us)⟩
      | stop => obtain ⟨u, h1, h2⟩ := ih ts rest (by omega) h; exact ⟨_ :: u, by rw [h1]; rfl, .cons h0 h2 (fun _ _ => rfl)⟩
      | chars s => obtain ⟨u, h1, h2⟩ := ih ts rest (by omega) h; exact ⟨_ :: u, by rw [h1]; rfl, .cons h0 h2 (fun _ _ => rfl)⟩
      | other => obtain ⟨u, h1, h2⟩ := ih ts rest (by omega) h; exact ⟨_ :: u, by rw [h1]; rfl, .cons h0 h2 (fun _ _ => rfl)⟩

section
variable (env : OraEnv) (files : List ZipEntry) (limits : Pt)

theorem rs_reads (e₀ : Bool) : ∀ (n : Nat) (o : Pt) (ts : List XmlTok) (acc g : List Layer) (rest : List XmlTok), ts.length ≤ n →
    rs env files limits e₀ o ts acc = .ok (g, rest) → ∃ used, ts = used ++ rest ∧ ReadsTo (fun e ts => rs env files limits e o ts acc) (fun r => (g, r)) used := by
  have h0 : ∀ (o : Pt) (acc : List Layer) (e : Bool), BrokenOff e (rs env files limits e o [] acc) := fun o acc e => by rw [rs_nil]; exact broken_end e
  intro n
  induction n with
  | zero =>
    intro o ts acc g rest hn h
    cases ts with
    | nil => cases h
    | cons t ts => cases hn
  | succ n ih =>
    intro o ts acc g rest hn h
    cases ts with
    | nil => cases h
    | cons t ts =>
      rw [List.length_cons] at hn
      cases t with
      | start name attrs =>
        by_cases hs : name = lit "stack"
        · subst hs
          rw [rs_stack] at h
          obtain ⟨l, h1, h⟩ := OraRes.bind_ok h
          obtain ⟨⟨g', us⟩, h2, h3⟩ := OraRes.bind_ok h
          have := readStack_shorter env files limits e₀ h2
          obtain ⟨u, k1, k2⟩ := ih _ ts _ _ us (by omega) h2
          obtain ⟨v, k3, k4⟩ := ih _ us _ _ rest (by omega) h3
          refine ⟨.start (lit "stack") attrs :: (u ++ v), by rw [k1, k3]; simp, .cons (h0 o acc)
            (k2.bind (G := fun e r => rs env files limits e o r.2
              (acc ++ [⟨l.name, oraBounds limits o l.pos (groupBounds r.1), l.mode, l.invisible, l.transparency, .group r.1⟩])) k4) (fun e us => ?_)⟩
          rw [rs_stack, h1]
          rfl
        by_cases hl : name = lit "layer"
        · subst hl
          rw [rs_layer] at h
          obtain ⟨l, h1, h⟩ := OraRes.bind_ok h
          obtain ⟨i, h2, h⟩ := OraRes.bind_ok h
          obtain ⟨us, h3, h4⟩ := OraRes.bind_ok h
          have := skipTag_shorter h3
          obtain ⟨u, k1, k2⟩ := skipTag_reads _ _ _ _ h3
          obtain ⟨v, k3, k4⟩ := ih _ us _ _ rest (by omega) h4
          refine ⟨.start (lit "layer") attrs :: (u ++ v), by rw [k1, k3]; simp, .cons (h0 o acc)
            (k2.bind (G := fun e us => rs env files limits e o us
              (acc ++ [(⟨l.name, oraBounds limits o l.pos i.bounds, l.mode, l.invisible, l.transparency, .leaf i⟩ : Layer)])) k4) (fun e us => ?_)⟩
          rw [rs_layer, h1]
          dsimp only [OraRes.bind]
          rw [h2]
        · rw [rs_foreign _ _ _ _ _ hs hl] at h
          obtain ⟨us, h3, h4⟩ := OraRes.bind_ok h
          have := skipTag_shorter h3
          obtain ⟨u, k1, k2⟩ := skipTag_reads _ _ _ _ h3
          obtain ⟨v, k3, k4⟩ := ih _ us _ _ rest (by omega) h4
          refine ⟨.start name attrs :: (u ++ v), by rw [k1, k3]; simp, .cons (h0 o acc)
            (k2.bind (G := fun e us => rs env files limits e o us acc) k4) (fun e us => rs_foreign _ _ _ _ _ hs hl attrs us acc)⟩
      | stop =>
        rw [rs_stop] at h
        cases h
        exact ⟨[.stop], rfl, .cons (g := fun _ ts => .ok (acc, ts)) (h0 o acc) (.nil fun _ _ => rfl) (fun _ _ => rfl)⟩
      | chars s => obtain ⟨u, h1, h2⟩ := ih _ ts _ _ rest (by omega) h; exact ⟨_ :: u, by rw [h1]; rfl, .cons (h0 o acc) h2 (fun _ _ => rfl)⟩
      | other => obtain ⟨u, h1, h2⟩ := ih _ ts _ _ rest (by omega) h; exact ⟨_ :: u, by rw [h1]; rfl, .cons (h0 o acc) h2 (fun _ _ => rfl)⟩

theorem decodeTokens_reads (e₀ : Bool) (ts : List XmlTok) (g : List Layer) (h : decodeTokens env files ts e₀ = .ok g) :
    ∃ used rest, ts = used ++ rest ∧ ReadsTo (fun e ts => decodeTokens env files ts e) (fun _ => g) used ∧
      ∃ start p, start <+: used ∧ ReadsTo getDimensions (fun r => (p, r)) start := by
  unfold decodeTokens at h
  obtain ⟨⟨p, t1⟩, h1, h⟩ := OraRes.bind_ok h
  obtain ⟨t2, h2, h⟩ := OraRes.bind_ok h
  obtain ⟨⟨g', t3⟩, h3, h⟩ := OraRes.bind_ok h
  cases h
  obtain ⟨u, a1, a2⟩ := getDimensions_reads _ _ _ _ h1
  obtain ⟨v, b1, b2⟩ := fst'_reads _ _ t1 t2 (Nat.le_refl _) h2
  obtain ⟨w, c1, c2⟩ := rs_reads env files p _ _ _ t2 _ _ t3 (Nat.le_refl _) h3
  refine ⟨u ++ (v ++ (w ++ [])), t3, by rw [a1, b1, c1]; simp, ?_, u, p, List.prefix_append _ _, a2⟩
  refine a2.bind (G := fun e r => (fst' e r.2).bind fun us => (rs env files r.1 e ⟨0, 0⟩ us []).bind fun r => .ok r.1) ?_
  refine b2.bind (G := fun e us => (rs env files p e ⟨0, 0⟩ us []).bind fun r => .ok r.1) ?_
  exact c2.bind (G := fun _ r => .ok r.1) (.nil fun _ _ => rfl)

end

/-! ### The XML decoder is only used for stack.xml -/

theorem layerSource_xml (env : OraEnv) (f : Bytes → List XmlTok × Bool) (s : Bytes) : ∀ files, layerSource { env with xmlRead := f } s files = layerSource env s files
  | [] => rfl
  | x :: files => by unfold layerSource; rw [layerSource_xml env f s files]

theorem attrs_xml (env : OraEnv) (f : Bytes → List XmlTok × Bool) : ∀ (as_ : List (Bytes × Bytes)) (l : LayerAttrs),
    processLayerAttrs { env with xmlRead := f } l as_ = processLayerAttrs env l as_
  | [], _ => rfl
  | a :: as_, l => by
    unfold processLayerAttrs
    rw [show layerAttr { env with xmlRead := f } l a = layerAttr env l a from rfl]
    exact OraRes.bind_congr fun l' _ => attrs_xml env f as_ l'

theorem readStack_xml (env : OraEnv) (f : Bytes → List XmlTok × Bool) (files : List ZipEntry) (limits : Pt) (eof : Bool) :
    ∀ (fuel : Nat) (o : Pt) (ts : List XmlTok) (acc : List Layer),
      readStack { env with xmlRead := f } files limits eof fuel o ts acc = readStack env files limits eof fuel o ts acc := by
  intro fuel
  induction fuel with
  | zero => intro o ts acc; rfl
  | succ fuel ih =>
    intro o ts acc
    cases ts with
    | nil => rfl
    | cons t ts =>
      cases t with
      | start name attrs =>
        unfold readStack
        rw [attrs_xml]
        simp only [layerSource_xml, ih]
      | stop => rfl
      | chars s => exact ih _ _ _
      | other => exact ih _ _ _

theorem decodeTokens_xml (env : OraEnv) (f : Bytes → List XmlTok × Bool) (files : List ZipEntry) (ts : List XmlTok) (e : Bool) :
    decodeTokens { env with xmlRead := f } files ts e = decodeTokens env files ts e := by
  unfold decodeTokens rs
  simp only [readStack_xml]

/-! ### C121 -/

/-- **C121**: In the stack.xml of an archive that `Decode` accepts there is a point before which everything is needed, and nothing after: whatever
follows it, even if it is not XML any more, `Decode` returns the same picture, and if the document breaks off anywhere before, `Decode`
returns an error, which is that of the XML decoder if there is one.  `DecodeConfig` does with a part of that, and returns the error as well
if the document breaks off before its end. -/
theorem C121_needed (env : OraEnv) (files : List ZipEntry) (ts : List XmlTok) (eof : Bool) (g : List Layer)
    (h : oraDecode (withTokens env ts eof) files = .ok g) :
    ∃ used rest, ts = used ++ rest ∧
      (∀ us e, oraDecode (withTokens env (used ++ us) e) files = .ok g) ∧
      (∀ c e, c <+: used → c ≠ used → BrokenOff e (oraDecode (withTokens env c e) files)) ∧
      ∃ start p, start <+: used ∧ (∀ us e, oraDecodeConfig (withTokens env (start ++ us) e) files = .ok p) ∧
        ∀ c e, c <+: start → c ≠ start → BrokenOff e (oraDecodeConfig (withTokens env c e) files) := by
  rw [oraDecode_eq] at h
  obtain ⟨f, h1, h⟩ := OraRes.bind_ok h
  cases hd : f.data with
  | none => rw [hd] at h; cases h
  | some d =>
    rw [hd] at h
    have h : decodeTokens (withTokens env ts eof) files ts eof = .ok g := h
    unfold withTokens at h
    rw [decodeTokens_xml] at h
    have dec : ∀ c e, oraDecode (withTokens env c e) files = decodeTokens env files c e := by
      intro c e
      rw [oraDecode_eq, h1]
      dsimp only [OraRes.bind]
      rw [hd]
      exact decodeTokens_xml env _ files c e
    have conf : ∀ c e, oraDecodeConfig (withTokens env c e) files = (getDimensions e c).bind fun r => .ok (r.1.x, r.1.y) := by
      intro c e
      unfold oraDecodeConfig oraStart
      rw [h1]
      show (OraRes.bind (match f.data with | none => _ | some d => _) _) = _
      rw [hd]
      show ((getDimensions e c).bind _).bind _ = _
      rw [OraRes.bind_assoc]
      rfl
    obtain ⟨used, rest, k1, k2, start, p, k3, k4⟩ := decodeTokens_reads env files eof ts g h
    refine ⟨used, rest, k1, fun us e => by rw [dec]; exact k2.ok e us, fun c e hc hn => ?_, start, (p.x, p.y), k3, fun us e => ?_, fun c e hc hn => ?_⟩
    · rw [dec]
      obtain ⟨d, hc⟩ := hc
      exact k2.cut e c d hc.symm (fun hd => hn (by rw [← hc, hd, List.append_nil]))
    · rw [conf, k4.ok]
      rfl
    · rw [conf]
      obtain ⟨d, hc⟩ := hc
      exact broken_bind (k4.cut e c d hc.symm (fun hd => hn (by rw [← hc, hd, List.append_nil]))) _

/-- a document with something after the first stack, and what of it is needed -/
example : ∃ g, oraDecode (withTokens exampleEnv (exampleEnv.xmlRead [2]).1 true) exampleFiles = .ok g ∧ g ≠ [] ∧
    oraDecode (withTokens exampleEnv ((exampleEnv.xmlRead [2]).1.take 5) false) exampleFiles = .err .xml := ⟨_, rfl, nofun, rfl⟩

end Limage
