import Verif.Model.Ora
import Verif.Spec.Markup
/-!
# Reading stack.xml
-/
namespace Limage
open Spec

@[simp] theorem OraRes.pure_eq {α : Type} (a : α) : (pure a : OraRes α) = .ok a := rfl
@[simp] theorem OraRes.bind_eq {α β : Type} (x : OraRes α) (f : α → OraRes β) : x >>= f = x.bind f := rfl
@[simp] theorem OraRes.ok_bind {α β : Type} (a : α) (f : α → OraRes β) : (OraRes.ok a).bind f = f a := rfl
@[simp] theorem OraRes.err_bind {α β : Type} (e : OraErr) (f : α → OraRes β) : (OraRes.err e).bind f = .err e := rfl
@[simp] theorem OraRes.panic_bind {α β : Type} (f : α → OraRes β) : (OraRes.panic).bind f = .panic := rfl
@[simp] theorem OraRes.hang_bind {α β : Type} (f : α → OraRes β) : (OraRes.hang).bind f = .hang := rfl

theorem OraRes.bind_assoc {α β γ : Type} (x : OraRes α) (f : α → OraRes β) (g : β → OraRes γ) :
    (x.bind f).bind g = x.bind fun a => (f a).bind g := by cases x <;> rfl

theorem OraRes.bind_ok {α β : Type} {x : OraRes α} {f : α → OraRes β} {b : β} (h : x.bind f = .ok b) : ∃ a, x = .ok a ∧ f a = .ok b := by
  cases x with
  | ok a => exact ⟨a, rfl, h⟩
  | _ => cases h

theorem OraRes.bind_congr {α β : Type} {x : OraRes α} {f g : α → OraRes β} (h : ∀ a, x = .ok a → f a = g a) : x.bind f = x.bind g := by
  cases x with
  | ok a => exact h a rfl
  | _ => rfl

/-- an error or a result -/
def OraRes.Returns {α : Type} (x : OraRes α) : Prop := (∃ a, x = .ok a) ∨ ∃ e, x = .err e

theorem OraRes.Returns.ok {α : Type} (a : α) : (OraRes.ok a).Returns := .inl ⟨a, rfl⟩
theorem OraRes.Returns.err {α : Type} (e : OraErr) : (OraRes.err e : OraRes α).Returns := .inr ⟨e, rfl⟩

theorem OraRes.Returns.bind {α β : Type} {x : OraRes α} {f : α → OraRes β} (hx : x.Returns) (hf : ∀ a, x = .ok a → (f a).Returns) :
    (x.bind f).Returns := by
  rcases hx with ⟨a, rfl⟩ | ⟨e, rfl⟩
  · exact hf a rfl
  · exact .err e

/-! ### Fuel -/

theorem skipTag_shorter {eof : Bool} : ∀ {ts us : List XmlTok} {n : Nat}, skipTag eof ts n = .ok us → us.length < ts.length
  | [], _, _, h => by cases h
  | .start _ _ :: ts, us, n, h => by have := skipTag_shorter (ts := ts) (n := n + 1) h; simp only [List.length_cons]; omega
  | .stop :: ts, us, 0, h => by cases h; simp
  | .stop :: ts, us, n + 1, h => by have := skipTag_shorter (ts := ts) (n := n) h; simp only [List.length_cons]; omega
  | .chars _ :: ts, us, n, h => by have := skipTag_shorter (ts := ts) (n := n) h; simp only [List.length_cons]; omega
  | .other :: ts, us, n, h => by have := skipTag_shorter (ts := ts) (n := n) h; simp only [List.length_cons]; omega

theorem skipTag_returns (eof : Bool) : ∀ (ts : List XmlTok) (n : Nat), (skipTag eof ts n).Returns
  | [], _ => .err _
  | .start _ _ :: ts, n => skipTag_returns eof ts (n + 1)
  | .stop :: _, 0 => .ok _
  | .stop :: ts, n + 1 => skipTag_returns eof ts n
  | .chars _ :: ts, n => skipTag_returns eof ts n
  | .other :: ts, n => skipTag_returns eof ts n

theorem layerAttr_returns (env : OraEnv) (l : LayerAttrs) (a : Bytes × Bytes) : (layerAttr env l a).Returns := by
  unfold layerAttr
  split
  · exact .ok _
  split
  · cases atoi a.2 <;> first | exact .ok _ | exact .err _
  split
  · cases atoi a.2 <;> first | exact .ok _ | exact .err _
  split
  · cases env.opacity a.2 <;> first | exact .ok _ | exact .err _
  split
  · exact .ok _
  split
  · exact .ok _
  split
  · exact .ok _
  exact .ok _

theorem processLayerAttrs_returns (env : OraEnv) : ∀ (as_ : List (Bytes × Bytes)) (l : LayerAttrs), (processLayerAttrs env l as_).Returns
  | [], _ => .ok _
  | a :: rest, l => (layerAttr_returns env l a).bind fun l' _ => processLayerAttrs_returns env rest l'

theorem layerSource_returns (env : OraEnv) (source : Bytes) : ∀ fs : List ZipEntry, (layerSource env source fs).Returns
  | [] => .err _
  | f :: fs => by
    unfold layerSource
    split
    · cases f.data with
      | none => exact .err _
      | some d => cases h : env.decodeImage d <;> simp only [h] <;> first | exact .ok _ | exact .err _
    · exact layerSource_returns env source fs

section
variable (env : OraEnv) (files : List ZipEntry) (limits : Pt) (eof : Bool)

/-- `readStack` with as much fuel as needed -/
def rs (o : Pt) (ts : List XmlTok) (acc : List Layer) : OraRes (List Layer × List XmlTok) :=
  readStack env files limits eof (ts.length + 1) o ts acc

theorem readStack_shorter : ∀ {fuel : Nat} {o : Pt} {ts us : List XmlTok} {acc g : List Layer},
    readStack env files limits eof fuel o ts acc = .ok (g, us) → us.length < ts.length
  | 0, _, _, _, _, _, h => by simp [readStack] at h
  | _ + 1, _, [], _, _, _, h => by simp [readStack] at h
  | fuel + 1, o, .start name attrs :: ts, us, acc, g, h => by
    unfold readStack at h
    split at h
    · obtain ⟨l, -, h⟩ := OraRes.bind_ok h
      obtain ⟨⟨g', vs⟩, h1, h⟩ := OraRes.bind_ok h
      have := readStack_shorter h1
      have := readStack_shorter h
      simp only [List.length_cons]; omega
    split at h
    · obtain ⟨l, -, h⟩ := OraRes.bind_ok h
      obtain ⟨i, -, h⟩ := OraRes.bind_ok h
      obtain ⟨vs, h1, h⟩ := OraRes.bind_ok h
      have := skipTag_shorter h1
      have := readStack_shorter h
      simp only [List.length_cons]; omega
    · obtain ⟨vs, h1, h⟩ := OraRes.bind_ok h
      have := skipTag_shorter h1
      have := readStack_shorter h
      simp only [List.length_cons]; omega
  | _ + 1, _, .stop :: ts, us, _, _, h => by
    simp only [readStack, OraRes.ok.injEq, Prod.mk.injEq] at h
    rw [← h.2]; simp
  | fuel + 1, _, .chars _ :: ts, _, _, _, h => by
    have := readStack_shorter (ts := ts) h; simp only [List.length_cons]; omega
  | fuel + 1, _, .other :: ts, _, _, _, h => by
    have := readStack_shorter (ts := ts) h; simp only [List.length_cons]; omega

theorem readStack_fuel : ∀ (fuel fuel' : Nat) (o : Pt) (ts : List XmlTok) (acc : List Layer), ts.length < fuel → ts.length < fuel' →
    readStack env files limits eof fuel o ts acc = readStack env files limits eof fuel' o ts acc
  | 0, _, _, _, _, h, _ => absurd h (Nat.not_lt_zero _)
  | _, 0, _, _, _, _, h => absurd h (Nat.not_lt_zero _)
  | _ + 1, _ + 1, _, [], _, _, _ => rfl
  | fuel + 1, fuel' + 1, o, .start name attrs :: ts, acc, h, h' => by
    simp only [List.length_cons] at h h'
    unfold readStack
    split
    · refine OraRes.bind_congr fun l _ => ?_
      rw [readStack_fuel fuel fuel' _ ts _ (by omega) (by omega)]
      refine OraRes.bind_congr fun r hr => ?_
      have := readStack_shorter env files limits eof (us := r.2) (g := r.1) hr
      exact readStack_fuel fuel fuel' _ r.2 _ (by omega) (by omega)
    split
    · refine OraRes.bind_congr fun l _ => OraRes.bind_congr fun i _ => OraRes.bind_congr fun us hu => ?_
      have := skipTag_shorter hu
      exact readStack_fuel fuel fuel' _ us _ (by omega) (by omega)
    · refine OraRes.bind_congr fun us hu => ?_
      have := skipTag_shorter hu
      exact readStack_fuel fuel fuel' _ us _ (by omega) (by omega)
  | _ + 1, _ + 1, _, .stop :: ts, _, _, _ => rfl
  | fuel + 1, fuel' + 1, o, .chars _ :: ts, acc, h, h' => by
    simp only [List.length_cons] at h h'
    exact readStack_fuel fuel fuel' o ts acc (by omega) (by omega)
  | fuel + 1, fuel' + 1, o, .other :: ts, acc, h, h' => by
    simp only [List.length_cons] at h h'
    exact readStack_fuel fuel fuel' o ts acc (by omega) (by omega)

theorem readStack_returns : ∀ (fuel : Nat) (o : Pt) (ts : List XmlTok) (acc : List Layer), ts.length < fuel →
    (readStack env files limits eof fuel o ts acc).Returns
  | 0, _, _, _, h => absurd h (Nat.not_lt_zero _)
  | _ + 1, _, [], _, _ => .err _
  | fuel + 1, o, .start name attrs :: ts, acc, h => by
    simp only [List.length_cons] at h
    unfold readStack
    split
    · refine (processLayerAttrs_returns env _ _).bind fun l _ => (readStack_returns fuel _ ts _ (by omega)).bind fun r hr => ?_
      have := readStack_shorter env files limits eof (us := r.2) (g := r.1) hr
      exact readStack_returns fuel _ r.2 _ (by omega)
    split
    · refine (processLayerAttrs_returns env _ _).bind fun l _ => (layerSource_returns env _ _).bind fun i _ => (skipTag_returns _ _ _).bind fun us hu => ?_
      have := skipTag_shorter hu
      exact readStack_returns fuel _ us _ (by omega)
    · refine (skipTag_returns _ _ _).bind fun us hu => ?_
      have := skipTag_shorter hu
      exact readStack_returns fuel _ us _ (by omega)
  | _ + 1, _, .stop :: ts, _, _ => .ok _
  | fuel + 1, o, .chars _ :: ts, acc, h => by
    simp only [List.length_cons] at h
    exact readStack_returns fuel o ts acc (by omega)
  | fuel + 1, o, .other :: ts, acc, h => by
    simp only [List.length_cons] at h
    exact readStack_returns fuel o ts acc (by omega)

theorem rs_fuel {fuel : Nat} {ts : List XmlTok} (h : ts.length < fuel) (o : Pt) (acc : List Layer) :
    readStack env files limits eof fuel o ts acc = rs env files limits eof o ts acc :=
  readStack_fuel _ _ _ _ _ _ _ _ _ h (Nat.lt_succ_self _)

theorem rs_stack (o : Pt) (attrs : List (Bytes × Bytes)) (ts : List XmlTok) (acc : List Layer) :
    rs env files limits eof o (.start (lit "stack") attrs :: ts) acc =
      (processLayerAttrs env {} attrs).bind fun l =>
        (rs env files limits eof ⟨o.x + l.pos.x, o.y + l.pos.y⟩ ts []).bind fun r =>
          rs env files limits eof o r.2
            (acc ++ [⟨l.name, oraBounds limits o l.pos (groupBounds r.1), l.mode, l.invisible, l.transparency, .group r.1⟩]) := by
  show readStack env files limits eof (ts.length + 1 + 1) o _ acc = _
  unfold readStack
  rw [if_pos rfl]
  refine OraRes.bind_congr fun l _ => ?_
  rw [rs_fuel _ _ _ _ (by omega)]
  refine OraRes.bind_congr fun r hr => ?_
  have := readStack_shorter env files limits eof (us := r.2) (g := r.1) hr
  exact rs_fuel _ _ _ _ (by omega) _ _

theorem rs_layer (o : Pt) (attrs : List (Bytes × Bytes)) (ts : List XmlTok) (acc : List Layer) :
    rs env files limits eof o (.start (lit "layer") attrs :: ts) acc =
      (processLayerAttrs env {} attrs).bind fun l => (layerSource env l.source files).bind fun i =>
        (skipTag eof ts 0).bind fun us =>
          rs env files limits eof o us
            (acc ++ [⟨l.name, oraBounds limits o l.pos i.bounds, l.mode, l.invisible, l.transparency, .leaf i⟩]) := by
  show readStack env files limits eof (ts.length + 1 + 1) o _ acc = _
  unfold readStack
  rw [if_neg (by decide), if_pos rfl]
  refine OraRes.bind_congr fun l _ => OraRes.bind_congr fun i _ => OraRes.bind_congr fun us hu => ?_
  have := skipTag_shorter hu
  exact rs_fuel _ _ _ _ (by omega) _ _

theorem rs_foreign (o : Pt) {name : Bytes} (h1 : name ≠ lit "stack") (h2 : name ≠ lit "layer") (attrs : List (Bytes × Bytes)) (ts : List XmlTok) (acc : List Layer) :
    rs env files limits eof o (.start name attrs :: ts) acc = (skipTag eof ts 0).bind fun us => rs env files limits eof o us acc := by
  show readStack env files limits eof (ts.length + 1 + 1) o _ acc = _
  unfold readStack
  rw [if_neg h1, if_neg h2]
  refine OraRes.bind_congr fun us hu => ?_
  have := skipTag_shorter hu
  exact rs_fuel _ _ _ _ (by omega) _ _

theorem rs_stop (o : Pt) (ts : List XmlTok) (acc : List Layer) : rs env files limits eof o (.stop :: ts) acc = .ok (acc, ts) := rfl
theorem rs_chars (o : Pt) (s : Bytes) (ts : List XmlTok) (acc : List Layer) :
    rs env files limits eof o (.chars s :: ts) acc = rs env files limits eof o ts acc := rfl
theorem rs_other (o : Pt) (ts : List XmlTok) (acc : List Layer) : rs env files limits eof o (.other :: ts) acc = rs env files limits eof o ts acc := rfl
theorem rs_nil (o : Pt) (acc : List Layer) : rs env files limits eof o [] acc = .err (endErr eof) := rfl

end

/-! ### Trees -/

mutual
theorem skipTag_node (eof : Bool) (x : Node) (rest : List XmlTok) (n : Nat) : skipTag eof (x.tokens ++ rest) n = skipTag eof rest n := by
  match x with
  | .elem name attrs ns =>
    rw [Node.tokens]
    show skipTag eof ((tokensAll ns ++ [.stop]) ++ rest) (n + 1) = _
    rw [List.append_assoc, skipTag_nodes eof ns]
    rfl
  | .text s => rfl
  | .other => rfl
termination_by structural x
theorem skipTag_nodes (eof : Bool) (xs : List Node) (rest : List XmlTok) (n : Nat) : skipTag eof (tokensAll xs ++ rest) n = skipTag eof rest n := by
  match xs with
  | [] => rfl
  | x :: xs => rw [tokensAll, List.append_assoc, skipTag_node eof x, skipTag_nodes eof xs]
termination_by structural xs
end

section
variable (env : OraEnv) (files : List ZipEntry) (limits : Pt)

mutual
/-- the layers of a node in a stack -/
def readNode (o : Pt) (x : Node) : OraRes (List Layer) :=
  match x with
  | .elem name attrs ns =>
    if name = lit "stack" then
      (processLayerAttrs env {} attrs).bind fun l => (readNodes ⟨o.x + l.pos.x, o.y + l.pos.y⟩ ns).bind fun g =>
        .ok [⟨l.name, oraBounds limits o l.pos (groupBounds g), l.mode, l.invisible, l.transparency, .group g⟩]
    else if name = lit "layer" then
      (processLayerAttrs env {} attrs).bind fun l => (layerSource env l.source files).bind fun i =>
        .ok [⟨l.name, oraBounds limits o l.pos i.bounds, l.mode, l.invisible, l.transparency, .leaf i⟩]
    else .ok []
  | .text _ => .ok []
  | .other => .ok []
termination_by structural x
/-- the layers of nodes in a stack -/
def readNodes (o : Pt) (xs : List Node) : OraRes (List Layer) :=
  match xs with
  | [] => .ok []
  | x :: xs => (readNode o x).bind fun a => (readNodes o xs).bind fun b => .ok (a ++ b)
termination_by structural xs
end

mutual
theorem rs_node (eof : Bool) (x : Node) (o : Pt) (rest : List XmlTok) (acc : List Layer) :
    rs env files limits eof o (x.tokens ++ rest) acc = (readNode env files limits o x).bind fun g => rs env files limits eof o rest (acc ++ g) := by
  match x with
  | .elem name attrs ns =>
    rw [Node.tokens, readNode]
    by_cases h1 : name = lit "stack"
    · subst h1
      rw [if_pos rfl, List.cons_append, List.cons_append, rs_stack, OraRes.bind_assoc]
      refine OraRes.bind_congr fun l _ => ?_
      rw [List.append_assoc, rs_nodes eof ns, OraRes.bind_assoc, OraRes.bind_assoc]
      refine OraRes.bind_congr fun g _ => ?_
      rw [show [XmlTok.stop] ++ rest = .stop :: rest from rfl, rs_stop]
      rfl
    rw [if_neg h1]
    by_cases h2 : name = lit "layer"
    · subst h2
      rw [if_pos rfl, List.cons_append, List.cons_append, rs_layer, OraRes.bind_assoc]
      refine OraRes.bind_congr fun l _ => ?_
      rw [OraRes.bind_assoc]
      refine OraRes.bind_congr fun i _ => ?_
      rw [List.append_assoc, skipTag_nodes]
      rfl
    rw [if_neg h2, List.cons_append, List.cons_append, rs_foreign _ _ _ _ _ h1 h2, List.append_assoc, skipTag_nodes]
    show rs env files limits eof o rest acc = rs env files limits eof o rest (acc ++ [])
    rw [List.append_nil]
  | .text s => rw [readNode]; show rs env files limits eof o rest acc = rs env files limits eof o rest (acc ++ []); rw [List.append_nil]
  | .other => rw [readNode]; show rs env files limits eof o rest acc = rs env files limits eof o rest (acc ++ []); rw [List.append_nil]
termination_by structural x
theorem rs_nodes (eof : Bool) (xs : List Node) (o : Pt) (rest : List XmlTok) (acc : List Layer) :
    rs env files limits eof o (tokensAll xs ++ rest) acc = (readNodes env files limits o xs).bind fun g => rs env files limits eof o rest (acc ++ g) := by
  match xs with
  | [] => rw [readNodes]; show rs env files limits eof o rest acc = rs env files limits eof o rest (acc ++ []); rw [List.append_nil]
  | x :: xs =>
    rw [tokensAll, List.append_assoc, rs_node eof x, readNodes, OraRes.bind_assoc]
    refine OraRes.bind_congr fun a _ => ?_
    rw [rs_nodes eof xs, OraRes.bind_assoc]
    refine OraRes.bind_congr fun b _ => ?_
    rw [List.append_assoc]
    rfl
termination_by structural xs
end

end

/-! ### The start of the document -/

theorem firstStack_fuel (eof : Bool) : ∀ (fuel fuel' : Nat) (ts : List XmlTok), ts.length < fuel → ts.length < fuel' →
    firstStack eof fuel ts = firstStack eof fuel' ts
  | 0, _, _, h, _ => absurd h (Nat.not_lt_zero _)
  | _, 0, _, _, h => absurd h (Nat.not_lt_zero _)
  | _ + 1, _ + 1, [], _, _ => rfl
  | fuel + 1, fuel' + 1, .start name attrs :: ts, h, h' => by
    simp only [List.length_cons] at h h'
    unfold firstStack
    split
    · rfl
    · refine OraRes.bind_congr fun us hu => ?_
      have := skipTag_shorter hu
      exact firstStack_fuel eof fuel fuel' us (by omega) (by omega)
  | fuel + 1, fuel' + 1, .stop :: ts, h, h' => by
    simp only [List.length_cons] at h h'
    exact firstStack_fuel eof fuel fuel' ts (by omega) (by omega)
  | fuel + 1, fuel' + 1, .chars _ :: ts, h, h' => by
    simp only [List.length_cons] at h h'
    exact firstStack_fuel eof fuel fuel' ts (by omega) (by omega)
  | fuel + 1, fuel' + 1, .other :: ts, h, h' => by
    simp only [List.length_cons] at h h'
    exact firstStack_fuel eof fuel fuel' ts (by omega) (by omega)

/-- `firstStack` with as much fuel as needed -/
def fst' (eof : Bool) (ts : List XmlTok) : OraRes (List XmlTok) := firstStack eof (ts.length + 1) ts

theorem firstStack_returns (eof : Bool) : ∀ (fuel : Nat) (ts : List XmlTok), ts.length < fuel → (firstStack eof fuel ts).Returns
  | 0, _, h => absurd h (Nat.not_lt_zero _)
  | _ + 1, [], _ => .err _
  | fuel + 1, .start name attrs :: ts, h => by
    simp only [List.length_cons] at h
    unfold firstStack
    split
    · exact .ok _
    · refine (skipTag_returns _ _ _).bind fun us hu => ?_
      have := skipTag_shorter hu
      exact firstStack_returns eof fuel us (by omega)
  | fuel + 1, .stop :: ts, h => firstStack_returns eof fuel ts (by simp only [List.length_cons] at h; omega)
  | fuel + 1, .chars _ :: ts, h => firstStack_returns eof fuel ts (by simp only [List.length_cons] at h; omega)
  | fuel + 1, .other :: ts, h => firstStack_returns eof fuel ts (by simp only [List.length_cons] at h; omega)

/-- a node that is not a stack -/
def NotStack : Node → Prop
  | .elem name _ _ => name ≠ lit "stack"
  | _ => True

theorem firstStack_foreign (eof : Bool) {name : Bytes} (h : name ≠ lit "stack") (fuel : Nat) (attrs : List (Bytes × Bytes)) (ts : List XmlTok) :
    firstStack eof (fuel + 1) (.start name attrs :: ts) = (skipTag eof ts 0).bind fun us => firstStack eof fuel us := by
  conv => lhs; unfold firstStack
  rw [if_neg h]
  rfl

theorem firstStack_pre (eof : Bool) : ∀ (xs : List Node), (∀ x ∈ xs, NotStack x) → ∀ rest : List XmlTok, fst' eof (tokensAll xs ++ rest) = fst' eof rest
  | [], _, _ => rfl
  | .elem name attrs ns :: xs, h, rest => by
    rw [← firstStack_pre eof xs (fun x hx => h x (List.mem_cons_of_mem _ hx)) rest]
    rw [tokensAll, Node.tokens, List.cons_append, List.cons_append, List.cons_append]
    unfold fst'
    rw [List.length_cons, firstStack_foreign eof (h _ (List.mem_cons_self ..)), List.append_assoc, List.append_assoc, skipTag_nodes]
    show firstStack eof _ (tokensAll xs ++ rest) = firstStack eof ((tokensAll xs ++ rest).length + 1) (tokensAll xs ++ rest)
    exact firstStack_fuel eof _ _ _ (by simp only [List.length_append, List.length_cons, List.length_nil]; omega) (Nat.lt_succ_self _)
  | .text s :: xs, h, rest => firstStack_pre eof xs (fun x hx => h x (List.mem_cons_of_mem _ hx)) rest
  | .other :: xs, h, rest => firstStack_pre eof xs (fun x hx => h x (List.mem_cons_of_mem _ hx)) rest

/-- what `Decode` does with the tokens of stack.xml -/
def decodeTokens (env : OraEnv) (files : List ZipEntry) (ts : List XmlTok) (eof : Bool) : OraRes (List Layer) :=
  (getDimensions eof ts).bind fun r => (fst' eof r.2).bind fun us => (rs env files r.1 eof ⟨0, 0⟩ us []).bind fun r => .ok r.1

theorem oraDecode_eq (env : OraEnv) (files : List ZipEntry) : oraDecode env files =
    (getStack none files).bind fun f =>
      match f.data with
      | none => .err .opening
      | some d => decodeTokens env files (env.xmlRead d).1 (env.xmlRead d).2 := by
  unfold oraDecode oraStart decodeTokens
  rw [OraRes.bind_eq, OraRes.bind_eq, OraRes.bind_assoc]
  refine OraRes.bind_congr fun f _ => ?_
  cases f.data with
  | none => rfl
  | some d =>
    obtain ⟨ts, eof⟩ := env.xmlRead d
    dsimp only
    rw [OraRes.bind_eq, OraRes.bind_assoc]
    rfl

end Limage
