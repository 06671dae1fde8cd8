import Verif.Proofs.OraRead
import Verif.Proofs.TextWrite
import Verif.Proofs.TextTotal
import Verif.Spec.Ora
/-!
# Writing OpenRaster files
-/
namespace Limage
open Spec

/-! ### Numbers -/

theorem itoa_nat (n : Nat) : Digits (itoa n) ∧ itoa n ≠ [] ∧ digitsValue (itoa n) = n := by
  unfold itoa
  dsimp only
  rw [if_neg (by omega), Int.natAbs_natCast]
  refine decDigits_spec _ n ?_ (Nat.succ_pos _)
  calc n < 2 ^ (n.log2 + 1) := Nat.lt_log2_self
    _ ≤ 10 ^ (n.log2 + 1) := Nat.pow_le_pow_left (by omega) _

theorem atoi_digits {s : Bytes} (h : Digits s) (hne : s ≠ []) (hv : digitsValue s < 2 ^ 63) : atoi s = some (digitsValue s : Int) := by
  have hall : s.all isDigit = true := List.all_eq_true.2 fun b hb => (isDigit_iff b).2 (h b hb)
  cases s with
  | nil => exact absurd rfl hne
  | cons b d =>
    have hb := h b (List.mem_cons_self ..)
    unfold atoi
    dsimp only
    split
    · next h' => cases h'; exact absurd hb (by decide)
    · next h' => cases h'; exact absurd hb (by decide)
    · rw [if_pos ⟨hne, hall⟩]
      exact if_pos hv

theorem atoi_itoa {n : Int} (h0 : 0 ≤ n) (h : n < 2 ^ 63) : atoi (itoa n) = some n := by
  obtain ⟨k, rfl⟩ := Int.eq_ofNat_of_zero_le h0
  obtain ⟨h1, h2, h3⟩ := itoa_nat k
  have := atoi_digits h1 h2 (by rw [h3]; omega)
  rw [h3] at this
  exact this

/-! ### Text in XML -/

theorem encNat_pos (v : Nat) : 0 < (encNat v).length := by
  unfold encNat
  split
  · exact Nat.succ_pos _
  split
  · exact Nat.succ_pos _
  split <;> exact Nat.succ_pos _

theorem xmlClean_enc {v : Nat} (hv : v.isValidChar) (hx : xmlChar v = true) (f : Nat) (s : Bytes) :
    xmlClean (f + 1) (encNat v ++ s) = encNat v ++ xmlClean f s := by
  obtain ⟨b, t, hbt⟩ := List.exists_cons_of_ne_nil (List.ne_nil_of_length_pos (encNat_pos v))
  have hd := decodeRune_enc v hv s
  rw [hbt, List.cons_append] at hd
  rw [hbt, List.cons_append]
  conv => lhs; unfold xmlClean
  rw [hd]
  dsimp only
  rw [if_pos hx]
  have : b :: (t ++ s) = (b :: t) ++ s := rfl
  rw [this, List.take_left, List.drop_left]

theorem xmlClean_chars : ∀ (cs : List Char), (∀ c ∈ cs, xmlChar c.val.toNat = true) → ∀ f, (cs.flatMap String.utf8EncodeChar).length ≤ f →
    xmlClean f (cs.flatMap String.utf8EncodeChar) = cs.flatMap String.utf8EncodeChar
  | [], _, f, _ => by cases f <;> rfl
  | c :: cs, h, f, hf => by
    rw [List.flatMap_cons, enc_char] at hf ⊢
    have := encNat_pos c.val.toNat
    rw [List.length_append] at hf
    obtain ⟨f, rfl⟩ : ∃ k, f = k + 1 := ⟨f - 1, by omega⟩
    rw [xmlClean_enc c.valid (h c (List.mem_cons_self ..)), xmlClean_chars cs (fun c hc => h c (List.mem_cons_of_mem _ hc)) f (by omega)]

/-- text of allowed characters is read as it was written -/
theorem xmlBack_text {s : Bytes} (h : XmlText s) : xmlBack s = s := by
  obtain ⟨cs, rfl, hc⟩ := h
  refine xmlClean_chars cs (fun c hc' => ?_) _ (Nat.le_refl _)
  have h1 := hc c hc'
  have h2 := c.valid
  unfold xmlChar
  simp only [Bool.or_eq_true, Bool.and_eq_true, decide_eq_true_eq]
  rcases h2 with h2 | h2
  · have : c.val.toNat < 0xd800 := h2
    omega
  · have h3 : 0xdfff < c.val.toNat := h2.1
    have h4 : c.val.toNat < 0x110000 := h2.2
    omega

theorem xmlText_ascii {s : Bytes} (h : ∀ b ∈ s, 32 ≤ b.toNat ∧ b.toNat ≤ 126) : XmlText s := by
  have hv : ∀ b ∈ s, Nat.isValidChar b.toNat := fun b hb => .inl (by have := (h b hb).2; omega)
  refine ⟨s.attach.map fun b => Char.ofNatAux b.1.toNat (hv b.1 b.2), ?_, ?_⟩
  · rw [List.flatMap_map]
    have : ∀ b ∈ s.attach, String.utf8EncodeChar (Char.ofNatAux b.1.toNat (hv b.1 b.2)) = [b.1] := by
      intro b _
      have hb := h b.1 b.2
      rw [enc_char]
      have hval : (Char.ofNatAux b.1.toNat (hv b.1 b.2)).val.toNat = b.1.toNat := rfl
      rw [hval]
      unfold encNat
      rw [if_pos (by omega), UInt8.ofNat_toNat]
    have h2 : ∀ (l : List {x // x ∈ s}), (∀ b ∈ l, String.utf8EncodeChar (Char.ofNatAux b.1.toNat (hv b.1 b.2)) = [b.1]) →
        l.flatMap (fun b => String.utf8EncodeChar (Char.ofNatAux b.1.toNat (hv b.1 b.2))) = l.map Subtype.val := by
      intro l
      induction l with
      | nil => intro _; rfl
      | cons b l ih =>
        intro h
        rw [List.flatMap_cons, h b (List.mem_cons_self ..), ih (fun x hx => h x (List.mem_cons_of_mem _ hx))]
        rfl
    rw [h2 _ this, List.attach_map_subtype_val]
  · intro c hc
    rw [List.mem_map] at hc
    obtain ⟨b, -, rfl⟩ := hc
    have hb := h b.1 b.2
    have hval : (Char.ofNatAux b.1.toNat (hv b.1 b.2)).val.toNat = b.1.toNat := rfl
    dsimp only
    rw [hval]
    omega

theorem xmlBack_digits {s : Bytes} (h : Digits s) : xmlBack s = s :=
  xmlBack_text (xmlText_ascii fun b hb => by have := h b hb; omega)

theorem xmlBack_number {s : Bytes} (h : Number s) : xmlBack s = s := by
  obtain ⟨a, -, ha, rfl | ⟨b, hb, rfl⟩⟩ := h
  · exact xmlBack_digits ha
  · refine xmlBack_text (xmlText_ascii fun x hx => ?_)
    rcases List.mem_append.1 hx with hx | hx
    · have := ha x hx; omega
    · rcases List.mem_cons.1 hx with rfl | hx
      · decide
      · have := hb x hx; omega

theorem number_ne_hidden {s : Bytes} (h : Number s) : s ≠ lit "hidden" := by
  obtain ⟨a, hne, ha, h⟩ := h
  obtain ⟨x, a, rfl⟩ := List.exists_cons_of_ne_nil hne
  have hx := ha x (List.mem_cons_self ..)
  intro hs
  have h104 : lit "hidden" = 104 :: lit "idden" := rfl
  rcases h with rfl | ⟨b, -, rfl⟩
  · rw [h104] at hs; cases hs; exact absurd hx (by decide)
  · rw [h104, List.cons_append] at hs
    injection hs with h1 _
    rw [h1] at hx; exact absurd hx (by decide)

theorem xmlBack_dataName (n : Nat) : xmlBack (dataName n) = dataName n := by
  refine xmlBack_text (xmlText_ascii fun b hb => ?_)
  unfold dataName at hb
  rw [List.mem_append, List.mem_append] at hb
  rcases hb with (hb | hb) | hb
  · exact (by decide : ∀ b ∈ lit "data/", 32 ≤ b.toNat ∧ b.toNat ≤ 126) b hb
  · have := (itoa_nat n).1 b hb; omega
  · exact (by decide : ∀ b ∈ lit ".png", 32 ≤ b.toNat ∧ b.toNat ≤ 126) b hb

theorem dataName_inj {m n : Nat} (h : dataName m = dataName n) : m = n := by
  unfold dataName at h
  have h1 := List.append_cancel_right h
  have h2 := List.append_cancel_left h1
  have h3 := (itoa_nat m).2.2
  rw [h2, (itoa_nat n).2.2] at h3
  exact h3.symm

/-! ### Attributes -/

/-- attributes as they are read back -/
def back (as_ : List (Bytes × Bytes)) : List (Bytes × Bytes) := as_.map fun a => (a.1, xmlBack a.2)

theorem back_append (a b : List (Bytes × Bytes)) : back (a ++ b) = back a ++ back b := List.map_append

theorem processLayerAttrs_append (env : OraEnv) : ∀ (a b : List (Bytes × Bytes)) (l : LayerAttrs),
    processLayerAttrs env l (a ++ b) = (processLayerAttrs env l a).bind fun l => processLayerAttrs env l b
  | [], _, _ => rfl
  | x :: a, b, l => by
    show OraRes.bind _ _ = OraRes.bind (OraRes.bind _ _) _
    rw [OraRes.bind_assoc]
    exact OraRes.bind_congr fun l _ => processLayerAttrs_append env a b l

theorem processLayerAttrs_one (env : OraEnv) (l : LayerAttrs) (a : Bytes × Bytes) : processLayerAttrs env l [a] = layerAttr env l a := by
  show OraRes.bind _ _ = _
  cases layerAttr env l a <;> rfl

theorem opOfMode_mem {m : Mode} {op : Bytes} (h : opOfMode m = some op) : m ∈ svgModes.tail := by
  refine Classical.byContradiction fun hm => ?_
  simp only [svgModes, List.tail_cons, List.mem_cons, List.not_mem_nil, or_false, not_or] at hm
  obtain ⟨h1, h2, h3, h4, h5, h6, h7, h8, h9, h10, h11, h12, h13, h14, h15, h16, h17, h18, h19⟩ := hm
  unfold opOfMode at h
  rw [if_neg h1, if_neg h2, if_neg h3, if_neg h4, if_neg h5, if_neg h6, if_neg h7, if_neg h8, if_neg h9, if_neg h10, if_neg h11, if_neg h12, if_neg h13, if_neg h14, if_neg h15, if_neg h16, if_neg h17, if_neg h18, if_neg h19] at h
  cases h

theorem modeOfOp_back : ∀ m ∈ svgModes.tail, ∃ op, opOfMode m = some op ∧ ∀ old, modeOfOp old (xmlBack op) = m := by
  unfold svgModes
  rw [List.tail_cons]
  iterate 19 refine List.forall_mem_cons.2 ⟨⟨_, rfl, fun _ => rfl⟩, ?_⟩
  intro m hm
  cases hm

theorem opOfMode_back {m : Mode} {op : Bytes} (h : opOfMode m = some op) : m ∈ svgModes ∧ ∀ old, modeOfOp old (xmlBack op) = m := by
  have hm := opOfMode_mem h
  obtain ⟨op', h1, h2⟩ := modeOfOp_back m hm
  rw [h] at h1
  cases h1
  exact ⟨List.mem_cons_of_mem _ hm, h2⟩

theorem opOfMode_none {m : Mode} (h : opOfMode m = none) : (if m ∈ svgModes then m else Mode.normal) = Mode.normal := by
  split
  · next hm =>
    rcases List.mem_cons.1 hm with h' | hm
    · exact h'
    · have : ∀ m' ∈ svgModes.tail, (opOfMode m').isSome = true := by decide
      have := this m hm
      rw [h] at this
      cases this
  · rfl

theorem corner_coord {x : Int} : (if x > 0 then x else 0) = max x 0 := by split <;> omega

theorem stackAttrs_back {env : OraEnv} (hl : OraLib env) (name : GoString) (b : Rect) (mode : Mode) (invisible : Bool) (tr : UInt8)
    (hx : b.x0 < 2 ^ 63) (hy : b.y0 < 2 ^ 63) :
    processLayerAttrs env {} (back (stackAttrs env name b mode invisible tr)) =
      .ok { name := xmlBack name, pos := corner b, mode := if mode ∈ svgModes then mode else Mode.normal, invisible := invisible && tr == 0 } := by
  unfold stackAttrs
  simp only [back_append, processLayerAttrs_append]
  have h1 : processLayerAttrs env {} (back (if name ≠ [] then [(lit "name", name)] else [])) = .ok { name := xmlBack name } := by
    by_cases h : name = []
    · rw [if_neg (fun g => g h), h]; rfl
    · rw [if_pos h]; exact processLayerAttrs_one ..
  have h2 : ∀ l : LayerAttrs, l.pos = ⟨0, 0⟩ → processLayerAttrs env l (back (if b.x0 > 0 then [(lit "x", itoa b.x0)] else [])) =
      .ok { l with pos := ⟨max b.x0 0, 0⟩ } := by
    intro l hl0
    by_cases h : b.x0 > 0
    · rw [if_pos h]
      show processLayerAttrs env l [(lit "x", xmlBack (itoa b.x0))] = _
      rw [processLayerAttrs_one]
      unfold layerAttr
      dsimp only
      have hd : xmlBack (itoa b.x0) = itoa b.x0 := by
        obtain ⟨k, hk⟩ := Int.eq_ofNat_of_zero_le (Int.le_of_lt h)
        rw [hk]; exact xmlBack_digits (itoa_nat k).1
      rw [if_neg (by decide), if_pos rfl, hd, atoi_itoa (Int.le_of_lt h) hx, hl0]
      dsimp only
      rw [show max b.x0 0 = b.x0 by omega]
    · rw [if_neg h, show max b.x0 0 = 0 by omega, ← hl0]; rfl
  have h3 : ∀ l : LayerAttrs, l.pos.y = 0 → processLayerAttrs env l (back (if b.y0 > 0 then [(lit "y", itoa b.y0)] else [])) =
      .ok { l with pos := ⟨l.pos.x, max b.y0 0⟩ } := by
    intro l hl0
    by_cases h : b.y0 > 0
    · rw [if_pos h]
      show processLayerAttrs env l [(lit "y", xmlBack (itoa b.y0))] = _
      rw [processLayerAttrs_one]
      unfold layerAttr
      dsimp only
      have hd : xmlBack (itoa b.y0) = itoa b.y0 := by
        obtain ⟨k, hk⟩ := Int.eq_ofNat_of_zero_le (Int.le_of_lt h)
        rw [hk]; exact xmlBack_digits (itoa_nat k).1
      rw [if_neg (by decide), if_neg (by decide), if_pos rfl, hd, atoi_itoa (Int.le_of_lt h) hy]
      dsimp only
      rw [show max b.y0 0 = b.y0 by omega]
    · rw [if_neg h, show max b.y0 0 = l.pos.y by omega]; rfl
  have h4 : ∀ l : LayerAttrs, l.invisible = false → processLayerAttrs env l (back (if invisible = true then [(lit "visibility", lit "hidden")] else [])) =
      .ok { l with invisible := invisible } := by
    intro l hl0
    cases invisible with
    | true => rw [if_pos rfl]; exact processLayerAttrs_one ..
    | false => rw [if_neg (by decide), ← hl0]; rfl
  have h5 : ∀ l : LayerAttrs, processLayerAttrs env l (back (if tr ≠ 0 then [(lit "visibility", env.formatOpacity tr)] else [])) =
      .ok { l with invisible := l.invisible && tr == 0 } := by
    intro l
    by_cases h : tr = 0
    · rw [if_neg (fun g => g h), h]; simp [back, processLayerAttrs]
    · rw [if_pos h]
      show processLayerAttrs env l [(lit "visibility", xmlBack (env.formatOpacity tr))] = _
      rw [processLayerAttrs_one, xmlBack_number (hl.format tr)]
      unfold layerAttr
      dsimp only
      rw [if_neg (by decide), if_neg (by decide), if_neg (by decide), if_neg (by decide), if_pos rfl]
      have h1 : decide (env.formatOpacity tr = lit "hidden") = false := decide_eq_false (number_ne_hidden (hl.format tr))
      have h2 : (tr == 0) = false := by simpa using h
      rw [h1, h2, Bool.and_false]
  have h6 : ∀ l : LayerAttrs, l.mode = Mode.normal → processLayerAttrs env l (back (match opOfMode mode with
      | some op => [(lit "composite-op", op)]
      | none => [])) = .ok { l with mode := if mode ∈ svgModes then mode else Mode.normal } := by
    intro l hl0
    cases h : opOfMode mode with
    | none => rw [opOfMode_none h, ← hl0]; rfl
    | some op =>
      obtain ⟨hm, ho⟩ := opOfMode_back h
      show processLayerAttrs env l [(lit "composite-op", xmlBack op)] = _
      rw [processLayerAttrs_one]
      unfold layerAttr
      dsimp only
      rw [if_neg (by decide), if_neg (by decide), if_neg (by decide), if_neg (by decide), if_neg (by decide), if_pos rfl, ho, if_pos hm]
  rw [h1, OraRes.ok_bind, h2 _ rfl, OraRes.ok_bind, h3 _ rfl, OraRes.ok_bind, h4 _ rfl, OraRes.ok_bind, h5, OraRes.ok_bind]
  exact h6 _ rfl

/-! ### The document -/

theorem itoa_neg {n : Int} (h : n < 0) : itoa n = 45 :: itoa n.natAbs := by
  unfold itoa
  dsimp only
  rw [if_pos h, if_neg (by omega)]
  rfl

theorem atoi_itoa_int {n : Int} (h0 : -2 ^ 63 ≤ n) (h : n < 2 ^ 63) : atoi (itoa n) = some n := by
  by_cases hn : n < 0
  · obtain ⟨h1, h2, h3⟩ := itoa_nat n.natAbs
    rw [itoa_neg hn]
    have hall : (itoa n.natAbs).all isDigit = true := List.all_eq_true.2 fun b hb => (isDigit_iff b).2 (h1 b hb)
    show (if itoa n.natAbs ≠ [] ∧ (itoa n.natAbs).all isDigit = true then some (digitsValue (itoa n.natAbs)) else none).bind
      (fun n => if n ≤ 2 ^ 63 then some (-(n : Int)) else none) = _
    rw [if_pos ⟨h2, hall⟩]
    show (if digitsValue (itoa n.natAbs) ≤ 2 ^ 63 then some (-(digitsValue (itoa n.natAbs) : Int)) else none) = _
    rw [h3, if_pos (by omega)]
    congr 1
    omega
  · exact atoi_itoa (by omega) h

theorem xmlBack_itoa (n : Int) : xmlBack (itoa n) = itoa n := by
  refine xmlBack_text (xmlText_ascii fun b hb => ?_)
  by_cases hn : n < 0
  · rw [itoa_neg hn] at hb
    rcases List.mem_cons.1 hb with rfl | hb
    · decide
    · have := (itoa_nat _).1 b hb; omega
  · obtain ⟨k, rfl⟩ := Int.eq_ofNat_of_zero_le (show 0 ≤ n by omega)
    have := (itoa_nat k).1 b hb; omega

mutual
/-- the element of a layer, and the number of the last layer -/
def nodeOf (env : OraEnv) (attrs : List (Bytes × Bytes)) (i : Img) (n : Nat) : Node × Nat :=
  match i with
  | .group g => (.elem (lit "stack") attrs (nodesOf env g n).1, (nodesOf env g n).2)
  | _ => (.elem (lit "layer") (attrs ++ [(lit "src", dataName (n + 1))]) [], n + 1)
termination_by structural i
/-- the elements of layers, and the number of the last layer -/
def nodesOf (env : OraEnv) (g : List Layer) (n : Nat) : List Node × Nat :=
  match g with
  | [] => ([], n)
  | ⟨name, b, mode, invisible, tr, im⟩ :: rest =>
    ((nodeOf env (stackAttrs env name b mode invisible tr) im n).1 :: (nodesOf env rest (nodeOf env (stackAttrs env name b mode invisible tr) im n).2).1,
      (nodesOf env rest (nodeOf env (stackAttrs env name b mode invisible tr) im n).2).2)
termination_by structural g
end

mutual
theorem writeStack_node (env : OraEnv) (attrs : List (Bytes × Bytes)) (i : Img) (n : Nat) :
    writeStack env attrs i n = ((nodeOf env attrs i n).1.tokens, (nodeOf env attrs i n).2) := by
  match i with
  | .group g =>
    rw [writeStack, nodeOf, writeGroupStack_nodes env g n]
    dsimp only
    rw [Node.tokens]
  | .leaf _ | .nil | .text _ _ | .masked _ _ => rfl
termination_by structural i
theorem writeGroupStack_nodes (env : OraEnv) (g : List Layer) (n : Nat) :
    writeGroupStack env g n = (tokensAll (nodesOf env g n).1, (nodesOf env g n).2) := by
  match g with
  | [] => rfl
  | ⟨name, b, mode, invisible, tr, im⟩ :: rest =>
    rw [writeGroupStack, nodesOf, writeStack_node env _ im n]
    dsimp only
    rw [writeGroupStack_nodes env rest]
    dsimp only
    rw [tokensAll]
termination_by structural g
end

mutual
theorem nodeOf_count (env : OraEnv) (attrs : List (Bytes × Bytes)) (i : Img) (n : Nat) : (nodeOf env attrs i n).2 = n + (leaves i).length := by
  match i with
  | .group g => rw [nodeOf, leaves]; exact nodesOf_count env g n
  | .leaf _ | .nil | .text _ _ | .masked _ _ => rfl
termination_by structural i
theorem nodesOf_count (env : OraEnv) (g : List Layer) (n : Nat) : (nodesOf env g n).2 = n + (leavesAll g).length := by
  match g with
  | [] => rfl
  | ⟨name, b, mode, invisible, tr, im⟩ :: rest =>
    rw [nodesOf, leavesAll, List.length_append]
    dsimp only
    rw [nodesOf_count env rest, nodeOf_count env _ im]
    omega
termination_by structural g
end

theorem stackAttrs_word (env : OraEnv) (name : GoString) (b : Rect) (mode : Mode) (invisible : Bool) (tr : UInt8) :
    ∀ a ∈ stackAttrs env name b mode invisible tr, a.1 ∈ [lit "name", lit "x", lit "y", lit "visibility", lit "composite-op"] := by
  intro a ha
  unfold stackAttrs at ha
  simp only [List.mem_append] at ha
  rcases ha with ((((ha | ha) | ha) | ha) | ha) | ha
  · split at ha
    · rw [List.mem_singleton.1 ha]; dsimp only; decide
    · cases ha
  · split at ha
    · rw [List.mem_singleton.1 ha]; dsimp only; decide
    · cases ha
  · split at ha
    · rw [List.mem_singleton.1 ha]; dsimp only; decide
    · cases ha
  · split at ha
    · rw [List.mem_singleton.1 ha]; dsimp only; decide
    · cases ha
  · split at ha
    · rw [List.mem_singleton.1 ha]; dsimp only; decide
    · cases ha
  · split at ha
    · rw [List.mem_singleton.1 ha]; dsimp only; decide
    · cases ha

instance (b : UInt8) : Decidable (NameByte b) := by unfold NameByte; infer_instance
instance (s : Bytes) : Decidable (Word s) := by unfold Word; infer_instance

theorem stackAttrs_words (env : OraEnv) (name : GoString) (b : Rect) (mode : Mode) (invisible : Bool) (tr : UInt8) :
    ∀ a ∈ stackAttrs env name b mode invisible tr, Word a.1 := fun a ha =>
  (by decide : ∀ w ∈ [lit "name", lit "x", lit "y", lit "visibility", lit "composite-op"], Word w) a.1 (stackAttrs_word env name b mode invisible tr a ha)

mutual
theorem nodeOf_plain (env : OraEnv) (attrs : List (Bytes × Bytes)) (i : Img) (n : Nat) (h : ∀ a ∈ attrs, Word a.1) : (nodeOf env attrs i n).1.Plain := by
  match i with
  | .group g =>
    rw [nodeOf]
    unfold Node.Plain
    exact ⟨by decide, h, nodesOf_plain env g n⟩
  | .leaf _ | .nil | .text _ _ | .masked _ _ =>
    rw [nodeOf]
    · unfold Node.Plain
      refine ⟨by decide, fun a ha => ?_, trivial⟩
      rcases List.mem_append.1 ha with ha | ha
      · exact h a ha
      · rw [List.mem_singleton.1 ha]; dsimp only; decide
    all_goals (intro g hg; cases hg)
termination_by structural i
theorem nodesOf_plain (env : OraEnv) (g : List Layer) (n : Nat) : AllPlain (nodesOf env g n).1 := by
  match g with
  | [] => trivial
  | ⟨name, b, mode, invisible, tr, im⟩ :: rest =>
    rw [nodesOf]
    unfold AllPlain
    exact ⟨nodeOf_plain env _ im n (stackAttrs_words _ _ _ _ _ _), nodesOf_plain env rest _⟩
termination_by structural g
end

/-- the document that is written -/
def docOf (env : OraEnv) (m : OraInput) (w h : Int) : Node :=
  .elem (lit "image") [(lit "version", lit "0.0.3"), (lit "w", itoa w), (lit "h", itoa h)] [(nodeOf env [] m.top 0).1]

theorem stackTokens_doc (env : OraEnv) (m : OraInput) (w h : Int) : stackTokens env m w h = (docOf env m w h).tokens := by
  unfold stackTokens docOf
  rw [writeStack_node, Node.tokens, tokensAll, tokensAll, List.append_nil]

theorem docOf_plain (env : OraEnv) (m : OraInput) (w h : Int) : (docOf env m w h).Plain := by
  unfold docOf Node.Plain AllPlain AllPlain
  refine ⟨by decide, fun a ha => ?_, nodeOf_plain env _ _ _ (fun a ha => by cases ha), trivial⟩
  simp only [List.mem_cons, List.not_mem_nil, or_false] at ha
  rcases ha with rfl | rfl | rfl <;> (dsimp only; decide)

/-! ### What is read of it -/

theorem stripAll_append (xs ys : List Node) : stripAll (xs ++ ys) = stripAll xs ++ stripAll ys := by
  induction xs with
  | nil => rfl
  | cons x xs ih => rw [List.cons_append, stripAll, stripAll, ih, List.append_assoc]

theorem stripAll_one {name : Bytes} {attrs : List (Bytes × Bytes)} {xs : List Node} : ∀ {ns : List Node}, stripAll ns = [.elem name attrs xs] →
    ∃ pre kids post, ns = pre ++ .elem name attrs kids :: post ∧ (∀ x ∈ pre, Prolog x) ∧ stripAll kids = xs ∧ stripAll post = []
  | [], h => by cases h
  | .elem a b c :: ns, h => by
    rw [stripAll, Node.strip, List.singleton_append] at h
    injection h with h1 h2
    injection h1 with h3 h4 h5
    subst h3 h4
    exact ⟨[], c, ns, rfl, (fun x hx => by cases hx), h5, h2⟩
  | .text s :: ns, h => by
    obtain ⟨pre, kids, post, h1, h2, h3⟩ := stripAll_one (ns := ns) h
    refine ⟨.text s :: pre, kids, post, by rw [h1]; rfl, fun x hx => ?_, h3⟩
    rcases List.mem_cons.1 hx with rfl | hx
    · intro _ _ _ h; cases h
    · exact h2 x hx
  | .other :: ns, h => by
    obtain ⟨pre, kids, post, h1, h2, h3⟩ := stripAll_one (ns := ns) h
    refine ⟨.other :: pre, kids, post, by rw [h1]; rfl, fun x hx => ?_, h3⟩
    rcases List.mem_cons.1 hx with rfl | hx
    · intro _ _ _ h; cases h
    · exact h2 x hx

section
variable (env : OraEnv) (files : List ZipEntry) (limits : Pt)

theorem readNodes_append (o : Pt) (xs ys : List Node) : readNodes env files limits o (xs ++ ys) =
    (readNodes env files limits o xs).bind fun a => (readNodes env files limits o ys).bind fun b => .ok (a ++ b) := by
  induction xs with
  | nil =>
    rw [List.nil_append]
    show _ = OraRes.bind (.ok []) _
    rw [OraRes.ok_bind]
    cases readNodes env files limits o ys <;> rfl
  | cons x xs ih =>
    rw [List.cons_append, readNodes, readNodes, ih]
    simp only [OraRes.bind_assoc, OraRes.ok_bind, List.append_assoc]

mutual
theorem readNode_strip (o : Pt) (x : Node) : readNodes env files limits o x.strip = readNode env files limits o x := by
  match x with
  | .elem name attrs ns =>
    rw [Node.strip, readNodes, readNodes, readNode, readNode]
    split
    · simp only [OraRes.bind_assoc, OraRes.ok_bind, List.append_nil]
      refine OraRes.bind_congr fun l _ => ?_
      rw [readNodes_strip _ ns]
    · split
      · simp only [OraRes.bind_assoc, OraRes.ok_bind, List.append_nil]
      · rfl
  | .text _ => rfl
  | .other => rfl
termination_by structural x
theorem readNodes_strip (o : Pt) (xs : List Node) : readNodes env files limits o (stripAll xs) = readNodes env files limits o xs := by
  match xs with
  | [] => rfl
  | x :: xs =>
    rw [stripAll, readNodes_append, readNode_strip o x, readNodes_strip o xs, readNodes]
termination_by structural xs
end

/-- the files hold the image of the layer with the given number -/
def HasAt (k : Nat) (i : Img) : Prop :=
  ∃ d, env.png (.full (.image i)) = .ok d ∧ files.find? (fun f => decide (f.name = dataName k)) = some (.of (dataName k) d)

/-- the files hold the images of the layers after the given number -/
def HasAll : Nat → List Img → Prop
  | _, [] => True
  | n, i :: is => HasAt env files (n + 1) i ∧ HasAll (n + 1) is

theorem hasAll_append : ∀ (xs ys : List Img) (n : Nat), HasAll env files n (xs ++ ys) ↔ HasAll env files n xs ∧ HasAll env files (n + xs.length) ys
  | [], ys, n => by simp [HasAll]
  | x :: xs, ys, n => by
    rw [List.cons_append, HasAll, HasAll, hasAll_append xs ys, and_assoc, List.length_cons, show n + 1 + xs.length = n + (xs.length + 1) by omega]

theorem layerSource_find (source : Bytes) (d : Bytes) : ∀ fs : List ZipEntry,
    fs.find? (fun f => decide (f.name = source)) = some (.of source d) → ∀ i, env.decodeImage d = some i → layerSource env source fs = .ok i
  | [], h, _, _ => by cases h
  | f :: fs, h, i, hi => by
    unfold layerSource
    rw [List.find?_cons] at h
    by_cases hf : f.name = source
    · rw [decide_eq_true hf] at h
      cases h
      rw [if_pos hf]
      show (match env.decodeImage d with | none => _ | some i => _) = _
      rw [hi]
    · rw [decide_eq_false hf] at h
      rw [if_neg hf]
      exact layerSource_find source d fs h i hi

theorem hasAt_source {env : OraEnv} (hl : OraLib env) {files : List ZipEntry} {k : Nat} {i : Img} (h : HasAt env files k i) (hr : Readably i) :
    ∃ l, Stored env i l ∧ layerSource env (dataName k) files = .ok l := by
  obtain ⟨d, hd, hf⟩ := h
  obtain ⟨b, hb, -, -, h3⟩ := hl.png _ _ hd
  obtain ⟨h1, h2⟩ := hr b hb
  obtain ⟨l, hl1, -⟩ := h3 h1 h2
  exact ⟨l, ⟨d, hd, hl1⟩, layerSource_find env _ _ _ hf l hl1⟩

end

theorem oraPlaced_eq (limits o : Pt) (b size : Rect) : oraBounds limits o (corner b) size = oraPlaced limits o b size := rfl

theorem cleaned_layer (attrs : List (Bytes × Bytes)) (k : Nat) :
    (Node.elem (lit "layer") (attrs ++ [(lit "src", dataName k)]) []).cleaned = .elem (lit "layer") (back attrs ++ [(lit "src", dataName k)]) [] := by
  rw [Node.cleaned, List.map_append]
  show Node.elem _ (back attrs ++ [(lit "src", xmlBack (dataName k))]) _ = _
  rw [xmlBack_dataName]
  rfl

theorem nodeOf_single (env : OraEnv) (attrs : List (Bytes × Bytes)) {i : Img} (h : NotGroup i) (n : Nat) :
    nodeOf env attrs i n = (.elem (lit "layer") (attrs ++ [(lit "src", dataName (n + 1))]) [], n + 1) := by
  cases i with
  | group g => exact absurd rfl (h g)
  | _ => rfl

theorem leaves_single {i : Img} (h : NotGroup i) : leaves i = [i] := by
  cases i with
  | group g => exact absurd rfl (h g)
  | _ => rfl

theorem readNode_single {env : OraEnv} (files : List ZipEntry) (limits o : Pt) {attrs : List (Bytes × Bytes)} {a : LayerAttrs}
    (ha : processLayerAttrs env {} (back attrs) = .ok a) {k : Nat} {l : Leaf} (hs : layerSource env (dataName k) files = .ok l) :
    readNode env files limits o (Node.elem (lit "layer") (attrs ++ [(lit "src", dataName k)]) []).cleaned =
      .ok [⟨a.name, oraBounds limits o a.pos l.bounds, a.mode, a.invisible, a.transparency, .leaf l⟩] := by
  rw [cleaned_layer, readNode, if_neg (by decide), if_pos rfl, processLayerAttrs_append, ha, OraRes.ok_bind, processLayerAttrs_one]
  have : layerAttr env a (lit "src", dataName k) = .ok { a with source := dataName k } := by
    unfold layerAttr
    dsimp only
    rw [if_neg (by decide), if_neg (by decide), if_neg (by decide), if_neg (by decide), if_neg (by decide), if_neg (by decide), if_pos rfl]
  rw [this, OraRes.ok_bind]
  dsimp only
  rw [hs, OraRes.ok_bind]

mutual
theorem read_img {env : OraEnv} (hl : OraLib env) (files : List ZipEntry) (limits : Pt) (i : Img) (g : List Layer) (hi : i = .group g) (n : Nat) (o : Pt) (hf : HasAll env files n (leaves i)) (hn : Near i)
    (hr : ∀ x ∈ leaves i, Readably x) :
    ∃ g', readNodes env files limits o (cleanedAll (nodesOf env g n).1) = .ok g' ∧ Back env limits o g g' := by
  match i with
  | .group g₀ =>
    have hg : g₀ = g := by injection hi
    rw [← hg]
    exact read_group hl files limits g₀ n o (by rw [leaves] at hf; exact hf) (by rw [Near] at hn; exact hn) (by rw [leaves] at hr; exact hr)
  | .leaf _ | .nil | .text _ _ | .masked _ _ => cases hi
termination_by structural i
theorem read_group {env : OraEnv} (hl : OraLib env) (files : List ZipEntry) (limits : Pt) (g : List Layer) (n : Nat) (o : Pt) (hf : HasAll env files n (leavesAll g)) (hn : NearAll g)
    (hr : ∀ x ∈ leavesAll g, Readably x) :
    ∃ g', readNodes env files limits o (cleanedAll (nodesOf env g n).1) = .ok g' ∧ Back env limits o g g' := by
  match g with
  | [] => exact ⟨[], rfl, .nil⟩
  | ⟨name, b, mode, invisible, tr, im⟩ :: rest =>
    rw [leavesAll] at hf hr
    rw [NearAll] at hn
    obtain ⟨hb, hn1, hn2⟩ := hn
    rw [hasAll_append] at hf
    have ha := stackAttrs_back hl name b mode invisible tr hb.1 hb.2
    have hrest := read_group hl files limits rest (n + (leaves im).length) o hf.2 hn2 (fun x hx => hr x (List.mem_append_right _ hx))
    obtain ⟨g2, h1, h2⟩ := hrest
    have himg := read_img hl files limits im
    rw [nodesOf]
    dsimp only
    rw [nodeOf_count, cleanedAll, readNodes, h1]
    by_cases hg : NotGroup im
    · have hs := leaves_single hg
      rw [hs] at hf
      obtain ⟨l, hs1, hs2⟩ := hasAt_source hl hf.1.1 (hr im (List.mem_append_left _ (by rw [hs]; exact List.mem_singleton_self _)))
      rw [nodeOf_single env _ hg, readNode_single files limits o ha hs2, OraRes.ok_bind, OraRes.ok_bind]
      exact ⟨_, rfl, .single (l := ⟨name, b, mode, invisible, tr, im⟩) hg hs1 h2⟩
    · obtain ⟨g, hg⟩ : ∃ g, im = .group g := Classical.byContradiction fun hc => hg fun g hgg => hc ⟨g, hgg⟩
      obtain ⟨g1, h3, h4⟩ := himg g hg n ⟨o.x + (corner b).x, o.y + (corner b).y⟩ hf.1 hn1 (fun x hx => hr x (List.mem_append_left _ hx))
      rw [hg, nodeOf, Node.cleaned, readNode, if_pos rfl]
      have ha' : processLayerAttrs env {} ((stackAttrs env name b mode invisible tr).map fun a => (a.1, xmlBack a.2)) = _ := ha
      rw [ha', OraRes.ok_bind]
      dsimp only
      rw [h3, OraRes.ok_bind, OraRes.ok_bind, OraRes.ok_bind]
      exact ⟨_, rfl, .group (l := ⟨name, b, mode, invisible, tr, .group g⟩) rfl h4 h2⟩
termination_by structural g
end

/-! ### The entries -/

/-- the entries hold the images, after the given number -/
def Holds (env : OraEnv) : Nat → List Img → List ZipEntry → Prop
  | _, [], es => es = []
  | n, i :: is, es => ∃ d es', env.png (.full (.image i)) = .ok d ∧ es = .of (dataName (n + 1)) d :: es' ∧ Holds env (n + 1) is es'

theorem holds_append (env : OraEnv) : ∀ (xs ys : List Img) (n : Nat) (es fs : List ZipEntry), Holds env n xs es → Holds env (n + xs.length) ys fs →
    Holds env n (xs ++ ys) (es ++ fs)
  | [], ys, n, es, fs, h1, h2 => by
    cases h1
    exact h2
  | x :: xs, ys, n, es, fs, h1, h2 => by
    obtain ⟨d, es', hd, rfl, h3⟩ := h1
    refine ⟨d, es' ++ fs, hd, rfl, holds_append env xs ys _ _ _ h3 ?_⟩
    rw [List.length_cons] at h2
    rw [show n + 1 + xs.length = n + (xs.length + 1) by omega]
    exact h2

theorem writeOne_holds {env : OraEnv} {fails : Nat → Bool} {i : Img} {n k : Nat} {es : List ZipEntry} (h : writeOne env fails i n = .ok (es, k)) :
    k = n + 1 ∧ Holds env n [i] es := by
  unfold writeOne writePng at h
  obtain ⟨e, h1, h2⟩ := OraRes.bind_ok h
  cases h2
  split at h1
  · cases h1
  · obtain ⟨d, h3, h4⟩ := OraRes.bind_ok h1
    cases h4
    exact ⟨rfl, d, [], h3, rfl, rfl⟩

mutual
theorem oraLayers_holds (env : OraEnv) (fails : Nat → Bool) (i : Img) (n k : Nat) (es : List ZipEntry) (h : oraLayers env fails i n = .ok (es, k)) :
    k = n + (leaves i).length ∧ Holds env n (leaves i) es := by
  match i with
  | .group g => rw [leaves]; rw [oraLayers] at h; exact writeGroup_holds env fails g n k es h
  | .leaf _ | .nil | .text _ _ | .masked _ _ => exact writeOne_holds h
termination_by structural i
theorem writeGroup_holds (env : OraEnv) (fails : Nat → Bool) (g : List Layer) (n k : Nat) (es : List ZipEntry) (h : writeGroup env fails g n = .ok (es, k)) :
    k = n + (leavesAll g).length ∧ Holds env n (leavesAll g) es := by
  match g with
  | [] => cases h; exact ⟨rfl, rfl⟩
  | ⟨_, _, _, _, _, im⟩ :: rest =>
    rw [writeGroup] at h
    obtain ⟨⟨es1, k1⟩, h1, h⟩ := OraRes.bind_ok h
    obtain ⟨⟨es2, k2⟩, h2, h⟩ := OraRes.bind_ok h
    cases h
    obtain ⟨e1, h1⟩ := oraLayers_holds env fails im n k1 es1 h1
    obtain ⟨e2, h2⟩ := writeGroup_holds env fails rest k1 k2 es2 h2
    rw [e1] at h2 e2
    rw [leavesAll, List.length_append]
    exact ⟨by dsimp only; omega, holds_append env _ _ _ _ _ h1 h2⟩
termination_by structural g
end

theorem holds_names (env : OraEnv) : ∀ (is : List Img) (n : Nat) (es : List ZipEntry), Holds env n is es →
    es.map ZipEntry.name = (List.range' (n + 1) is.length).map dataName
  | [], _, _, h => by cases h; rfl
  | i :: is, n, es, h => by
    obtain ⟨d, es', -, rfl, h⟩ := h
    rw [List.map_cons, holds_names env is _ es' h, List.length_cons, List.range'_succ]
    rfl

theorem holds_hasAll (env : OraEnv) : ∀ (is : List Img) (n : Nat) (pre es post : List ZipEntry), Holds env n is es →
    (∀ f ∈ pre, ∀ k, n < k → f.name ≠ dataName k) → HasAll env (pre ++ es ++ post) n is
  | [], _, _, _, _, _, _ => trivial
  | i :: is, n, pre, es, post, h, hp => by
    obtain ⟨d, es', hd, rfl, h⟩ := h
    refine ⟨⟨d, hd, ?_⟩, ?_⟩
    · rw [List.append_assoc, List.find?_append, List.find?_eq_none.2 (fun f hf => by simpa using hp f hf (n + 1) (by omega))]
      rw [Option.none_or, List.cons_append]
      rw [List.find?_cons, show decide ((ZipEntry.of (dataName (n + 1)) d).name = dataName (n + 1)) = true from decide_eq_true rfl]
    · have := holds_hasAll env is (n + 1) (pre ++ [.of (dataName (n + 1)) d]) es' post h (fun f hf k hk => by
        rcases List.mem_append.1 hf with hf | hf
        · exact hp f hf k (by omega)
        · rw [List.mem_singleton.1 hf]
          intro he
          have := dataName_inj he
          omega)
      simpa using this

end Limage
