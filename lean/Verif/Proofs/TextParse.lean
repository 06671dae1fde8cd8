import Verif.Spec.Text
import Verif.Proofs.Utf8
/-!
# The parser of text descriptions
-/
namespace Limage
open Spec

/-! ### Quoted strings -/

theorem quotedString_plain (f : Nat) (b : UInt8) (d : Bytes) (h : b ≠ 34 ∧ b ≠ 92) :
    quotedString (f + 1) (b :: d) = (b :: (quotedString (f + 1) d).1, (quotedString (f + 1) d).2) := by
  have hb : (b ≠ 34 && b ≠ 92) = true := by simp [h.1, h.2]
  unfold quotedString
  rw [List.takeWhile_cons, if_pos hb]
  dsimp only
  rw [List.length_cons, List.drop_succ_cons]
  generalize (d.takeWhile fun b => b ≠ 34 && b ≠ 92) = p
  cases d.drop p.length with
  | nil => rfl
  | cons c d' =>
    dsimp only
    split <;> rfl

theorem quotedString_quoting {w s : Bytes} (h : Quoting w s) (rest : Bytes) : ∀ f : Nat, w.length < f → quotedString f (w ++ 34 :: rest) = (s, rest) := by
  have slash : ∀ (f : Nat) (d c r : Bytes), escaped d = (c, r) →
      quotedString (f + 1) (92 :: d) = (c ++ (quotedString f r).1, (quotedString f r).2) := by
    intro f d c r h
    conv => lhs; unfold quotedString
    rw [List.takeWhile_cons, if_neg (by decide)]
    simp only [List.length_nil, List.drop_zero]
    rw [if_pos trivial, h]
    rfl
  induction h with
  | nil =>
    intro f hf
    cases f with
    | zero => exact absurd hf (by simp)
    | succ f =>
      show quotedString (f + 1) (34 :: rest) = _
      unfold quotedString
      rfl
  | plain h1 h2 h ih =>
    intro f hf
    cases f with
    | zero => exact absurd hf (by simp)
    | succ f =>
      rw [List.cons_append, quotedString_plain f _ _ ⟨h1, h2⟩, ih (f + 1) (by simp only [List.length_cons] at hf; omega)]
  | @drop b w s hb h ih =>
    intro f hf
    cases f with
    | zero => exact absurd hf (by simp)
    | succ f =>
      have he : escaped (b :: (w ++ 34 :: rest)) = ([b], w ++ 34 :: rest) := by unfold escaped; exact if_pos hb
      rw [List.cons_append, List.cons_append, slash f _ _ _ he, ih f (by simp only [List.length_cons] at hf; omega)]
      rfl
  | @keep b w s h1 h2 h3 h ih =>
    intro f hf
    cases f with
    | zero => exact absurd hf (by simp)
    | succ f =>
      have he : escaped (b :: (w ++ 34 :: rest)) = ([92, b], w ++ 34 :: rest) := by
        unfold escaped
        dsimp only
        rw [if_neg (fun h => h.elim h1 h2)]
        unfold decodeRune
        dsimp only
        rw [if_pos h3]
        rfl
      rw [List.cons_append, List.cons_append, slash f _ _ _ he, ih f (by simp only [List.length_cons] at hf; omega)]
      rfl

/-! ### Values -/

theorem isName_iff (b : UInt8) : isName b = true ↔ NameByte b := by
  unfold isName NameByte
  have e : (b = 45) = (b.toNat = 45) := by rw [← UInt8.toNat_inj]; rfl
  simp only [Bool.or_eq_true, Bool.and_eq_true, decide_eq_true_eq, UInt8.le_iff_toNat_le, UInt8.reduceToNat, e, or_assoc]

theorem isDigit_iff (b : UInt8) : isDigit b = true ↔ 48 ≤ b.toNat ∧ b.toNat ≤ 57 := by
  unfold isDigit
  simp only [Bool.and_eq_true, decide_eq_true_eq, UInt8.le_iff_toNat_le, UInt8.reduceToNat]

/-- what follows a value -/
def Delim (d : Bytes) : Prop := ∃ b t, d = b :: t ∧ (b = 32 ∨ b = 41)

theorem Delim.not {d : Bytes} (h : Delim d) {p : UInt8 → Bool} (h1 : p 32 = false) (h2 : p 41 = false) :
    d.takeWhile p = [] ∧ d.dropWhile p = d := by
  obtain ⟨b, t, rfl, rfl | rfl⟩ := h
  · rw [List.takeWhile_cons, List.dropWhile_cons, h1]; exact ⟨rfl, rfl⟩
  · rw [List.takeWhile_cons, List.dropWhile_cons, h2]; exact ⟨rfl, rfl⟩

theorem printAll_delim (is : List Item) (rest : Bytes) : Delim (printAll is ++ 41 :: rest) := by
  cases is with
  | nil => unfold printAll; exact ⟨41, rest, rfl, .inr rfl⟩
  | cons i is => unfold printAll; exact ⟨32, _, rfl, .inl rfl⟩

theorem takeWhile_run {p : UInt8 → Bool} {a d : Bytes} (ha : ∀ b ∈ a, p b = true) : (a ++ d).takeWhile p = a ++ d.takeWhile p ∧
    (a ++ d).dropWhile p = d.dropWhile p := by
  induction a with
  | nil => exact ⟨rfl, rfl⟩
  | cons b a ih =>
    obtain ⟨h1, h2⟩ := ih fun x hx => ha x (List.mem_cons_of_mem _ hx)
    have hb := ha b (List.mem_cons_self ..)
    rw [List.cons_append, List.takeWhile_cons, List.dropWhile_cons, if_pos hb, if_pos hb, h1, h2]
    exact ⟨rfl, rfl⟩

/-- a value in front of the other values -/
def Outcome.consVal (v : Raw) : Outcome (List Raw × Stop × Bytes) → Outcome (List Raw × Stop × Bytes)
  | .ok (vs, x) => .ok (v :: vs, x)
  | .panic => .panic
  | .hang => .hang

theorem space_skip (b : UInt8) (d : Bytes) (hb : isSpace b = false) : (32 :: b :: d).dropWhile isSpace = b :: d := by
  rw [List.dropWhile_cons, if_pos (by decide), List.dropWhile_cons, if_neg (by simp [hb])]

theorem name_facts {b : UInt8} (h : isName b = true) : isSpace b = false ∧ b ≠ 0 ∧ b ≠ 40 ∧ b ≠ 41 ∧ b ≠ 34 ∧ isDigit b = false := by
  have := (isName_iff b).1 h
  unfold NameByte at this
  refine ⟨?_, ?_, ?_, ?_, ?_, ?_⟩
  · unfold isSpace
    simp only [Bool.or_eq_false_iff, decide_eq_false_iff_not, ← UInt8.toNat_inj, UInt8.reduceToNat]
    omega
  · rw [ne_eq, ← UInt8.toNat_inj]; simp only [UInt8.reduceToNat]; omega
  · rw [ne_eq, ← UInt8.toNat_inj]; simp only [UInt8.reduceToNat]; omega
  · rw [ne_eq, ← UInt8.toNat_inj]; simp only [UInt8.reduceToNat]; omega
  · rw [ne_eq, ← UInt8.toNat_inj]; simp only [UInt8.reduceToNat]; omega
  · rw [Bool.eq_false_iff, ne_eq, isDigit_iff]; omega

theorem digit_facts {b : UInt8} (h : isDigit b = true) : isSpace b = false ∧ b ≠ 0 ∧ b ≠ 40 ∧ b ≠ 41 ∧ b ≠ 34 := by
  have := (isDigit_iff b).1 h
  refine ⟨?_, ?_, ?_, ?_, ?_⟩
  · unfold isSpace
    simp only [Bool.or_eq_false_iff, decide_eq_false_iff_not, ← UInt8.toNat_inj, UInt8.reduceToNat]
    omega
  · rw [ne_eq, ← UInt8.toNat_inj]; simp only [UInt8.reduceToNat]; omega
  · rw [ne_eq, ← UInt8.toNat_inj]; simp only [UInt8.reduceToNat]; omega
  · rw [ne_eq, ← UInt8.toNat_inj]; simp only [UInt8.reduceToNat]; omega
  · rw [ne_eq, ← UInt8.toNat_inj]; simp only [UInt8.reduceToNat]; omega

theorem valueRun_word {w d : Bytes} (hw : Word w) (hd : Delim d) (f : Nat) :
    valueRun (f + 1) (32 :: w ++ d) = (valueRun f d).consVal (.str w) := by
  obtain ⟨h0, h1⟩ := hw
  have hn : ∀ b ∈ w, isName b = true := fun b hb => (isName_iff b).2 (h1 b hb)
  obtain ⟨t1, t2⟩ := takeWhile_run (d := d) hn
  obtain ⟨d1, d2⟩ := hd.not (p := isName) (by decide) (by decide)
  rw [d1, List.append_nil] at t1
  rw [d2] at t2
  cases w with
  | nil => exact absurd rfl h0
  | cons b w =>
    obtain ⟨f1, f2, f3, f4, f5, f6⟩ := name_facts (hn b (List.mem_cons_self ..))
    have hb := hn b (List.mem_cons_self ..)
    conv => lhs; unfold valueRun
    rw [List.cons_append] at t1 t2
    rw [show (32 :: b :: w ++ d : Bytes) = 32 :: b :: (w ++ d) from rfl, space_skip b _ f1]
    dsimp only
    rw [if_neg f2, if_neg f3, if_neg f4, if_neg f5, if_neg (by rw [f6]; simp), if_pos hb, t1, t2]
    rfl

theorem valueRun_quoted {w s : Bytes} (h : Quoting w s) (d : Bytes) (f : Nat) :
    valueRun (f + 1) (32 :: (34 :: w ++ [34]) ++ d) = (valueRun f d).consVal (.str s) := by
  conv => lhs; unfold valueRun
  rw [show (32 :: (34 :: w ++ [34]) ++ d : Bytes) = 32 :: 34 :: (w ++ 34 :: d) by simp, space_skip 34 _ (by decide)]
  dsimp only
  rw [if_neg (by decide), if_neg (by decide), if_neg (by decide), if_pos rfl, quotedString_quoting h]
  · rfl
  · rw [List.length_append]
    omega

theorem numberLen_number {s d : Bytes} (hs : Number s) (hd : Delim d) : numberLen (s ++ d) = s.length := by
  obtain ⟨a, -, ha, h⟩ := hs
  have hda : ∀ b ∈ a, isDigit b = true := fun b hb => (isDigit_iff b).2 (ha b hb)
  obtain ⟨d1, d2⟩ := hd.not (p := isDigit) (by decide) (by decide)
  unfold numberLen
  rcases h with rfl | ⟨b, hb, rfl⟩
  · rw [(takeWhile_run hda).1, d1, List.append_nil]
    dsimp only
    rw [List.drop_left]
    obtain ⟨c, t, rfl, hc⟩ := hd
    dsimp only
    rw [if_neg (by rcases hc with rfl | rfl <;> decide)]
  · have hdb : ∀ x ∈ b, isDigit x = true := fun x hx => (isDigit_iff x).2 (hb x hx)
    rw [List.append_assoc, (takeWhile_run hda).1]
    rw [show (46 :: b ++ d : Bytes).takeWhile isDigit = [] from rfl, List.append_nil]
    dsimp only
    rw [List.drop_left]
    dsimp only [List.cons_append]
    rw [if_pos rfl, (takeWhile_run hdb).1, d1, List.append_nil, List.length_append, List.length_cons]
    omega

theorem valueRun_number {s d : Bytes} (hs : Number s) (hd : Delim d) (f : Nat) :
    valueRun (f + 1) (32 :: s ++ d) = (valueRun f d).consVal (.num s) := by
  have hl := numberLen_number hs hd
  obtain ⟨a, ha0, ha, h⟩ := hs
  obtain ⟨b, t, rfl⟩ : ∃ b t, s = b :: t := by
    cases s with
    | nil =>
      rcases h with h | ⟨b, _, h⟩
      · exact absurd h.symm ha0
      · cases a <;> cases h
    | cons b t => exact ⟨b, t, rfl⟩
  have hb : isDigit b = true := by
    have : b ∈ a := by
      cases a with
      | nil => exact absurd rfl ha0
      | cons c a =>
        rcases h with h | ⟨_, _, h⟩ <;> cases h <;> exact List.mem_cons_self ..
    exact (isDigit_iff b).2 (ha b this)
  obtain ⟨f1, f2, f3, f4, f5⟩ := digit_facts hb
  conv => lhs; unfold valueRun
  rw [show (32 :: b :: t ++ d : Bytes) = 32 :: b :: (t ++ d) from rfl, space_skip b _ f1]
  dsimp only
  rw [if_neg f2, if_neg f3, if_neg f4, if_neg f5, if_pos hb, ← List.cons_append, hl, List.take_left, List.drop_left]
  rfl

/-- the simple values at the start, and the first tag with what follows it -/
def splitItems : List Item → List Raw × Option (Bytes × List Item × List Item)
  | [] => ([], none)
  | .word s :: is => (.str s :: (splitItems is).1, (splitItems is).2)
  | .quoted _ s :: is => (.str s :: (splitItems is).1, (splitItems is).2)
  | .number s :: is => (.num s :: (splitItems is).1, (splitItems is).2)
  | .tag n sub :: is => ([], some (n, sub, is))

/-- where a run of values ends -/
def stopOf (x : List Raw × Option (Bytes × List Item × List Item)) (rest : Bytes) : List Raw × Stop × Bytes :=
  match x.2 with
  | none => (x.1, .cls, rest)
  | some (n, sub, is) => (x.1, .opn, n ++ printAll sub ++ 41 :: (printAll is ++ 41 :: rest))

theorem valueRun_items : ∀ (is : List Item) (f : Nat) (rest : Bytes), AllOkItems is → is.length < f →
    valueRun f (printAll is ++ 41 :: rest) = .ok (stopOf (splitItems is) rest)
  | [], f + 1, rest, _, _ => by
    unfold printAll splitItems
    rfl
  | .word s :: is, f + 1, rest, h, hf => by
    unfold AllOkItems Item.Ok at h
    unfold printAll Item.print splitItems
    rw [List.append_assoc, valueRun_word h.1 (printAll_delim _ _), valueRun_items is f rest h.2 (by simpa using hf)]
    unfold stopOf
    cases (splitItems is).2 <;> rfl
  | .quoted w s :: is, f + 1, rest, h, hf => by
    unfold AllOkItems Item.Ok at h
    unfold printAll Item.print splitItems
    rw [List.append_assoc, valueRun_quoted h.1, valueRun_items is f rest h.2 (by simpa using hf)]
    unfold stopOf
    cases (splitItems is).2 <;> rfl
  | .number s :: is, f + 1, rest, h, hf => by
    unfold AllOkItems Item.Ok at h
    unfold printAll Item.print splitItems
    rw [List.append_assoc, valueRun_number h.1 (printAll_delim _ _), valueRun_items is f rest h.2 (by simpa using hf)]
    unfold stopOf
    cases (splitItems is).2 <;> rfl
  | .tag n sub :: is, f + 1, rest, h, hf => by
    unfold printAll Item.print splitItems
    conv => lhs; unfold valueRun
    rw [show (32 :: (40 :: n ++ printAll sub ++ [41]) ++ printAll is ++ 41 :: rest : Bytes) =
      32 :: 40 :: (n ++ printAll sub ++ 41 :: (printAll is ++ 41 :: rest)) by simp, space_skip 40 _ (by decide)]
    rfl

/-- the values of the parts -/
theorem vals_split (e : TextEnv) : ∀ (is : List Item) (vs : List Val), vals e.parseFloat is = some vs →
    ∃ v1, convert e (splitItems is).1 = some v1 ∧
      match (splitItems is).2 with
      | none => vs = v1
      | some (n, sub, is') => ∃ ws v2, vals e.parseFloat sub = some ws ∧ vals e.parseFloat is' = some v2 ∧ vs = v1 ++ .tag n ws :: v2
  | [], vs, h => by
    unfold vals at h
    cases h
    exact ⟨[], rfl, rfl⟩
  | .word s :: is, vs, h => by
    unfold vals Item.val at h
    rw [Option.bind_some, Option.map_eq_some_iff] at h
    obtain ⟨ws, h1, rfl⟩ := h
    obtain ⟨v1, h2, h3⟩ := vals_split e is ws h1
    refine ⟨.str s :: v1, by unfold splitItems convert; rw [h2]; rfl, ?_⟩
    unfold splitItems
    dsimp only
    split at h3
    · subst h3; rfl
    · obtain ⟨a, b, h4, h5, rfl⟩ := h3
      exact ⟨a, b, h4, h5, rfl⟩
  | .quoted w s :: is, vs, h => by
    unfold vals Item.val at h
    rw [Option.bind_some, Option.map_eq_some_iff] at h
    obtain ⟨ws, h1, rfl⟩ := h
    obtain ⟨v1, h2, h3⟩ := vals_split e is ws h1
    refine ⟨.str s :: v1, by unfold splitItems convert; rw [h2]; rfl, ?_⟩
    unfold splitItems
    dsimp only
    split at h3
    · subst h3; rfl
    · obtain ⟨a, b, h4, h5, rfl⟩ := h3
      exact ⟨a, b, h4, h5, rfl⟩
  | .number s :: is, vs, h => by
    unfold vals Item.val at h
    rw [Option.bind_eq_some_iff] at h
    obtain ⟨v, h0, h⟩ := h
    rw [Option.map_eq_some_iff] at h h0
    obtain ⟨x, h0, rfl⟩ := h0
    obtain ⟨ws, h1, rfl⟩ := h
    obtain ⟨v1, h2, h3⟩ := vals_split e is ws h1
    refine ⟨.num x.1 x.2 :: v1, by unfold splitItems convert; dsimp only; rw [h2, h0]; rfl, ?_⟩
    unfold splitItems
    dsimp only
    split at h3
    · subst h3; rfl
    · obtain ⟨a, b, h4, h5, rfl⟩ := h3
      exact ⟨a, b, h4, h5, rfl⟩
  | .tag n sub :: is, vs, h => by
    unfold vals Item.val at h
    rw [Option.bind_eq_some_iff] at h
    obtain ⟨v, h0, h⟩ := h
    rw [Option.map_eq_some_iff] at h h0
    obtain ⟨x, h0, rfl⟩ := h0
    obtain ⟨ws, h1, rfl⟩ := h
    exact ⟨[], rfl, x, ws, h0, h1, rfl⟩

theorem split_ok : ∀ (is : List Item) {n : Bytes} {sub is' : List Item}, AllOkItems is → (splitItems is).2 = some (n, sub, is') →
    Word n ∧ AllOkItems sub ∧ AllOkItems is' ∧ n.length + (printAll sub).length + (printAll is').length + 3 ≤ (printAll is).length
  | .word s :: is, n, sub, is', h, hs => by
    unfold AllOkItems at h
    unfold splitItems at hs
    obtain ⟨h1, h2, h3, h4⟩ := split_ok is h.2 hs
    refine ⟨h1, h2, h3, ?_⟩
    rw [printAll, List.length_append]
    omega
  | .quoted w s :: is, n, sub, is', h, hs => by
    unfold AllOkItems at h
    unfold splitItems at hs
    obtain ⟨h1, h2, h3, h4⟩ := split_ok is h.2 hs
    refine ⟨h1, h2, h3, ?_⟩
    rw [printAll, List.length_append]
    omega
  | .number s :: is, n, sub, is', h, hs => by
    unfold AllOkItems at h
    unfold splitItems at hs
    obtain ⟨h1, h2, h3, h4⟩ := split_ok is h.2 hs
    refine ⟨h1, h2, h3, ?_⟩
    rw [printAll, List.length_append]
    omega
  | .tag n sub :: is, n', sub', is', h, hs => by
    unfold AllOkItems Item.Ok at h
    unfold splitItems at hs
    cases hs
    refine ⟨h.1.1, h.1.2, h.2, ?_⟩
    rw [printAll, Item.print]
    simp only [List.length_append, List.length_cons, List.length_nil]
    omega

theorem printAll_count : ∀ is : List Item, is.length ≤ (printAll is).length
  | [] => Nat.zero_le _
  | i :: is => by
    have := printAll_count is
    rw [printAll]
    simp only [List.length_append, List.length_cons]
    omega

theorem readTag_printed (e : TextEnv) : ∀ f : Nat,
    (∀ (name : Bytes) (is : List Item) (vs : List Val) (rest : Bytes), Word name → AllOkItems is → vals e.parseFloat is = some vs →
      2 * (name.length + (printAll is).length) + 2 ≤ f → readTag e f (name ++ printAll is ++ 41 :: rest) = .ok (.tag name vs rest)) ∧
    (∀ (name : Bytes) (acc : List Val) (is : List Item) (vs : List Val) (rest : Bytes), AllOkItems is → vals e.parseFloat is = some vs →
      2 * (printAll is).length + 1 ≤ f → readValues e f name acc (printAll is ++ 41 :: rest) = .ok (.tag name (acc ++ vs) rest)) := by
  intro f
  induction f with
  | zero => exact ⟨fun _ _ _ _ _ _ _ h => by omega, fun _ _ _ _ _ _ _ h => by omega⟩
  | succ f ih =>
    obtain ⟨ih1, ih2⟩ := ih
    constructor
    · intro name is vs rest hn ha hv hf
      unfold readTag
      have hnm : ∀ b ∈ name, isName b = true := fun b hb => (isName_iff b).2 (hn.2 b hb)
      obtain ⟨d1, d2⟩ := (printAll_delim is rest).not (p := isName) (by decide) (by decide)
      obtain ⟨t1, t2⟩ := takeWhile_run (d := printAll is ++ 41 :: rest) hnm
      rw [d1, List.append_nil] at t1
      rw [d2] at t2
      rw [List.append_assoc, t1, t2]
      have h0 := hn.1
      have := List.length_pos_iff.2 h0
      cases name with
      | nil => exact absurd rfl h0
      | cons b name =>
        dsimp only
        rw [ih2 (b :: name) [] is vs rest ha hv (by omega)]
        rfl
    · intro name acc is vs rest ha hv hf
      unfold readValues
      rw [valueRun_items is _ rest ha (by have := printAll_count is; rw [List.length_append]; omega)]
      obtain ⟨v1, h1, h2⟩ := vals_split e is vs hv
      unfold stopOf
      cases hs : (splitItems is).2 with
      | none =>
        rw [hs] at h2
        dsimp only at h2 ⊢
        subst h2
        rw [h1]
      | some x =>
        obtain ⟨n, sub, is'⟩ := x
        rw [hs] at h2
        dsimp only at h2 ⊢
        obtain ⟨ws, v2, g1, g2, rfl⟩ := h2
        obtain ⟨k1, k2, k3, k4⟩ := split_ok is ha hs
        rw [h1]
        dsimp only
        rw [ih1 n sub ws _ k1 k2 g1 (by omega)]
        dsimp only
        rw [ih2 name _ is' v2 rest k3 g2 (by have := List.length_pos_iff.2 k1.1; omega)]
        simp

/-- a description is read as what it means -/
theorem parseTags_printed (e : TextEnv) : ∀ (ts : List (Bytes × List Item)) (rs : List (Bytes × List Val)) (tail : Bytes) (f : Nat),
    (∀ t ∈ ts, Word t.1 ∧ AllOkItems t.2) → meaning e.parseFloat ts = some rs → (tail = [] ∨ ∃ r, tail = 0 :: r) →
    (description ts ++ tail).length < f → parseTags e f (description ts ++ tail) = .ok (some rs)
  | [], rs, tail, f + 1, _, hm, ht, _ => by
    cases hm
    unfold parseTags description
    rcases ht with rfl | ⟨r, rfl⟩ <;> rfl
  | (n, is) :: ts, rs, tail, f + 1, h, hm, ht, hf => by
    unfold meaning at hm
    rw [Option.bind_eq_some_iff] at hm
    obtain ⟨vs, h1, hm⟩ := hm
    rw [Option.map_eq_some_iff] at hm
    obtain ⟨r, h2, rfl⟩ := hm
    have h3 := h _ (List.mem_cons_self ..)
    have e1 : description ((n, is) :: ts) ++ tail = 40 :: (n ++ printAll is ++ 41 :: (10 :: (description ts ++ tail))) := by
      unfold description
      rw [List.flatMap_cons, Item.print]
      simp
    rw [e1] at hf ⊢
    simp only [List.length_cons, List.length_append] at hf
    unfold parseTags
    rw [List.dropWhile_cons, if_neg (by decide)]
    dsimp only
    rw [if_neg (by decide), if_pos rfl, (readTag_printed e _).1 n is vs _ h3.1 h3.2 h1 (by simp only [List.length_append]; omega)]
    dsimp only
    have ih := parseTags_printed e ts r tail f (fun t ht => h t (List.mem_cons_of_mem _ ht)) h2 ht (by rw [List.length_append]; omega)
    have : parseTags e f (10 :: (description ts ++ tail)) = parseTags e f (description ts ++ tail) := by
      cases f with
      | zero => rfl
      | succ f =>
        conv => lhs; unfold parseTags
        conv => rhs; unfold parseTags
        rw [List.dropWhile_cons, if_pos (by decide)]
    rw [this, ih]

end Limage
