import Verif.Proofs.OraWrite
import Mathlib.Algebra.Order.Ring.Rat
/-!
# A library as it is assumed to be

An XML, PNG and floating point library for which the assumptions of the theorems about OpenRaster files hold, so that they are about something.
-/
namespace Limage
open Spec

/-- a text, so that its end can be found -/
def encB : Bytes → Bytes
  | [] => [0]
  | b :: s => 1 :: b :: encB s

theorem encB_inj : ∀ {s t r r' : Bytes}, encB s ++ r = encB t ++ r' → s = t ∧ r = r'
  | [], [], _, _, h => ⟨rfl, by injection h⟩
  | [], _ :: _, _, _, h => by injection h with h _; exact absurd h (by decide)
  | _ :: _, [], _, _, h => by injection h with h _; exact absurd h (by decide)
  | a :: s, b :: t, r, r', h => by
    injection h with _ h
    injection h with h1 h
    obtain ⟨h2, h3⟩ := encB_inj h
    exact ⟨by rw [h1, h2], h3⟩

/-- attributes, so that their end can be found -/
def encAttrs : List (Bytes × Bytes) → Bytes
  | [] => [0]
  | (n, v) :: as_ => 1 :: (encB n ++ (encB v ++ encAttrs as_))

theorem encAttrs_inj : ∀ {s t : List (Bytes × Bytes)} {r r' : Bytes}, encAttrs s ++ r = encAttrs t ++ r' → s = t ∧ r = r'
  | [], [], _, _, h => ⟨rfl, by injection h⟩
  | [], _ :: _, _, _, h => by injection h with h _; exact absurd h (by decide)
  | _ :: _, [], _, _, h => by injection h with h _; exact absurd h (by decide)
  | (n, v) :: s, (n', v') :: t, r, r', h => by
    injection h with _ h
    have h : encB n ++ (encB v ++ encAttrs s) ++ r = encB n' ++ (encB v' ++ encAttrs t) ++ r' := h
    rw [List.append_assoc, List.append_assoc, List.append_assoc, List.append_assoc] at h
    obtain ⟨h1, h⟩ := encB_inj h
    obtain ⟨h2, h⟩ := encB_inj h
    obtain ⟨h3, h⟩ := encAttrs_inj h
    exact ⟨by rw [h1, h2, h3], h⟩

/-- a token, so that its end can be found -/
def encTok : XmlTok → Bytes
  | .start n as_ => 1 :: (encB n ++ encAttrs as_)
  | .stop => [2]
  | .chars s => 3 :: encB s
  | .other => [4]

theorem encTok_inj : ∀ {s t : XmlTok} {r r' : Bytes}, encTok s ++ r = encTok t ++ r' → s = t ∧ r = r'
  | .start n a, .start n' a', r, r', h => by
    injection h with _ h
    have h : encB n ++ encAttrs a ++ r = encB n' ++ encAttrs a' ++ r' := h
    rw [List.append_assoc, List.append_assoc] at h
    obtain ⟨h1, h⟩ := encB_inj h
    obtain ⟨h2, h⟩ := encAttrs_inj h
    exact ⟨by rw [h1, h2], h⟩
  | .stop, .stop, _, _, h => ⟨rfl, by injection h⟩
  | .chars s, .chars t, _, _, h => by
    injection h with _ h
    obtain ⟨h1, h⟩ := encB_inj h
    exact ⟨by rw [h1], h⟩
  | .other, .other, _, _, h => ⟨rfl, by injection h⟩
  | .start _ _, .stop, _, _, h | .start _ _, .chars _, _, _, h | .start _ _, .other, _, _, h | .stop, .start _ _, _, _, h | .stop, .chars _, _, _, h
  | .stop, .other, _, _, h | .chars _, .start _ _, _, _, h | .chars _, .stop, _, _, h | .chars _, .other, _, _, h | .other, .start _ _, _, _, h
  | .other, .stop, _, _, h | .other, .chars _, _, _, h => by injection h with h _; exact absurd h (by decide)

/-- tokens -/
def encToks (ts : List XmlTok) : Bytes := ts.flatMap encTok

theorem encToks_inj : ∀ {s t : List XmlTok}, encToks s = encToks t → s = t
  | [], [], _ => rfl
  | [], x :: _, h => by cases x <;> cases h
  | x :: _, [], h => by cases x <;> cases h
  | x :: s, y :: t, h => by
    have h : encTok x ++ encToks s = encTok y ++ encToks t := h
    obtain ⟨h1, h2⟩ := encTok_inj h
    rw [h1, encToks_inj h2]

/-- a token as it is read back -/
def cleanTok : XmlTok → XmlTok
  | .start n as_ => .start n (as_.map fun a => (a.1, xmlBack a.2))
  | t => t

mutual
theorem tokens_cleaned (x : Node) : x.cleaned.tokens = x.tokens.map cleanTok := by
  match x with
  | .elem n as_ ns =>
    rw [Node.cleaned, Node.tokens, Node.tokens, tokensAll_cleaned ns, List.map_append, List.map_cons]
    rfl
  | .text _ => rfl
  | .other => rfl
termination_by structural x
theorem tokensAll_cleaned (xs : List Node) : tokensAll (cleanedAll xs) = (tokensAll xs).map cleanTok := by
  match xs with
  | [] => rfl
  | x :: xs => rw [cleanedAll, tokensAll, tokensAll, tokens_cleaned x, tokensAll_cleaned xs, List.map_append]
termination_by structural xs
end

mutual
theorem strip_plain (x : Node) (h : x.Plain) : x.cleaned.strip = [x.cleaned] := by
  match x with
  | .elem n as_ ns =>
    rw [Node.Plain] at h
    rw [Node.cleaned, Node.strip, stripAll_plain ns h.2.2]
  | .text _ => exact h.elim
  | .other => exact h.elim
termination_by structural x
theorem stripAll_plain (xs : List Node) (h : AllPlain xs) : stripAll (cleanedAll xs) = cleanedAll xs := by
  match xs with
  | [] => rfl
  | x :: xs =>
    rw [AllPlain] at h
    rw [cleanedAll, stripAll, strip_plain x h.1, stripAll_plain xs h.2]
    rfl
termination_by structural xs
end

/-- the size of an image -/
def encSize (s : Nat × Nat) : Bytes := encB (itoa s.1) ++ encB (itoa s.2)

theorem encSize_inj {s t : Nat × Nat} (h : encSize s = encSize t) : s = t := by
  obtain ⟨h1, h2⟩ := encB_inj h
  have h3 : encB (itoa s.2) ++ [] = encB (itoa t.2) ++ [] := by rw [h2]
  have h4 := (encB_inj h3).1
  have a := (itoa_nat s.1).2.2
  have b := (itoa_nat s.2).2.2
  rw [h1, (itoa_nat t.1).2.2] at a
  rw [h4, (itoa_nat t.2).2.2] at b
  exact Prod.ext a.symm b.symm

open Classical in
/-- without PNG -/
noncomputable def libEnv₀ : OraEnv where
  xmlRead d := if h : ∃ ts, encToks ts = d then (h.choose.map cleanTok, true) else ([], false)
  xmlWrite := encToks
  decodeImage d := if h : ∃ s, encSize s = d then some ⟨⟨0, 0, h.choose.1, h.choose.2⟩, .gray, fun _ => some (.gray 0)⟩ else none
  png _ := .panic
  opacity _ := some 0
  formatOpacity _ := lit "0.5"
  quotient x side := 256 * (x : Rat) / (side : Rat)

/-- a library as it is assumed to be: PNG files only have the size of the image -/
noncomputable def libEnv : OraEnv :=
  { libEnv₀ with png := fun p => match p.bounds libEnv₀ with
    | none => .panic
    | some b => if 0 < b.dx ∧ 0 < b.dy then .ok (encSize (b.dx.toNat, b.dy.toNat)) else .err .size }

theorem libEnv_bounds (p : Pic) : p.bounds libEnv = p.bounds libEnv₀ := by cases p <;> rfl

theorem libEnv_lib : OraLib libEnv where
  xml x hx := by
    refine ⟨[x.cleaned], ?_, ?_⟩
    · have h : ∃ ts, encToks ts = encToks x.tokens := ⟨_, rfl⟩
      have h1 : libEnv.xmlRead (encToks x.tokens) = (h.choose.map cleanTok, true) := dif_pos h
      show libEnv.xmlRead (encToks x.tokens) = _
      rw [h1, encToks_inj h.choose_spec, tokensAll, tokensAll, List.append_nil, tokens_cleaned]
    · rw [stripAll, strip_plain x hx]
      rfl
  png p d h := by
    rw [libEnv_bounds]
    have h : (match p.bounds libEnv₀ with
      | none => .panic
      | some b => if 0 < b.dx ∧ 0 < b.dy then .ok (encSize (b.dx.toNat, b.dy.toNat)) else .err .size) = OraRes.ok d := h
    cases hb : p.bounds libEnv₀ with
    | none => rw [hb] at h; cases h
    | some b =>
      rw [hb] at h
      dsimp only at h
      split at h
      · next h0 =>
        cases h
        refine ⟨b, rfl, h0.1, h0.2, fun _ _ => ?_⟩
        have hs : ∃ s, encSize s = encSize (b.dx.toNat, b.dy.toNat) := ⟨_, rfl⟩
        refine ⟨⟨⟨0, 0, hs.choose.1, hs.choose.2⟩, .gray, fun _ => some (.gray 0)⟩, ?_, ?_⟩
        · exact dif_pos hs
        · rw [encSize_inj hs.choose_spec]
          simp only [Rect.mk.injEq, true_and]
          omega
      · cases h
  format _ := ⟨lit "0", by decide, by unfold Digits; decide, .inr ⟨lit "5", by unfold Digits; decide, rfl⟩⟩

theorem libEnv_divides : Divides libEnv := fun x side _ _ _ _ =>
  { below := fun _ h => h
    above := fun _ h => h
    near := ⟨fun h => by
        show (256 * (x : Rat) / (side : Rat) - 256 * (x : Rat) / (side : Rat)) * 2 ^ 53 ≤ _
        rw [sub_self, zero_mul]; exact h,
      fun h => by
        show (256 * (x : Rat) / (side : Rat) - 256 * (x : Rat) / (side : Rat)) * 2 ^ 53 ≤ _
        rw [sub_self, zero_mul]; exact neg_nonneg.2 h⟩ }

theorem libEnv_writes : PngWrites libEnv := fun p b hb hx hy _ _ _ => by
  refine ⟨encSize (b.dx.toNat, b.dy.toNat), ?_⟩
  rw [libEnv_bounds] at hb
  show (match p.bounds libEnv₀ with
      | none => OraRes.panic
      | some b => if 0 < b.dx ∧ 0 < b.dy then OraRes.ok (encSize (b.dx.toNat, b.dy.toNat)) else OraRes.err .size) = _
  rw [hb]
  exact if_pos ⟨hx, hy⟩

/-! ### An image -/

/-- a picture of a given size -/
def blank (w h : Int) : Leaf := ⟨⟨0, 0, w, h⟩, .gray, fun _ => some (.gray 7)⟩

/-- a hidden layer with a translucent picture, and a group at the origin with a layer -/
def exampleTree : List Layer :=
  [⟨lit "a", ⟨2, 3, 6, 8⟩, Mode.screen, true, 100, .leaf (blank 4 5)⟩,
    ⟨[], ⟨0, 0, 10, 8⟩, Mode.normal, false, 0, .group [⟨lit "b", ⟨0, 0, 10, 8⟩, Mode.dissolve, true, 0, .leaf (blank 10 8)⟩]⟩]

/-- a layer in a group that is not at the origin -/
def exampleMoved : List Layer :=
  [⟨[], ⟨1, 0, 10, 8⟩, Mode.normal, false, 0, .group [⟨lit "b", ⟨1, 0, 10, 8⟩, Mode.normal, false, 0, .leaf (blank 9 8)⟩]⟩]

theorem exampleTree_written : ∃ es, oraEncode libEnv (fun _ => false) false (.image (.group exampleTree)) = .ok ⟨none, some es⟩ := ⟨_, rfl⟩

theorem exampleMoved_written : ∃ es, oraEncode libEnv (fun _ => false) false (.image (.group exampleMoved)) = .ok ⟨none, some es⟩ := ⟨_, rfl⟩

theorem blank_readably (w h : Int) (hw : w < 2 ^ 31) (hh : h < 2 ^ 31) : Readably (.leaf (blank w h)) := fun b hb => by
  cases hb
  exact ⟨by show w - 0 < _; omega, by show h - 0 < _; omega⟩

theorem exampleTree_readable : ∀ i ∈ leavesAll exampleTree, Readably i := by
  intro i hi
  have hi : i ∈ [Img.leaf (blank 4 5), Img.leaf (blank 10 8)] := hi
  simp only [List.mem_cons, List.not_mem_nil, or_false] at hi
  rcases hi with rfl | rfl <;> exact blank_readably _ _ (by decide) (by decide)

theorem exampleTree_near : NearAll exampleTree := by
  simp [exampleTree, NearAll, Near]

end Limage
