import Verif.Props.MarkupStyle
/-!
# C125: the background colour in the markup of a text
-/
namespace Limage
open Spec

/-! ### Specification -/

/-- Specification: the number that hexadecimal digits stand for, `none` if they are not all digits -/
def Spec.hexNumber (s : Bytes) : Option Nat := s.foldl (fun a b => do return 16 * (← a) + (← hexNibble b)) (some 0)

/-- Specification: the notation of a colour: `#` and three numbers of equally many hexadecimal digits -/
def Spec.HexColour (s : Bytes) (r g b : Nat) : Prop :=
  ∃ R G B : Bytes, s = 35 :: (R ++ G ++ B) ∧ 0 < R.length ∧ R.length = G.length ∧ G.length = B.length ∧
    hexNumber R = some r ∧ hexNumber G = some g ∧ hexNumber B = some b

/-! ### Numbers of hexadecimal digits -/

theorem hexNumber_snoc {s : Bytes} {n k : Nat} (h : hexNumber s = some n) (hk : k < 16) : hexNumber (s ++ [hexDigit 65 k]) = some (16 * n + k) := by
  unfold hexNumber at h ⊢
  rw [List.foldl_append, h]
  show (do return 16 * n + (← hexNibble (hexDigit 65 k))) = _
  rw [hexNibble_digit ⟨k, hk⟩]
  rfl

theorem hexFixed_number : ∀ (k n : Nat), n < 16 ^ k → hexNumber (hexFixed 65 k n) = some n ∧ (hexFixed 65 k n).length = k
  | 0, n, h => by
    have : n = 0 := by simpa using h
    subst this
    exact ⟨rfl, rfl⟩
  | k + 1, n, h => by
    have h' : n / 16 < 16 ^ k := by rw [Nat.pow_succ] at h; omega
    obtain ⟨h1, h2⟩ := hexFixed_number k (n / 16) h'
    unfold hexFixed
    refine ⟨?_, by rw [List.length_append, h2]; rfl⟩
    rw [hexNumber_snoc h1 (by omega)]
    congr 1
    omega

/-- without leading zeros: the digits of a number between `16 ^ k` and `16 ^ (k + 1)` -/
theorem hexDigits_number : ∀ (f n : Nat), n < 16 ^ f → 0 < f → hexNumber (hexDigits 65 f n) = some n ∧
    ∀ k, 16 ^ k ≤ n → n < 16 ^ (k + 1) → (hexDigits 65 f n).length = k + 1
  | 0, n, _, h0 => absurd h0 (by decide)
  | f + 1, n, h, _ => by
    unfold hexDigits
    by_cases hn : n < 16
    · rw [if_pos hn]
      refine ⟨?_, fun k h1 _ => ?_⟩
      · rw [hexNumber_snoc (show hexNumber [] = some 0 from rfl) (by omega)]
        congr 1
        omega
      · match k with
        | 0 => rfl
        | k + 1 =>
          rw [Nat.pow_succ] at h1
          have := Nat.one_le_pow k 16 (by decide)
          omega
    · rw [if_neg hn]
      have h' : n / 16 < 16 ^ f := by rw [Nat.pow_succ] at h; omega
      have hf : 0 < f := by
        rcases Nat.eq_zero_or_pos f with rfl | h
        · simp at h'; omega
        · exact h
      obtain ⟨h1, h2⟩ := hexDigits_number f (n / 16) h' hf
      refine ⟨?_, fun k h3 h4 => ?_⟩
      · rw [hexNumber_snoc h1 (by omega)]
        congr 1
        omega
      · match k with
        | 0 => simp at h4; omega
        | k + 1 =>
          rw [List.length_append, h2 k (by rw [Nat.pow_succ] at h3; omega) (by rw [Nat.pow_succ] at h4; omega)]
          rfl

/-- `%02X` -/
theorem fmtHex2_number (n : UInt32) : hexNumber (fmtHex2 n) = some n.toNat ∧ (n.toNat < 256 → (fmtHex2 n).length = 2) ∧
    ∀ k, 1 ≤ k → 16 ^ k ≤ n.toNat → n.toNat < 16 ^ (k + 1) → (fmtHex2 n).length = k + 1 := by
  unfold fmtHex2
  by_cases h : n < 256
  · rw [if_pos h]
    have h : n.toNat < 256 := UInt32.lt_iff_toNat_lt.1 h
    obtain ⟨h1, h2⟩ := hexFixed_number 2 n.toNat h
    refine ⟨h1, fun _ => h2, fun k h3 h4 _ => ?_⟩
    rw [h2]
    match k with
    | 1 => rfl
    | k + 2 =>
      rw [Nat.pow_succ, Nat.pow_succ] at h4
      have := Nat.one_le_pow k 16 (by decide)
      omega
  · rw [if_neg h]
    have h : ¬ n.toNat < 256 := fun h' => h (UInt32.lt_iff_toNat_lt.2 h')
    obtain ⟨h1, h2⟩ := hexDigits_number 8 n.toNat n.toNat_lt (by decide)
    exact ⟨h1, fun h' => absurd h' h, fun k _ h3 h4 => h2 k h3 h4⟩

/-! ### C125 -/

/-- the attributes of an element that give a background -/
def Spec.backgrounds (els : List Element) : List Bytes :=
  (els.flatMap (·.2)).filterMap fun a => if a.1 = lit "background" then some a.2 else none

theorem backgrounds_append (a b : List Element) : backgrounds (a ++ b) = backgrounds a ++ backgrounds b := by
  unfold backgrounds
  rw [List.flatMap_append, List.filterMap_append]

theorem backgrounds_other {c : Prop} [Decidable c] (n k v : Bytes) (h : k ≠ lit "background") : backgrounds (elemIf c (n, [(k, v)])) = [] := by
  unfold elemIf
  split
  · show (([(k, v)] : List (Bytes × Bytes)) ++ []).filterMap _ = []
    rw [List.append_nil, List.filterMap_cons, if_neg h]
    rfl
  · rfl

theorem backgrounds_flag {c : Prop} [Decidable c] (n : Bytes) : backgrounds (elemIf c (n, [])) = [] := by
  unfold elemIf
  split <;> rfl

theorem backgrounds_of (td : TextDatum) (f b : RGBA32) :
    backgrounds (elementsFor td f b) = if b.r ≠ 0 ∨ b.g ≠ 0 ∨ b.b ≠ 0 then [35 :: (fmtHex2 b.r ++ fmtHex2 b.g ++ fmtHex2 b.b)] else [] := by
  unfold elementsFor
  simp only [backgrounds_append]
  rw [backgrounds_other _ _ _ (by decide), backgrounds_other (lit "span") (lit "font") _ (by decide), backgrounds_flag, backgrounds_flag, backgrounds_flag,
    backgrounds_flag, backgrounds_other (lit "span") (lit "letter_spacing") _ (by decide), backgrounds_other (lit "span") (lit "size") _ (by decide),
    backgrounds_other (lit "span") (lit "rise") _ (by decide)]
  simp only [List.append_nil, List.nil_append]
  unfold elemIf
  split <;> rfl

/-- What is written for the background: nothing for black, and otherwise one attribute, of the three 16-bit values in hexadecimal digits, each of at
least two digits and without further leading zeros. -/
theorem C125_written (e : TextEnv) (td : TextDatum) (m : Bytes) (h : writeTextMarkup e td = some m) (hf : PlainFont td.font)
    (b : Color) (hb : td.backColor = some b) :
    ∃ (els : List Element) (ops : List Bytes), List.Forall₂ OpenTag els ops ∧
      m = ops.flatten ++ fmtQ e (htmlEscape td.data) ++ els.reverse.flatMap closeTag ∧
      ((b.rgba32.r = 0 ∧ b.rgba32.g = 0 ∧ b.rgba32.b = 0) → backgrounds els = []) ∧
      (¬(b.rgba32.r = 0 ∧ b.rgba32.g = 0 ∧ b.rgba32.b = 0) → ∃ R G B : Bytes, backgrounds els = [35 :: (R ++ G ++ B)] ∧
        ∀ x ∈ [(R, b.rgba32.r), (G, b.rgba32.g), (B, b.rgba32.b)], hexNumber x.1 = some x.2.toNat ∧ (x.2.toNat < 256 → x.1.length = 2) ∧
          ∀ k, 1 ≤ k → 16 ^ k ≤ x.2.toNat → x.2.toNat < 16 ^ (k + 1) → x.1.length = k + 1) := by
  unfold writeTextMarkup at h
  obtain ⟨tags, ht, h⟩ := Option.bind_eq_some_iff.1 h
  cases h
  obtain ⟨f, b', h1, h2, h3⟩ := elements_tagged hf ht
  obtain rfl : b = b' := by rw [hb] at h2; exact Option.some.inj h2
  obtain ⟨ops, h4, h5, h6⟩ := tagged_text h3
  refine ⟨_, ops, h4, by rw [h5, h6], ?_, ?_⟩
  · rintro ⟨z1, z2, z3⟩
    rw [backgrounds_of, if_neg (by simp [z1, z2, z3])]
  · intro hz
    refine ⟨_, _, _, by rw [backgrounds_of, if_pos (by simpa only [ne_eq, ← Classical.not_and_iff_not_or_not, and_assoc] using hz)], ?_⟩
    intro x hx
    simp only [List.mem_cons, List.not_mem_nil, or_false] at hx
    rcases hx with rfl | rfl | rfl <;> exact fmtHex2_number _

/-- The whole claim would be: the background in the markup is a colour, that of the run.  It holds if the three 16-bit values have equally many digits
(at least two), as those of all colours of which each 8-bit channel is 16 or more; otherwise it is false (`C125_refuted`). -/
theorem C125_colour_partial (e : TextEnv) (td : TextDatum) (m : Bytes) (h : writeTextMarkup e td = some m) (hf : PlainFont td.font)
    (b : Color) (hb : td.backColor = some b) (k : Nat) (hk : 1 ≤ k)
    (hd : ∀ n ∈ [b.rgba32.r.toNat, b.rgba32.g.toNat, b.rgba32.b.toNat], 16 ^ k ≤ n ∧ n < 16 ^ (k + 1)) :
    ∃ (els : List Element) (ops : List Bytes) (v : Bytes), List.Forall₂ OpenTag els ops ∧
      m = ops.flatten ++ fmtQ e (htmlEscape td.data) ++ els.reverse.flatMap closeTag ∧
      backgrounds els = [v] ∧ HexColour v b.rgba32.r.toNat b.rgba32.g.toNat b.rgba32.b.toNat ∧ v.length = 3 * k + 4 := by
  obtain ⟨els, ops, h1, h2, -, h3⟩ := C125_written e td m h hf b hb
  have hr := hd _ List.mem_cons_self
  have hg := hd _ (List.mem_cons_of_mem _ List.mem_cons_self)
  have hbl := hd _ (List.mem_cons_of_mem _ (List.mem_cons_of_mem _ List.mem_cons_self))
  obtain ⟨R, G, B, h4, h5⟩ := h3 (fun hz => by
    rw [hz.1] at hr
    have := Nat.one_le_pow k 16 (by decide)
    have h0 : (0 : UInt32).toNat = 0 := rfl
    omega)
  obtain ⟨r1, -, r2⟩ := h5 _ List.mem_cons_self
  obtain ⟨g1, -, g2⟩ := h5 _ (List.mem_cons_of_mem _ List.mem_cons_self)
  obtain ⟨b1, -, b2⟩ := h5 _ (List.mem_cons_of_mem _ (List.mem_cons_of_mem _ List.mem_cons_self))
  have r2 := r2 k hk hr.1 hr.2
  have g2 := g2 k hk hg.1 hg.2
  have b2 := b2 k hk hbl.1 hbl.2
  dsimp only at r1 g1 b1 r2 g2 b2
  refine ⟨els, ops, _, h1, h2, h4, ⟨R, G, B, rfl, by omega, by omega, by omega, r1, g1, b1⟩, ?_⟩
  simp only [List.length_cons, List.length_append, r2, g2, b2]
  omega

/-- white text on grey: `#808080808080` -/
example (e : TextEnv) : ∃ m, writeTextMarkup e ⟨some (.gray 255), some (.gray 128), 18, 0, 0, false, false, false, false, lit "Sans", lit "a"⟩ = some m ∧
    PlainFont (lit "Sans") ∧
    ∀ n ∈ [(Color.gray 128).rgba32.r.toNat, (Color.gray 128).rgba32.g.toNat, (Color.gray 128).rgba32.b.toNat], 16 ^ 3 ≤ n ∧ n < 16 ^ (3 + 1) :=
  ⟨_, rfl, by unfold PlainFont; decide, by decide +kernel⟩

/-- a channel of 8 bits as one of 16 bits: four digits from 16 on, at most two for 0 -/
theorem widen_digits (n : UInt8) : (16 ≤ n.toNat → 16 ^ 3 ≤ (widen32 n).toNat ∧ (widen32 n).toNat < 16 ^ 4) ∧ (n.toNat = 0 → (widen32 n).toNat < 256) := by
  have h : ∀ k : Fin 256, (16 ≤ k.val → 16 ^ 3 ≤ (widen32 (UInt8.ofNat k.val)).toNat ∧ (widen32 (UInt8.ofNat k.val)).toNat < 16 ^ 4) ∧
      (k.val = 0 → (widen32 (UInt8.ofNat k.val)).toNat < 256) := by decide +kernel
  have h' := h ⟨n.toNat, n.toNat_lt⟩
  dsimp only at h'
  rwa [UInt8.ofNat_toNat] at h'

/-- C125 is false of backgrounds such as red, of which some channels are 0 and one is not: no element written around the text has a colour as
background, since the digits cannot be divided into three numbers of equal length. -/
theorem C125_refuted (e : TextEnv) (td : TextDatum) (m : Bytes) (h : writeTextMarkup e td = some m) (hf : PlainFont td.font)
    (r : UInt8) (hr : 16 ≤ r.toNat) (hb : td.backColor = some (.rgba r 0 0 255)) :
    ∃ (els : List Element) (ops : List Bytes) (v : Bytes), List.Forall₂ OpenTag els ops ∧
      m = ops.flatten ++ fmtQ e (htmlEscape td.data) ++ els.reverse.flatMap closeTag ∧
      backgrounds els = [v] ∧ ∀ x y z, ¬ HexColour v x y z := by
  obtain ⟨els, ops, h1, h2, -, h3⟩ := C125_written e td m h hf _ hb
  have hw := (widen_digits r).1 hr
  have h0 := (widen_digits 0).2 rfl
  obtain ⟨R, G, B, h4, h5⟩ := h3 (fun hz => by
    have : widen32 r = 0 := hz.1
    rw [this] at hw
    revert hw
    decide)
  have r2 := (h5 _ List.mem_cons_self).2.2 3 (by decide) hw.1 hw.2
  have g2 := (h5 _ (List.mem_cons_of_mem _ List.mem_cons_self)).2.1 h0
  have b2 := (h5 _ (List.mem_cons_of_mem _ (List.mem_cons_of_mem _ List.mem_cons_self))).2.1 h0
  dsimp only at r2 g2 b2
  refine ⟨els, ops, _, h1, h2, h4, ?_⟩
  rintro x y z ⟨R', G', B', he, -, e1, e2, -⟩
  have := congrArg List.length he
  simp only [List.length_cons, List.length_append, r2, g2, b2] at this
  omega

/-- white text on red: `#FFFF0000` -/
example (e : TextEnv) : ∃ m, writeTextMarkup e ⟨some (.gray 255), some (.rgba 255 0 0 255), 18, 0, 0, false, false, false, false, lit "Sans", lit "a"⟩ = some m ∧
    PlainFont (lit "Sans") ∧ 16 ≤ (255 : UInt8).toNat :=
  ⟨_, rfl, by unfold PlainFont; decide, by decide⟩

example : hexNumber (fmtHex2 0x1234) = some 0x1234 ∧ (fmtHex2 0x1234).length = 4 := by decide

end Limage
