import Verif.Spec.Markup
import Verif.Proofs.TextTotal
/-! The markup of text: reading it and writing it. -/
namespace Limage
open Spec

/-! ### Numbers -/

theorem digitVal_hex (b : UInt8) : digitVal 16 b = hexNibble b := by
  unfold digitVal hexNibble
  dsimp only
  have := b.toNat_lt
  by_cases h1 : 48 ≤ b.toNat ∧ b.toNat ≤ 57
  · rw [if_pos h1, if_pos h1, if_pos (by omega)]
  rw [if_neg h1, if_neg h1]
  by_cases h2 : 97 ≤ b.toNat ∧ b.toNat ≤ 102
  · rw [if_pos h2, if_pos (show 97 ≤ b.toNat ∧ b.toNat ≤ 122 by omega), if_pos (by omega)]
  rw [if_neg h2]
  by_cases h3 : 65 ≤ b.toNat ∧ b.toNat ≤ 70
  · rw [if_pos h3, if_neg (show ¬(97 ≤ b.toNat ∧ b.toNat ≤ 122) by omega), if_pos (show 65 ≤ b.toNat ∧ b.toNat ≤ 90 by omega), if_pos (by omega)]
  rw [if_neg h3, if_neg]
  split
  · omega
  split <;> omega

theorem hexNibble_lt {b : UInt8} {n : Nat} (h : hexNibble b = some n) : n < 16 := by
  unfold hexNibble at h
  dsimp only at h
  split at h
  · cases h; omega
  split at h
  · cases h; omega
  split at h
  · cases h; omega
  · cases h

theorem digitVal_dec (b : UInt8) : digitVal 10 b = if 48 ≤ b.toNat ∧ b.toNat ≤ 57 then some (b.toNat - 48) else none := by
  unfold digitVal
  dsimp only
  by_cases h1 : 48 ≤ b.toNat ∧ b.toNat ≤ 57
  · rw [if_pos h1, if_pos (by omega), if_pos h1]
  rw [if_neg h1, if_neg h1, if_neg]
  split
  · omega
  split <;> omega

theorem foldl_digits_ge : ∀ (s : Bytes) (a : Nat), a ≤ s.foldl (fun n b => 10 * n + (b.toNat - 48)) a
  | [], _ => Nat.le_refl _
  | b :: s, a => Nat.le_trans (show a ≤ 10 * a + (b.toNat - 48) by omega) (foldl_digits_ge s _)

theorem foldlM_dec : ∀ (s : Bytes) (a : Nat), a < 2 ^ 32 →
    s.foldlM (fun a b => do let v ← digitVal 10 b; if a * 10 + v < 2 ^ 32 then some (a * 10 + v) else none) a =
      if (∀ b ∈ s, 48 ≤ b.toNat ∧ b.toNat ≤ 57) ∧ s.foldl (fun n b => 10 * n + (b.toNat - 48)) a < 2 ^ 32 then
        some (s.foldl (fun n b => 10 * n + (b.toNat - 48)) a) else none
  | [], a, ha => by
    rw [List.foldlM_nil, if_pos ⟨fun b hb => absurd hb List.not_mem_nil, ha⟩]
    rfl
  | b :: s, a, ha => by
    rw [List.foldlM_cons, digitVal_dec, List.foldl_cons]
    by_cases hb : 48 ≤ b.toNat ∧ b.toNat ≤ 57
    · rw [if_pos hb, Option.bind_eq_bind, Option.bind_some, Nat.mul_comm a 10]
      have hall : (∀ x ∈ b :: s, 48 ≤ x.toNat ∧ x.toNat ≤ 57) ↔ ∀ x ∈ s, 48 ≤ x.toNat ∧ x.toNat ≤ 57 := by
        simp [hb]
      simp only [hall]
      by_cases hc : 10 * a + (b.toNat - 48) < 2 ^ 32
      · rw [if_pos hc, Option.bind_some]
        exact foldlM_dec s _ hc
      · rw [if_neg hc, Option.bind_none, if_neg]
        rintro ⟨-, h⟩
        have := foldl_digits_ge s (10 * a + (b.toNat - 48))
        omega
    · rw [if_neg hb, if_neg]
      · rfl
      · rintro ⟨h, -⟩
        exact hb (h b (List.mem_cons_self ..))

theorem parseUint_dec (s : Bytes) : parseUint 10 s = (decimalU32 s).map UInt32.ofNat := by
  unfold parseUint decimalU32
  by_cases h : s = []
  · rw [if_pos h, if_neg (fun h' => h'.1 h)]; rfl
  · rw [if_neg h, foldlM_dec s 0 (by decide)]
    by_cases h2 : (∀ b ∈ s, 48 ≤ b.toNat ∧ b.toNat ≤ 57) ∧ digitsValue s < 2 ^ 32
    · have h2' := h2
      unfold digitsValue at h2'
      rw [if_pos h2', if_pos ⟨h, h2⟩]
      rfl
    · have h2' := h2
      unfold digitsValue at h2'
      rw [if_neg h2', if_neg fun h' => h2 h'.2]
      rfl

theorem decimalU32_lt {s : Bytes} {n : Nat} (h : decimalU32 s = some n) : n < 2 ^ 32 := by
  unfold decimalU32 at h
  split at h
  · rename_i hc; cases h; exact hc.2.2
  · cases h

theorem points_of {s : Bytes} {n : UInt32} (h : parseUint 10 s = some n) : (decimalU32 s).map (fun n => UInt32.ofNat (n / 1024)) = some (n >>> 10) := by
  rw [parseUint_dec] at h
  obtain ⟨k, hk, rfl⟩ := Option.map_eq_some_iff.1 h
  have := decimalU32_lt hk
  rw [hk, Option.map_some, Option.some.injEq, ← UInt32.toNat_inj, UInt32.toNat_ofNat', UInt32.toNat_shiftRight, UInt32.toNat_ofNat',
    Nat.mod_eq_of_lt this, Nat.mod_eq_of_lt (by omega)]
  simp [Nat.shiftRight_eq_div_pow]

/-! ### Colours -/

/-- a hexadecimal digit behind a number -/
def hexStep (a : Nat) (b : UInt8) : Option Nat := do
  let v ← digitVal 16 b
  if a * 16 + v < 2 ^ 32 then some (a * 16 + v) else none

theorem hexStep_eq (a : Nat) (b : UInt8) (ha : a * 16 + 15 < 2 ^ 32) : hexStep a b = (hexNibble b).map fun v => a * 16 + v := by
  unfold hexStep
  rw [digitVal_hex]
  cases h : hexNibble b with
  | none => rfl
  | some v =>
    have := hexNibble_lt h
    rw [Option.bind_eq_bind, Option.bind_some, if_pos (by omega), Option.map_some]

theorem parseUint_hex {s : Bytes} (h : s ≠ []) : parseUint 16 s = (s.foldlM hexStep 0).map UInt32.ofNat := by
  unfold parseUint
  rw [if_neg h]
  show (s.foldlM hexStep 0).bind _ = _
  cases s.foldlM hexStep 0 <;> rfl

theorem short_colour : ∀ a b c : Fin 16,
    let n : UInt32 := UInt32.ofNat ((a.val * 16 + b.val) * 16 + c.val)
    (((n >>> 4) &&& (240 : UInt32)) ||| (((n >>> 4) &&& (240 : UInt32)) >>> 4)).toUInt8 = UInt8.ofNat (17 * a.val) ∧
    ((n &&& (240 : UInt32)) ||| ((n &&& (240 : UInt32)) >>> 4)).toUInt8 = UInt8.ofNat (17 * b.val) ∧
    ((n &&& (15 : UInt32)) ||| ((n &&& (15 : UInt32)) <<< 4)).toUInt8 = UInt8.ofNat (17 * c.val) := by decide +kernel

theorem long_colour {n : Nat} (h : n < 2 ^ 24) :
    ((UInt32.ofNat n) >>> 16).toUInt8 = UInt8.ofNat (n / 65536) ∧
    (((UInt32.ofNat n) >>> 8) &&& 255).toUInt8 = UInt8.ofNat (n / 256 % 256) ∧
    ((UInt32.ofNat n) &&& 255).toUInt8 = UInt8.ofNat (n % 256) := by
  have hn : (UInt32.ofNat n).toNat = n := by rw [UInt32.toNat_ofNat', Nat.mod_eq_of_lt (by omega)]
  have h255 : ∀ x : Nat, x &&& 255 = x % 256 := fun x => Nat.and_two_pow_sub_one_eq_mod x 8
  refine ⟨?_, ?_, ?_⟩
  · rw [← UInt8.toNat_inj, UInt32.toNat_toUInt8, UInt32.toNat_shiftRight, hn, UInt8.toNat_ofNat']
    simp [Nat.shiftRight_eq_div_pow]
  · rw [← UInt8.toNat_inj, UInt32.toNat_toUInt8, UInt32.toNat_and, UInt32.toNat_shiftRight, hn, UInt8.toNat_ofNat']
    simp [Nat.shiftRight_eq_div_pow, h255]
  · rw [← UInt8.toNat_inj, UInt32.toNat_toUInt8, UInt32.toNat_and, hn, UInt8.toNat_ofNat']
    simp [h255]

theorem foreground_hash (ds : Bytes) (c : Option Color) : foreground (35 :: ds) c =
    if ds.length = 6 then do
      let n ← parseUint 16 ds
      return some (.rgba (n >>> 16).toUInt8 ((n >>> 8) &&& 255).toUInt8 (n &&& 255).toUInt8 255)
    else if ds.length = 3 then do
      let n ← parseUint 16 ds
      let r := (n >>> 4) &&& 240
      let g := n &&& 240
      let b := n &&& 15
      return some (.rgba (r ||| (r >>> 4)).toUInt8 (g ||| (g >>> 4)).toUInt8 (b ||| (b <<< 4)).toUInt8 255)
    else some c := rfl

theorem colour_short (a b c : UInt8) : colourValue [35, a, b, c] = some do
    return .rgba (UInt8.ofNat (17 * (← hexNibble a))) (UInt8.ofNat (17 * (← hexNibble b))) (UInt8.ofNat (17 * (← hexNibble c))) 255 := rfl

theorem colour_long (a b c d e f : UInt8) : colourValue [35, a, b, c, d, e, f] = some do
    return .rgba (UInt8.ofNat (16 * (← hexNibble a) + (← hexNibble b))) (UInt8.ofNat (16 * (← hexNibble c) + (← hexNibble d)))
      (UInt8.ofNat (16 * (← hexNibble e) + (← hexNibble f))) 255 := rfl

theorem foreground_spec (v : Bytes) (c : Option Color) : foreground v c =
    match colourValue v with
    | none => some c
    | some x => x.map some := by
  have hother : ∀ ds : Bytes, ds.length ≠ 6 → ds.length ≠ 3 → foreground (35 :: ds) c = some c := by
    intro ds h1 h2
    rw [foreground_hash, if_neg h1, if_neg h2]
  match v with
  | [] => rfl
  | x :: ds =>
  by_cases hx : x ≠ 35
  · have : colourValue (x :: ds) = none := by
      unfold colourValue
      split
      · rename_i h; injection h with h _; exact absurd h hx
      · rename_i h; injection h with h _; exact absurd h hx
      · rfl
    rw [this]
    unfold foreground
    split
    · rename_i h; injection h with h _; exact absurd h hx
    · rfl
  have hx : x = 35 := Classical.byContradiction hx
  subst hx
  match ds with
  | [] => exact hother _ (by simp) (by simp)
  | [_] => exact hother _ (by simp) (by simp)
  | [_, _] => exact hother _ (by simp) (by simp)
  | [x, y, z] =>
    rw [foreground_hash, colour_short, if_neg (by simp), if_pos (by simp)]
    dsimp only
    rw [parseUint_hex (by simp)]
    simp only [List.foldlM_cons, List.foldlM_nil, Option.bind_eq_bind]
    rw [hexStep_eq 0 x (by omega)]
    cases hx : hexNibble x with
    | none => rfl
    | some a =>
    have ha := hexNibble_lt hx
    rw [Option.map_some, Option.bind_some, hexStep_eq _ y (by omega)]
    cases hy : hexNibble y with
    | none => rfl
    | some b =>
    have hb := hexNibble_lt hy
    rw [Option.map_some, Option.bind_some, hexStep_eq _ z (by omega)]
    cases hz : hexNibble z with
    | none => rfl
    | some d =>
    have hd := hexNibble_lt hz
    obtain ⟨h1, h2, h3⟩ := short_colour ⟨a, ha⟩ ⟨b, hb⟩ ⟨d, hd⟩
    dsimp only at h1 h2 h3
    simp only [Option.map_some, Option.bind_some, Option.pure_def, Nat.zero_mul, Nat.zero_add]
    rw [h1, h2, h3]
  | [_, _, _, _] => exact hother _ (by simp) (by simp)
  | [_, _, _, _, _] => exact hother _ (by simp) (by simp)
  | [x1, x2, x3, x4, x5, x6] =>
    rw [foreground_hash, colour_long, if_pos (by simp)]
    dsimp only
    rw [parseUint_hex (by simp)]
    simp only [List.foldlM_cons, List.foldlM_nil, Option.bind_eq_bind]
    rw [hexStep_eq 0 x1 (by omega)]
    cases g1 : hexNibble x1 with
    | none => rfl
    | some a1 =>
    have h1 := hexNibble_lt g1
    rw [Option.map_some, Option.bind_some, hexStep_eq _ x2 (by omega)]
    cases g2 : hexNibble x2 with
    | none => rfl
    | some a2 =>
    have h2 := hexNibble_lt g2
    rw [Option.map_some, Option.bind_some, hexStep_eq _ x3 (by omega)]
    cases g3 : hexNibble x3 with
    | none => rfl
    | some a3 =>
    have h3 := hexNibble_lt g3
    rw [Option.map_some, Option.bind_some, hexStep_eq _ x4 (by omega)]
    cases g4 : hexNibble x4 with
    | none => rfl
    | some a4 =>
    have h4 := hexNibble_lt g4
    rw [Option.map_some, Option.bind_some, hexStep_eq _ x5 (by omega)]
    cases g5 : hexNibble x5 with
    | none => rfl
    | some a5 =>
    have h5 := hexNibble_lt g5
    rw [Option.map_some, Option.bind_some, hexStep_eq _ x6 (by omega)]
    cases g6 : hexNibble x6 with
    | none => rfl
    | some a6 =>
    have h6 := hexNibble_lt g6
    simp only [Option.map_some, Option.bind_some, Option.pure_def, Nat.zero_mul, Nat.zero_add]
    generalize hn : ((((a1 * 16 + a2) * 16 + a3) * 16 + a4) * 16 + a5) * 16 + a6 = n
    obtain ⟨e1, e2, e3⟩ := long_colour (n := n) (by omega)
    rw [e1, e2, e3, show n / 65536 = 16 * a1 + a2 by omega, show n / 256 % 256 = 16 * a3 + a4 by omega, show n % 256 = 16 * a5 + a6 by omega]
  | _ :: _ :: _ :: _ :: _ :: _ :: _ :: _ =>
    rw [hother _ (by simp) (by simp)]
    rfl

/-! ### Styles -/

theorem lastOf_cons {α : Type} (f : Bytes × Bytes → Option α) (a : Bytes × Bytes) (as : List (Bytes × Bytes)) :
    lastOf f (a :: as) = (lastOf f as).or (f a) := by
  unfold lastOf
  rw [List.reverse_cons, List.findSome?_append]
  simp

/-- one attribute -/
structure AttrStyle (a : Bytes × Bytes) (d d' : TextDatum) : Prop where
  font : d'.font = (if a.1 = lit "font" then some a.2 else none).getD d.font
  fore : d'.foreColor = (if a.1 = lit "foreground" then (colourValue a.2).join else none).or d.foreColor
  size : d'.size = (unitsOf "size" a).getD d.size
  spacing : d'.letterSpacing = (unitsOf "letter_spacing" a).getD d.letterSpacing
  rise : d'.rise = (unitsOf "rise" a).getD d.rise
  rest : d'.bold = d.bold ∧ d'.italic = d.italic ∧ d'.underline = d.underline ∧ d'.strikethrough = d.strikethrough ∧
    d'.backColor = d.backColor ∧ d'.data = d.data

theorem unitsOf_ne {name : String} {a : Bytes × Bytes} (h : a.1 ≠ lit name) : unitsOf name a = none := if_neg h
theorem unitsOf_eq {name : String} {a : Bytes × Bytes} (h : a.1 = lit name) {n : UInt32} (hn : parseUint 10 a.2 = some n) :
    unitsOf name a = some (n >>> 10) := by
  unfold unitsOf
  rw [if_pos h, points_of hn]

theorem parseUint_none (s : Bytes) : parseUint 10 s = none ↔ decimalU32 s = none := by
  rw [parseUint_dec, Option.map_eq_none_iff]

theorem spanAttr_spec (d : TextDatum) (a : Bytes × Bytes) :
    (spanAttr d a = none ∧ BadAttr a) ∨ ∃ d', spanAttr d a = some d' ∧ ¬BadAttr a ∧ AttrStyle a d d' := by
  have n1 : lit "font" ≠ lit "foreground" := by decide
  have n2 : lit "font" ≠ lit "size" := by decide
  have n3 : lit "font" ≠ lit "letter_spacing" := by decide
  have n4 : lit "font" ≠ lit "rise" := by decide
  have n5 : lit "foreground" ≠ lit "size" := by decide
  have n6 : lit "foreground" ≠ lit "letter_spacing" := by decide
  have n7 : lit "foreground" ≠ lit "rise" := by decide
  have n8 : lit "size" ≠ lit "letter_spacing" := by decide
  have n9 : lit "size" ≠ lit "rise" := by decide
  have n10 : lit "letter_spacing" ≠ lit "rise" := by decide
  obtain ⟨n, v⟩ := a
  unfold spanAttr BadAttr
  dsimp only
  by_cases h1 : n = lit "font"
  · subst h1
    right
    rw [if_pos rfl]
    refine ⟨_, rfl, ?_, ?_⟩
    · rintro (h | ⟨h | h | h, -⟩)
      · exact n1 h.1
      · exact n2 h
      · exact n3 h
      · exact n4 h
    · refine ⟨by rw [if_pos rfl]; rfl, by rw [if_neg n1]; rfl, ?_, ?_, ?_, rfl, rfl, rfl, rfl, rfl, rfl⟩
      · rw [unitsOf_ne n2]; rfl
      · rw [unitsOf_ne n3]; rfl
      · rw [unitsOf_ne n4]; rfl
  rw [if_neg h1]
  by_cases h2 : n = lit "foreground"
  · subst h2
    rw [if_pos rfl, foreground_spec]
    have hno : ∀ x : TextDatum, x.font = d.font → x.size = d.size → x.letterSpacing = d.letterSpacing → x.rise = d.rise →
        (x.bold = d.bold ∧ x.italic = d.italic ∧ x.underline = d.underline ∧ x.strikethrough = d.strikethrough ∧
        x.backColor = d.backColor ∧ x.data = d.data) →
        x.foreColor = (colourValue v).join.or d.foreColor → AttrStyle (lit "foreground", v) d x := by
      intro x a1 a2 a3 a4 a5 a6
      refine ⟨by rw [if_neg (Ne.symm n1)]; exact a1, by rw [if_pos rfl]; exact a6, ?_, ?_, ?_, a5⟩
      · rw [unitsOf_ne n5]; exact a2
      · rw [unitsOf_ne n6]; exact a3
      · rw [unitsOf_ne n7]; exact a4
    cases hc : colourValue v with
    | none =>
      right
      refine ⟨_, rfl, ?_, hno _ rfl rfl rfl rfl ⟨rfl, rfl, rfl, rfl, rfl, rfl⟩ (by rw [hc]; rfl)⟩
      rintro (h | ⟨h | h | h, -⟩)
      · cases h.2
      · exact n5 h
      · exact n6 h
      · exact n7 h
    | some x =>
      cases x with
      | none => exact .inl ⟨rfl, .inl ⟨rfl, rfl⟩⟩
      | some x =>
        right
        refine ⟨_, rfl, ?_, hno _ rfl rfl rfl rfl ⟨rfl, rfl, rfl, rfl, rfl, rfl⟩ (by rw [hc]; rfl)⟩
        rintro (h | ⟨h | h | h, -⟩)
        · cases h.2
        · exact n5 h
        · exact n6 h
        · exact n7 h
  rw [if_neg h2]
  have nofont : (if (n, v).1 = lit "font" then some v else none).getD d.font = d.font := by
    rw [if_neg h1]; rfl
  have nofore : (if (n, v).1 = lit "foreground" then (colourValue v).join else none).or d.foreColor = d.foreColor := by
    rw [if_neg h2]; rfl
  by_cases h3 : n = lit "size"
  · subst h3
    rw [if_pos rfl]
    cases hp : parseUint 10 v with
    | none => exact .inl ⟨rfl, .inr ⟨.inl rfl, (parseUint_none v).1 hp⟩⟩
    | some k =>
      right
      refine ⟨_, rfl, ?_, nofont.symm, nofore.symm, ?_, ?_, ?_, rfl, rfl, rfl, rfl, rfl, rfl⟩
      · rintro (h | ⟨-, h⟩)
        · exact h2 h.1
        · rw [(parseUint_none v).2 h] at hp; cases hp
      · rw [unitsOf_eq rfl hp]; rfl
      · rw [unitsOf_ne n8]; rfl
      · rw [unitsOf_ne n9]; rfl
  rw [if_neg h3]
  by_cases h4 : n = lit "letter_spacing"
  · subst h4
    rw [if_pos rfl]
    cases hp : parseUint 10 v with
    | none => exact .inl ⟨rfl, .inr ⟨.inr (.inl rfl), (parseUint_none v).1 hp⟩⟩
    | some k =>
      right
      refine ⟨_, rfl, ?_, nofont.symm, nofore.symm, ?_, ?_, ?_, rfl, rfl, rfl, rfl, rfl, rfl⟩
      · rintro (h | ⟨-, h⟩)
        · exact h2 h.1
        · rw [(parseUint_none v).2 h] at hp; cases hp
      · rw [unitsOf_ne h3]; rfl
      · rw [unitsOf_eq rfl hp]; rfl
      · rw [unitsOf_ne n10]; rfl
  rw [if_neg h4]
  by_cases h5 : n = lit "rise"
  · subst h5
    rw [if_pos rfl]
    cases hp : parseUint 10 v with
    | none => exact .inl ⟨rfl, .inr ⟨.inr (.inr rfl), (parseUint_none v).1 hp⟩⟩
    | some k =>
      right
      refine ⟨_, rfl, ?_, nofont.symm, nofore.symm, ?_, ?_, ?_, rfl, rfl, rfl, rfl, rfl, rfl⟩
      · rintro (h | ⟨-, h⟩)
        · exact h2 h.1
        · rw [(parseUint_none v).2 h] at hp; cases hp
      · rw [unitsOf_ne h3]; rfl
      · rw [unitsOf_ne h4]; rfl
      · rw [unitsOf_eq rfl hp]; rfl
  rw [if_neg h5]
  right
  refine ⟨_, rfl, ?_, nofont.symm, nofore.symm, ?_, ?_, ?_, rfl, rfl, rfl, rfl, rfl, rfl⟩
  · rintro (h | ⟨h | h | h, -⟩)
    · exact h2 h.1
    · exact h3 h
    · exact h4 h
    · exact h5 h
  · rw [unitsOf_ne h3]; rfl
  · rw [unitsOf_ne h4]; rfl
  · rw [unitsOf_ne h5]; rfl

/-- the attributes of a span -/
structure SpanStyle (as : List (Bytes × Bytes)) (d d' : TextDatum) : Prop where
  font : d'.font = (lastOf (fun a => if a.1 = lit "font" then some a.2 else none) as).getD d.font
  fore : d'.foreColor = (lastOf (fun a => if a.1 = lit "foreground" then (colourValue a.2).join else none) as).or d.foreColor
  size : d'.size = (lastOf (unitsOf "size") as).getD d.size
  spacing : d'.letterSpacing = (lastOf (unitsOf "letter_spacing") as).getD d.letterSpacing
  rise : d'.rise = (lastOf (unitsOf "rise") as).getD d.rise
  rest : d'.bold = d.bold ∧ d'.italic = d.italic ∧ d'.underline = d.underline ∧ d'.strikethrough = d.strikethrough ∧
    d'.backColor = d.backColor ∧ d'.data = d.data

theorem getD_or {α : Type} (a b : Option α) (x : α) : (a.or b).getD x = a.getD (b.getD x) := by cases a <;> rfl
theorem or_or {α : Type} (a b c : Option α) : (a.or b).or c = a.or (b.or c) := by cases a <;> rfl

theorem span_spec : ∀ (as : List (Bytes × Bytes)) (d : TextDatum),
    (as.foldlM spanAttr d = none ∧ ∃ a ∈ as, BadAttr a) ∨ ∃ d', as.foldlM spanAttr d = some d' ∧ (¬∃ a ∈ as, BadAttr a) ∧ SpanStyle as d d'
  | [], d => .inr ⟨d, rfl, by simp, rfl, rfl, rfl, rfl, rfl, rfl, rfl, rfl, rfl, rfl, rfl⟩
  | a :: as, d => by
    rw [List.foldlM_cons]
    rcases spanAttr_spec d a with ⟨h1, h2⟩ | ⟨d1, h1, h2, h3⟩
    · rw [h1]
      exact .inl ⟨rfl, a, List.mem_cons_self .., h2⟩
    · rw [h1, Option.bind_eq_bind, Option.bind_some]
      rcases span_spec as d1 with ⟨g1, x, hx, g2⟩ | ⟨d2, g1, g2, g3⟩
      · exact .inl ⟨g1, x, List.mem_cons_of_mem _ hx, g2⟩
      · right
        refine ⟨d2, g1, ?_, ?_, ?_, ?_, ?_, ?_, ?_⟩
        · rintro ⟨x, hx, hb⟩
          rcases List.mem_cons.1 hx with rfl | hx
          · exact h2 hb
          · exact g2 ⟨x, hx, hb⟩
        · rw [lastOf_cons, getD_or, ← h3.font, g3.font]
        · rw [lastOf_cons, or_or, ← h3.fore, g3.fore]
        · rw [lastOf_cons, getD_or, ← h3.size, g3.size]
        · rw [lastOf_cons, getD_or, ← h3.spacing, g3.spacing]
        · rw [lastOf_cons, getD_or, ← h3.rise, g3.rise]
        · obtain ⟨a1, a2, a3, a4, a5, a6⟩ := g3.rest
          obtain ⟨b1, b2, b3, b4, b5, b6⟩ := h3.rest
          exact ⟨a1.trans b1, a2.trans b2, a3.trans b3, a4.trans b4, a5.trans b5, a6.trans b6⟩

/-- an element: an error for a span with a bad attribute, otherwise the style -/
theorem processText_spec (name : Bytes) (attrs : List (Bytes × Bytes)) (d : TextDatum) :
    (processText name attrs d = none ∧ name = lit "span" ∧ ∃ a ∈ attrs, BadAttr a) ∨
    ∃ d', processText name attrs d = some d' ∧ (¬(name = lit "span" ∧ ∃ a ∈ attrs, BadAttr a)) ∧ Styled name attrs d d' := by
  have n1 : lit "span" ≠ lit "b" := by decide
  have n2 : lit "span" ≠ lit "i" := by decide
  have n3 : lit "span" ≠ lit "s" := by decide
  have n4 : lit "span" ≠ lit "u" := by decide
  unfold processText
  by_cases h : name = lit "span"
  · subst h
    rw [if_pos rfl]
    rcases span_spec attrs d with ⟨g1, g2⟩ | ⟨d', g1, g2, g3⟩
    · exact .inl ⟨g1, rfl, g2⟩
    · obtain ⟨a1, a2, a3, a4, a5, a6⟩ := g3.rest
      refine .inr ⟨d', g1, fun h => g2 h.2, ?_⟩
      refine ⟨by rw [if_pos rfl]; exact g3.font, by rw [if_pos rfl]; exact g3.fore, by rw [if_pos rfl]; exact g3.size,
        by rw [if_pos rfl]; exact g3.spacing, by rw [if_pos rfl]; exact g3.rise, ?_, ?_, ?_, ?_, a5, a6⟩
      · rw [decide_eq_false n1, Bool.or_false]; exact a1
      · rw [decide_eq_false n2, Bool.or_false]; exact a2
      · rw [decide_eq_false n4, Bool.or_false]; exact a3
      · rw [decide_eq_false n3, Bool.or_false]; exact a4
  · rw [if_neg h]
    right
    have m1 : lit "b" ≠ lit "i" := by decide
    have m2 : lit "b" ≠ lit "s" := by decide
    have m3 : lit "b" ≠ lit "u" := by decide
    have m4 : lit "i" ≠ lit "s" := by decide
    have m5 : lit "i" ≠ lit "u" := by decide
    have m6 : lit "s" ≠ lit "u" := by decide
    by_cases h1 : name = lit "b"
    · subst h1
      rw [if_pos rfl]
      refine ⟨_, rfl, fun h' => h h'.1, ?_⟩
      exact ⟨by rw [if_neg h], by rw [if_neg h], by rw [if_neg h], by rw [if_neg h], by rw [if_neg h], by simp, by simp [m1], by simp [m3], by simp [m2], rfl, rfl⟩
    rw [if_neg h1]
    by_cases h2 : name = lit "i"
    · subst h2
      rw [if_pos rfl]
      refine ⟨_, rfl, fun h' => h h'.1, ?_⟩
      exact ⟨by rw [if_neg h], by rw [if_neg h], by rw [if_neg h], by rw [if_neg h], by rw [if_neg h], by simp [h1], by simp, by simp [m5], by simp [m4], rfl, rfl⟩
    rw [if_neg h2]
    by_cases h3 : name = lit "s"
    · subst h3
      rw [if_pos rfl]
      refine ⟨_, rfl, fun h' => h h'.1, ?_⟩
      exact ⟨by rw [if_neg h], by rw [if_neg h], by rw [if_neg h], by rw [if_neg h], by rw [if_neg h], by simp [h1], by simp [h2], by simp [m6], by simp, rfl, rfl⟩
    rw [if_neg h3]
    by_cases h4 : name = lit "u"
    · subst h4
      rw [if_pos rfl]
      refine ⟨_, rfl, fun h' => h h'.1, ?_⟩
      exact ⟨by rw [if_neg h], by rw [if_neg h], by rw [if_neg h], by rw [if_neg h], by rw [if_neg h], by simp [h1], by simp [h2], by simp, by simp [h3], rfl, rfl⟩
    rw [if_neg h4]
    refine ⟨_, rfl, fun h' => h h'.1, ?_⟩
    exact ⟨by rw [if_neg h], by rw [if_neg h], by rw [if_neg h], by rw [if_neg h], by rw [if_neg h], by simp [h1], by simp [h2], by simp [h4], by simp [h3], rfl, rfl⟩

/-- put runs in front -/
def prependRuns (rs : TextData) : Outcome (Option TextData) → Outcome (Option TextData)
  | .ok (some xs) => .ok (some (rs ++ xs))
  | x => x

theorem prependRuns_append (a b : TextData) (x : Outcome (Option TextData)) : prependRuns (a ++ b) x = prependRuns a (prependRuns b x) := by
  match x with
  | .ok (some xs) => simp [prependRuns]
  | .ok none => rfl
  | .panic => rfl
  | .hang => rfl

theorem prependRuns_nil (x : Outcome (Option TextData)) : prependRuns [] x = x := by
  match x with
  | .ok (some xs) => rfl
  | .ok none => rfl
  | .panic => rfl
  | .hang => rfl

mutual
theorem markup_node (eof : Bool) (n : Node) (d : TextDatum) (st : List TextDatum) (rest : List XmlTok) :
    (n.Bad ∧ markupRuns eof (n.tokens ++ rest) (d :: st) = .ok none) ∨
    ∃ rs, ¬n.Bad ∧ RunsOf n d rs ∧ markupRuns eof (n.tokens ++ rest) (d :: st) = prependRuns rs (markupRuns eof rest (d :: st)) := by
  match n with
  | .other => exact .inr ⟨[], id, .other, by rw [prependRuns_nil]; rfl⟩
  | .text s =>
    refine .inr ⟨_, id, .text, ?_⟩
    show markupRuns eof (.chars s :: rest) (d :: st) = _
    conv => lhs; unfold markupRuns
    dsimp only
    match markupRuns eof rest (d :: st) with
    | .ok (some xs) => rfl
    | .ok none => rfl
    | .panic => rfl
    | .hang => rfl
  | .elem name attrs ns =>
    have ht : Node.tokens (.elem name attrs ns) ++ rest = .start name attrs :: (tokensAll ns ++ (.stop :: rest)) := by
      simp [Node.tokens]
    rw [ht]
    rcases processText_spec name attrs d with ⟨h1, h2⟩ | ⟨d', h1, h2, h3⟩
    · refine .inl ⟨.inl h2, ?_⟩
      unfold markupRuns
      dsimp only
      rw [h1]
    · have hm : markupRuns eof (.start name attrs :: (tokensAll ns ++ (.stop :: rest))) (d :: st) =
          markupRuns eof (tokensAll ns ++ (.stop :: rest)) (d' :: d :: st) := by
        conv => lhs; unfold markupRuns
        dsimp only
        rw [h1]
      rw [hm]
      rcases markup_nodes eof ns d' (d :: st) (.stop :: rest) with ⟨g1, g2⟩ | ⟨rs, g1, g2, g3⟩
      · exact .inl ⟨.inr g1, g2⟩
      · refine .inr ⟨rs, fun h => h.elim h2 g1, .elem h2 h3 g2, ?_⟩
        rw [g3]
        rfl
termination_by structural n

theorem markup_nodes (eof : Bool) (ns : List Node) (d : TextDatum) (st : List TextDatum) (rest : List XmlTok) :
    (AnyBad ns ∧ markupRuns eof (tokensAll ns ++ rest) (d :: st) = .ok none) ∨
    ∃ rs, ¬AnyBad ns ∧ RunsIn ns d rs ∧ markupRuns eof (tokensAll ns ++ rest) (d :: st) = prependRuns rs (markupRuns eof rest (d :: st)) := by
  match ns with
  | [] => exact .inr ⟨[], id, .nil, by rw [prependRuns_nil]; rfl⟩
  | n :: ns =>
    have ht : tokensAll (n :: ns) ++ rest = n.tokens ++ (tokensAll ns ++ rest) := by simp [tokensAll]
    rw [ht]
    rcases markup_node eof n d st (tokensAll ns ++ rest) with ⟨g1, g2⟩ | ⟨rs, g1, g2, g3⟩
    · exact .inl ⟨.inl g1, g2⟩
    · rw [g3]
      rcases markup_nodes eof ns d st rest with ⟨k1, k2⟩ | ⟨rs', k1, k2, k3⟩
      · exact .inl ⟨.inr k1, by rw [k2]; rfl⟩
      · exact .inr ⟨rs ++ rs', fun h => h.elim g1 k1, .cons g2 k2, by rw [k3, prependRuns_append]⟩
termination_by structural ns
end

theorem styled_unique {name : Bytes} {attrs : List (Bytes × Bytes)} {d a b : TextDatum} (h : Styled name attrs d a) (h' : Styled name attrs d b) :
    a = b := by
  obtain ⟨a1, a2, a3, a4, a5, a6, a7, a8, a9, a10, a11⟩ := h
  obtain ⟨b1, b2, b3, b4, b5, b6, b7, b8, b9, b10, b11⟩ := h'
  obtain ⟨x1, x2, x3, x4, x5, x6, x7, x8, x9, x10, x11⟩ := a
  obtain ⟨y1, y2, y3, y4, y5, y6, y7, y8, y9, y10, y11⟩ := b
  simp_all

mutual
theorem runsOf_unique {n : Node} {d : TextDatum} {a b : TextData} (h : RunsOf n d a) (h' : RunsOf n d b) : a = b := by
  match n, h, h' with
  | .other, .other, .other => rfl
  | .text _, .text, .text => rfl
  | .elem _ _ ns, .elem _ s r, .elem _ s' r' =>
    cases styled_unique s s'
    exact runsIn_unique r r'
termination_by structural n
theorem runsIn_unique {ns : List Node} {d : TextDatum} {a b : TextData} (h : RunsIn ns d a) (h' : RunsIn ns d b) : a = b := by
  match ns, h, h' with
  | [], .nil, .nil => rfl
  | n :: ns, .cons r s, .cons r' s' => rw [runsOf_unique r r', runsIn_unique s s']
termination_by structural ns
end

/-! ### Nesting -/

/-- a byte below 0x80 of a character is the character -/
theorem encNat_ascii {v : Nat} {b : UInt8} (hb : b < 0x80) (h : b ∈ encNat v) : v = b.toNat := by
  have hb : b.toNat < 128 := hb
  have t : ∀ n, n < 256 → b = UInt8.ofNat n → b.toNat = n := by
    intro n hn h
    rw [h, UInt8.toNat_ofNat', Nat.mod_eq_of_lt hn]
  unfold encNat at h
  split at h
  · rw [List.mem_singleton] at h; exact (t _ (by omega) h).symm
  split at h
  · simp only [List.mem_cons, List.not_mem_nil, or_false] at h
    rcases h with h | h <;> have := t _ (by omega) h <;> omega
  split at h
  · simp only [List.mem_cons, List.not_mem_nil, or_false] at h
    rcases h with h | h | h <;> have := t _ (by omega) h <;> omega
  · simp only [List.mem_cons, List.not_mem_nil, or_false] at h
    rcases h with h | h | h | h <;> have := t _ (by omega) h <;> omega

/-- the bytes that matter for nesting -/
def Angle (x : UInt8) : Prop := x = 60 ∨ x = 62

theorem hexDigit_angle {x : UInt8} (hx : Angle x) (n : Nat) : x ≠ hexDigit 97 (n % 16) ∧ x ≠ hexDigit 65 (n % 16) := by
  have h : ∀ n : Fin 16, (hexDigit 97 n.val ≠ 60 ∧ hexDigit 97 n.val ≠ 62) ∧ hexDigit 65 n.val ≠ 60 ∧ hexDigit 65 n.val ≠ 62 := by decide
  have := h ⟨n % 16, Nat.mod_lt _ (by decide)⟩
  rcases hx with rfl | rfl
  · exact ⟨fun h => this.1.1 h.symm, fun h => this.2.1 h.symm⟩
  · exact ⟨fun h => this.1.2 h.symm, fun h => this.2.2 h.symm⟩

theorem hexFixed_angle {x : UInt8} (hx : Angle x) : ∀ k n : Nat, x ∉ hexFixed 97 k n ∧ x ∉ hexFixed 65 k n
  | 0, _ => ⟨List.not_mem_nil, List.not_mem_nil⟩
  | k + 1, n => by
    have ih := hexFixed_angle hx k (n / 16)
    have h := hexDigit_angle hx n
    unfold hexFixed
    simp only [List.mem_append, List.mem_singleton, not_or]
    exact ⟨⟨ih.1, h.1⟩, ih.2, h.2⟩

theorem hexDigits_angle {x : UInt8} (hx : Angle x) : ∀ f n : Nat, x ∉ hexDigits 65 f n
  | 0, _ => List.not_mem_nil
  | f + 1, n => by
    have h := hexDigit_angle hx n
    unfold hexDigits
    rw [List.mem_append, List.mem_singleton, not_or]
    refine ⟨?_, h.2⟩
    split
    · exact List.not_mem_nil
    · exact hexDigits_angle hx f _

theorem decDigits_bytes : ∀ f n : Nat, ∀ b ∈ decDigits f n, 48 ≤ b.toNat ∧ b.toNat ≤ 57
  | 0, _, b, h => absurd h List.not_mem_nil
  | f + 1, n, b, h => by
    unfold decDigits at h
    rw [List.mem_append, List.mem_singleton] at h
    rcases h with h | rfl
    · split at h
      · exact absurd h List.not_mem_nil
      · exact decDigits_bytes f _ b h
    · rw [UInt8.toNat_ofNat', Nat.mod_eq_of_lt (by omega)]
      omega

/-- quoting keeps the angles of a text -/
theorem quoteRune_count (e : TextEnv) {x : UInt8} (hx : Angle x) (c : Nat) : (quoteRune e c (encNat c)).count x = (encNat c).count x := by
  have h92 : x ≠ 92 := by rcases hx with rfl | rfl <;> decide
  have hlow : x < 0x80 := by rcases hx with rfl | rfl <;> decide
  unfold quoteRune
  by_cases h1 : c = 34 ∨ c = 92
  · rw [if_pos h1, List.count_cons_of_ne (Ne.symm h92)]
  rw [if_neg h1]
  by_cases h2 : e.isPrint c = true
  · rw [if_pos h2]
  rw [if_neg h2]
  have hc : c ≠ x.toNat := by
    rintro rfl
    apply h2
    rcases hx with rfl | rfl <;> rfl
  have h0 : (encNat c).count x = 0 := List.count_eq_zero.2 fun h => hc (encNat_ascii hlow h)
  rw [h0]
  have hl : ∀ s : String, (60 : UInt8) ∉ lit s → (62 : UInt8) ∉ lit s → x ∉ lit s := by
    intro s a b
    rcases hx with rfl | rfl
    · exact a
    · exact b
  have ht : ∀ k, x ∉ hexFixed 97 k c := fun k => (hexFixed_angle hx k c).1
  apply List.count_eq_zero.2
  split
  · exact hl _ (by decide) (by decide)
  split
  · exact hl _ (by decide) (by decide)
  split
  · exact hl _ (by decide) (by decide)
  split
  · exact hl _ (by decide) (by decide)
  split
  · exact hl _ (by decide) (by decide)
  split
  · exact hl _ (by decide) (by decide)
  split
  · exact hl _ (by decide) (by decide)
  split
  · rw [List.mem_append, not_or]; exact ⟨hl _ (by decide) (by decide), ht _⟩
  split
  · rw [List.mem_append, not_or]; exact ⟨hl _ (by decide) (by decide), ht _⟩
  · rw [List.mem_append, not_or]; exact ⟨hl _ (by decide) (by decide), ht _⟩

theorem quoteBody_count (e : TextEnv) {x : UInt8} (hx : Angle x) : ∀ (f : Nat) (s : Bytes), s.length ≤ f → (quoteBody e f s).count x = s.count x
  | 0, s, h => by
    have : s = [] := List.eq_nil_of_length_eq_zero (by omega)
    subst this
    rfl
  | f + 1, [], _ => rfl
  | f + 1, b :: s, h => by
    have hl : s.length ≤ f := by simpa using h
    unfold quoteBody
    cases hd : decodeRune (b :: s) with
    | none =>
      dsimp only
      have hb : b ≠ x := by
        rintro rfl
        rcases hx with rfl | rfl <;> cases hd
      have h1 : x ∉ lit "\\x" := by rcases hx with rfl | rfl <;> decide
      rw [List.count_append, List.count_append, List.count_eq_zero.2 h1, List.count_eq_zero.2 (hexFixed_angle hx 2 _).1,
        quoteBody_count e hx f s hl, List.count_cons_of_ne hb]
      simp
    | some r =>
      obtain ⟨w, c⟩ := r
      dsimp only
      obtain ⟨-, h2⟩ := decodeRune_inv _ _ _ hd
      have hne := List.length_pos_iff.2 (encNat_ne c)
      have hlen := congrArg List.length h2
      rw [List.length_append] at hlen
      have htake : (b :: s).take w = encNat c := by
        have h3 : (b :: s).take w ++ (b :: s).drop w = encNat c ++ (b :: s).drop w := by rw [List.take_append_drop]; exact h2
        exact List.append_cancel_right h3
      rw [List.count_append, htake, quoteRune_count e hx, quoteBody_count e hx f _ (by simp only [List.length_cons] at hlen h ⊢; omega)]
      conv => rhs; rw [h2, List.count_append]

theorem fmtQ_count (e : TextEnv) {x : UInt8} (hx : Angle x) (s : Bytes) : (fmtQ e s).count x = s.count x := by
  have h : x ≠ 34 := by rcases hx with rfl | rfl <;> decide
  unfold fmtQ
  rw [List.count_append, List.count_append, quoteBody_count e hx _ _ (Nat.le_refl _), List.count_eq_zero.2 (by simpa using h)]
  omega

theorem htmlEscape_angle {x : UInt8} (hx : Angle x) (s : Bytes) : x ∉ htmlEscape s := by
  unfold htmlEscape
  rw [List.mem_flatMap]
  rintro ⟨b, -, h⟩
  split at h
  · revert h; rcases hx with rfl | rfl <;> decide
  split at h
  · revert h; rcases hx with rfl | rfl <;> decide
  split at h
  · revert h; rcases hx with rfl | rfl <;> decide
  split at h
  · revert h; rcases hx with rfl | rfl <;> decide
  split at h
  · revert h; rcases hx with rfl | rfl <;> decide
  · rename_i h60 h62 _
    rw [List.mem_singleton] at h
    rcases hx with rfl | rfl
    · exact h60 h.symm
    · exact h62 h.symm

/-- a tag of an element around markup: what is written in front, and what behind -/
def TagPair (x : Bytes × Bytes) : Prop :=
  ∃ name attrs, MarkupName name ∧ Attributes attrs ∧ x.1 = [60] ++ name ++ attrs ++ [62] ∧ x.2 = [60, 47] ++ name ++ [62]

theorem nested_around {body : Bytes} (h : Nested body) : ∀ tags : List (Bytes × Bytes), (∀ t ∈ tags, TagPair t) →
    Nested (tags.flatMap (·.1) ++ body ++ tags.reverse.flatMap (·.2))
  | [], _ => by simpa using h
  | t :: ts, ht => by
    have ih := nested_around h ts fun x hx => ht x (List.mem_cons_of_mem _ hx)
    obtain ⟨name, attrs, h1, h2, h3, h4⟩ := ht t (List.mem_cons_self ..)
    have := Nested.elem h1 h2 ih
    rw [List.flatMap_cons, List.reverse_cons, List.flatMap_append, List.flatMap_singleton, h3, h4]
    simpa [List.append_assoc] using this

theorem markupName_lit (s : String) (h : ((lit s).all fun b => (97 ≤ b && b ≤ 122) || b == 95) = true ∧ lit s ≠ []) : MarkupName (lit s) := by
  refine ⟨h.2, fun b hb => ?_⟩
  have := List.all_eq_true.1 h.1 b hb
  simp only [Bool.or_eq_true, Bool.and_eq_true, decide_eq_true_eq, beq_iff_eq] at this
  rcases this with h | h
  · exact .inl h
  · right; rw [h]; rfl

theorem escaped_attr (attr : String) (hn : MarkupName (lit attr)) {v : Bytes} (hv : 60 ∉ v ∧ 34 ∉ v ∧ 92 ∉ v) :
    Attributes (32 :: lit attr ++ [61, 92, 34] ++ v ++ [92, 34]) := by
  have := Attributes.cons (Attribute.escaped hn hv.1 hv.2.1 hv.2.2) .nil
  rwa [List.append_nil] at this

theorem hexDigit_upper (n : Nat) : hexDigit 65 (n % 16) ≠ 60 ∧ hexDigit 65 (n % 16) ≠ 34 ∧ hexDigit 65 (n % 16) ≠ 92 := by
  have h : ∀ n : Fin 16, hexDigit 65 n.val ≠ 60 ∧ hexDigit 65 n.val ≠ 34 ∧ hexDigit 65 n.val ≠ 92 := by decide
  exact h ⟨n % 16, Nat.mod_lt _ (by decide)⟩

/-- a value that can stand between escaped quotes -/
def PlainValue (v : Bytes) : Prop := 60 ∉ v ∧ 34 ∉ v ∧ 92 ∉ v

theorem PlainValue.append {a b : Bytes} (h : PlainValue a) (h' : PlainValue b) : PlainValue (a ++ b) := by
  unfold PlainValue at *
  simp only [List.mem_append, not_or]
  exact ⟨⟨h.1, h'.1⟩, ⟨h.2.1, h'.2.1⟩, h.2.2, h'.2.2⟩

theorem plainValue_hexFixed : ∀ k n : Nat, PlainValue (hexFixed 65 k n)
  | 0, _ => ⟨List.not_mem_nil, List.not_mem_nil, List.not_mem_nil⟩
  | k + 1, n => by
    have h := hexDigit_upper n
    exact (plainValue_hexFixed k _).append ⟨by simpa using Ne.symm h.1, by simpa using Ne.symm h.2.1, by simpa using Ne.symm h.2.2⟩

theorem plainValue_hexDigits : ∀ f n : Nat, PlainValue (hexDigits 65 f n)
  | 0, _ => ⟨List.not_mem_nil, List.not_mem_nil, List.not_mem_nil⟩
  | f + 1, n => by
    have h := hexDigit_upper n
    unfold hexDigits
    refine PlainValue.append ?_ ⟨by simpa using Ne.symm h.1, by simpa using Ne.symm h.2.1, by simpa using Ne.symm h.2.2⟩
    split
    · exact ⟨List.not_mem_nil, List.not_mem_nil, List.not_mem_nil⟩
    · exact plainValue_hexDigits f _

theorem plainValue_hex2 (n : UInt32) : PlainValue (fmtHex2 n) := by
  unfold fmtHex2
  split
  · exact plainValue_hexFixed _ _
  · exact plainValue_hexDigits _ _

theorem plainValue_dec (n : UInt32) : PlainValue (fmtDec n) := by
  refine ⟨?_, ?_, ?_⟩ <;> intro h <;> have := decDigits_bytes _ _ _ h <;> revert this <;> decide

theorem colorSpan_pair (attr : String) (hn : MarkupName (lit attr)) (r g b : UInt32) : TagPair (colorSpan attr r g b, lit "</span>") := by
  refine ⟨lit "span", 32 :: lit attr ++ [61, 92, 34] ++ (35 :: (fmtHex2 r ++ fmtHex2 g ++ fmtHex2 b)) ++ [92, 34], markupName_lit _ (by decide), ?_, ?_, rfl⟩
  · refine escaped_attr attr hn ?_
    have := ((plainValue_hex2 r).append (plainValue_hex2 g)).append (plainValue_hex2 b)
    have h35 : PlainValue [35] := by unfold PlainValue; decide
    exact h35.append this
  · show colorSpan attr r g b = _
    unfold colorSpan
    rw [show lit "<span " = [60] ++ lit "span" ++ [32] from rfl, show lit "=\\\"#" = [61, 92, 34] ++ [35] from rfl, show lit "\\\">" = [92, 34] ++ [62] from rfl]
    simp only [List.append_assoc, List.cons_append, List.nil_append]

theorem numSpan_pair (attr : String) (hn : MarkupName (lit attr)) (n : UInt32) : TagPair (numSpan attr n, lit "</span>") := by
  refine ⟨lit "span", 32 :: lit attr ++ [61, 92, 34] ++ fmtDec n ++ [92, 34], markupName_lit _ (by decide), escaped_attr attr hn (plainValue_dec n), ?_, rfl⟩
  show numSpan attr n = _
  unfold numSpan
  rw [show lit "<span " = [60] ++ lit "span" ++ [32] from rfl, show lit "=\\\"" = [61, 92, 34] from rfl, show lit "\\\">" = [92, 34] ++ [62] from rfl]
  simp only [List.append_assoc, List.cons_append, List.nil_append]

theorem fontSpan_pair (e : TextEnv) (font : Bytes) (hf : 60 ∉ font) : TagPair (lit "<span font=" ++ fmtQ e font ++ lit ">", lit "</span>") := by
  obtain ⟨w, s', hw, hq, -⟩ := fmtQ_spec e font
  have hp : (Item.quoted w s').print = 34 :: w ++ [34] := by simp [Item.print]
  have h60 : 60 ∉ w := by
    have := fmtQ_count e (x := 60) (.inl rfl) font
    rw [List.count_eq_zero.2 hf, List.count_eq_zero, hw, hp] at this
    intro h
    exact this (by simp [h])
  refine ⟨lit "span", 32 :: lit "font" ++ [61, 34] ++ w ++ [34], markupName_lit _ (by decide), ?_, ?_, rfl⟩
  · have := Attributes.cons (Attribute.quoted (markupName_lit "font" (by decide)) hq h60) .nil
    rwa [List.append_nil] at this
  · show lit "<span font=" ++ fmtQ e font ++ lit ">" = _
    rw [hw, hp, show lit "<span font=" = [60] ++ lit "span" ++ (32 :: lit "font") ++ [61] from rfl, show lit ">" = [62] from rfl]
    simp only [List.append_assoc, List.cons_append, List.nil_append]

theorem plainTag_pair (name : String) (hn : MarkupName (lit name)) {a b : Bytes} (ha : a = [60] ++ lit name ++ [] ++ [62]) (hb : b = [60, 47] ++ lit name ++ [62]) :
    TagPair (a, b) := ⟨lit name, [], hn, .nil, ha, hb⟩

theorem forall_mem_if {α : Type} {p : Prop} [Decidable p] {x : α} {Q : α → Prop} (h : p → Q x) : ∀ y ∈ (if p then [x] else []), Q y := by
  intro y hy
  split at hy
  · rename_i hp; rw [List.mem_singleton] at hy; rw [hy]; exact h hp
  · exact absurd hy List.not_mem_nil

theorem markupTags_pairs {e : TextEnv} {td : TextDatum} {tags : List (Bytes × Bytes)} (h : markupTags e td = some tags) (hf : 60 ∉ td.font) :
    ∀ t ∈ tags, TagPair t := by
  unfold markupTags at h
  obtain ⟨f, -, h⟩ := Option.bind_eq_some_iff.1 h
  obtain ⟨b, -, h⟩ := Option.bind_eq_some_iff.1 h
  cases h
  simp only [List.forall_mem_append]
  refine ⟨⟨⟨⟨⟨⟨⟨⟨⟨?_, ?_⟩, ?_⟩, ?_⟩, ?_⟩, ?_⟩, ?_⟩, ?_⟩, ?_⟩, ?_⟩ <;> apply forall_mem_if <;> intro _
  · exact colorSpan_pair _ (markupName_lit _ (by decide)) _ _ _
  · exact colorSpan_pair _ (markupName_lit _ (by decide)) _ _ _
  · exact fontSpan_pair e _ hf
  · exact plainTag_pair "b" (markupName_lit _ (by decide)) rfl rfl
  · exact plainTag_pair "i" (markupName_lit _ (by decide)) rfl rfl
  · exact plainTag_pair "u" (markupName_lit _ (by decide)) rfl rfl
  · exact plainTag_pair "s" (markupName_lit _ (by decide)) rfl rfl
  · exact numSpan_pair _ (markupName_lit _ (by decide)) _
  · exact numSpan_pair _ (markupName_lit _ (by decide)) _
  · exact numSpan_pair _ (markupName_lit _ (by decide)) _

theorem runText_nested (e : TextEnv) (s : Bytes) : Nested (fmtQ e (htmlEscape s)) := by
  refine .text ?_ ?_
  · rw [← List.count_eq_zero, fmtQ_count e (.inl rfl), List.count_eq_zero]; exact htmlEscape_angle (.inl rfl) s
  · rw [← List.count_eq_zero, fmtQ_count e (.inr rfl), List.count_eq_zero]; exact htmlEscape_angle (.inr rfl) s

/-- in nested markup there are at least as many `>` as `<` -/
theorem nested_count {s : Bytes} (h : Nested s) : s.count 60 ≤ s.count 62 := by
  have hname : ∀ n : Bytes, MarkupName n → n.count 60 = 0 := by
    intro n hn
    rw [List.count_eq_zero]
    intro h
    have := hn.2 _ h
    revert this
    decide
  have hattr : ∀ a : Bytes, Attribute a → a.count 60 = 0 := by
    intro a ha
    cases ha with
    | quoted hn _ h => simp [hname _ hn, List.count_eq_zero.2 h]
    | escaped hn h _ _ => simp [hname _ hn, List.count_eq_zero.2 h]
  have hattrs : ∀ a : Bytes, Attributes a → a.count 60 = 0 := by
    intro a ha
    induction ha with
    | nil => rfl
    | cons h _ ih => rw [List.count_append, hattr _ h, ih]
  induction h with
  | text h _ => rw [List.count_eq_zero.2 h]; omega
  | append _ _ ih1 ih2 => rw [List.count_append, List.count_append]; omega
  | elem h1 h2 _ ih =>
    simp only [List.count_append, hname _ h1, hattrs _ h2]
    have : ([60] : Bytes).count 60 = 1 ∧ ([62] : Bytes).count 60 = 0 ∧ ([62] : Bytes).count 62 = 1 ∧ ([60, 47] : Bytes).count 60 = 1 := by decide
    omega

/-- how many more `<` than `>` -/
def angles (s : Bytes) : Int := (s.count 60 : Int) - s.count 62

theorem angles_append (a b : Bytes) : angles (a ++ b) = angles a + angles b := by
  unfold angles
  rw [List.count_append, List.count_append]
  omega

theorem angles_flatMap_if {p : Prop} [Decidable p] (f : Bytes × Bytes → Bytes) (x : Bytes × Bytes) :
    angles ((if p then [x] else []).flatMap f) = if p then angles (f x) else 0 := by
  split
  · rw [List.flatMap_singleton]
  · rfl

theorem angles_zero {s : Bytes} (h : 60 ∉ s) (h' : 62 ∉ s) : angles s = 0 := by
  unfold angles
  rw [List.count_eq_zero.2 h, List.count_eq_zero.2 h']
  rfl

theorem fmtHex2_angle {x : UInt8} (hx : Angle x) (n : UInt32) : x ∉ fmtHex2 n := by
  unfold fmtHex2
  split
  · exact (hexFixed_angle hx _ _).2
  · exact hexDigits_angle hx _ _

theorem fmtDec_angle {x : UInt8} (hx : Angle x) (n : UInt32) : x ∉ fmtDec n := by
  intro h
  have := decDigits_bytes _ _ _ h
  revert this
  rcases hx with rfl | rfl <;> decide

theorem angles_hex2 (n : UInt32) : angles (fmtHex2 n) = 0 := angles_zero (fmtHex2_angle (.inl rfl) n) (fmtHex2_angle (.inr rfl) n)

theorem angles_dec (n : UInt32) : angles (fmtDec n) = 0 := angles_zero (fmtDec_angle (.inl rfl) n) (fmtDec_angle (.inr rfl) n)

theorem angles_fmtQ (e : TextEnv) (s : Bytes) : angles (fmtQ e s) = angles s := by
  unfold angles
  rw [fmtQ_count e (.inl rfl), fmtQ_count e (.inr rfl)]

theorem angles_colorSpan (attr : String) (ha : angles (lit attr) = 0) (r g b : UInt32) : angles (colorSpan attr r g b) = 0 := by
  unfold colorSpan
  simp only [angles_append, angles_hex2, ha]
  decide

theorem angles_numSpan (attr : String) (ha : angles (lit attr) = 0) (n : UInt32) : angles (numSpan attr n) = 0 := by
  unfold numSpan
  simp only [angles_append, angles_dec, ha]
  decide

theorem angles_reverse (f : Bytes × Bytes → Bytes) : ∀ l : List (Bytes × Bytes), angles (l.reverse.flatMap f) = angles (l.flatMap f)
  | [] => rfl
  | x :: l => by
    rw [List.reverse_cons, List.flatMap_append, List.flatMap_singleton, List.flatMap_cons, angles_append, angles_append, angles_reverse f l]
    omega

/-- the markup of a run has as many more `<` than `>` as the name of its font -/
theorem tags_angles {e : TextEnv} {td : TextDatum} {tags : List (Bytes × Bytes)} (h : markupTags e td = some tags) (hf : td.font ≠ lit "Sans") :
    angles (tags.flatMap (·.1)) + angles (tags.flatMap (·.2)) = angles td.font := by
  unfold markupTags at h
  obtain ⟨f, -, h⟩ := Option.bind_eq_some_iff.1 h
  obtain ⟨b, -, h⟩ := Option.bind_eq_some_iff.1 h
  cases h
  have z : ∀ (p : Prop) [Decidable p], (if p then (0 : Int) else 0) = 0 := by intro p _; split <;> rfl
  have c1 : ∀ r g b, angles (colorSpan "foreground" r g b) = 0 := angles_colorSpan _ (by decide)
  have c2 : ∀ r g b, angles (colorSpan "background" r g b) = 0 := angles_colorSpan _ (by decide)
  have n1 : ∀ n, angles (numSpan "letter_spacing" n) = 0 := angles_numSpan _ (by decide)
  have n2 : ∀ n, angles (numSpan "size" n) = 0 := angles_numSpan _ (by decide)
  have n3 : ∀ n, angles (numSpan "rise" n) = 0 := angles_numSpan _ (by decide)
  have l1 : angles (lit "</span>") = 0 := by decide
  have l2 : angles (lit "<b>") = 0 ∧ angles (lit "</b>") = 0 ∧ angles (lit "<i>") = 0 ∧ angles (lit "</i>") = 0 := by decide
  have l3 : angles (lit "<u>") = 0 ∧ angles (lit "</u>") = 0 ∧ angles (lit "<s>") = 0 ∧ angles (lit "</s>") = 0 := by decide
  have l4 : angles (lit "<span font=") = 1 ∧ angles (lit ">") = -1 := by decide
  simp only [List.flatMap_append, angles_append, angles_flatMap_if, c1, c2, n1, n2, n3, l1, l2.1, l2.2.1, l2.2.2.1, l2.2.2.2, l3.1, l3.2.1, l3.2.2.1,
    l3.2.2.2, z, angles_fmtQ, l4.1, l4.2, if_pos hf, List.flatMap_singleton]
  omega

end Limage
