import Verif.Proofs.TextParse
/-!
# The description written for a text layer
-/
namespace Limage
open Spec

/-! ### Quoting -/

theorem decodeRune_enc (v : Nat) (hv : v.isValidChar) (s : Bytes) : decodeRune (encNat v ++ s) = some ((encNat v).length, v) := by
  unfold encNat
  have t : ∀ n, n < 256 → (UInt8.ofNat n).toNat = n := fun n h => by
    rw [UInt8.toNat_ofNat']; exact Nat.mod_eq_of_lt h
  have tl : ∀ n k : Nat, n < 256 → ∀ y : UInt8, y.toNat = k → ((UInt8.ofNat n < y) ↔ n < k) := by
    intro n k hn y hy
    rw [UInt8.lt_iff_toNat_lt, t n hn, hy]
  by_cases h1 : v ≤ 127
  · rw [if_pos h1]
    show decodeRune (UInt8.ofNat v :: s) = _
    unfold decodeRune
    dsimp only
    rw [if_pos ((tl v 128 (by omega) _ rfl).2 (by omega)), t v (by omega)]
    rfl
  rw [if_neg h1]
  by_cases h2 : v ≤ 2047
  · rw [if_pos h2]
    show decodeRune (UInt8.ofNat _ :: UInt8.ofNat _ :: s) = _
    unfold decodeRune
    dsimp only
    rw [if_neg (fun h => by have := (tl _ 128 (by omega) _ rfl).1 h; omega),
      if_neg (fun h => by have := (tl _ 194 (by omega) _ rfl).1 h; omega),
      if_pos ((tl _ 224 (by omega) _ rfl).2 (by omega))]
    have a1 : (0x80 : UInt8) ≤ UInt8.ofNat (v % 64 + 128) := by
      rw [UInt8.le_iff_toNat_le, t _ (by omega)]; show 128 ≤ _; omega
    have a2 : UInt8.ofNat (v % 64 + 128) ≤ (0xbf : UInt8) := by
      rw [UInt8.le_iff_toNat_le, t _ (by omega)]; show _ ≤ 191; omega
    rw [if_pos ⟨a1, a2⟩, t _ (by omega), t _ (by omega)]
    rw [Option.some.injEq, Prod.mk.injEq]
    exact ⟨rfl, by omega⟩
  rw [if_neg h2]
  by_cases h3 : v ≤ 65535
  · rw [if_pos h3]
    show decodeRune (UInt8.ofNat _ :: UInt8.ofNat _ :: UInt8.ofNat _ :: s) = _
    unfold decodeRune
    dsimp only
    rw [if_neg (fun h => by have := (tl _ 128 (by omega) _ rfl).1 h; omega),
      if_neg (fun h => by have := (tl _ 194 (by omega) _ rfl).1 h; omega),
      if_neg (fun h => by have := (tl _ 224 (by omega) _ rfl).1 h; omega),
      if_pos ((tl _ 240 (by omega) _ rfl).2 (by omega))]
    have e0 : (UInt8.ofNat (v / 4096 % 16 + 224) = 0xe0) ↔ v / 4096 % 16 = 0 := by
      rw [← UInt8.toNat_inj, t _ (by omega)]; show _ = 224 ↔ _; omega
    have e1 : (UInt8.ofNat (v / 4096 % 16 + 224) = 0xed) ↔ v / 4096 % 16 = 13 := by
      rw [← UInt8.toNat_inj, t _ (by omega)]; show _ = 237 ↔ _; omega
    have a1 : (if UInt8.ofNat (v / 4096 % 16 + 224) = 0xe0 then (0xa0 : UInt8) else 0x80) ≤
        UInt8.ofNat (v / 64 % 64 + 128) := by
      rw [UInt8.le_iff_toNat_le, t _ (by omega)]
      by_cases h : v / 4096 % 16 = 0
      · rw [if_pos (e0.2 h)]; show 160 ≤ _; omega
      · rw [if_neg (fun g => h (e0.1 g))]; show 128 ≤ _; omega
    have a2 : UInt8.ofNat (v / 64 % 64 + 128) ≤
        (if UInt8.ofNat (v / 4096 % 16 + 224) = 0xed then (0x9f : UInt8) else 0xbf) := by
      rw [UInt8.le_iff_toNat_le, t _ (by omega)]
      unfold Nat.isValidChar at hv
      by_cases h : v / 4096 % 16 = 13
      · rw [if_pos (e1.2 h)]; show _ ≤ 159; omega
      · rw [if_neg (fun g => h (e1.1 g))]; show _ ≤ 191; omega
    have a3 : (0x80 : UInt8) ≤ UInt8.ofNat (v % 64 + 128) := by
      rw [UInt8.le_iff_toNat_le, t _ (by omega)]; show 128 ≤ _; omega
    have a4 : UInt8.ofNat (v % 64 + 128) ≤ (0xbf : UInt8) := by
      rw [UInt8.le_iff_toNat_le, t _ (by omega)]; show _ ≤ 191; omega
    rw [if_pos ⟨a1, a2, a3, a4⟩, t _ (by omega), t _ (by omega), t _ (by omega)]
    rw [Option.some.injEq, Prod.mk.injEq]
    exact ⟨rfl, by omega⟩
  · rw [if_neg h3]
    have hv' : v < 1114112 := by unfold Nat.isValidChar at hv; omega
    show decodeRune (UInt8.ofNat _ :: UInt8.ofNat _ :: UInt8.ofNat _ :: UInt8.ofNat _ :: s) = _
    unfold decodeRune
    dsimp only
    rw [if_neg (fun h => by have := (tl _ 128 (by omega) _ rfl).1 h; omega),
      if_neg (fun h => by have := (tl _ 194 (by omega) _ rfl).1 h; omega),
      if_neg (fun h => by have := (tl _ 224 (by omega) _ rfl).1 h; omega),
      if_neg (fun h => by have := (tl _ 240 (by omega) _ rfl).1 h; omega),
      if_pos ((tl _ 245 (by omega) _ rfl).2 (by omega))]
    have e0 : (UInt8.ofNat (v / 262144 % 8 + 240) = 0xf0) ↔ v / 262144 % 8 = 0 := by
      rw [← UInt8.toNat_inj, t _ (by omega)]; show _ = 240 ↔ _; omega
    have e1 : (UInt8.ofNat (v / 262144 % 8 + 240) = 0xf4) ↔ v / 262144 % 8 = 4 := by
      rw [← UInt8.toNat_inj, t _ (by omega)]; show _ = 244 ↔ _; omega
    have a1 : (if UInt8.ofNat (v / 262144 % 8 + 240) = 0xf0 then (0x90 : UInt8) else 0x80) ≤
        UInt8.ofNat (v / 4096 % 64 + 128) := by
      rw [UInt8.le_iff_toNat_le, t _ (by omega)]
      by_cases h : v / 262144 % 8 = 0
      · rw [if_pos (e0.2 h)]; show 144 ≤ _; omega
      · rw [if_neg (fun g => h (e0.1 g))]; show 128 ≤ _; omega
    have a2 : UInt8.ofNat (v / 4096 % 64 + 128) ≤
        (if UInt8.ofNat (v / 262144 % 8 + 240) = 0xf4 then (0x8f : UInt8) else 0xbf) := by
      rw [UInt8.le_iff_toNat_le, t _ (by omega)]
      by_cases h : v / 262144 % 8 = 4
      · rw [if_pos (e1.2 h)]; show _ ≤ 143; omega
      · rw [if_neg (fun g => h (e1.1 g))]; show _ ≤ 191; omega
    have a3 : (0x80 : UInt8) ≤ UInt8.ofNat (v / 64 % 64 + 128) := by
      rw [UInt8.le_iff_toNat_le, t _ (by omega)]; show 128 ≤ _; omega
    have a4 : UInt8.ofNat (v / 64 % 64 + 128) ≤ (0xbf : UInt8) := by
      rw [UInt8.le_iff_toNat_le, t _ (by omega)]; show _ ≤ 191; omega
    have a5 : (0x80 : UInt8) ≤ UInt8.ofNat (v % 64 + 128) := by
      rw [UInt8.le_iff_toNat_le, t _ (by omega)]; show 128 ≤ _; omega
    have a6 : UInt8.ofNat (v % 64 + 128) ≤ (0xbf : UInt8) := by
      rw [UInt8.le_iff_toNat_le, t _ (by omega)]; show _ ≤ 191; omega
    rw [if_pos ⟨a1, a2, a3, a4, a5, a6⟩, t _ (by omega), t _ (by omega), t _ (by omega), t _ (by omega)]
    rw [Option.some.injEq, Prod.mk.injEq]
    exact ⟨rfl, by omega⟩

theorem decodeRune_inv (d : Bytes) (w c : Nat) (h : decodeRune d = some (w, c)) : c.isValidChar ∧ d = encNat c ++ d.drop w := by
  unfold decodeRune at h
  cases d with
  | nil => cases h
  | cons b0 s =>
    dsimp only at h
    split at h
    · rename_i h0
      simp only [UInt8.lt_iff_toNat_lt, UInt8.reduceToNat] at h0
      cases h
      refine ⟨by left; omega, ?_⟩
      rw [encNat, if_pos (by omega), u8_eq rfl]
      rfl
    split at h
    · cases h
    split at h
    · split at h
      · rename_i b1 r
        split at h
        · rename_i h0 h1 h2 g
          simp only [UInt8.lt_iff_toNat_lt, UInt8.le_iff_toNat_le, UInt8.reduceToNat] at *
          cases h
          refine ⟨by left; omega, ?_⟩
          rw [encNat, if_neg (by omega), if_pos (by omega), u8_eq (x := b0) (by omega), u8_eq (x := b1) (by omega)]
          rfl
        · cases h
      · cases h
    split at h
    · split at h
      · rename_i b1 b2 r
        rw [Option.ite_none_right_eq_some] at h
        obtain ⟨⟨g1, g2, g3, g4⟩, h⟩ := h
        have e0 : (b0 = 0xe0) = (b0.toNat = 0xe0) := by rw [← UInt8.toNat_inj]; rfl
        have e1 : (b0 = 0xed) = (b0.toNat = 0xed) := by rw [← UInt8.toNat_inj]; rfl
        simp only [UInt8.lt_iff_toNat_lt, UInt8.le_iff_toNat_le, UInt8.reduceToNat, e0, e1] at *
        have g1' : (b0.toNat = 224 → 160 ≤ b1.toNat) ∧ 128 ≤ b1.toNat := by
          split at g1 <;> simp only [UInt8.reduceToNat] at g1 <;> omega
        have g2' : (b0.toNat = 237 → b1.toNat ≤ 159) ∧ b1.toNat ≤ 191 := by
          split at g2 <;> simp only [UInt8.reduceToNat] at g2 <;> omega
        rw [Option.some.injEq, Prod.mk.injEq] at h
        obtain ⟨rfl, rfl⟩ := h
        refine ⟨by unfold Nat.isValidChar; omega, ?_⟩
        rw [encNat, if_neg (by omega), if_neg (by omega), if_pos (by omega),
          u8_eq (x := b0) (by omega), u8_eq (x := b1) (by omega), u8_eq (x := b2) (by omega)]
        rfl
      · cases h
    split at h
    · split at h
      · rename_i b1 b2 b3 r
        rw [Option.ite_none_right_eq_some] at h
        obtain ⟨⟨g1, g2, g3, g4, g5, g6⟩, h⟩ := h
        have e0 : (b0 = 0xf0) = (b0.toNat = 0xf0) := by rw [← UInt8.toNat_inj]; rfl
        have e1 : (b0 = 0xf4) = (b0.toNat = 0xf4) := by rw [← UInt8.toNat_inj]; rfl
        simp only [UInt8.lt_iff_toNat_lt, UInt8.le_iff_toNat_le, UInt8.reduceToNat, e0, e1] at *
        have g1' : (b0.toNat = 240 → 144 ≤ b1.toNat) ∧ 128 ≤ b1.toNat := by
          split at g1 <;> simp only [UInt8.reduceToNat] at g1 <;> omega
        have g2' : (b0.toNat = 244 → b1.toNat ≤ 143) ∧ b1.toNat ≤ 191 := by
          split at g2 <;> simp only [UInt8.reduceToNat] at g2 <;> omega
        rw [Option.some.injEq, Prod.mk.injEq] at h
        obtain ⟨rfl, rfl⟩ := h
        refine ⟨by unfold Nat.isValidChar; omega, ?_⟩
        rw [encNat, if_neg (by omega), if_neg (by omega), if_neg (by omega),
          u8_eq (x := b0) (by omega), u8_eq (x := b1) (by omega), u8_eq (x := b2) (by omega), u8_eq (x := b3) (by omega)]
        rfl
      · cases h
    · cases h

theorem Spec.Quoting.append {a b w s : Bytes} (h : Quoting a b) (h' : Quoting w s) : Quoting (a ++ w) (b ++ s) := by
  induction h with
  | nil => exact h'
  | plain h1 h2 _ ih => exact .plain h1 h2 ih
  | drop h1 _ ih => exact .drop h1 ih
  | keep h1 h2 h3 _ ih => exact .keep h1 h2 h3 ih

theorem quoting_self {a : Bytes} (h : ∀ b ∈ a, b ≠ 34 ∧ b ≠ 92) : Quoting a a := by
  induction a with
  | nil => exact .nil
  | cons b a ih =>
    have hb := h b (List.mem_cons_self ..)
    exact .plain hb.1 hb.2 (ih fun x hx => h x (List.mem_cons_of_mem _ hx))

theorem encNat_ne (v : Nat) : encNat v ≠ [] := by
  unfold encNat
  split
  · simp
  split
  · simp
  split <;> simp

theorem encNat_bytes (v : Nat) (h : v ≠ 34 ∧ v ≠ 92) : ∀ b ∈ encNat v, b ≠ 34 ∧ b ≠ 92 := by
  have t : ∀ n, n < 256 → n ≠ 34 ∧ n ≠ 92 → UInt8.ofNat n ≠ 34 ∧ UInt8.ofNat n ≠ 92 := fun n h h' => by
    rw [ne_eq, ne_eq, ← UInt8.toNat_inj, ← UInt8.toNat_inj, UInt8.toNat_ofNat', Nat.mod_eq_of_lt h]
    exact h'
  intro b hb
  unfold encNat at hb
  split at hb
  · rw [List.mem_singleton] at hb; subst hb; exact t _ (by omega) h
  split at hb
  · simp only [List.mem_cons, List.not_mem_nil, or_false] at hb
    rcases hb with rfl | rfl <;> exact t _ (by omega) (by omega)
  split at hb
  · simp only [List.mem_cons, List.not_mem_nil, or_false] at hb
    rcases hb with rfl | rfl | rfl <;> exact t _ (by omega) (by omega)
  · simp only [List.mem_cons, List.not_mem_nil, or_false] at hb
    rcases hb with rfl | rfl | rfl | rfl <;> exact t _ (by omega) (by omega)

theorem isPrint_of {e : TextEnv} {c : Nat} (h : Printable e.printable c) : e.isPrint c = true := by
  unfold TextEnv.isPrint
  unfold Printable at h
  split
  · simp only [Bool.or_eq_true, Bool.and_eq_true, decide_eq_true_eq]
    omega
  · rcases h with h | h | h
    · omega
    · omega
    · exact h.2

theorem printable_of {e : TextEnv} {c : Nat} (h : e.isPrint c = true) : Printable e.printable c := by
  unfold TextEnv.isPrint at h
  unfold Printable
  split at h
  · simp only [Bool.or_eq_true, Bool.and_eq_true, decide_eq_true_eq] at h
    omega
  · exact .inr (.inr ⟨by omega, h⟩)

theorem hexDigit_plain (n : Nat) : hexDigit 97 (n % 16) ≠ 34 ∧ hexDigit 97 (n % 16) ≠ 92 := by
  have : ∀ k < 16, hexDigit 97 k ≠ 34 ∧ hexDigit 97 k ≠ 92 := by decide
  exact this _ (Nat.mod_lt _ (by omega))

theorem hexFixed_spec : ∀ k n : Nat, (∀ b ∈ hexFixed 97 k n, b ≠ 34 ∧ b ≠ 92) ∧ (hexFixed 97 k n).length = k
  | 0, _ => ⟨fun _ h => (List.not_mem_nil h).elim, rfl⟩
  | k + 1, n => by
    obtain ⟨h1, h2⟩ := hexFixed_spec k (n / 16)
    unfold hexFixed
    refine ⟨?_, by rw [List.length_append, h2]; rfl⟩
    intro b hb
    rw [List.mem_append, List.mem_singleton] at hb
    rcases hb with hb | rfl
    · exact h1 b hb
    · exact hexDigit_plain n

/-- how a character looks after it was written with `%q` and read -/
def shownRune (e : TextEnv) (c : Nat) (b : Bytes) : Bytes := if c = 34 ∨ c = 92 then b else quoteRune e c b

theorem encNat_length (v : Nat) : (encNat v).length ≤ 4 ∧ (v ≤ 127 → (encNat v).length = 1) := by
  unfold encNat
  split
  · exact ⟨by simp, fun _ => rfl⟩
  split
  · exact ⟨by simp, fun _ => by omega⟩
  split
  · exact ⟨by simp, fun _ => by omega⟩
  · exact ⟨by simp, fun _ => by omega⟩

/-- an escape sequence is kept as it is -/
theorem quoting_escape (x : UInt8) (a : Bytes) (hx : x ≠ 34 ∧ x ≠ 92 ∧ x < 0x80) (h : ∀ b ∈ a, b ≠ 34 ∧ b ≠ 92) :
    Quoting (92 :: x :: a) (92 :: x :: a) := .keep hx.1 hx.2.1 hx.2.2 (quoting_self h)

theorem quoteRune_spec (e : TextEnv) (v : Nat) : Quoting (quoteRune e v (encNat v)) (shownRune e v (encNat v)) ∧
    (Printable e.printable v → shownRune e v (encNat v) = encNat v) ∧
    (¬Printable e.printable v → (encNat v).length < (shownRune e v (encNat v)).length) := by
  obtain ⟨hl, hl1⟩ := encNat_length v
  unfold shownRune quoteRune
  by_cases hv : v = 34 ∨ v = 92
  · rw [if_pos hv, if_pos hv]
    refine ⟨?_, fun _ => rfl, fun h => absurd ?_ h⟩
    · rcases hv with rfl | rfl
      · exact .drop (.inl rfl) .nil
      · exact .drop (.inr rfl) .nil
    · unfold Printable; omega
  · rw [if_neg hv, if_neg hv]
    by_cases hp : e.isPrint v = true
    · rw [if_pos hp]
      refine ⟨quoting_self (encNat_bytes v ⟨fun h => hv (.inl h), fun h => hv (.inr h)⟩), fun _ => rfl, fun h => absurd (printable_of hp) h⟩
    · rw [if_neg hp]
      have hnp : ¬Printable e.printable v := fun h => hp (isPrint_of h)
      refine (and_congr_right fun _ => and_iff_right fun h => absurd h hnp).2 ?_
      have short : ∀ x : UInt8, x ≠ 34 ∧ x ≠ 92 ∧ x < 0x80 → v ≤ 127 →
          Quoting [92, x] [92, x] ∧ (¬Printable e.printable v → (encNat v).length < ([92, x] : Bytes).length) := by
        intro x hx h
        exact ⟨quoting_escape x [] hx (by simp), fun _ => by rw [hl1 h]; simp⟩
      split
      · exact short _ (by decide) (by omega)
      split
      · exact short _ (by decide) (by omega)
      split
      · exact short _ (by decide) (by omega)
      split
      · exact short _ (by decide) (by omega)
      split
      · exact short _ (by decide) (by omega)
      split
      · exact short _ (by decide) (by omega)
      split
      · exact short _ (by decide) (by omega)
      have long : ∀ (x : UInt8) (k : Nat), x ≠ 34 ∧ x ≠ 92 ∧ x < 0x80 → (encNat v).length < k + 2 →
          Quoting ([92, x] ++ hexFixed 97 k v) ([92, x] ++ hexFixed 97 k v) ∧
            (¬Printable e.printable v → (encNat v).length < ([92, x] ++ hexFixed 97 k v).length) := by
        intro x k hx h
        refine ⟨quoting_escape x _ hx (hexFixed_spec k v).1, fun _ => ?_⟩
        rw [List.length_append, (hexFixed_spec k v).2]
        show _ < 2 + k
        omega
      split
      · exact long 120 2 (by decide) (by rw [hl1 (by omega)]; omega)
      split
      · exact long 117 4 (by decide) (by omega)
      · exact long 85 8 (by decide) (by omega)

theorem plain_nil (pr : Nat → Bool) : Plain pr [] := ⟨[], rfl, by simp⟩

/-- a valid character at the front -/
theorem plain_enc (pr : Nat → Bool) {v : Nat} (hv : v.isValidChar) (s : Bytes) : Plain pr (encNat v ++ s) ↔ Printable pr v ∧ Plain pr s := by
  obtain ⟨c, hc⟩ : ∃ c : Char, c.val.toNat = v := by
    have hn : v < 2 ^ 32 := by rcases hv with h | h <;> omega
    have e : (UInt32.ofNat v).toNat = v := UInt32.toNat_ofNat_of_lt' hn
    exact ⟨⟨UInt32.ofNat v, by show (UInt32.ofNat v).toNat.isValidChar; rw [e]; exact hv⟩, e⟩
  subst hc
  constructor
  · rintro ⟨cs, h1, h2⟩
    cases cs with
    | nil =>
      rw [List.flatMap_nil, List.append_eq_nil_iff] at h1
      exact absurd h1.1 (encNat_ne _)
    | cons d cs =>
      rw [List.flatMap_cons, enc_char] at h1
      have a := decodeRune_enc c.val.toNat c.valid s
      have b := decodeRune_enc d.val.toNat d.valid (cs.flatMap String.utf8EncodeChar)
      rw [h1, b] at a
      rw [Option.some.injEq, Prod.mk.injEq] at a
      obtain ⟨a1, a2⟩ := a
      rw [← a2] at h1 ⊢
      exact ⟨h2 d (List.mem_cons_self ..), cs, List.append_cancel_left h1, fun x hx => h2 x (List.mem_cons_of_mem _ hx)⟩
  · rintro ⟨h, cs, rfl, h2⟩
    refine ⟨c :: cs, by rw [List.flatMap_cons, enc_char], ?_⟩
    intro x hx
    rcases List.mem_cons.1 hx with rfl | hx
    · exact h
    · exact h2 x hx

/-- an invalid byte at the front -/
theorem not_plain {pr : Nat → Bool} {b : UInt8} {s : Bytes} (h : decodeRune (b :: s) = none) : ¬Plain pr (b :: s) := by
  rintro ⟨cs, h1, -⟩
  cases cs with
  | nil => cases h1
  | cons d cs =>
    rw [List.flatMap_cons, enc_char] at h1
    rw [h1, decodeRune_enc _ d.valid] at h
    cases h

/-- what `%q` writes is read as a text, which is the same if and only if it is plain -/
theorem quoteBody_spec (e : TextEnv) : ∀ (f : Nat) (s : Bytes), s.length ≤ f →
    ∃ s', Quoting (quoteBody e f s) s' ∧ (Plain e.printable s → s' = s) ∧ s.length ≤ s'.length ∧ (¬Plain e.printable s → s.length < s'.length)
  | 0, [], _ => ⟨[], .nil, fun _ => rfl, Nat.le_refl _, fun h => absurd (plain_nil _) h⟩
  | f + 1, [], _ => ⟨[], .nil, fun _ => rfl, Nat.le_refl _, fun h => absurd (plain_nil _) h⟩
  | f + 1, b :: s, hf => by
    unfold quoteBody
    rw [List.length_cons] at hf
    cases hd : decodeRune (b :: s) with
    | none =>
      dsimp only
      obtain ⟨s', h1, h2, h3, h4⟩ := quoteBody_spec e f s (by omega)
      have hx := hexFixed_spec 2 b.toNat
      refine ⟨lit "\\x" ++ hexFixed 97 2 b.toNat ++ s', (quoting_escape 120 _ (by decide) hx.1).append h1, fun h => absurd h (not_plain hd), ?_, fun _ => ?_⟩
      all_goals
        rw [List.length_append, List.length_append, hx.2, List.length_cons, show (lit "\\x").length = 2 from rfl]
        omega
    | some x =>
      obtain ⟨w, c⟩ := x
      dsimp only
      obtain ⟨hv, hc⟩ := decodeRune_inv _ _ _ hd
      generalize hr : (b :: s).drop w = r at hc ⊢
      have hlen : (encNat c).length + r.length = s.length + 1 := by
        have := congrArg List.length hc
        rw [List.length_cons, List.length_append] at this
        omega
      have hpos := List.length_pos_iff.2 (encNat_ne c)
      have htake : (b :: s).take w = encNat c := by
        have := decodeRune_enc c hv r
        rw [← hc, hd] at this
        rw [Option.some.injEq, Prod.mk.injEq] at this
        rw [this.1, hc, List.take_left]
      rw [htake]
      obtain ⟨s', h1, h2, h3, h4⟩ := quoteBody_spec e f r (by omega)
      obtain ⟨q1, q2, q3⟩ := quoteRune_spec e c
      have hle : (encNat c).length ≤ (shownRune e c (encNat c)).length := by
        by_cases h : Printable e.printable c
        · rw [q2 h]; exact Nat.le_refl _
        · exact Nat.le_of_lt (q3 h)
      refine ⟨shownRune e c (encNat c) ++ s', q1.append h1, ?_, ?_, ?_⟩
      · intro h
        rw [hc, plain_enc _ hv] at h
        rw [hc, q2 h.1, h2 h.2]
      · rw [hc, List.length_append, List.length_append]; omega
      · intro h
        rw [hc, plain_enc _ hv] at h
        rw [hc, List.length_append, List.length_append]
        by_cases hp : Printable e.printable c
        · have := h4 fun h' => h ⟨hp, h'⟩; omega
        · have := q3 hp; omega

/-- what a text becomes -/
theorem fmtQ_spec (e : TextEnv) (s : Bytes) : ∃ w s', fmtQ e s = (Item.quoted w s').print ∧ Quoting w s' ∧ (s' = s ↔ Plain e.printable s) ∧ s.length ≤ s'.length := by
  obtain ⟨s', h1, h2, h3, h4⟩ := quoteBody_spec e s.length s (Nat.le_refl _)
  refine ⟨_, s', rfl, h1, ⟨fun h => ?_, h2⟩, h3⟩
  apply Classical.byContradiction
  intro hp
  have := h4 hp
  rw [h] at this
  omega

/-! ### Numbers -/

theorem digitsValue_snoc (a : Bytes) (b : UInt8) : digitsValue (a ++ [b]) = 10 * digitsValue a + (b.toNat - 48) := by
  unfold digitsValue
  rw [List.foldl_append]
  rfl

theorem decDigits_spec : ∀ f n : Nat, n < 10 ^ f → 0 < f → Digits (decDigits f n) ∧ decDigits f n ≠ [] ∧ digitsValue (decDigits f n) = n
  | 0, _, _, h => absurd h (by omega)
  | f + 1, n, hn, _ => by
    have ht : (UInt8.ofNat (48 + n % 10)).toNat = 48 + n % 10 := by
      rw [UInt8.toNat_ofNat', Nat.mod_eq_of_lt (by omega)]
    unfold decDigits
    by_cases h : n < 10
    · rw [if_pos h]
      refine ⟨?_, by simp, ?_⟩
      · intro b hb
        rw [List.nil_append, List.mem_singleton] at hb
        subst hb
        rw [ht]
        omega
      · rw [digitsValue_snoc, ht]
        show 10 * 0 + _ = n
        omega
    · rw [if_neg h]
      have hf : 0 < f := by
        rcases Nat.eq_zero_or_pos f with rfl | h'
        · omega
        · exact h'
      obtain ⟨h1, h2, h3⟩ := decDigits_spec f (n / 10) (by rw [Nat.pow_succ] at hn; omega) hf
      refine ⟨?_, by simp, ?_⟩
      · intro b hb
        rw [List.mem_append, List.mem_singleton] at hb
        rcases hb with hb | rfl
        · exact h1 b hb
        · rw [ht]; omega
      · rw [digitsValue_snoc, ht, h3]
        omega

theorem fmtDec_spec (n : UInt32) : Digits (fmtDec n) ∧ fmtDec n ≠ [] ∧ digitsValue (fmtDec n) = n.toNat := by
  have := n.toNat_lt
  exact decDigits_spec 10 n.toNat (by omega) (by omega)

/-- `n` with `k` zeros behind the dot -/
def fixedPoint (n : UInt32) (k : Nat) : Bytes := fmtDec n ++ 46 :: List.replicate k 48

theorem fixedPoint_number (n : UInt32) (k : Nat) : Number (fixedPoint n k) := by
  obtain ⟨h1, h2, -⟩ := fmtDec_spec n
  refine ⟨fmtDec n, h2, h1, .inr ⟨List.replicate k 48, ?_, rfl⟩⟩
  intro b hb
  rw [List.mem_replicate] at hb
  rw [hb.2]
  decide

theorem fixedPoint_read {e : TextEnv} (he : ReadsNumbers e.parseFloat) (n : UInt32) (k : Nat) :
    ∃ b, e.parseFloat (fixedPoint n k) = some (n, b) := by
  obtain ⟨h1, h2, h3⟩ := fmtDec_spec n
  obtain ⟨b, hb⟩ := he (fmtDec n) k h1 h2 (by rw [h3]; exact n.toNat_lt)
  rw [h3] at hb
  exact ⟨b, by rw [fixedPoint, hb, UInt32.ofNat_toNat]⟩

/-! ### The description -/

/-- the description of a text of one run -/
def textTags (wd wf : Bytes) (t : TextDatum) (c : RGBA32) (dx dy : UInt32) : List (Bytes × List Item) :=
  [(lit "text", [.quoted wd t.data]), (lit "font", [.quoted wf t.font]), (lit "font-size", [.number (fixedPoint t.size 9)]),
    (lit "font-size-units", [.word (lit "pixels")]), (lit "antialias", [.word (lit "yes")]), (lit "base-direction", [.word (lit "ltr")]),
    (lit "color", [.tag (lit "color-rgb") [.number (fixedPoint (c.r >>> 8) 6), .number (fixedPoint (c.g >>> 8) 6),
      .number (fixedPoint (c.b >>> 8) 6)]]),
    (lit "justify", [.word (lit "left")]), (lit "box-mode", [.word (lit "dynamic")]), (lit "box-width", [.number (fixedPoint dx 6)]),
    (lit "box-height", [.number (fixedPoint dy 6)]), (lit "box-unit", [.word (lit "pixels")]), (lit "hinting", [.word (lit "yes")])]

set_option maxRecDepth 8000 in
theorem textData_tags {e : TextEnv} {t : TextDatum} {c : Color} (hc : t.foreColor = some c) {wd wf sd sf : Bytes}
    (hd : fmtQ e t.data = (Item.quoted wd sd).print) (hf : fmtQ e t.font = (Item.quoted wf sf).print) (dx dy : UInt32) :
    textData e [t] dx dy = some (description (textTags wd wf { t with data := sd, font := sf } c.rgba32 dx dy) ++ [0]) := by
  unfold textData
  simp only [Option.bind_eq_bind, Option.bind_some, hc, hd, hf]
  unfold description textTags fixedPoint
  simp only [List.flatMap_cons, List.flatMap_nil, Item.print, printAll]
  simp [lit, List.replicate]

theorem lit_word (s : String) (h : (lit s).all isName = true ∧ lit s ≠ []) : Word (lit s) :=
  ⟨h.2, fun b hb => (isName_iff b).1 (List.all_eq_true.1 h.1 b hb)⟩

theorem textTags_ok {wd wf : Bytes} (t : TextDatum) (hd : Quoting wd t.data) (hf : Quoting wf t.font) (c : RGBA32) (dx dy : UInt32) :
    ∀ x ∈ textTags wd wf t c dx dy, Word x.1 ∧ AllOkItems x.2 := by
  intro x hx
  unfold textTags at hx
  simp only [List.mem_cons, List.not_mem_nil, or_false] at hx
  rcases hx with rfl | rfl | rfl | rfl | rfl | rfl | rfl | rfl | rfl | rfl | rfl | rfl | rfl <;>
    refine ⟨lit_word _ (by decide), ?_⟩ <;> unfold AllOkItems Item.Ok <;> refine ⟨?_, trivial⟩
  all_goals first
    | exact hd
    | exact hf
    | exact fixedPoint_number _ _
    | exact lit_word _ (by decide)
    | refine ⟨lit_word _ (by decide), ?_⟩
      simp only [AllOkItems, Item.Ok]
      exact ⟨fixedPoint_number _ _, fixedPoint_number _ _, fixedPoint_number _ _, trivial⟩

/-- the text that is read -/
def blackText (t : TextDatum) : TextDatum :=
  ⟨some (.gray 0), some (.alpha 0), t.size, 0, 0, false, false, false, false, t.font, t.data⟩

theorem textTags_meaning {e : TextEnv} (he : ReadsNumbers e.parseFloat) (wd wf : Bytes) (t : TextDatum) (c : RGBA32) (dx dy : UInt32) :
    ∃ rs, meaning e.parseFloat (textTags wd wf t c dx dy) = some rs ∧ parseText rs = some ([], blackText t) := by
  obtain ⟨b1, h1⟩ := fixedPoint_read he t.size 9
  obtain ⟨b2, h2⟩ := fixedPoint_read he (c.r >>> 8) 6
  obtain ⟨b3, h3⟩ := fixedPoint_read he (c.g >>> 8) 6
  obtain ⟨b4, h4⟩ := fixedPoint_read he (c.b >>> 8) 6
  obtain ⟨b5, h5⟩ := fixedPoint_read he dx 6
  obtain ⟨b6, h6⟩ := fixedPoint_read he dy 6
  refine ⟨_, by
    unfold textTags
    simp only [meaning, vals, Item.val, h1, h2, h3, h4, h5, h6, Option.map_some, Option.bind_some]
    rfl, ?_⟩
  rfl

/-- The text of one run is read in black; its text and its font are the same if and only if they consist of printable
characters. -/
theorem parse_written {e : TextEnv} (he : ReadsNumbers e.parseFloat) (xml : Bytes → List XmlTok × Bool) {t : TextDatum} {c : Color}
    (hc : t.foreColor = some c) (dx dy : UInt32) :
    ∃ d data font, textData e [t] dx dy = some d ∧ (data = t.data ↔ Plain e.printable t.data) ∧ (font = t.font ↔ Plain e.printable t.font) ∧
      t.data.length ≤ data.length ∧
      parseTextData e xml d = if data ≠ [] then .ok (some [blackText { t with data := data, font := font }])
        else markupRuns (xml []).2 (xml []).1 [blackText { t with data := data, font := font }] := by
  obtain ⟨wd, sd, d1, d2, d3, d4⟩ := fmtQ_spec e t.data
  obtain ⟨wf, sf, f1, f2, f3, f4⟩ := fmtQ_spec e t.font
  refine ⟨_, sd, sf, textData_tags hc d1 f1 dx dy, d3, f3, d4, ?_⟩
  obtain ⟨rs, h1, h2⟩ := textTags_meaning he wd wf { t with data := sd, font := sf } c.rgba32 dx dy
  unfold parseTextData
  rw [parseTags_printed e _ rs [0] _ (textTags_ok _ d2 f2 c.rgba32 dx dy) h1 (.inr ⟨[], rfl⟩) (Nat.lt_succ_self _)]
  dsimp only
  rw [h2]
  rfl

end Limage
