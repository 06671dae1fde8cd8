import Verif.Model.Reader
/-! `utf8.Valid` accepts exactly the encodings of lists of characters. -/
namespace Limage

/-- `String.utf8EncodeChar` on numbers -/
def encNat (v : Nat) : List UInt8 :=
  if v ≤ 127 then [UInt8.ofNat v]
  else if v ≤ 2047 then [UInt8.ofNat (v / 64 % 32 + 192), UInt8.ofNat (v % 64 + 128)]
  else if v ≤ 65535 then
    [UInt8.ofNat (v / 4096 % 16 + 224), UInt8.ofNat (v / 64 % 64 + 128), UInt8.ofNat (v % 64 + 128)]
  else
    [UInt8.ofNat (v / 262144 % 8 + 240), UInt8.ofNat (v / 4096 % 64 + 128), UInt8.ofNat (v / 64 % 64 + 128),
      UInt8.ofNat (v % 64 + 128)]

theorem enc_char (c : Char) : String.utf8EncodeChar c = encNat c.val.toNat := rfl

theorem exists_char (n : Nat) (h : n.isValidChar) : ∃ c : Char, String.utf8EncodeChar c = encNat n := by
  have hn : n < 2 ^ 32 := by rcases h with h | h <;> omega
  have e : (UInt32.ofNat n).toNat = n := UInt32.toNat_ofNat_of_lt' hn
  refine ⟨⟨UInt32.ofNat n, ?_⟩, ?_⟩
  · show (UInt32.ofNat n).toNat.isValidChar
    rw [e]; exact h
  · rw [enc_char]
    show encNat (UInt32.ofNat n).toNat = _
    rw [e]

theorem u8_eq {x : UInt8} {n : Nat} (h : n = x.toNat) : UInt8.ofNat n = x := by
  rw [h]; exact UInt8.ofNat_toNat

theorem utf8_forward (b : Bytes) (h : utf8Valid b = true) : ∃ cs : List Char, b = cs.flatMap String.utf8EncodeChar := by
  fun_induction utf8Valid b with
  | case1 => exact ⟨[], rfl⟩
  | case2 b0 s h0 ih =>
    obtain ⟨cs, rfl⟩ := ih h
    simp only [UInt8.lt_iff_toNat_lt, UInt8.reduceToNat] at h0
    obtain ⟨c, hc⟩ := exists_char b0.toNat (by left; omega)
    refine ⟨c :: cs, ?_⟩
    rw [List.flatMap_cons, hc, encNat, if_pos (by omega), u8_eq rfl]
    rfl
  | case3 => cases h
  | case4 b0 h0 h1 h2 b1 s ih =>
    simp only [Bool.and_eq_true, decide_eq_true_eq] at h
    obtain ⟨⟨g1, g2⟩, h⟩ := h
    obtain ⟨cs, rfl⟩ := ih h
    simp only [UInt8.lt_iff_toNat_lt, UInt8.le_iff_toNat_le, UInt8.reduceToNat] at *
    obtain ⟨c, hc⟩ := exists_char ((b0.toNat - 192) * 64 + (b1.toNat - 128)) (by left; omega)
    refine ⟨c :: cs, ?_⟩
    rw [List.flatMap_cons, hc, encNat, if_neg (by omega), if_pos (by omega), u8_eq (x := b0) (by omega), u8_eq (x := b1) (by omega)]
    rfl
  | case5 => cases h
  | case6 b0 h0 h1 h2 h3 b1 b2 s ih =>
    simp only [Bool.and_eq_true, decide_eq_true_eq] at h
    obtain ⟨⟨⟨⟨g1, g2⟩, g3⟩, g4⟩, h⟩ := h
    obtain ⟨cs, rfl⟩ := ih h
    have e0 : (b0 = 0xe0) = (b0.toNat = 0xe0) := by rw [← UInt8.toNat_inj]; rfl
    have e1 : (b0 = 0xed) = (b0.toNat = 0xed) := by rw [← UInt8.toNat_inj]; rfl
    simp only [UInt8.lt_iff_toNat_lt, UInt8.le_iff_toNat_le, UInt8.reduceToNat, e0, e1] at *
    have g1' : (b0.toNat = 224 → 160 ≤ b1.toNat) ∧ 128 ≤ b1.toNat := by
      split at g1 <;> simp only [UInt8.reduceToNat] at g1 <;> omega
    have g2' : (b0.toNat = 237 → b1.toNat ≤ 159) ∧ b1.toNat ≤ 191 := by
      split at g2 <;> simp only [UInt8.reduceToNat] at g2 <;> omega
    obtain ⟨c, hc⟩ := exists_char ((b0.toNat - 224) * 4096 + (b1.toNat - 128) * 64 + (b2.toNat - 128))
      (by unfold Nat.isValidChar; omega)
    refine ⟨c :: cs, ?_⟩
    rw [List.flatMap_cons, hc, encNat, if_neg (by omega), if_neg (by omega), if_pos (by omega),
      u8_eq (x := b0) (by omega), u8_eq (x := b1) (by omega), u8_eq (x := b2) (by omega)]
    rfl
  | case7 => cases h
  | case8 b0 h0 h1 h2 h3 h4 b1 b2 b3 s ih =>
    simp only [Bool.and_eq_true, decide_eq_true_eq] at h
    obtain ⟨⟨⟨⟨⟨⟨g1, g2⟩, g3⟩, g4⟩, g5⟩, g6⟩, h⟩ := h
    obtain ⟨cs, rfl⟩ := ih h
    have e0 : (b0 = 0xf0) = (b0.toNat = 0xf0) := by rw [← UInt8.toNat_inj]; rfl
    have e1 : (b0 = 0xf4) = (b0.toNat = 0xf4) := by rw [← UInt8.toNat_inj]; rfl
    simp only [UInt8.lt_iff_toNat_lt, UInt8.le_iff_toNat_le, UInt8.reduceToNat, e0, e1] at *
    have g1' : (b0.toNat = 240 → 144 ≤ b1.toNat) ∧ 128 ≤ b1.toNat := by
      split at g1 <;> simp only [UInt8.reduceToNat] at g1 <;> omega
    have g2' : (b0.toNat = 244 → b1.toNat ≤ 143) ∧ b1.toNat ≤ 191 := by
      split at g2 <;> simp only [UInt8.reduceToNat] at g2 <;> omega
    obtain ⟨c, hc⟩ := exists_char ((b0.toNat - 240) * 262144 + (b1.toNat - 128) * 4096 + (b2.toNat - 128) * 64 +
      (b3.toNat - 128)) (by unfold Nat.isValidChar; omega)
    refine ⟨c :: cs, ?_⟩
    rw [List.flatMap_cons, hc, encNat, if_neg (by omega), if_neg (by omega), if_neg (by omega),
      u8_eq (x := b0) (by omega), u8_eq (x := b1) (by omega), u8_eq (x := b2) (by omega), u8_eq (x := b3) (by omega)]
    rfl
  | case9 => cases h
  | case10 => cases h

theorem utf8_enc (v : Nat) (hv : v.isValidChar) (s : Bytes) : utf8Valid (encNat v ++ s) = utf8Valid s := by
  unfold encNat
  have t : ∀ n, n < 256 → (UInt8.ofNat n).toNat = n := fun n h => by
    rw [UInt8.toNat_ofNat']; exact Nat.mod_eq_of_lt h
  have tl : ∀ n k : Nat, n < 256 → ∀ y : UInt8, y.toNat = k → ((UInt8.ofNat n < y) ↔ n < k) := by
    intro n k hn y hy
    rw [UInt8.lt_iff_toNat_lt, t n hn, hy]
  by_cases h1 : v ≤ 127
  · rw [if_pos h1]
    show utf8Valid (UInt8.ofNat v :: s) = _
    conv => lhs; unfold utf8Valid
    rw [if_pos ((tl v 128 (by omega) _ rfl).2 (by omega))]
  rw [if_neg h1]
  by_cases h2 : v ≤ 2047
  · rw [if_pos h2]
    show utf8Valid (UInt8.ofNat _ :: UInt8.ofNat _ :: s) = _
    rw [utf8Valid]
    rw [if_neg (fun h => by have := (tl _ 128 (by omega) _ rfl).1 h; omega),
      if_neg (fun h => by have := (tl _ 194 (by omega) _ rfl).1 h; omega),
      if_pos ((tl _ 224 (by omega) _ rfl).2 (by omega))]
    have a1 : (0x80 : UInt8) ≤ UInt8.ofNat (v % 64 + 128) := by
      rw [UInt8.le_iff_toNat_le, t _ (by omega)]; show 128 ≤ _; omega
    have a2 : UInt8.ofNat (v % 64 + 128) ≤ (0xbf : UInt8) := by
      rw [UInt8.le_iff_toNat_le, t _ (by omega)]; show _ ≤ 191; omega
    rw [decide_eq_true a1, decide_eq_true a2]
    rfl
  rw [if_neg h2]
  by_cases h3 : v ≤ 65535
  · rw [if_pos h3]
    show utf8Valid (UInt8.ofNat _ :: UInt8.ofNat _ :: UInt8.ofNat _ :: s) = _
    rw [utf8Valid]
    rw [if_neg (fun h => by have := (tl _ 128 (by omega) _ rfl).1 h; omega),
      if_neg (fun h => by have := (tl _ 194 (by omega) _ rfl).1 h; omega),
      if_neg (fun h => by have := (tl _ 224 (by omega) _ rfl).1 h; omega),
      if_pos ((tl _ 240 (by omega) _ rfl).2 (by omega))]
    dsimp only
    have e0 : (UInt8.ofNat (v / 4096 % 16 + 224) = 0xe0) ↔ v / 4096 % 16 = 0 := by
      rw [← UInt8.toNat_inj, t _ (by omega)]; show _ = 224 ↔ _; omega
    have e1 : (UInt8.ofNat (v / 4096 % 16 + 224) = 0xed) ↔ v / 4096 % 16 = 13 := by
      rw [← UInt8.toNat_inj, t _ (by omega)]; show _ = 237 ↔ _; omega
    have a1 : (if UInt8.ofNat (v / 4096 % 16 + 224) = 0xe0 then (0xa0 : UInt8) else 0x80) ≤
        UInt8.ofNat (v / 64 % 64 + 128) := by
      rw [UInt8.le_iff_toNat_le, t _ (by omega)]
      by_cases h : v / 4096 % 16 = 0
      · rw [if_pos (e0.2 h)]; show 160 ≤ _; omega
      · rw [if_neg (fun g => h (e0.1 g))]; show 128 ≤ _; omega
    have a2 : UInt8.ofNat (v / 64 % 64 + 128) ≤
        (if UInt8.ofNat (v / 4096 % 16 + 224) = 0xed then (0x9f : UInt8) else 0xbf) := by
      rw [UInt8.le_iff_toNat_le, t _ (by omega)]
      unfold Nat.isValidChar at hv
      by_cases h : v / 4096 % 16 = 13
      · rw [if_pos (e1.2 h)]; show _ ≤ 159; omega
      · rw [if_neg (fun g => h (e1.1 g))]; show _ ≤ 191; omega
    have a3 : (0x80 : UInt8) ≤ UInt8.ofNat (v % 64 + 128) := by
      rw [UInt8.le_iff_toNat_le, t _ (by omega)]; show 128 ≤ _; omega
    have a4 : UInt8.ofNat (v % 64 + 128) ≤ (0xbf : UInt8) := by
      rw [UInt8.le_iff_toNat_le, t _ (by omega)]; show _ ≤ 191; omega
    rw [decide_eq_true a1, decide_eq_true a2, decide_eq_true a3, decide_eq_true a4]
    rfl
  · rw [if_neg h3]
    have hv' : v < 1114112 := by unfold Nat.isValidChar at hv; omega
    show utf8Valid (UInt8.ofNat _ :: UInt8.ofNat _ :: UInt8.ofNat _ :: UInt8.ofNat _ :: s) = _
    rw [utf8Valid]
    rw [if_neg (fun h => by have := (tl _ 128 (by omega) _ rfl).1 h; omega),
      if_neg (fun h => by have := (tl _ 194 (by omega) _ rfl).1 h; omega),
      if_neg (fun h => by have := (tl _ 224 (by omega) _ rfl).1 h; omega),
      if_neg (fun h => by have := (tl _ 240 (by omega) _ rfl).1 h; omega),
      if_pos ((tl _ 245 (by omega) _ rfl).2 (by omega))]
    dsimp only
    have e0 : (UInt8.ofNat (v / 262144 % 8 + 240) = 0xf0) ↔ v / 262144 % 8 = 0 := by
      rw [← UInt8.toNat_inj, t _ (by omega)]; show _ = 240 ↔ _; omega
    have e1 : (UInt8.ofNat (v / 262144 % 8 + 240) = 0xf4) ↔ v / 262144 % 8 = 4 := by
      rw [← UInt8.toNat_inj, t _ (by omega)]; show _ = 244 ↔ _; omega
    have a1 : (if UInt8.ofNat (v / 262144 % 8 + 240) = 0xf0 then (0x90 : UInt8) else 0x80) ≤
        UInt8.ofNat (v / 4096 % 64 + 128) := by
      rw [UInt8.le_iff_toNat_le, t _ (by omega)]
      by_cases h : v / 262144 % 8 = 0
      · rw [if_pos (e0.2 h)]; show 144 ≤ _; omega
      · rw [if_neg (fun g => h (e0.1 g))]; show 128 ≤ _; omega
    have a2 : UInt8.ofNat (v / 4096 % 64 + 128) ≤
        (if UInt8.ofNat (v / 262144 % 8 + 240) = 0xf4 then (0x8f : UInt8) else 0xbf) := by
      rw [UInt8.le_iff_toNat_le, t _ (by omega)]
      by_cases h : v / 262144 % 8 = 4
      · rw [if_pos (e1.2 h)]; show _ ≤ 143; omega
      · rw [if_neg (fun g => h (e1.1 g))]; show _ ≤ 191; omega
    have a3 : (0x80 : UInt8) ≤ UInt8.ofNat (v / 64 % 64 + 128) := by
      rw [UInt8.le_iff_toNat_le, t _ (by omega)]; show 128 ≤ _; omega
    have a4 : UInt8.ofNat (v / 64 % 64 + 128) ≤ (0xbf : UInt8) := by
      rw [UInt8.le_iff_toNat_le, t _ (by omega)]; show _ ≤ 191; omega
    have a5 : (0x80 : UInt8) ≤ UInt8.ofNat (v % 64 + 128) := by
      rw [UInt8.le_iff_toNat_le, t _ (by omega)]; show 128 ≤ _; omega
    have a6 : UInt8.ofNat (v % 64 + 128) ≤ (0xbf : UInt8) := by
      rw [UInt8.le_iff_toNat_le, t _ (by omega)]; show _ ≤ 191; omega
    rw [decide_eq_true a1, decide_eq_true a2, decide_eq_true a3, decide_eq_true a4, decide_eq_true a5,
      decide_eq_true a6]
    rfl

theorem utf8_back (cs : List Char) : utf8Valid (cs.flatMap String.utf8EncodeChar) = true := by
  induction cs with
  | nil => rfl
  | cons c cs ih =>
    rw [List.flatMap_cons, enc_char, utf8_enc _ c.valid]
    exact ih

theorem utf8Valid_iff (b : Bytes) : utf8Valid b = true ↔ ∃ cs : List Char, b = cs.flatMap String.utf8EncodeChar :=
  ⟨utf8_forward b, fun ⟨cs, h⟩ => h ▸ utf8_back cs⟩

end Limage
