import Verif.Proofs.TextWrite
/-!
# The parser of text descriptions always has enough steps
-/
namespace Limage
open Spec

theorem escaped_le : ∀ d : Bytes, (escaped d).2.length ≤ d.length
  | [] => Nat.le_refl _
  | b :: s => by
    unfold escaped
    dsimp only
    split
    · simp
    · split
      · simp only [List.length_drop]; omega
      · simp

theorem quotedString_le : ∀ (f : Nat) (d : Bytes), (quotedString f d).2.length ≤ d.length
  | 0, d => Nat.le_refl _
  | f + 1, d => by
    unfold quotedString
    dsimp only
    have hl : (d.drop (d.takeWhile fun b => b ≠ 34 && b ≠ 92).length).length ≤ d.length := by
      rw [List.length_drop]; omega
    split
    · exact Nat.zero_le _
    · rename_i b r hr
      rw [hr, List.length_cons] at hl
      split
      · have := quotedString_le f (escaped r).2
        have := escaped_le r
        dsimp only
        omega
      · dsimp only; omega

theorem numberLen_pos {b : UInt8} (d : Bytes) (h : isDigit b = true) : 1 ≤ numberLen (b :: d) := by
  unfold numberLen
  rw [List.takeWhile_cons, if_pos h]
  dsimp only
  split
  · split <;> simp only [List.length_cons] <;> omega
  · simp

theorem dropWhile_le (p : UInt8 → Bool) (d : Bytes) : (d.dropWhile p).length ≤ d.length := (List.dropWhile_sublist p).length_le

/-- what a run of values leaves -/
theorem valueRun_fuel : ∀ (f : Nat) (d : Bytes), d.length < f →
    valueRun f d = .hang ∨ ∃ vs s r, valueRun f d = .ok (vs, s, r) ∧ r.length ≤ d.length ∧ (s = .opn ∨ s = .cls → r.length < d.length)
  | f + 1, d, hf => by
    have next : ∀ (v : Raw) (r : Bytes), r.length < d.length →
        (valueRun f r).consVal v = .hang ∨ ∃ vs s r', (valueRun f r).consVal v = .ok (vs, s, r') ∧ r'.length ≤ d.length ∧ (s = .opn ∨ s = .cls → r'.length < d.length) := by
      intro v r hr
      rcases valueRun_fuel f r (by omega) with h | ⟨vs, s, r', h, h1, h2⟩
      · left; rw [h]; rfl
      · right; rw [h]; exact ⟨v :: vs, s, r', rfl, by omega, fun h => by have := h2 h; omega⟩
    have hd := dropWhile_le isSpace d
    unfold valueRun
    dsimp only
    split
    · right; exact ⟨[], .bad, [], rfl, Nat.zero_le _, by rintro (h | h) <;> cases h⟩
    · rename_i b r hr
      rw [hr, List.length_cons] at hd
      split
      · right; exact ⟨[], .done, b :: r, rfl, by simpa using hd, by rintro (h | h) <;> cases h⟩
      split
      · right; exact ⟨[], .opn, r, rfl, by omega, fun _ => by omega⟩
      split
      · right; exact ⟨[], .cls, r, rfl, by omega, fun _ => by omega⟩
      split
      · exact next _ _ (by have := quotedString_le (r.length + 1) r; omega)
      split
      · rename_i hb
        refine next _ _ ?_
        have := numberLen_pos r hb
        rw [List.length_drop, List.length_cons]
        omega
      split
      · rename_i hb
        refine next _ _ ?_
        rw [List.dropWhile_cons, if_pos hb]
        have := dropWhile_le isName r
        omega
      · exact .inl rfl

theorem readTag_fuel (e : TextEnv) : ∀ f : Nat,
    (∀ d : Bytes, 2 * d.length + 2 ≤ f → readTag e f d ≠ .panic ∧ ∀ n vs r, readTag e f d = .ok (.tag n vs r) → r.length < d.length) ∧
    (∀ name acc (d : Bytes), 2 * d.length + 1 ≤ f → readValues e f name acc d ≠ .panic ∧
      ∀ n vs r, readValues e f name acc d = .ok (.tag n vs r) → r.length < d.length) := by
  intro f
  induction f with
  | zero => exact ⟨fun _ h => by omega, fun _ _ _ h => by omega⟩
  | succ f ih =>
    obtain ⟨ih1, ih2⟩ := ih
    constructor
    · intro d hd
      unfold readTag
      split
      · exact ⟨by simp, fun _ _ _ h => by cases h⟩
      · rename_i n name hn
        have hle := dropWhile_le isName d
        obtain ⟨h1, h2⟩ := ih2 (n :: name) [] (d.dropWhile isName) (by omega)
        exact ⟨h1, fun a b c h => by have := h2 a b c h; omega⟩
    · intro name acc d hd
      unfold readValues
      rcases valueRun_fuel (d.length + 1) d (Nat.lt_succ_self _) with h | ⟨raws, s, r, h, h1, h2⟩
      · rw [h]; exact ⟨by simp, fun _ _ _ h => by cases h⟩
      · rw [h]
        dsimp only
        cases convert e raws with
        | none =>
          dsimp only
          split <;> exact ⟨by simp, fun _ _ _ h => by cases h⟩
        | some vs =>
          dsimp only
          cases s with
          | done => exact ⟨by simp, fun _ _ _ h => by cases h⟩
          | bad => exact ⟨by simp, fun _ _ _ h => by cases h⟩
          | cls => exact ⟨by simp, fun _ _ _ h => by cases h; exact h2 (.inr rfl)⟩
          | opn =>
            have hr := h2 (.inl rfl)
            obtain ⟨g1, g2⟩ := ih1 r (by omega)
            dsimp only
            split
            · rename_i n ws r' hx
              have := g2 _ _ _ hx
              obtain ⟨k1, k2⟩ := ih2 name (acc ++ vs ++ [.tag n ws]) r' (by omega)
              exact ⟨k1, fun a b c h => by have := k2 a b c h; omega⟩
            · rename_i hx
              exact ⟨g1, fun a b c h => absurd h (hx a b c)⟩

/-- the parser does not run out of steps -/
theorem parseTags_fuel (e : TextEnv) : ∀ (f : Nat) (d : Bytes), d.length < f → parseTags e f d ≠ .panic
  | f + 1, d, hf => by
    have hd := dropWhile_le isSpace d
    unfold parseTags
    split
    · simp
    · rename_i b r hr
      rw [hr, List.length_cons] at hd
      split
      · simp
      split
      · obtain ⟨h1, h2⟩ := (readTag_fuel e (2 * r.length + 2)).1 r (Nat.le_refl _)
        split
        · rename_i h; exact absurd h h1
        · simp
        · simp
        · simp
        · rename_i n vs r' h
          have := h2 _ _ _ h
          have ih := parseTags_fuel e f r' (by omega)
          split
          · simp
          · exact ih
      · simp

/-! ### Descriptions without strange characters -/

/-- outside of quotes -/
def Out (p : Place) : Prop := p = .outside ∨ p = .digits ∨ p = .fraction

theorem clean_out {p : Place} (hp : Out p) (b : UInt8) (s : Bytes) : Clean p (b :: s) ↔
    if b = 0 then True
    else if b = 34 then Clean .quotes s
    else if 48 ≤ b.toNat ∧ b.toNat ≤ 57 then Clean (if p = .fraction then .fraction else .digits) s
    else if b = 46 then p = .digits ∧ Clean .fraction s
    else (NameByte b ∨ b = 32 ∨ b = 10 ∨ b = 13 ∨ b = 40 ∨ b = 41) ∧ Clean .outside s := by
  rcases hp with rfl | rfl | rfl <;> exact Iff.rfl

/-- behind a number, in front of something else -/
theorem clean_leave {p : Place} (hp : Out p) {b : UInt8} {s : Bytes} (hb : isDigit b = false) (h46 : b = 46 → p ≠ .digits) (h : Clean p (b :: s)) :
    Clean .outside (b :: s) := by
  have hb' : ¬(48 ≤ b.toNat ∧ b.toNat ≤ 57) := fun h' => by rw [(isDigit_iff b).2 h'] at hb; cases hb
  rw [clean_out hp, if_neg hb'] at h
  rw [clean_out (.inl rfl), if_neg hb']
  split
  · trivial
  · rename_i h0
    rw [if_neg h0] at h
    split
    · rename_i h1; rwa [if_pos h1] at h
    · rename_i h1
      rw [if_neg h1] at h
      split
      · rename_i h2
        rw [if_pos h2] at h
        exact absurd h.1 (h46 h2)
      · rename_i h2; rwa [if_neg h2] at h

theorem clean_nil (p : Place) : Clean p [] := by cases p <;> exact trivial

theorem not_digit_of_dropWhile {d : Bytes} {b : UInt8} {s : Bytes} {p : UInt8 → Bool} (h : d.dropWhile p = b :: s) : p b = false := by
  induction d with
  | nil => cases h
  | cons c d ih =>
    rw [List.dropWhile_cons] at h
    split at h
    · exact ih h
    · rename_i hc
      cases h
      simpa using hc

theorem drop_takeWhile (p : UInt8 → Bool) : ∀ d : Bytes, d.drop (d.takeWhile p).length = d.dropWhile p
  | [] => rfl
  | b :: d => by
    rw [List.takeWhile_cons, List.dropWhile_cons]
    split
    · exact drop_takeWhile p d
    · rfl

theorem clean_digits {p : Place} (hp : p = .digits ∨ p = .fraction) : ∀ {d : Bytes}, Clean p d → Clean p (d.dropWhile isDigit)
  | [], _ => clean_nil _
  | b :: d, h => by
    rw [List.dropWhile_cons]
    split
    · rename_i hb
      apply clean_digits hp
      have hb' := (isDigit_iff b).1 hb
      obtain ⟨-, f2, -, -, f5⟩ := digit_facts hb
      rw [clean_out (by rcases hp with rfl | rfl <;> simp [Out]), if_neg f2, if_neg f5, if_pos hb'] at h
      rcases hp with rfl | rfl <;> exact h
    · exact h

theorem clean_number {b : UInt8} {d : Bytes} (hb : isDigit b = true) (h : Clean .outside (b :: d)) :
    Clean .outside ((b :: d).drop (numberLen (b :: d))) := by
  have hb' := (isDigit_iff b).1 hb
  obtain ⟨-, f2, -, -, f5⟩ := digit_facts hb
  rw [clean_out (.inl rfl), if_neg f2, if_neg f5, if_pos hb'] at h
  have h1 : Clean .digits ((b :: d).dropWhile isDigit) := by
    rw [List.dropWhile_cons, if_pos hb]
    exact clean_digits (.inl rfl) h
  unfold numberLen
  dsimp only
  rw [drop_takeWhile]
  cases hr : (b :: d).dropWhile isDigit with
  | nil =>
    dsimp only
    rw [drop_takeWhile, hr]
    exact clean_nil _
  | cons c r =>
    have hc := not_digit_of_dropWhile hr
    rw [hr] at h1
    dsimp only
    split
    · rename_i h46
      subst h46
      rw [clean_out (.inr (.inl rfl)), if_neg (by decide), if_neg (by decide), if_neg (by decide), if_pos rfl] at h1
      have h2 := clean_digits (.inr rfl) h1.2
      have e : (b :: d).drop (((b :: d).takeWhile isDigit).length + 1 + (r.takeWhile isDigit).length) = r.dropWhile isDigit := by
        rw [← List.drop_drop, ← List.drop_drop, drop_takeWhile, hr, List.drop_succ_cons, List.drop_zero, drop_takeWhile]
      rw [e]
      cases hr2 : r.dropWhile isDigit with
      | nil => exact clean_nil _
      | cons c' r' =>
        rw [hr2] at h2
        exact clean_leave (.inr (.inr rfl)) (not_digit_of_dropWhile hr2) (by simp) h2
    · rename_i h46
      rw [drop_takeWhile, hr]
      exact clean_leave (.inr (.inl rfl)) hc (fun h => absurd h h46) h1

/-- behind letters, or spaces -/
theorem clean_run {p : UInt8 → Bool} (hp : ∀ b, p b = true → b ≠ 0 ∧ b ≠ 34 ∧ ¬(48 ≤ b.toNat ∧ b.toNat ≤ 57) ∧ b ≠ 46) :
    ∀ {d : Bytes}, Clean .outside d → Clean .outside (d.dropWhile p)
  | [], _ => clean_nil _
  | b :: d, h => by
    rw [List.dropWhile_cons]
    split
    · rename_i hb
      obtain ⟨h1, h2, h3, h4⟩ := hp b hb
      rw [clean_out (.inl rfl), if_neg h1, if_neg h2, if_neg h3, if_neg h4] at h
      exact clean_run hp h.2
    · exact h

theorem clean_names {d : Bytes} (h : Clean .outside d) : Clean .outside (d.dropWhile isName) := by
  refine clean_run (fun b hb => ?_) h
  obtain ⟨-, h1, -, -, h2, h3⟩ := name_facts hb
  refine ⟨h1, h2, fun h => ?_, ?_⟩
  · rw [(isDigit_iff b).2 h] at h3; cases h3
  · rintro rfl; revert hb; decide

theorem clean_spaces {d : Bytes} (h : Clean .outside d) : Clean .outside (d.dropWhile isSpace) := by
  refine clean_run (fun b hb => ?_) h
  unfold isSpace at hb
  simp only [Bool.or_eq_true, decide_eq_true_eq] at hb
  rcases hb with (rfl | rfl) | rfl <;> decide

theorem clean_quotes {b : UInt8} {s : Bytes} (h1 : b ≠ 34) (h2 : b ≠ 92) (h : Clean .quotes (b :: s)) : Clean .quotes s := by
  have h : Clean (if b = 34 then .outside else if b = 92 then .slash else .quotes) s := h
  rwa [if_neg h1, if_neg h2] at h

theorem clean_plain : ∀ {a d : Bytes}, (∀ b ∈ a, b ≠ 34 ∧ b ≠ 92) → Clean .quotes (a ++ d) → Clean .quotes d
  | [], _, _, h => h
  | b :: a, d, ha, h => by
    have hb := ha b (List.mem_cons_self ..)
    exact clean_plain (fun x hx => ha x (List.mem_cons_of_mem _ hx)) (clean_quotes hb.1 hb.2 h)

theorem encNat_tail (v : Nat) {b : UInt8} {t : Bytes} (h : encNat v = b :: t) : ∀ x ∈ t, x ≠ 34 ∧ x ≠ 92 := by
  by_cases hv : v = 34 ∨ v = 92
  · rcases hv with rfl | rfl <;> (cases h; simp)
  · intro x hx
    exact encNat_bytes v ⟨fun h => hv (.inl h), fun h => hv (.inr h)⟩ x (by rw [h]; exact List.mem_cons_of_mem _ hx)

theorem clean_escaped {d : Bytes} (h : Clean .slash d) : Clean .quotes (escaped d).2 := by
  cases d with
  | nil => exact clean_nil _
  | cons b s =>
    have h : Clean .quotes s := h
    unfold escaped
    dsimp only
    split
    · exact h
    · split
      · rename_i w c hw
        obtain ⟨-, hc⟩ := decodeRune_inv _ _ _ hw
        dsimp only
        generalize (b :: s).drop w = r at hc ⊢
        cases he : encNat c with
        | nil => exact absurd he (encNat_ne c)
        | cons x t =>
          rw [he] at hc
          injection hc with h1 h2
          rw [h2] at h
          exact clean_plain (encNat_tail c he) h
      · exact h

theorem clean_quotedString : ∀ (f : Nat) {d : Bytes}, d.length < f → Clean .quotes d → Clean .outside (quotedString f d).2
  | f + 1, d, hf, h => by
    unfold quotedString
    dsimp only
    rw [drop_takeWhile]
    have hsplit := List.takeWhile_append_dropWhile (p := fun b : UInt8 => b ≠ 34 && b ≠ 92) (l := d)
    have hdrop : Clean .quotes (d.dropWhile fun b => b ≠ 34 && b ≠ 92) := by
      rw [← hsplit] at h
      refine clean_plain (fun b hb => ?_) h
      have := List.all_eq_true.1 (List.all_takeWhile (l := d) (p := fun b : UInt8 => b ≠ 34 && b ≠ 92)) b hb
      simpa using this
    have hle := dropWhile_le (fun b => b ≠ 34 && b ≠ 92) d
    cases hr : d.dropWhile fun b => b ≠ 34 && b ≠ 92 with
    | nil => exact clean_nil _
    | cons b r =>
      rw [hr] at hdrop hle
      rw [List.length_cons] at hle
      have hb := not_digit_of_dropWhile hr
      dsimp only
      split
      · rename_i h92
        subst h92
        have hd : Clean .slash r := hdrop
        exact clean_quotedString f (by have := escaped_le r; omega) (clean_escaped hd)
      · rename_i h92
        have h34 : b = 34 := by simpa [h92] using hb
        subst h34
        exact hdrop

theorem valueRun_clean : ∀ (f : Nat) {d : Bytes}, Clean .outside d → valueRun f d ≠ .hang ∧
    ∀ vs s r, valueRun f d = .ok (vs, s, r) → Clean .outside r
  | 0, d, _ => ⟨by simp [valueRun], fun _ _ _ h => by cases h⟩
  | f + 1, d, h => by
    have next : ∀ (v : Raw) (r : Bytes), Clean .outside r → (valueRun f r).consVal v ≠ .hang ∧
        ∀ vs s r', (valueRun f r).consVal v = .ok (vs, s, r') → Clean .outside r' := by
      intro v r hr
      obtain ⟨h1, h2⟩ := valueRun_clean f hr
      cases hx : valueRun f r with
      | panic => exact ⟨by simp [Outcome.consVal], fun _ _ _ h => by cases h⟩
      | hang => exact absurd hx h1
      | ok x =>
        obtain ⟨vs, s, r'⟩ := x
        exact ⟨by simp [Outcome.consVal], fun _ _ _ h => by cases h; exact h2 _ _ _ hx⟩
    have hs := clean_spaces h
    unfold valueRun
    dsimp only
    split
    · exact ⟨by simp, fun _ _ _ h => by cases h; exact clean_nil _⟩
    · rename_i b r hr
      rw [hr] at hs
      have hsp := not_digit_of_dropWhile hr
      split
      · exact ⟨by simp, fun _ _ _ h => by cases h; exact hs⟩
      split
      · rename_i h40
        subst h40
        have hs := ((clean_out (.inl rfl) _ _).1 hs)
        rw [if_neg (by decide), if_neg (by decide), if_neg (by decide), if_neg (by decide)] at hs
        exact ⟨by simp, fun _ _ _ h => by cases h; exact hs.2⟩
      split
      · rename_i h41
        subst h41
        have hs := ((clean_out (.inl rfl) _ _).1 hs)
        rw [if_neg (by decide), if_neg (by decide), if_neg (by decide), if_neg (by decide)] at hs
        exact ⟨by simp, fun _ _ _ h => by cases h; exact hs.2⟩
      split
      · rename_i h34
        subst h34
        exact next _ _ (clean_quotedString _ (Nat.lt_succ_self _) hs)
      split
      · rename_i hb
        exact next _ _ (clean_number hb hs)
      split
      · exact next _ _ (clean_names hs)
      · rename_i h0 h40 h41 h34 hd hn
        exfalso
        have hs := ((clean_out (.inl rfl) _ _).1 hs)
        rw [if_neg h0, if_neg h34, if_neg (fun h => hd ((isDigit_iff b).2 h))] at hs
        split at hs
        · cases hs.1
        · rcases hs.1 with h | h | h | h | h | h
          · exact hn ((isName_iff b).2 h)
          · subst h; revert hsp; decide
          · subst h; revert hsp; decide
          · subst h; revert hsp; decide
          · exact h40 h
          · exact h41 h

theorem readTag_clean (e : TextEnv) : ∀ f : Nat,
    (∀ d : Bytes, Clean .outside d → readTag e f d ≠ .hang ∧ ∀ n vs r, readTag e f d = .ok (.tag n vs r) → Clean .outside r) ∧
    (∀ name acc (d : Bytes), Clean .outside d → readValues e f name acc d ≠ .hang ∧
      ∀ n vs r, readValues e f name acc d = .ok (.tag n vs r) → Clean .outside r) := by
  intro f
  induction f with
  | zero => exact ⟨fun _ _ => ⟨by simp [readTag], fun _ _ _ h => by simp [readTag] at h⟩,
      fun _ _ _ _ => ⟨by simp [readValues], fun _ _ _ h => by simp [readValues] at h⟩⟩
  | succ f ih =>
    obtain ⟨ih1, ih2⟩ := ih
    constructor
    · intro d hd
      unfold readTag
      split
      · exact ⟨by simp, fun _ _ _ h => by cases h⟩
      · exact ih2 _ _ _ (clean_names hd)
    · intro name acc d hd
      unfold readValues
      obtain ⟨v1, v2⟩ := valueRun_clean (d.length + 1) hd
      cases hx : valueRun (d.length + 1) d with
      | panic => exact ⟨by simp, fun _ _ _ h => by cases h⟩
      | hang => exact absurd hx v1
      | ok x =>
        obtain ⟨raws, s, r⟩ := x
        have hr := v2 _ _ _ hx
        dsimp only
        cases convert e raws with
        | none =>
          dsimp only
          split <;> exact ⟨by simp, fun _ _ _ h => by cases h⟩
        | some vs =>
          dsimp only
          cases s with
          | done => exact ⟨by simp, fun _ _ _ h => by cases h⟩
          | bad => exact ⟨by simp, fun _ _ _ h => by cases h⟩
          | cls => exact ⟨by simp, fun _ _ _ h => by cases h; exact hr⟩
          | opn =>
            obtain ⟨g1, g2⟩ := ih1 r hr
            dsimp only
            split
            · rename_i n ws r' hx
              exact ih2 _ _ _ (g2 _ _ _ hx)
            · rename_i hx
              exact ⟨g1, fun a b c h => absurd h (hx a b c)⟩

/-- a description without strange characters is read in finite time -/
theorem parseTags_clean (e : TextEnv) : ∀ (f : Nat) (d : Bytes), Clean .outside d → parseTags e f d ≠ .hang
  | 0, d, _ => by simp [parseTags]
  | f + 1, d, h => by
    have hs := clean_spaces h
    unfold parseTags
    split
    · simp
    · rename_i b r hr
      rw [hr] at hs
      split
      · simp
      split
      · rename_i h40
        subst h40
        have hs := ((clean_out (.inl rfl) _ _).1 hs)
        rw [if_neg (by decide), if_neg (by decide), if_neg (by decide), if_neg (by decide)] at hs
        obtain ⟨h1, h2⟩ := (readTag_clean e (2 * r.length + 2)).1 r hs.2
        split
        · simp
        · rename_i h; exact absurd h h1
        · simp
        · simp
        · rename_i n vs r' h
          have ih := parseTags_clean e f r' (h2 _ _ _ h)
          split
          · simp
          · exact ih
      · simp

end Limage
