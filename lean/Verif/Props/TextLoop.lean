import Verif.Props.TextRead
/-! # The loop over values in a description of text, token by token (C76) -/
namespace Limage

/-! ## The loop as it is written -/

/-- what `valueTK` returns: a value, after which it is called again, or one of the tokens that end the run of values -/
inductive ValueTok where
  | value (v : Raw)
  | stop (s : Stop)

/-- One call of `valueTK` (parasites.go:226-274): the token and what has not been read.  `AcceptRun(valName)` accepts any number of characters, none
included. -/
def valueTok (d : Bytes) : ValueTok × Bytes :=
  match d.dropWhile isSpace with
  | [] => (.stop .bad, [])
  | b :: d =>
    if b = 0 then (.stop .done, b :: d)
    else if b = 40 then (.stop .opn, d)
    else if b = 41 then (.stop .cls, d)
    else if b = 34 then
      let (s, d) := quotedString (d.length + 1) d
      (.value (.str s), d)
    else if isDigit b then (.value (.num ((b :: d).take (numberLen (b :: d)))), (b :: d).drop (numberLen (b :: d)))
    else (.value (.str ((b :: d).takeWhile isName)), (b :: d).dropWhile isName)

/-- `p.AcceptRun(tokenValueString, tokenValueNumber)` (parasites.go:137), calling `valueTK` at most as many times as the first argument says -/
def acceptValues : Nat → Bytes → Outcome (List Raw × Stop × Bytes)
  | 0, _ => .hang
  | f + 1, d =>
    match valueTok d with
    | (.stop s, d) => .ok ([], s, d)
    | (.value v, d) => (acceptValues f d).consVal v

/-! ## Proofs -/

/-- where no value can start, `valueTK` returns an empty value and stays -/
theorem acceptValues_stuck {b : UInt8} (d : Bytes) (h0 : b ≠ 0) (h1 : b ≠ 40) (h2 : b ≠ 41) (h3 : b ≠ 34) (h4 : isDigit b = false) (h5 : isName b = false)
    (hs : isSpace b = false) : ∀ f, acceptValues f (b :: d) = .hang
  | 0 => rfl
  | f + 1 => by
    have e : valueTok (b :: d) = (.value (.str []), b :: d) := by
      unfold valueTok
      rw [List.dropWhile_cons_of_neg (by rw [hs]; decide)]
      dsimp only
      rw [if_neg h0, if_neg h1, if_neg h2, if_neg h3, h4, if_neg (by decide), List.takeWhile_cons_of_neg (by rw [h5]; decide),
        List.dropWhile_cons_of_neg (by rw [h5]; decide)]
    rw [acceptValues, e]
    dsimp only
    rw [acceptValues_stuck d h0 h1 h2 h3 h4 h5 hs f]
    rfl

theorem acceptValues_eq : ∀ (n : Nat) (d : Bytes), valueRun n d ≠ .panic → ∀ f, n ≤ f → acceptValues f d = valueRun n d
  | 0, _, h, _, _ => absurd rfl h
  | n + 1, d, h, 0, hf => absurd hf (Nat.not_succ_le_zero _)
  | n + 1, d, h, f + 1, hf => by
    have step : ∀ (v : Raw) (r : Bytes), (valueRun n r).consVal v ≠ .panic → (acceptValues f r).consVal v = (valueRun n r).consVal v := by
      intro v r hr
      rw [acceptValues_eq n r (fun e => hr (by rw [e]; rfl)) f (by omega)]
    have e : valueRun (n + 1) d = match d.dropWhile isSpace with
        | [] => .ok ([], .bad, [])
        | b :: d =>
          if b = 0 then .ok ([], .done, b :: d)
          else if b = 40 then .ok ([], .opn, d)
          else if b = 41 then .ok ([], .cls, d)
          else if b = 34 then (valueRun n (quotedString (d.length + 1) d).2).consVal (.str (quotedString (d.length + 1) d).1)
          else if isDigit b then (valueRun n ((b :: d).drop (numberLen (b :: d)))).consVal (.num ((b :: d).take (numberLen (b :: d))))
          else if isName b then (valueRun n ((b :: d).dropWhile isName)).consVal (.str ((b :: d).takeWhile isName))
          else .hang := by
      rw [valueRun]
      rfl
    rw [e] at h ⊢
    rw [acceptValues]
    unfold valueTok
    cases hd : d.dropWhile isSpace with
    | nil => rfl
    | cons b r =>
      rw [hd] at h
      dsimp only at h ⊢
      by_cases h0 : b = 0
      · rw [if_pos h0, if_pos h0]
      rw [if_neg h0] at h ⊢
      rw [if_neg h0]
      by_cases h1 : b = 40
      · rw [if_pos h1, if_pos h1]
      rw [if_neg h1] at h ⊢
      rw [if_neg h1]
      by_cases h2 : b = 41
      · rw [if_pos h2, if_pos h2]
      rw [if_neg h2] at h ⊢
      rw [if_neg h2]
      by_cases h3 : b = 34
      · rw [if_pos h3] at h ⊢
        rw [if_pos h3]
        exact step _ _ h
      rw [if_neg h3] at h ⊢
      rw [if_neg h3]
      by_cases h4 : isDigit b = true
      · rw [if_pos h4] at h ⊢
        rw [if_pos h4]
        exact step _ _ h
      rw [if_neg h4] at h ⊢
      rw [if_neg h4]
      by_cases h5 : isName b = true
      · rw [if_pos h5] at h ⊢
        exact step _ _ h
      · rw [if_neg h5]
        dsimp only
        have hs : isSpace b = false := by
          have := List.head?_dropWhile_not isSpace d
          rw [hd] at this
          simpa using this
        rw [List.takeWhile_cons_of_neg h5, List.dropWhile_cons_of_neg h5,
          acceptValues_stuck r h0 h1 h2 h3 (by simpa using h4) (by simpa using h5) hs f]
        rfl

/-- **C76** (the loop over values).  With enough turns the loop as it is written reads what the model says; where the model says that it runs forever, no
number of turns is enough. -/
theorem C76_loop (d : Bytes) : ∀ f, d.length + 1 ≤ f → acceptValues f d = valueRun (d.length + 1) d := by
  refine acceptValues_eq _ d ?_
  rcases valueRun_fuel (d.length + 1) d (Nat.lt_succ_self _) with h | ⟨vs, s, r, h, -⟩ <;> rw [h] <;> intro e <;> cases e

-- two values and the end of the tag; a character no value starts with
example : acceptValues 9 (lit " ab 12) ") = .ok ([.str (lit "ab"), .num (lit "12")], .cls, lit " ") ∧ ∀ f, acceptValues f (lit "#)") = .hang :=
  ⟨by cbv, acceptValues_stuck _ (by decide) (by decide) (by decide) (by decide) (by decide) (by decide) (by decide)⟩

end Limage
