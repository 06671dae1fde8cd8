import Verif.Model.Quote
import Verif.Props.TextRead
import Verif.Props.OraAgain
/-!
# C136: quoting texts for descriptions; C137: reading one parasite
-/
namespace Limage
open Spec

/-! ### C136 -/

/-- Specification: the characters that a program reading UTF-8 sees: those encoded, and U+FFFD for each byte with which none begins. -/
inductive Spec.Chars : Bytes → List Char → Prop
  | nil : Chars [] []
  | char {c s cs} : Chars s cs → Chars (String.utf8EncodeChar c ++ s) (c :: cs)
  | bad {b s cs} : (∀ (c : Char) (r : Bytes), b :: s ≠ String.utf8EncodeChar c ++ r) → Chars s cs → Chars (b :: s) ('�' :: cs)

/-- a character with the given number -/
theorem char_of {v : Nat} (hv : v.isValidChar) : ∃ c : Char, c.val.toNat = v := by
  have hn : v < 2 ^ 32 := by rcases hv with h | h <;> omega
  have e : (UInt32.ofNat v).toNat = v := UInt32.toNat_ofNat_of_lt' hn
  exact ⟨⟨UInt32.ofNat v, by show (UInt32.ofNat v).toNat.isValidChar; rw [e]; exact hv⟩, e⟩

theorem decodeRune_none {b : UInt8} {s : Bytes} : decodeRune (b :: s) = none ↔ ∀ (c : Char) (r : Bytes), b :: s ≠ String.utf8EncodeChar c ++ r := by
  constructor
  · intro h c r hc
    rw [enc_char] at hc
    rw [hc, decodeRune_enc _ c.valid] at h
    cases h
  · intro h
    cases hd : decodeRune (b :: s) with
    | none => rfl
    | some x =>
      obtain ⟨w, v⟩ := x
      obtain ⟨hv, he⟩ := decodeRune_inv _ _ _ hd
      obtain ⟨c, hc⟩ := char_of hv
      exact absurd (by rw [enc_char, hc]; exact he) (h c ((b :: s).drop w))

/-- a character of more than one byte has no quotes or backslashes in it, nor has one of one byte that is none -/
theorem enc_plain (c : Char) (h1 : c.val.toNat ≠ 92) (h2 : c.val.toNat ≠ 34) : ∀ b ∈ String.utf8EncodeChar c, b ≠ 34 ∧ b ≠ 92 := by
  rw [enc_char]
  have hv : c.val.toNat < 0x110000 := by
    rcases c.valid with h | h
    · exact Nat.lt_of_lt_of_le h (by decide)
    · exact h.2
  generalize c.val.toNat = v at h1 h2 hv
  have t : ∀ n : Nat, n < 256 → n ≠ 34 → n ≠ 92 → (UInt8.ofNat n ≠ 34 ∧ UInt8.ofNat n ≠ 92) := by
    intro n hn ha hb
    have e : (UInt8.ofNat n).toNat = n := UInt8.toNat_ofNat_of_lt' hn
    constructor <;> intro h <;> rw [h] at e
    · exact ha e.symm
    · exact hb e.symm
  unfold encNat
  intro b hb
  split at hb
  · rw [List.mem_singleton] at hb
    subst hb
    exact t _ (by omega) h2 h1
  split at hb
  · simp only [List.mem_cons, List.not_mem_nil, or_false] at hb
    rcases hb with rfl | rfl <;> exact t _ (by omega) (by omega) (by omega)
  split at hb
  · simp only [List.mem_cons, List.not_mem_nil, or_false] at hb
    rcases hb with rfl | rfl | rfl <;> exact t _ (by omega) (by omega) (by omega)
  · simp only [List.mem_cons, List.not_mem_nil, or_false] at hb
    rcases hb with rfl | rfl | rfl | rfl <;> exact t _ (by omega) (by omega) (by omega)

theorem quoteWrite_steps : ∀ (f : Nat) (s : Bytes), s.length ≤ f →
    ∃ cs, Chars s cs ∧ Quoting (quoteWriteSteps f s) (cs.flatMap String.utf8EncodeChar)
  | 0, s, h => by
    obtain rfl : s = [] := List.length_eq_zero_iff.1 (by omega)
    exact ⟨[], .nil, .nil⟩
  | f + 1, [], _ => ⟨[], .nil, by unfold quoteWriteSteps; exact .nil⟩
  | f + 1, b :: s, h => by
    unfold quoteWriteSteps
    rw [List.length_cons] at h
    cases hd : decodeRune (b :: s) with
    | none =>
      obtain ⟨cs, h1, h2⟩ := quoteWrite_steps f s (by omega)
      refine ⟨'�' :: cs, .bad (decodeRune_none.1 hd) h1, ?_⟩
      rw [List.flatMap_cons]
      exact Quoting.append (quoting_self (by decide)) h2
    | some x =>
      obtain ⟨w, v⟩ := x
      obtain ⟨ht, hv, hw⟩ := decodeRune_take hd
      obtain ⟨-, he⟩ := decodeRune_inv _ _ _ hd
      obtain ⟨c, rfl⟩ := char_of hv
      obtain ⟨cs, h1, h2⟩ := quoteWrite_steps f ((b :: s).drop w) (by rw [List.length_drop, List.length_cons]; omega)
      refine ⟨c :: cs, by rw [he]; exact .char h1, ?_⟩
      rw [List.flatMap_cons]
      dsimp only
      refine Quoting.append ?_ h2
      rw [enc_char]
      by_cases c1 : c.val.toNat = 92
      · rw [if_pos c1, c1]
        exact .drop (.inr rfl) .nil
      rw [if_neg c1]
      by_cases c2 : c.val.toNat = 34
      · rw [if_pos c2, c2]
        exact .drop (.inl rfl) .nil
      rw [if_neg c2, ht]
      exact quoting_self (enc_char c ▸ enc_plain c c1 c2)

/-- every sequence of bytes has its characters -/
theorem chars_unique {s : Bytes} {cs ds : List Char} (h : Chars s cs) (h' : Chars s ds) : cs = ds := by
  induction h generalizing ds with
  | nil =>
    generalize hs : ([] : Bytes) = S at h'
    cases h' with
    | nil => rfl
    | char h =>
      rw [enc_char] at hs
      exact absurd (List.append_eq_nil_iff.1 hs.symm).1 (encNat_ne _)
    | bad => cases hs
  | @char c s cs h ih =>
    generalize hs : String.utf8EncodeChar c ++ s = S at h'
    cases h' with
    | nil =>
      rw [enc_char] at hs
      exact absurd (List.append_eq_nil_iff.1 hs).1 (encNat_ne _)
    | @char c' s' cs' h' =>
      have a := decodeRune_enc c.val.toNat c.valid s
      have b := decodeRune_enc c'.val.toNat c'.valid s'
      rw [← enc_char] at a b
      rw [hs, b, Option.some.injEq, Prod.mk.injEq] at a
      have hc : c = c' := Char.ext (UInt32.toNat_inj.1 a.2.symm)
      subst hc
      rw [ih (List.append_cancel_left hs ▸ h')]
    | bad hb h' => exact absurd hs.symm (hb c s)
  | @bad b s cs hb h ih =>
    generalize hs : b :: s = S at h'
    cases h' with
    | nil => cases hs
    | @char c' s' cs' h' => exact absurd hs (hb c' s')
    | bad hb' h' =>
      cases hs
      rw [ih h']

theorem chars_enc (cs : List Char) : Chars (cs.flatMap String.utf8EncodeChar) cs := by
  induction cs with
  | nil => exact .nil
  | cons c cs ih => rw [List.flatMap_cons]; exact .char ih

/-- C136: what `quoteWriter` writes, put between quotes as the value of a tag, is read by `Parse` as the text that was given to it: every character
comes back, with U+FFFD for each byte that is not part of any. -/
theorem C136_read (e : TextEnv) (name s : Bytes) (cs : List Char) (hn : Word name) (hs : Chars s cs) (tail : Bytes) (ht : tail = [] ∨ ∃ r, tail = 0 :: r) :
    let d := [40] ++ name ++ [32, 34] ++ quoteWrite s ++ [34, 41, 10] ++ tail
    parseTags e (d.length + 1) d = .ok (some [(name, [.str (cs.flatMap String.utf8EncodeChar)])]) := by
  obtain ⟨ds, h1, h2⟩ := quoteWrite_steps s.length s (Nat.le_refl _)
  obtain rfl := chars_unique hs h1
  have := C75_parse e [(name, [.quoted (quoteWrite s) (cs.flatMap String.utf8EncodeChar)])] [(name, [.str (cs.flatMap String.utf8EncodeChar)])] tail
    (fun t h => by
      rw [List.mem_singleton] at h
      subst h
      exact ⟨hn, h2, trivial⟩) rfl ht
  simpa [description, Item.print, printAll] using this

/-- a line break, a quote and a byte that is no character -/
example : Chars [10, 34, 255] ['\n', '"', '�'] ∧ quoteWrite [10, 34, 255] = [10, 92, 34, 0xef, 0xbf, 0xbd] := by
  refine ⟨.char (c := '\n') (.char (c := '"') (.bad ?_ .nil)), by decide⟩
  exact decodeRune_none.1 (by decide)

/-- C136: so a text comes back as it was exactly if it is UTF-8, whatever characters it has. -/
theorem C136_same (e : TextEnv) (name s : Bytes) (hn : Word name) :
    let d := [40] ++ name ++ [32, 34] ++ quoteWrite s ++ [34, 41, 10]
    parseTags e (d.length + 1) d = .ok (some [(name, [.str s])]) ↔ Utf8 s := by
  intro d
  obtain ⟨cs, hs, -⟩ := quoteWrite_steps s.length s (Nat.le_refl _)
  have h := C136_read e name s cs hn hs [] (.inl rfl)
  rw [List.append_nil] at h
  dsimp only at h
  show parseTags e (d.length + 1) d = _ ↔ _
  rw [h]
  constructor
  · intro hh
    have : cs.flatMap String.utf8EncodeChar = s := by
      injection hh with hh
      injection hh with hh
      injection hh with hh _
      injection hh with _ hh
      injection hh with hh _
      injection hh
    exact ⟨cs, this.symm⟩
  · rintro ⟨ds, rfl⟩
    rw [chars_unique hs (chars_enc ds)]

/-- a text with a quote, and one that is not UTF-8 -/
example : Word [109] ∧ Utf8 [10, 34] ∧ ¬Utf8 [255] := by
  refine ⟨by unfold Word NameByte; decide, ⟨['\n', '"'], by decide⟩, fun ⟨cs, h⟩ => ?_⟩
  rw [chars_unique (s := [255]) (cs := cs) (ds := ['�']) (h ▸ chars_enc cs) (.bad (decodeRune_none.1 (by decide)) .nil)] at h
  revert h; decide

/-- C136: it tells its caller that it has written everything. -/
theorem C136_count (s : Bytes) : quoteWriteCount s = s.length := rfl

example : quoteWriteCount [34, 65] = 2 := rfl

/-- C136: `%q`, which is used instead, writes the same for texts of printable characters, which are the ones it is right for (C54). -/
theorem C136_printable (e : TextEnv) (s : Bytes) (h : Plain e.printable s) : fmtQ e s = [34] ++ quoteWrite s ++ [34] := by
  have key : ∀ (f : Nat) (s : Bytes), s.length ≤ f → Plain e.printable s → quoteBody e f s = quoteWriteSteps f s := by
    intro f
    induction f with
    | zero => intro s _ _; unfold quoteBody quoteWriteSteps; rfl
    | succ f ih =>
      intro s hl hp
      cases s with
      | nil => unfold quoteBody quoteWriteSteps; rfl
      | cons b s =>
        rw [List.length_cons] at hl
        unfold quoteBody quoteWriteSteps
        cases hd : decodeRune (b :: s) with
        | none => exact absurd hp (not_plain hd)
        | some x =>
          obtain ⟨w, v⟩ := x
          obtain ⟨ht, hv, hw⟩ := decodeRune_take hd
          obtain ⟨-, he⟩ := decodeRune_inv _ _ _ hd
          have hp' : Printable e.printable v ∧ Plain e.printable ((b :: s).drop w) := by
            rw [he] at hp
            obtain ⟨c, rfl⟩ := char_of hv
            obtain ⟨cs, h1, h2⟩ := hp
            cases cs with
            | nil => exact absurd (List.append_eq_nil_iff.1 h1).1 (encNat_ne _)
            | cons d cs =>
              rw [List.flatMap_cons, enc_char] at h1
              have a := decodeRune_enc c.val.toNat c.valid ((b :: s).drop w)
              have b' := decodeRune_enc d.val.toNat d.valid (cs.flatMap String.utf8EncodeChar)
              rw [h1, b', Option.some.injEq, Prod.mk.injEq] at a
              rw [← a.2] at h1 ⊢
              exact ⟨h2 d (List.mem_cons_self ..), cs, List.append_cancel_left h1, fun x hx => h2 x (List.mem_cons_of_mem _ hx)⟩
          dsimp only
          rw [ih _ (by rw [List.length_drop, List.length_cons]; omega) hp'.2]
          congr 1
          unfold quoteRune
          by_cases c1 : v = 92
          · subst c1
            rw [if_pos (.inr rfl), if_pos rfl, ht]
            decide
          rw [if_neg c1]
          by_cases c2 : v = 34
          · subst c2
            rw [if_pos (.inl rfl), if_pos rfl, ht]
            decide
          rw [if_neg c2, if_neg (by rintro (h | h); exacts [c2 h, c1 h]), if_pos]
          rcases hp'.1 with h | h | h
          · unfold TextEnv.isPrint; rw [if_pos (by omega)]; simp; omega
          · unfold TextEnv.isPrint; rw [if_pos (by omega)]; simp; omega
          · unfold TextEnv.isPrint; rw [if_neg (by omega)]; exact h.2
  unfold fmtQ quoteWrite
  rw [key _ s (Nat.le_refl _) h]

/-- a line of text with a quote -/
example (e : TextEnv) : Plain e.printable [65, 34, 66] ∧ fmtQ e [65, 34, 66] = [34, 65, 92, 34, 66, 34] :=
  have h : Plain e.printable [65, 34, 66] := ⟨['A', '"', 'B'], by decide, fun c hc => .inl (by revert c hc; decide)⟩
  ⟨h, (C136_printable e _ h).trans (by decide)⟩

/-! ### C137 -/

/-- C137: `ReadParasite` reads a parasite as XCF files have them, and stops behind it. -/
theorem C137_reads (name data : Bytes) (flags : UInt32) (hu : Utf8 name) (hn : name.length + 1 ≤ 16777216) (hd : data.length < 2 ^ 32) (r : R)
    (hr : Sees r (Spec.parasite name flags.toNat data)) (hl : r.pos + (Spec.parasite name flags.toNat data).length < r.limit) :
    readParasite r = .ok (⟨name, flags, data⟩, r.adv (Spec.parasite name flags.toNat data).length) := by
  have h : Eats readParasite (Spec.parasite name flags.toNat data) ⟨name, flags, data⟩ := by
    have hb : Spec.parasite name flags.toNat data = Spec.str name ++ (be 4 flags.toNat ++ (be 4 data.length ++ (data ++ []))) := by
      simp only [Spec.parasite, List.append_assoc, List.append_nil]
    rw [hb]
    unfold readParasite
    refine (readString_consumes name hn hu).eats.bind ((u32_be _).eats.bind ((u32_be _).eats.bind ?_))
    rw [u32_toNat hd, UInt32.ofNat_toNat]
    exact (readInto_eats data _ rfl).bind (Consumes.pure _).eats
  exact h r hr hl

/-- a parasite `"a"` with two bytes and something behind -/
example : let d := Spec.parasite [97] 1 [7, 8] ++ [0]
    Sees ⟨d, d.length, 0, none⟩ (Spec.parasite [97] 1 [7, 8]) ∧ readParasite ⟨d, d.length, 0, none⟩ = .ok (⟨[97], 1, [7, 8]⟩, ⟨d, d.length, 16, none⟩) := by
  intro d
  have hs : Sees ⟨d, d.length, 0, none⟩ (Spec.parasite [97] 1 [7, 8]) := ⟨rfl, ⟨[0], rfl⟩, by decide⟩
  exact ⟨hs, C137_reads [97] [7, 8] 1 ⟨['a'], by decide⟩ (by decide) (by decide) _ hs (by decide)⟩

/-- C137: wherever it reads, and whatever is there, it reads what `ReadParasites` reads of a list that says that it is as long as this parasite. -/
theorem C137_list (r r' : R) (p : Parasite) (h : readParasite r = .ok (p, r')) (l : UInt32)
    (hl : l = UInt32.ofNat (4 + p.name.length + 1 + 4 + 4 + p.data.length)) (hz : l ≠ 0) : readParasitesAll l r = .ok ([p], r') := by
  obtain ⟨f, hf⟩ : ∃ f, l.toNat + r.data.length + 2 = f + 2 := ⟨_, rfl⟩
  unfold readParasitesAll
  rw [hf]
  unfold readParasites
  rw [if_neg hz]
  unfold readParasite at h
  obtain ⟨name, r1, h1, h⟩ := M.bind_inv h
  obtain ⟨fl, r2, h2, h⟩ := M.bind_inv h
  obtain ⟨n, r3, h3, h⟩ := M.bind_inv h
  obtain ⟨data, r4, h4, h⟩ := M.bind_inv h
  cases h
  rw [M.bind_ok h1, M.bind_ok h2, M.bind_ok h3]
  have hn : data.length = n.toNat := by
    obtain ⟨p', r5, h5, hl, -⟩ := readInto_cases (List.replicate n.toNat 0) r3
    rw [h4] at h5
    cases h5
    rw [hl, List.length_replicate]
  have hread : 4 + UInt32.ofNat name.length + 1 + 4 + 4 + n = l := by
    rw [hl, hn]
    simp only [UInt32.ofNat_add, UInt32.ofNat_toNat]
    rfl
  rw [hread, if_neg (fun h => absurd h (UInt32.lt_irrefl _)), M.bind_ok h4, UInt32.sub_self]
  unfold readParasites
  rw [if_pos rfl]
  rfl

/-- the same parasite as a list of 16 bytes -/
example : let d := Spec.parasite [97] 1 [7, 8] ++ [0]
    readParasitesAll 16 ⟨d, d.length, 0, none⟩ = .ok ([⟨[97], 1, [7, 8]⟩], ⟨d, d.length, 16, none⟩) := by
  intro d
  exact C137_list _ _ _ (C137_reads [97] [7, 8] 1 ⟨['a'], by decide⟩ (by decide) (by decide) _ ⟨rfl, ⟨[0], rfl⟩, by decide⟩ (by decide)) 16 rfl (by decide)

end Limage
