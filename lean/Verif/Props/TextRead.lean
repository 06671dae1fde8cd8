import Verif.Props.Decode
import Verif.Proofs.ReadHead
import Verif.Proofs.TextTotal
/-!
# C46, C47, C75, C76: reading the descriptions of text layers
-/
namespace Limage
open Spec

/-! ### C75 -/

/-- C75: every description made of words, quoted strings, numbers and nested tags is read as what it means, whatever follows the
zero byte behind it. -/
theorem C75_parse (e : TextEnv) (ts : List (Bytes × List Item)) (rs : List (Bytes × List Val)) (tail : Bytes)
    (hok : ∀ t ∈ ts, Word t.1 ∧ AllOkItems t.2) (hm : meaning e.parseFloat ts = some rs) (ht : tail = [] ∨ ∃ r, tail = 0 :: r) :
    parseTags e ((description ts ++ tail).length + 1) (description ts ++ tail) = .ok (some rs) :=
  parseTags_printed e ts rs tail _ hok hm ht (by omega)

/-- a description with all kinds of values: `(font-size 18.5)` and `(color (color-rgb 1 2))` and `(text "a\"b")` -/
example : (∀ t ∈ ([(lit "font-size", [.number (lit "18.5")]),
        (lit "color", [.tag (lit "color-rgb") [.number (lit "1"), .word (lit "x")]]),
        (lit "text", [.quoted (lit "a\\\"b") (lit "a\"b")])] : List (Bytes × List Item)), Word t.1 ∧ AllOkItems t.2) ∧
    meaning (fun _ => some (7, 7)) [(lit "font-size", [.number (lit "18.5")])] = some [(lit "font-size", [.num 7 7])] := by
  refine ⟨?_, rfl⟩
  have hw : ∀ s : String, (lit s).all isName = true ∧ lit s ≠ [] → Word (lit s) := lit_word
  intro t ht
  simp only [List.mem_cons, List.not_mem_nil, or_false] at ht
  rcases ht with rfl | rfl | rfl
  · refine ⟨hw _ (by decide), ?_, trivial⟩
    exact ⟨lit "18", by decide, by unfold Digits; decide, .inr ⟨lit "5", by unfold Digits; decide, rfl⟩⟩
  · refine ⟨hw _ (by decide), ⟨hw _ (by decide), ?_, hw _ (by decide), trivial⟩, trivial⟩
    exact ⟨lit "1", by decide, by unfold Digits; decide, .inl rfl⟩
  · refine ⟨hw _ (by decide), ?_, trivial⟩
    exact .plain (by decide) (by decide) (.drop (.inl rfl) (.plain (by decide) (by decide) .nil))

/-! ### C76 -/

/-- Specification: a tag that a description must not have: a text without a value, or a colour with fewer than three parts. -/
def Spec.BadTag (t : Bytes × List Val) : Prop :=
  t.1 = lit "text" ∧ t.2 = [] ∨ t.1 = lit "color" ∧ ∃ vs, t.2 = [.tag (lit "color-rgb") vs] ∧ vs.length < 3

theorem parseColor_none (v : Val) (c : Option Color) : parseColor v c = none ↔ ∃ vs, v = .tag (lit "color-rgb") vs ∧ vs.length < 3 := by
  cases v with
  | str s => simp [parseColor]
  | num a b => simp [parseColor]
  | tag name vs =>
    unfold parseColor
    dsimp only
    constructor
    · intro h
      split at h
      · rename_i hc
        refine ⟨vs, by rw [hc.1], ?_⟩
        match vs, h with
        | [], _ => simp
        | [_], _ => simp
        | [_, _], _ => simp
        | _ :: _ :: _ :: _, h => cases h
      · cases h
    · rintro ⟨ws, h, hl⟩
      cases h
      rw [if_pos ⟨rfl, by omega⟩]
      match vs, hl with
      | [], _ => rfl
      | [_], _ => rfl
      | [_, _], _ => rfl

theorem parseTextTag_none (s : Bytes × TextDatum) (t : Bytes × List Val) : parseTextTag s t = none ↔ BadTag t := by
  obtain ⟨markup, d⟩ := s
  obtain ⟨n, vs⟩ := t
  unfold parseTextTag BadTag
  dsimp only
  have hct : lit "color" ≠ lit "text" := by decide
  by_cases h : n = lit "text"
  · rw [if_pos h]
    subst h
    cases vs with
    | nil => simp
    | cons v vs => simp [hct.symm]
  · rw [if_neg h]
    match vs with
    | [] => simp [h]
    | [v] =>
      have h1 : lit "color" ≠ lit "markup" := by decide
      have h2 : lit "color" ≠ lit "font" := by decide
      have h3 : lit "color" ≠ lit "font-size" := by decide
      by_cases hc : n = lit "color"
      · subst hc
        dsimp only
        rw [if_neg h1, if_neg h2, if_neg h3, if_pos rfl]
        simp only [Option.bind_eq_bind, Option.bind_eq_none_iff, Option.pure_def, reduceCtorEq, imp_false]
        rw [← Option.eq_none_iff_forall_ne_some, parseColor_none]
        simp
      · simp only [hc, h]
        constructor
        · intro hx
          exfalso
          split at hx
          · cases hx
          split at hx
          · cases hx
          split at hx <;> cases hx
        · rintro (hx | hx) <;> exact hx.1.elim
    | _ :: _ :: _ => simp [h]

/-- C76: reading the tags of a description panics exactly if one of them is a text without a value or a colour with fewer than
three parts. -/
theorem C76_panic_exact (tags : List (Bytes × List Val)) : parseText tags = none ↔ ∃ t ∈ tags, BadTag t := by
  unfold parseText
  generalize (([], _) : Bytes × TextDatum) = s
  induction tags generalizing s with
  | nil => simp
  | cons t ts ih =>
    rw [List.foldlM_cons, Option.bind_eq_bind, Option.bind_eq_none_iff]
    constructor
    · intro h
      cases hs : parseTextTag s t with
      | none => exact ⟨t, List.mem_cons_self .., (parseTextTag_none s t).1 hs⟩
      | some s' =>
        obtain ⟨x, hx, hb⟩ := (ih s').1 (h s' hs)
        exact ⟨x, List.mem_cons_of_mem _ hx, hb⟩
    · rintro ⟨x, hx, hb⟩ s' hs
      rcases List.mem_cons.1 hx with rfl | hx
      · rw [(parseTextTag_none s x).2 hb] at hs; cases hs
      · exact (ih s').2 ⟨x, hx, hb⟩

/-- a text without a value, and one with a value -/
example : BadTag (lit "text", []) ∧ ¬BadTag (lit "text", [.str []]) := by
  refine ⟨.inl ⟨rfl, rfl⟩, ?_⟩
  rintro (⟨-, h⟩ | ⟨h, -⟩)
  · cases h
  · revert h
    decide

/-- Specification: elements are only closed when there is an open one (`n` are open); so `encoding/xml` returns them. -/
def Spec.Balanced : Nat → List XmlTok → Prop
  | _, [] => True
  | n, .start _ _ :: ts => Balanced (n + 1) ts
  | 0, .stop :: _ => False
  | n + 1, .stop :: ts => Balanced n ts
  | n, _ :: ts => Balanced n ts

theorem markupRuns_total (eof : Bool) : ∀ (ts : List XmlTok) (n : Nat) (stack : List TextDatum), Balanced n ts → n < stack.length →
    ∃ r, markupRuns eof ts stack = .ok r
  | [], _, _, _, _ => ⟨_, rfl⟩
  | .start name attrs :: ts, n, d :: stack, h, hl => by
    unfold markupRuns
    dsimp only
    cases processText name attrs d with
    | none => exact ⟨_, rfl⟩
    | some d' => exact markupRuns_total eof ts (n + 1) _ h (by simpa using hl)
  | .chars s :: ts, n, d :: stack, h, hl => by
    unfold markupRuns
    dsimp only
    obtain ⟨r, hr⟩ := markupRuns_total eof ts n (d :: stack) (by cases n <;> exact h) hl
    rw [hr]
    cases r <;> exact ⟨_, rfl⟩
  | .stop :: ts, n + 1, d :: stack, h, hl => by
    unfold markupRuns
    exact markupRuns_total eof ts n stack h (by simpa using hl)
  | .other :: ts, n, stack, h, hl => by
    unfold markupRuns
    exact markupRuns_total eof ts n stack (by cases n <;> exact h) hl

/-- C76 (the part that holds): a description whose characters outside of quoted strings are letters, dashes, numbers, parentheses,
spaces and line ends is read without looping forever; and there is a panic only for the tags in `BadTag`.
Full statement: reading a text layer neither panics nor loops forever, whatever its description is; false by
`C76_hang_refuted` and `C76_panic_refuted`. -/
theorem C76_reads_partial (e : TextEnv) (xml : Bytes → List XmlTok × Bool) (hxml : ∀ s, Balanced 0 (xml s).1) (data : Bytes)
    (hc : Clean .outside data) :
    (∃ r, parseTextData e xml data = .ok r) ∨
    ∃ tags, parseTags e (data.length + 1) data = .ok (some tags) ∧ (∃ t ∈ tags, BadTag t) ∧ parseTextData e xml data = .panic := by
  unfold parseTextData
  cases hp : parseTags e (data.length + 1) data with
  | panic => exact absurd hp (parseTags_fuel e _ _ (by omega))
  | hang => exact absurd hp (parseTags_clean e _ _ hc)
  | ok tags =>
    cases tags with
    | none => exact .inl ⟨_, rfl⟩
    | some tags =>
      dsimp only
      cases ht : parseText tags with
      | none => exact .inr ⟨tags, rfl, (C76_panic_exact tags).1 ht, rfl⟩
      | some x =>
        obtain ⟨markup, d⟩ := x
        dsimp only
        split
        · exact .inl ⟨_, rfl⟩
        · exact .inl (markupRuns_total _ _ 0 _ (hxml markup) (by simp))

example : Clean .outside (lit "(text \"#\\\" b\")\n(font-size 18.5)") ∧ Balanced 0 [.start (lit "b") [], .chars (lit "x"), .stop] := by
  refine ⟨?_, trivial⟩
  unfold lit
  simp [Clean, NameByte]

/-- C76: whatever the description, reading it never needs more steps than it has characters, unless it loops forever. -/
theorem C76_steps (e : TextEnv) (data : Bytes) : parseTags e (data.length + 1) data ≠ .panic :=
  parseTags_fuel e _ _ (by omega)

example (e : TextEnv) : parseTags e 4 [40, 97, 41] ≠ .panic := C76_steps e [40, 97, 41]

/-- C76 is false: a character that cannot start a value is read again and again. -/
theorem C76_hang_refuted (e : TextEnv) (xml : Bytes → List XmlTok × Bool) : parseTextData e xml (lit "(x #)") = .hang := by
  cbv

/-- C76 is false: a text without a value, and a colour with too few parts, panic. -/
theorem C76_panic_refuted (e : TextEnv) (xml : Bytes → List XmlTok × Bool) :
    parseTextData e xml (lit "(text)") = .panic ∧ parseTextData e xml (lit "(color (color-rgb))") = .panic := by
  refine ⟨by cbv, ?_⟩
  have h : parseTags e ((lit "(color (color-rgb))").length + 1) (lit "(color (color-rgb))") = .ok (some [(lit "color", [.tag (lit "color-rgb") []])]) := by
    cbv
  unfold parseTextData
  rw [h]
  dsimp only
  rw [(C76_panic_exact _).2 ⟨_, List.mem_singleton.2 rfl, .inr ⟨rfl, [], rfl, by decide⟩⟩]

/-! ### C46 and C47: in files -/

/-- grey pixels -/
def greyFmt : Fmt := ⟨1, 2, fun _ => [0, 0], none, fun _ => 0, fun _ _ _ => none, fun _ => 0⟩

theorem greyFmt_ok : FmtOk greyFmt := ⟨.inr (.inl ⟨rfl, rfl⟩), fun _ => rfl, fun h => by cases h⟩

/-- a file with a group that has a description of text -/
def textFile (t : Bytes) : Bytes :=
  fileHead greyFmt ⟨0, 0, 1, 1⟩ ++ [55].flatMap num ++ num 0 ++ num 0 ++
  -- 55: layer
  (layerHead greyFmt ⟨⟨[], ⟨0, 0, 1, 1⟩, 0, false, 0, .group []⟩, 0, 0, []⟩ (some t) ++ num 0 ++ num 0)

theorem layerRest_panic {c : Ctx} {w h ty : UInt32} {name t : Bytes} {s : LProps} {m : UInt64} (hg : s.group = true)
    (hs : s.parasites = [⟨textName, 0, t⟩]) (hp : c.env.parseText t = .panic) (r : R) : layerRest c w h ty name s m r = .panic := by
  have hf : getParasite [⟨textName, 0, t⟩] textParasiteName = some ⟨textName, 0, t⟩ := by
    unfold getParasite
    rw [textName_eq]
    simp
  unfold layerRest
  rw [hg, hs, M.bind_ok (show layerImage c true w h ty r = .ok (some .nil, r) from rfl)]
  dsimp only
  have ht : layerText c [⟨textName, 0, t⟩] .nil = M.panic := by
    unfold layerText
    rw [hf]
    dsimp only
    rw [hp]
  rw [ht]
  rfl

theorem layerRest_hang {c : Ctx} {w h ty : UInt32} {name t : Bytes} {s : LProps} {m : UInt64} (hg : s.group = true)
    (hs : s.parasites = [⟨textName, 0, t⟩]) (hp : c.env.parseText t = .hang) (r : R) : layerRest c w h ty name s m r = .hang := by
  have hf : getParasite [⟨textName, 0, t⟩] textParasiteName = some ⟨textName, 0, t⟩ := by
    unfold getParasite
    rw [textName_eq]
    simp
  unfold layerRest
  rw [hg, hs, M.bind_ok (show layerImage c true w h ty r = .ok (some .nil, r) from rfl)]
  dsimp only
  have ht : layerText c [⟨textName, 0, t⟩] .nil = M.hang := by
    unfold layerText
    rw [hf]
    dsimp only
    rw [hp]
  rw [ht]
  rfl

/-- a file whose only layer fails -/
theorem decode_single {env : Env} {sch : Sched} {decompress : Bool} {D : Bytes} {h : Head} {r : R} {p : UInt64}
    (hh : readHead (newReader D) = .ok (.ok h, r)) (hp : h.ptrs = [p]) :
    (layerAtPtr (h.ctx env decompress) D p = .panic → decodeImage env sch decompress D = .panic) ∧
    (layerAtPtr (h.ctx env decompress) D p = .hang → decodeImage env sch decompress D = .hang) := by
  refine ⟨fun hl => ?_, fun hl => ?_⟩ <;>
  · unfold decodeImage
    rw [hh]
    dsimp only
    unfold decodeLayers readLayers
    rw [hp, List.map_singleton, hl]
    rfl

theorem layerAtPtr_hang {D : Bytes} {c : Ctx} {p : Nat} (hp : p < 2 ^ 32) (h : readLayer c (readerAt D p) = .hang) :
    layerAtPtr c D (UInt32.ofNat p).toUInt64 = .hang := by
  unfold layerAtPtr
  rw [M.bind_ok (goto_any (D := D) hp rfl rfl rfl), h]

theorem layerAtPtr_panics {D : Bytes} {c : Ctx} {p : Nat} (hp : p < 2 ^ 32) (h : readLayer c (readerAt D p) = .panic) :
    layerAtPtr c D (UInt32.ofNat p).toUInt64 = .panic := by
  unfold layerAtPtr
  rw [M.bind_ok (goto_any (D := D) hp rfl rfl rfl), h]

/-- what the parser does with the text of this file, the decoder does with the file -/
theorem textFile_fails (env : Env) (sch : Sched) (decompress : Bool) (t : Bytes) (ht : t.length < 1000000) :
    (env.parseText t = .panic → decodeImage env sch decompress (textFile t) = .panic) ∧
    (env.parseText t = .hang → decodeImage env sch decompress (textFile t) = .hang) := by
  have hlen : (textFile t).length ≤ maxString := by
    have hm : maxString = 16777216 := rfl
    have e : ∀ n, (num n).length = 4 := num_length
    have hn : textName.length = 15 := by decide
    unfold textFile fileHead layerHead kindProps
    simp only [List.length_append, e, Spec.text, textProps, prop, int, colorMap, greyFmt, fileMagic, isGroupLayer, List.length_cons, List.length_nil, hn]
    simp [e]
    omega
  have htake : (textFile t).take maxString = textFile t := List.take_of_length_le hlen
  have h1 : HasAt ((textFile t).take maxString) 0 (fileHead greyFmt ⟨0, 0, 1, 1⟩ ++ [55].flatMap num ++ num 0 ++ num 0) := by
    rw [htake]
    unfold HasAt textFile
    rw [List.drop_zero, List.take_left']
    rfl
  have h2 : HasAt ((textFile t).take maxString) 55 (layerHead greyFmt ⟨⟨[], ⟨0, 0, 1, 1⟩, 0, false, 0, .group []⟩, 0, 0, []⟩ (some t) ++ num 0 ++ num 0) := by
    rw [htake]
    unfold HasAt textFile
    rw [List.drop_left' (by rfl), List.take_length]
  obtain ⟨r', hh⟩ := readHead_at greyFmt_ok h1 (by decide)
  have hr := fun c hb hm => readLayer_head (c := c) greyFmt_ok hb hm h2 (show Utf8 [] from ⟨[], rfl⟩) (by decide)
  refine ⟨fun hp => (decode_single hh rfl).1 (layerAtPtr_panics (by decide) ?_), fun hp => (decode_single hh rfl).2 (layerAtPtr_hang (by decide) ?_)⟩
  · rw [hr _ rfl rfl]
    exact layerRest_panic rfl rfl hp _
  · rw [hr _ rfl rfl]
    exact layerRest_hang rfl rfl hp _

/-- C46 is false for text layers as well: a file in which the description of a text has a character that cannot start a value is
read forever. -/
theorem C46_text_refuted (e : TextEnv) (xml : Bytes → List XmlTok × Bool) (fo : UInt32 → UInt8) (sch : Sched) (decompress : Bool) :
    decodeImage ⟨fo, parseTextData e xml⟩ sch decompress (textFile (lit "(x #)")) = .hang :=
  (textFile_fails _ _ _ _ (by decide)).2 (C76_hang_refuted e xml)

/-- C47 is false for text layers as well: a file in which the description of a text has no value for the text crashes `Decode`. -/
theorem C47_text_refuted (e : TextEnv) (xml : Bytes → List XmlTok × Bool) (fo : UInt32 → UInt8) (sch : Sched) (decompress : Bool) :
    decodeImage ⟨fo, parseTextData e xml⟩ sch decompress (textFile (lit "(text)")) = .panic :=
  (textFile_fails _ _ _ _ (by decide)).1 (C76_panic_refuted e xml).1

/-- C46 with the parser of text.go: a file whose descriptions of text have only characters that can be read, and in which no image
of zero width has a height above 0xffffffc0, is not read forever.
Full statement: no file is; false by `C46_refuted` and `C46_text_refuted`. -/
theorem C46_clean_partial (e : TextEnv) (xml : Bytes → List XmlTok × Bool) (hxml : ∀ s, Balanced 0 (xml s).1)
    (env : Env) (he : env.parseText = parseTextData e xml) (sch : Sched) (hs : sch.Valid) (decompress : Bool) (D : Bytes)
    (hc : ∀ b, TextIn D b → Clean .outside b) (hn : NoWrap D) : decodeImage env sch decompress D ≠ .hang := by
  refine C46_terminates_partial env sch hs decompress D (fun b hb hh => ?_) hn
  rw [he] at hh
  rcases C76_reads_partial e xml hxml b (hc b hb) with ⟨r, h⟩ | ⟨_, _, _, h⟩
  · rw [h] at hh; cases hh
  · rw [h] at hh; cases hh

/-- files without the name of the parasite have no description -/
theorem textIn_none {D : Bytes} (h : (List.range (D.length + 1)).all (fun i => (D.drop i).take 15 != textName) = true) {b : Bytes} (hb : TextIn D b) :
    b = [] := by
  rcases hb with rfl | ⟨fl, x, k, -, -, -, p, q, hD⟩
  · rfl
  exfalso
  have h1 : D = (p ++ be 4 16) ++ (textName ++ (0 :: (be 4 fl ++ be 4 b.length ++ x ++ q))) := by
    rw [← hD]
    unfold str
    rw [if_neg (by decide)]
    simp only [List.append_assoc, List.cons_append, List.nil_append]
    rfl
  have h2 := List.all_eq_true.1 h (p ++ be 4 16).length (List.mem_range.2 (by
    have := congrArg List.length h1
    simp only [List.length_append] at this ⊢
    omega))
  rw [h1, List.drop_left, List.take_left' (by rfl)] at h2
  simp at h2

example : (∀ b, TextIn maskedLayer b → Clean .outside b) ∧ NoWrap maskedLayer :=
  ⟨fun b hb => by rw [textIn_none (by decide +kernel) hb]; exact trivial, noWrapB (by decide +kernel)⟩

end Limage
