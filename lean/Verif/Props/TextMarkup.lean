import Verif.Proofs.Markup
import Verif.Props.TextRead
/-!
# The markup of text: properties C56 and C77
-/
namespace Limage
open Spec

/-! ## C56: the markup written for a styled run is properly nested -/

/-- The whole claim would be: for every run of which markup is written, the markup is properly nested.
It holds for a font of which the name contains no `<`.  What is missing are the names with one: `fmt`'s `%q` does not escape it (see `C56_refuted`). -/
theorem C56_nested_partial (e : TextEnv) (td : TextDatum) (m : Bytes) (hf : 60 ∉ td.font) (h : writeTextMarkup e td = some m) : Nested m := by
  unfold writeTextMarkup at h
  obtain ⟨tags, ht, h⟩ := Option.bind_eq_some_iff.1 h
  cases h
  exact nested_around (runText_nested e td.data) tags (markupTags_pairs ht hf)

/-- bold and underlined red text in a font with a plain name -/
example (e : TextEnv) : ∃ m, 60 ∉ lit "Serif" ∧ writeTextMarkup e ⟨some (.rgba 255 0 0 255), some (.gray 0), 24, 0, 0, true, false, true, false, lit "Serif", lit "a<b"⟩ = some m :=
  ⟨_, by decide, rfl⟩

theorem writeRuns_nested (e : TextEnv) : ∀ (ts : TextData) (m : Bytes), (∀ td ∈ ts, 60 ∉ td.font) → writeRuns e ts = some m → Nested m
  | [], m, _, h => by cases h; exact .text List.not_mem_nil List.not_mem_nil
  | td :: ts, m, hf, h => by
    unfold writeRuns at h
    obtain ⟨a, ha, h⟩ := Option.bind_eq_some_iff.1 h
    obtain ⟨b, hb, h⟩ := Option.bind_eq_some_iff.1 h
    cases h
    exact .append (C56_nested_partial e td a (hf td (List.mem_cons_self ..)) ha)
      (writeRuns_nested e ts b (fun t ht => hf t (List.mem_cons_of_mem _ ht)) hb)

/-- the same for all the runs of a text, in their `markup` element -/
theorem C56_markup_partial (e : TextEnv) (ts : TextData) (m : Bytes) (hf : ∀ td ∈ ts, 60 ∉ td.font) (h : writeRuns e ts = some m) :
    Nested (lit "<markup>" ++ m ++ lit "</markup>") := by
  have := Nested.elem (name := lit "markup") (markupName_lit _ (by decide)) .nil (writeRuns_nested e ts m hf h)
  exact this

/-- two runs -/
example (e : TextEnv) : ∃ m, (∀ td ∈ [(⟨some (.gray 0), some (.gray 0), 18, 0, 0, true, false, false, false, lit "Sans", lit "x"⟩ : TextDatum),
    ⟨some (.gray 0), some (.gray 9), 18, 0, 0, false, true, false, false, lit "Serif", lit "y"⟩], 60 ∉ td.font) ∧
    writeRuns e [⟨some (.gray 0), some (.gray 0), 18, 0, 0, true, false, false, false, lit "Sans", lit "x"⟩,
      ⟨some (.gray 0), some (.gray 9), 18, 0, 0, false, true, false, false, lit "Serif", lit "y"⟩] = some m := ⟨_, by decide, rfl⟩

/-- For every font, whatever its name: the markup consists of what opens the elements, the text and what closes the elements, from the last to the
first. -/
theorem C56_order (e : TextEnv) (td : TextDatum) (m : Bytes) (h : writeTextMarkup e td = some m) :
    ∃ tags : List (Bytes × Bytes), m = tags.flatMap (·.1) ++ fmtQ e (htmlEscape td.data) ++ tags.reverse.flatMap (·.2) ∧
      ∀ t ∈ tags, ∃ name rest, MarkupName name ∧ t.1 = [60] ++ name ++ rest ++ [62] ∧ t.2 = [60, 47] ++ name ++ [62] := by
  unfold writeTextMarkup at h
  obtain ⟨tags, ht, h⟩ := Option.bind_eq_some_iff.1 h
  cases h
  refine ⟨tags, rfl, ?_⟩
  unfold markupTags at ht
  obtain ⟨f, -, ht⟩ := Option.bind_eq_some_iff.1 ht
  obtain ⟨b, -, ht⟩ := Option.bind_eq_some_iff.1 ht
  cases ht
  have hp : ∀ {t : Bytes × Bytes}, TagPair t → ∃ name rest, MarkupName name ∧ t.1 = [60] ++ name ++ rest ++ [62] ∧ t.2 = [60, 47] ++ name ++ [62] :=
    fun ⟨n, a, h1, _, h2, h3⟩ => ⟨n, a, h1, h2, h3⟩
  simp only [List.forall_mem_append]
  refine ⟨⟨⟨⟨⟨⟨⟨⟨⟨?_, ?_⟩, ?_⟩, ?_⟩, ?_⟩, ?_⟩, ?_⟩, ?_⟩, ?_⟩, ?_⟩ <;> apply forall_mem_if <;> intro _
  · exact hp (colorSpan_pair _ (markupName_lit _ (by decide)) _ _ _)
  · exact hp (colorSpan_pair _ (markupName_lit _ (by decide)) _ _ _)
  · exact ⟨lit "span", lit " font=" ++ fmtQ e td.font, markupName_lit _ (by decide), rfl, rfl⟩
  · exact hp (plainTag_pair "b" (markupName_lit _ (by decide)) rfl rfl)
  · exact hp (plainTag_pair "i" (markupName_lit _ (by decide)) rfl rfl)
  · exact hp (plainTag_pair "u" (markupName_lit _ (by decide)) rfl rfl)
  · exact hp (plainTag_pair "s" (markupName_lit _ (by decide)) rfl rfl)
  · exact hp (numSpan_pair _ (markupName_lit _ (by decide)) _)
  · exact hp (numSpan_pair _ (markupName_lit _ (by decide)) _)
  · exact hp (numSpan_pair _ (markupName_lit _ (by decide)) _)

/-- underlined text in a font whose name is not a plain one -/
example (e : TextEnv) : ∃ m, writeTextMarkup e ⟨some (.gray 0), some (.gray 0), 24, 0, 0, false, false, true, false, lit "a<b", lit "x"⟩ = some m := ⟨_, rfl⟩

/-- C56 is false: the markup of a run whose font has a name with more `<` than `>` is not nested. -/
theorem C56_refuted (e : TextEnv) (td : TextDatum) (m : Bytes) (hf : td.font.count 62 < td.font.count 60) (h : writeTextMarkup e td = some m) : ¬Nested m := by
  intro hn
  have h1 := nested_count hn
  unfold writeTextMarkup at h
  obtain ⟨tags, ht, h⟩ := Option.bind_eq_some_iff.1 h
  cases h
  have hs : td.font ≠ lit "Sans" := by intro h; rw [h] at hf; revert hf; decide
  have h2 := tags_angles ht hs
  have h3 : angles (tags.flatMap (·.1) ++ fmtQ e (htmlEscape td.data) ++ tags.reverse.flatMap (·.2)) = angles td.font := by
    rw [angles_append, angles_append, angles_reverse, angles_fmtQ, angles_zero (htmlEscape_angle (.inl rfl) _) (htmlEscape_angle (.inr rfl) _)]
    omega
  unfold angles at h3
  omega

/-- a font with the name `<` -/
example (e : TextEnv) : ∃ m, (lit "<").count 62 < (lit "<").count 60 ∧
    writeTextMarkup e ⟨some (.gray 0), some (.gray 0), 18, 0, 0, false, false, false, false, lit "<", lit "x"⟩ = some m := ⟨_, by decide, rfl⟩

/-! ## C77: the runs of marked up text have the styles of the elements around them -/

/-- The loop over the tokens of XML yields one run for each text, with the style given by the elements around it, in the order in which they are; and an
error exactly if a span somewhere has a number or a colour that is not one. -/
theorem C77_runs (ns : List Node) (d : TextDatum) :
    (¬AnyBad ns → ∃ rs, RunsIn ns d rs ∧ markupRuns true (tokensAll ns) [d] = .ok (some rs)) ∧
    (AnyBad ns → markupRuns true (tokensAll ns) [d] = .ok none) := by
  have h := markup_nodes true ns d [] []
  rw [List.append_nil] at h
  rcases h with ⟨h1, h2⟩ | ⟨rs, h1, h2, h3⟩
  · exact ⟨fun h => absurd h1 h, fun _ => h2⟩
  · refine ⟨fun _ => ⟨rs, h2, ?_⟩, fun h => absurd h h1⟩
    rw [h3]
    show prependRuns rs (.ok (some [])) = _
    simp [prependRuns]

/-- `a<b>c<span size="10240">d</span></b>`: three runs -/
example : ¬AnyBad [.text (lit "a"), .elem (lit "b") [] [.text (lit "c"), .elem (lit "span") [(lit "size", lit "10240")] [.text (lit "d")]]] ∧
    RunsIn [.text (lit "a"), .elem (lit "b") [] [.text (lit "c"), .elem (lit "span") [(lit "size", lit "10240")] [.text (lit "d")]]]
      ⟨some (.gray 0), some (.alpha 0), 0, 0, 0, false, false, false, false, [], []⟩
      [⟨some (.gray 0), some (.alpha 0), 0, 0, 0, false, false, false, false, [], lit "a"⟩,
        ⟨some (.gray 0), some (.alpha 0), 0, 0, 0, true, false, false, false, [], lit "c"⟩,
        ⟨some (.gray 0), some (.alpha 0), 10, 0, 0, true, false, false, false, [], lit "d"⟩] := by
  have h : ¬AnyBad [.text (lit "a"), .elem (lit "b") [] [.text (lit "c"), .elem (lit "span") [(lit "size", lit "10240")] [.text (lit "d")]]] := by
    have h1 : decimalU32 (lit "10240") ≠ none := by decide +kernel
    have h2 : lit "size" ≠ lit "foreground" := by decide
    have h3 : lit "b" ≠ lit "span" := by decide
    simp [AnyBad, Node.Bad, BadAttr, h1, h2, h3]
  refine ⟨h, ?_⟩
  obtain ⟨rs, h1, h2⟩ := (C77_runs _ ⟨some (.gray 0), some (.alpha 0), 0, 0, 0, false, false, false, false, [], []⟩).1 h
  have h3 : markupRuns true (tokensAll [.text (lit "a"), .elem (lit "b") [] [.text (lit "c"), .elem (lit "span") [(lit "size", lit "10240")] [.text (lit "d")]]])
      [⟨some (.gray 0), some (.alpha 0), 0, 0, 0, false, false, false, false, [], []⟩] = .ok (some [⟨some (.gray 0), some (.alpha 0), 0, 0, 0, false, false, false, false, [], lit "a"⟩,
        ⟨some (.gray 0), some (.alpha 0), 0, 0, 0, true, false, false, false, [], lit "c"⟩,
        ⟨some (.gray 0), some (.alpha 0), 10, 0, 0, true, false, false, false, [], lit "d"⟩]) := by rfl
  rw [h3] at h2
  cases h2
  exact h1

/-- an error: a size that is not a number -/
example : AnyBad [.elem (lit "span") [(lit "size", lit "big")] []] :=
  .inl (.inl ⟨rfl, _, List.mem_singleton.2 rfl, .inr ⟨.inl rfl, by decide +kernel⟩⟩)

/-- the runs that the elements determine are unique, so the ones read are the only ones -/
theorem C77_unique (ns : List Node) (d : TextDatum) (rs rs' : TextData) (h : RunsIn ns d rs) (h' : markupRuns true (tokensAll ns) [d] = .ok (some rs')) :
    rs' = rs := by
  by_cases hb : AnyBad ns
  · rw [(C77_runs ns d).2 hb] at h'
    cases h'
  · obtain ⟨r, h1, h2⟩ := (C77_runs ns d).1 hb
    rw [h2] at h'
    cases h'
    exact runsIn_unique h1 h

/-- `a`: one run -/
example (d : TextDatum) : ∃ rs, RunsIn [.text (lit "a")] d rs ∧ markupRuns true (tokensAll [.text (lit "a")]) [d] = .ok (some rs) :=
  (C77_runs [.text (lit "a")] d).1 (by simp [AnyBad, Node.Bad])

/-- XML that is broken off is an error, whatever is in front of it -/
theorem C77_broken (ts : List XmlTok) (stack : List TextDatum) (rs : TextData) : markupRuns false ts stack ≠ .ok (some rs) := by
  induction ts generalizing stack rs with
  | nil => intro h; cases h
  | cons t ts ih =>
    cases t with
    | start name attrs =>
      unfold markupRuns
      cases stack with
      | nil => intro h; cases h
      | cons d st =>
        dsimp only
        cases processText name attrs d with
        | none => intro h; cases h
        | some d' => exact ih _ _
    | chars s =>
      conv => lhs; unfold markupRuns
      cases stack with
      | nil => intro h; cases h
      | cons d st =>
        dsimp only
        generalize hx : markupRuns false ts (d :: st) = x
        match x with
        | .ok (some r) => exact absurd hx (ih _ _)
        | .ok none => intro h; cases h
        | .panic => intro h; cases h
        | .hang => intro h; cases h
    | stop =>
      unfold markupRuns
      cases stack with
      | nil => intro h; cases h
      | cons d st => exact ih _ _
    | other => exact ih _ _

example : markupRuns false [] [] ≠ .ok (some []) := C77_broken [] [] []

/-- A text layer with marked up text: a description that consists of one `markup`, of which the XML has the given nodes.  The runs start from a
style without a font, with size 0. -/
theorem C77_layer (e : TextEnv) (xml : Bytes → List XmlTok × Bool) (w s : Bytes) (hq : Quoting w s) (ns : List Node) (hx : xml s = (tokensAll ns, true))
    (hb : ¬AnyBad ns) :
    ∃ rs, RunsIn ns ⟨some (.gray 0), some (.alpha 0), 0, 0, 0, false, false, false, false, [], []⟩ rs ∧
      parseTextData e xml (description [(lit "markup", [.quoted w s])]) = .ok (some rs) := by
  have hp := C75_parse e [(lit "markup", [.quoted w s])] [(lit "markup", [.str s])] [] (by
    intro t ht
    rw [List.mem_singleton] at ht
    subst ht
    refine ⟨⟨(by decide : lit "markup" ≠ []), ?_⟩, hq, trivial⟩
    show ∀ b ∈ lit "markup", NameByte b
    unfold NameByte
    decide) rfl (.inl rfl)
  rw [List.append_nil] at hp
  obtain ⟨rs, h1, h2⟩ := (C77_runs ns ⟨some (.gray 0), some (.alpha 0), 0, 0, 0, false, false, false, false, [], []⟩).1 hb
  refine ⟨rs, h1, ?_⟩
  unfold parseTextData
  rw [hp]
  have ht : parseText [(lit "markup", [.str s])] = some (s, ⟨some (.gray 0), some (.alpha 0), 0, 0, 0, false, false, false, false, [], []⟩) := rfl
  dsimp only
  rw [ht]
  dsimp only
  rw [if_neg (by simp), hx]
  exact h2

/-- a quoted string with a quote -/
example : Quoting (lit "<b>a\\\"</b>") (lit "<b>a\"</b>") := by
  unfold lit
  repeat first | exact .nil | exact .drop (.inl rfl) (by repeat first | exact .nil | refine .plain (by decide) (by decide) ?_) | refine .plain (by decide) (by decide) ?_

end Limage
