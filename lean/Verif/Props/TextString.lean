import Verif.Props.Text
import Verif.Props.TextRead
import Verif.Props.TextMarkup
import Mathlib.Data.List.Induction
/-! # C99: the string of a text layer is its text -/
namespace Limage

namespace Spec

/-- the text in a description: that of the last `text` -/
def textIn (tags : List (Bytes × List Val)) : Bytes :=
  match (tags.filter fun t => t.1 = lit "text").getLast? with
  | some (_, .str s :: _) => s
  | _ => []

/-- the marked up text in a description: that of the last `markup` with one value -/
def markupIn (tags : List (Bytes × List Val)) : Bytes :=
  match (tags.filter fun t => t.1 = lit "markup" ∧ t.2.length = 1).getLast? with
  | some (_, [.str s]) => s
  | _ => []

/-- the characters in XML, without the markup -/
def characters (ts : List XmlTok) : Bytes :=
  ts.flatMap fun
    | .chars s => s
    | _ => []

end Spec
open Spec

theorem string_cons (d : TextDatum) (t : TextData) : TextData.string (d :: t) = d.data ++ TextData.string t := by
  have h : ∀ (t : TextData) (s : GoString), t.foldl (fun s d => s ++ d.data) s = s ++ TextData.string t := by
    intro t
    induction t with
    | nil => exact fun s => (List.append_nil s).symm
    | cons d t ih =>
      intro s
      rw [List.foldl_cons, ih, show TextData.string (d :: t) = t.foldl (fun s d => s ++ d.data) d.data from rfl, ih, List.append_assoc]
  exact h t _

theorem string_append (a b : TextData) : TextData.string (a ++ b) = TextData.string a ++ TextData.string b := by
  induction a with
  | nil => rfl
  | cons d a ih => rw [List.cons_append, string_cons, ih, string_cons, List.append_assoc]

theorem string_single (d : TextDatum) : TextData.string [d] = d.data := rfl

theorem markup_string (eof : Bool) (ts : List XmlTok) : ∀ (stack : List TextDatum) (rs : TextData),
    markupRuns eof ts stack = .ok (some rs) → TextData.string rs = characters ts := by
  induction ts with
  | nil =>
    intro stack rs h
    cases eof <;> cases h
    rfl
  | cons t ts ih =>
    intro stack rs h
    cases t with
    | start name attrs =>
      unfold markupRuns at h
      cases stack with
      | nil => cases h
      | cons d st =>
        dsimp only at h
        cases hp : processText name attrs d with
        | none => rw [hp] at h; cases h
        | some d' => rw [hp] at h; exact ih _ _ h
    | chars s =>
      unfold markupRuns at h
      cases stack with
      | nil => cases h
      | cons d st =>
        dsimp only at h
        cases hm : markupRuns eof ts (d :: st) with
        | panic => rw [hm] at h; cases h
        | hang => rw [hm] at h; cases h
        | ok o =>
          cases o with
          | none => rw [hm] at h; cases h
          | some rs' =>
            rw [hm] at h
            cases h
            rw [string_cons, ih _ _ hm]
            rfl
    | stop =>
      unfold markupRuns at h
      cases stack with
      | nil => cases h
      | cons d st => exact ih _ _ h
    | other => exact ih _ _ h

theorem getLast?_filter_append {α : Type} (p : α → Bool) (l : List α) (a : α) :
    ((l ++ [a]).filter p).getLast? = if p a then some a else (l.filter p).getLast? := by
  rw [List.filter_append]
  cases h : p a
  · simp [h]
  · simp [h]

/-- what `parseText` finds -/
theorem parseText_finds (tags : List (Bytes × List Val)) (markup : Bytes) (d : TextDatum)
    (h : parseText tags = some (markup, d)) : d.data = textIn tags ∧ markup = markupIn tags := by
  induction tags using List.reverseRecOn generalizing markup d with
  | nil => cases h; exact ⟨rfl, rfl⟩
  | append_singleton tags t ih =>
    unfold parseText at h ih
    rw [List.foldlM_append] at h
    obtain ⟨⟨m0, d0⟩, h0, h⟩ := Option.bind_eq_some_iff.1 h
    obtain ⟨i1, i2⟩ := ih _ _ h0
    rw [List.foldlM_cons] at h
    obtain ⟨⟨m1, d1⟩, h1, h⟩ := Option.bind_eq_some_iff.1 h
    cases h
    unfold textIn markupIn at *
    rw [getLast?_filter_append, getLast?_filter_append]
    obtain ⟨n, vs⟩ := t
    unfold parseTextTag at h1
    dsimp only at h1
    by_cases hn : n = lit "text"
    · rw [if_pos hn] at h1
      have hm : ¬ (decide (n = lit "markup" ∧ vs.length = 1)) = true := by
        rw [decide_eq_true_eq]; rintro ⟨h, -⟩; rw [hn] at h; exact absurd h (by decide)
      rw [if_neg hm, if_pos (decide_eq_true hn)]
      cases vs with
      | nil => cases h1
      | cons v vs =>
        cases h1
        refine ⟨?_, i2⟩
        cases v <;> rfl
    · rw [if_neg hn] at h1
      have ht : ¬ (decide (n = lit "text")) = true := by rwa [decide_eq_true_eq]
      rw [if_neg ht]
      match vs, h1 with
      | [], h1 =>
        cases h1
        rw [if_neg (by rw [decide_eq_true_eq]; rintro ⟨-, h⟩; simp at h)]
        exact ⟨i1, i2⟩
      | _ :: _ :: _, h1 =>
        cases h1
        rw [if_neg (by rw [decide_eq_true_eq]; rintro ⟨-, h⟩; simp at h)]
        exact ⟨i1, i2⟩
      | [v], h1 =>
        dsimp only at h1
        by_cases hm : n = lit "markup"
        · rw [if_pos hm] at h1
          cases h1
          rw [if_pos (decide_eq_true ⟨hm, rfl⟩)]
          refine ⟨i1, ?_⟩
          cases v <;> rfl
        · rw [if_neg hm] at h1
          rw [if_neg (by rw [decide_eq_true_eq]; exact fun h => hm h.1)]
          split at h1
          · cases h1; exact ⟨i1, i2⟩
          split at h1
          · cases h1; exact ⟨i1, i2⟩
          split at h1
          · obtain ⟨c, _, h1⟩ := Option.bind_eq_some_iff.1 h1
            cases h1; exact ⟨i1, i2⟩
          · cases h1; exact ⟨i1, i2⟩

/-- C99: the string of a text layer is the text of its description, and where there is none the characters of its markup, whatever the
styles are; this holds of every description that is read. -/
theorem C99_decoded (e : TextEnv) (xml : Bytes → List XmlTok × Bool) (b : Bytes) (rs : TextData)
    (h : parseTextData e xml b = .ok (some rs)) :
    ∃ tags, parseTags e (b.length + 1) b = .ok (some tags) ∧
      TextData.string rs = if textIn tags ≠ [] then textIn tags else characters (xml (markupIn tags)).1 := by
  unfold parseTextData at h
  split at h
  · cases h
  · cases h
  · cases h
  · rename_i tags ht
    refine ⟨tags, ht, ?_⟩
    split at h
    · cases h
    · rename_i markup d hp
      obtain ⟨h1, h2⟩ := parseText_finds tags markup d hp
      rw [← h1, ← h2]
      split at h
      · rename_i hd
        cases h
        rw [if_pos hd]
        exact string_single d
      · rename_i hd
        rw [if_neg hd]
        exact markup_string _ _ _ _ h

/-- marked up text: `a<b>c</b>` has the string `ac` -/
example : ∃ rs, parseTextData ⟨fun _ => false, fun _ => none⟩ (fun _ => (tokensAll [.text (lit "a"), .elem (lit "b") [] [.text (lit "c")]], true))
      (description [(lit "markup", [.quoted [] []])]) = .ok (some rs) ∧
    characters (tokensAll [.text (lit "a"), .elem (lit "b") [] [.text (lit "c")]]) = lit "ac" := by
  obtain ⟨rs, -, h⟩ := C77_layer ⟨fun _ => false, fun _ => none⟩
    (fun _ => (tokensAll [.text (lit "a"), .elem (lit "b") [] [.text (lit "c")]], true)) [] [] .nil _ rfl (by
      simp only [AnyBad, Node.Bad, or_false, false_or]
      exact fun h => absurd h.1 (by decide))
  exact ⟨rs, h, by decide⟩

/-- C99 for descriptions as they are written, with the tags that they mean -/
theorem C99_written (e : TextEnv) (xml : Bytes → List XmlTok × Bool) (ts : List (Bytes × List Item)) (tags : List (Bytes × List Val))
    (hok : ∀ t ∈ ts, Word t.1 ∧ AllOkItems t.2) (hm : meaning e.parseFloat ts = some tags) (rs : TextData)
    (h : parseTextData e xml (description ts) = .ok (some rs)) :
    TextData.string rs = if textIn tags ≠ [] then textIn tags else characters (xml (markupIn tags)).1 := by
  obtain ⟨tags', h1, h2⟩ := C99_decoded e xml _ rs h
  have := C75_parse e ts tags [] hok hm (.inl rfl)
  rw [List.append_nil, h1] at this
  cases this
  exact h2

/-- a description that consists of an empty markup -/
example : (∀ t ∈ [(lit "markup", [Item.quoted [] []])], Word t.1 ∧ AllOkItems t.2) ∧
    meaning (fun _ => none) [(lit "markup", [.quoted [] []])] = some [(lit "markup", [.str []])] := by
  refine ⟨fun t ht => ?_, rfl⟩
  rw [List.mem_singleton.1 ht]
  refine ⟨?_, ?_⟩
  · unfold Word NameByte; decide
  · simp [AllOkItems, Item.Ok]; exact .nil

/-- C99, after an XCF round trip (C54): the string of a text is what it was exactly if its characters are printable. -/
theorem C99_back (pr : Nat → Bool) (d : TextDatum) (t' : TextData) (h : TextBack pr d t') :
    TextData.string t' = TextData.string [d] ↔ Plain pr d.data := by
  unfold TextBack at h
  split at h
  · rename_i hd
    subst h
    rw [hd]
    exact ⟨fun _ => plain_nil _, fun _ => by rw [string_single, hd]; rfl⟩
  · obtain ⟨d', rfl, -, h6, -⟩ := h
    rw [string_single, string_single]
    exact h6

/-- a text of one letter, which comes back black and without style -/
example : TextBack (fun _ => false) ⟨some (.lrgb 9 0 0), some (.gray 0), 18, 0, 0, true, false, false, false, [], [97]⟩
    [⟨some (.gray 0), some (.alpha 0), 18, 0, 0, false, false, false, false, [], [97]⟩] := by
  refine (if_neg (by decide)).mpr ⟨_, rfl, rfl, ⟨fun _ => ⟨['a'], by decide, ?_⟩, fun _ => rfl⟩, ⟨fun _ => plain_nil _, fun _ => rfl⟩, rfl, rfl, rfl, rfl, rfl, rfl, rfl, rfl⟩
  intro c hc
  rw [List.mem_singleton] at hc
  subst hc
  unfold Printable
  decide

/-- C99: how a text is cut into runs does not matter -/
theorem C99_runs (rss : List TextData) : TextData.string rss.flatten = (rss.map TextData.string).flatten ∧
    ∀ d d' : TextDatum, ∀ a b, TextData.string (a ++ [d, d'] ++ b) = TextData.string (a ++ [{ d with data := d.data ++ d'.data }] ++ b) := by
  refine ⟨?_, fun d d' a b => ?_⟩
  · induction rss with
    | nil => rfl
    | cons t rss ih => rw [List.flatten_cons, string_append, ih]; rfl
  · simp only [string_append, string_cons, List.append_assoc]

/-- `ab` in two runs and in one -/
example (d : TextDatum) : TextData.string [{ d with data := lit "a" }, { d with data := lit "b" }] = lit "ab" := rfl

example : TextBack (fun _ => false) ⟨some (.gray 0), some (.gray 0), 18, 0, 0, false, false, false, false, lit "Sans", []⟩ [] := rfl

end Limage
