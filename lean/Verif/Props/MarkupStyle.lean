import Verif.Props.TextMarkup
/-! # The markup of a run carries its style (C92) -/
namespace Limage

/-! ## Specification -/

namespace Spec

/-- an element without its content: name and attributes -/
abbrev Element := Bytes × List (Bytes × Bytes)

/-- an attribute as written, between quotes or between escaped quotes -/
def AttrText (a : Bytes × Bytes) (t : Bytes) : Prop :=
  60 ∉ a.2 ∧ 34 ∉ a.2 ∧ 92 ∉ a.2 ∧ 38 ∉ a.2 ∧
    (t = [32] ++ a.1 ++ [61, 34] ++ a.2 ++ [34] ∨ t = [32] ++ a.1 ++ [61, 92, 34] ++ a.2 ++ [92, 34])

/-- the opening tag of an element -/
def OpenTag (x : Element) (t : Bytes) : Prop :=
  ∃ ts, List.Forall₂ AttrText x.2 ts ∧ t = [60] ++ x.1 ++ ts.flatten ++ [62]

/-- the closing tag of an element -/
def closeTag (x : Element) : Bytes := [60, 47] ++ x.1 ++ [62]

/-- elements around a text, the first outermost -/
def around : List Element → Bytes → Node
  | [], s => .text s
  | x :: xs, s => .elem x.1 x.2 [around xs s]

/-- the opaque colours shown in a text: 8 bits of each channel -/
def shade (c : Option Color) : Option (UInt32 × UInt32 × UInt32) :=
  c.map fun c => let v := c.rgba32; (v.r >>> (8 : UInt32), v.g >>> (8 : UInt32), v.b >>> (8 : UInt32))

/-- The style that text has without any markup: Sans, 18, black. -/
structure DefaultStyle (d : TextDatum) : Prop where
  font : d.font = lit "Sans"
  size : d.size = 18
  spacing : d.letterSpacing = 0
  rise : d.rise = 0
  bold : d.bold = false
  italic : d.italic = false
  underline : d.underline = false
  strike : d.strikethrough = false
  fore : shade d.foreColor = some (0, 0, 0)

/-- a name of a font that can be written as it is -/
def PlainFont (s : Bytes) : Prop := ∀ b ∈ s, 32 ≤ b.toNat ∧ b.toNat < 127 ∧ b ≠ 34 ∧ b ≠ 92 ∧ b ≠ 60 ∧ b ≠ 38

/-- the style of the run `t` is that of `r`, apart from the background -/
structure SameStyle (t r : TextDatum) : Prop where
  font : r.font = t.font
  size : r.size = t.size
  spacing : r.letterSpacing = t.letterSpacing
  rise : r.rise = t.rise
  bold : r.bold = t.bold
  italic : r.italic = t.italic
  underline : r.underline = t.underline
  strike : r.strikethrough = t.strikethrough
  fore : shade r.foreColor = shade t.foreColor

end Spec
open Spec

/-! ## Single elements -/

/-- an optional element changes the style from `d` to `d'` -/
def Turns (xs : List Element) (d d' : TextDatum) : Prop :=
  (xs = [] ∧ d' = d) ∨ ∃ x, xs = [x] ∧ Styled x.1 x.2 d d' ∧ ¬(x.1 = lit "span" ∧ ∃ a ∈ x.2, BadAttr a)

theorem Turns.runs {xs ys : List Element} {d d' : TextDatum} {s : Bytes} {rs : TextData} (h : Turns xs d d')
    (hr : RunsOf (around ys s) d' rs) : RunsOf (around (xs ++ ys) s) d rs := by
  rcases h with ⟨rfl, rfl⟩ | ⟨x, rfl, h1, h2⟩
  · exact hr
  · have := RunsIn.cons hr .nil
    rw [List.append_nil] at this
    exact .elem h2 h1 this

/-- the tags of optional elements -/
def Tagged (xs : List Element) (tags : List (Bytes × Bytes)) : Prop :=
  List.Forall₂ (fun x t => OpenTag x t.1 ∧ t.2 = closeTag x) xs tags

theorem Tagged.append {a b : List Element} {s t : List (Bytes × Bytes)} (h : Tagged a s) (h' : Tagged b t) :
    Tagged (a ++ b) (s ++ t) := List.rel_append h h'

theorem plainFont_quote (e : TextEnv) : ∀ (f : Nat) (s : Bytes), PlainFont s → s.length ≤ f → quoteBody e f s = s
  | 0, [], _, _ => rfl
  | _ + 1, [], _, _ => rfl
  | f + 1, b :: s, h, hl => by
    obtain ⟨h1, h2, h3, h4, _⟩ := h b List.mem_cons_self
    have hb : b < 0x80 := UInt8.lt_iff_toNat_lt.2 (by show b.toNat < 128; omega)
    have hd : decodeRune (b :: s) = some (1, b.toNat) := by unfold decodeRune; dsimp only; rw [if_pos hb]
    unfold quoteBody
    rw [hd]
    dsimp only
    have hq : quoteRune e b.toNat [b] = [b] := by
      unfold quoteRune
      have n1 : ¬ (b.toNat = 34 ∨ b.toNat = 92) := by
        rintro (hx | hx)
        · exact h3 (UInt8.toNat_inj.1 hx)
        · exact h4 (UInt8.toNat_inj.1 hx)
      rw [if_neg n1, if_pos (isPrint_of (.inl ⟨by omega, by omega⟩))]
    show quoteRune e b.toNat [b] ++ quoteBody e f s = b :: s
    rw [hq, plainFont_quote e f s (fun x hx => h x (List.mem_cons_of_mem _ hx)) (by simpa using hl)]
    rfl

theorem lastOf_one {α : Type} (f : Bytes × Bytes → Option α) (a : Bytes × Bytes) : lastOf f [a] = f a := by
  unfold lastOf
  show [a].findSome? f = f a
  rw [List.findSome?_cons]
  cases f a <;> rfl

/-- what a span with one attribute does -/
theorem styled_span (a : Bytes × Bytes) (d : TextDatum) : Styled (lit "span") [a] d
    { d with
      font := (if a.1 = lit "font" then some a.2 else none).getD d.font
      foreColor := (if a.1 = lit "foreground" then (colourValue a.2).join else none).or d.foreColor
      size := (unitsOf "size" a).getD d.size
      letterSpacing := (unitsOf "letter_spacing" a).getD d.letterSpacing
      rise := (unitsOf "rise" a).getD d.rise } := by
  constructor
  all_goals first
    | rfl
    | (rw [if_pos rfl, lastOf_one])
    | (rw [decide_eq_false (by decide), Bool.or_false])

theorem units_read (name : String) {n : UInt32} (hn : n.toNat < 2 ^ 22) :
    unitsOf name (lit name, fmtDec (n <<< 10)) = some n ∧ decimalU32 (fmtDec (n <<< 10)) ≠ none := by
  obtain ⟨h1, h2, h3⟩ := fmtDec_spec (n <<< 10)
  have hv : (n <<< 10).toNat = n.toNat * 1024 := by
    rw [UInt32.toNat_shiftLeft]
    show (n.toNat <<< (10 % 32)) % 2 ^ 32 = _
    rw [show 10 % 32 = 10 from rfl, Nat.shiftLeft_eq, Nat.mod_eq_of_lt (by omega)]
  have hd : decimalU32 (fmtDec (n <<< 10)) = some (n.toNat * 1024) := by
    unfold decimalU32
    rw [if_pos ⟨h2, h1, by rw [h3]; exact (n <<< 10).toNat_lt⟩, h3, hv]
  constructor
  · unfold unitsOf
    rw [if_pos rfl, hd]
    show some (UInt32.ofNat (n.toNat * 1024 / 1024)) = some n
    rw [Nat.mul_div_cancel _ (by decide), UInt32.ofNat_toNat]
  · rw [hd]; simp

theorem hexNibble_digit (n : Fin 16) : hexNibble (hexDigit 65 n.val) = some n.val := by revert n; decide

/-- a channel as two digits -/
theorem hex2_bytes {n : UInt32} (h : n.toNat < 256) : fmtHex2 n = [hexDigit 65 (n.toNat / 16), hexDigit 65 (n.toNat % 16)] := by
  unfold fmtHex2
  rw [if_pos (UInt32.lt_iff_toNat_lt.2 h)]
  unfold hexFixed hexFixed hexFixed
  rw [Nat.mod_eq_of_lt (a := n.toNat / 16) (by omega)]
  rfl

theorem hex2_read {r g b : UInt32} (hr : r.toNat < 256) (hg : g.toNat < 256) (hb : b.toNat < 256) :
    colourValue (35 :: (fmtHex2 r ++ fmtHex2 g ++ fmtHex2 b)) =
      some (some (.rgba (UInt8.ofNat r.toNat) (UInt8.ofNat g.toNat) (UInt8.ofNat b.toNat) 255)) := by
  rw [hex2_bytes hr, hex2_bytes hg, hex2_bytes hb]
  have h := fun (n : Nat) (hn : n < 16) => hexNibble_digit ⟨n, hn⟩
  dsimp only at h
  show colourValue [35, _, _, _, _, _, _] = _
  rw [colour_long]
  have e : ∀ n : Nat, n < 256 → hexNibble (hexDigit 65 (n / 16)) = some (n / 16) ∧ hexNibble (hexDigit 65 (n % 16)) = some (n % 16) ∧ 16 * (n / 16) + n % 16 = n :=
    fun n hn => ⟨h _ (by omega), h _ (by omega), by omega⟩
  obtain ⟨r1, r2, r3⟩ := e _ hr
  obtain ⟨g1, g2, g3⟩ := e _ hg
  obtain ⟨b1, b2, b3⟩ := e _ hb
  rw [r1, r2, g1, g2, b1, b2]
  show some (some (Color.rgba (UInt8.ofNat (16 * _ + _)) (UInt8.ofNat (16 * _ + _)) (UInt8.ofNat (16 * _ + _)) 255)) = _
  rw [r3, g3, b3]

theorem decimal_plain (n : UInt32) : 60 ∉ fmtDec n ∧ 34 ∉ fmtDec n ∧ 92 ∉ fmtDec n ∧ 38 ∉ fmtDec n := by
  obtain ⟨h1, h2, h3⟩ := plainValue_dec n
  refine ⟨h1, h2, h3, fun h => ?_⟩
  have := decDigits_bytes _ _ _ h
  revert this
  decide

theorem hexDigit_38 (n : Nat) : hexDigit 65 (n % 16) ≠ 38 := by
  have h : ∀ n : Fin 16, hexDigit 65 n.val ≠ 38 := by decide
  exact h ⟨n % 16, Nat.mod_lt _ (by decide)⟩

theorem hexFixed_38 : ∀ k n : Nat, 38 ∉ hexFixed 65 k n
  | 0, _ => List.not_mem_nil
  | k + 1, n => by
    unfold hexFixed
    simp only [List.mem_append, List.mem_singleton, not_or]
    exact ⟨hexFixed_38 k _, Ne.symm (hexDigit_38 n)⟩

theorem hexDigits_38 : ∀ k n : Nat, 38 ∉ hexDigits 65 k n
  | 0, _ => List.not_mem_nil
  | k + 1, n => by
    unfold hexDigits
    simp only [List.mem_append, List.mem_singleton, not_or]
    refine ⟨?_, Ne.symm (hexDigit_38 n)⟩
    split
    · exact List.not_mem_nil
    · exact hexDigits_38 k _

theorem hex2_38 (n : UInt32) : 38 ∉ fmtHex2 n := by
  unfold fmtHex2
  split
  · exact hexFixed_38 _ _
  · exact hexDigits_38 _ _

theorem colour_plain (r g b : UInt32) :
    let v := 35 :: (fmtHex2 r ++ fmtHex2 g ++ fmtHex2 b)
    60 ∉ v ∧ 34 ∉ v ∧ 92 ∉ v ∧ 38 ∉ v := by
  intro v
  have h : PlainValue v := by
    have h35 : PlainValue [35] := by unfold PlainValue; decide
    exact h35.append (((plainValue_hex2 r).append (plainValue_hex2 g)).append (plainValue_hex2 b))
  refine ⟨h.1, h.2.1, h.2.2, ?_⟩
  simp only [v, List.mem_cons, List.mem_append, not_or]
  exact ⟨by decide, ⟨hex2_38 r, hex2_38 g⟩, hex2_38 b⟩

theorem openTag_color (attr : String) (r g b : UInt32) :
    OpenTag (lit "span", [(lit attr, 35 :: (fmtHex2 r ++ fmtHex2 g ++ fmtHex2 b))]) (colorSpan attr r g b) := by
  obtain ⟨h1, h2, h3, h4⟩ := colour_plain r g b
  refine ⟨[_], .cons ⟨h1, h2, h3, h4, .inr rfl⟩ .nil, ?_⟩
  unfold colorSpan
  rw [show lit "<span " = [60] ++ lit "span" ++ [32] from rfl, show lit "=\\\"#" = [61, 92, 34] ++ [35] from rfl, show lit "\\\">" = [92, 34] ++ [62] from rfl]
  simp only [List.append_assoc, List.cons_append, List.nil_append, List.flatten_cons, List.flatten_nil, List.append_nil]

theorem openTag_num (attr : String) (n : UInt32) : OpenTag (lit "span", [(lit attr, fmtDec n)]) (numSpan attr n) := by
  obtain ⟨h1, h2, h3, h4⟩ := decimal_plain n
  refine ⟨[_], .cons ⟨h1, h2, h3, h4, .inr rfl⟩ .nil, ?_⟩
  unfold numSpan
  rw [show lit "<span " = [60] ++ lit "span" ++ [32] from rfl, show lit "=\\\"" = [61, 92, 34] from rfl, show lit "\\\">" = [92, 34] ++ [62] from rfl]
  simp only [List.append_assoc, List.cons_append, List.nil_append, List.flatten_cons, List.flatten_nil, List.append_nil]

theorem openTag_font (e : TextEnv) {f : Bytes} (h : PlainFont f) :
    OpenTag (lit "span", [(lit "font", f)]) (lit "<span font=" ++ fmtQ e f ++ lit ">") := by
  have hn : ∀ x : UInt8, (x = 60 ∨ x = 34 ∨ x = 92 ∨ x = 38) → x ∉ f := by
    intro x hx hm
    obtain ⟨-, -, h1, h2, h3, h4⟩ := h x hm
    rcases hx with hx | hx | hx | hx
    · exact h3 hx
    · exact h1 hx
    · exact h2 hx
    · exact h4 hx
  refine ⟨[_], .cons ⟨hn _ (.inl rfl), hn _ (.inr (.inl rfl)), hn _ (.inr (.inr (.inl rfl))), hn _ (.inr (.inr (.inr rfl))), .inl rfl⟩ .nil, ?_⟩
  unfold fmtQ
  rw [plainFont_quote e _ f h (Nat.le_refl _), show lit "<span font=" = [60] ++ lit "span" ++ (32 :: lit "font") ++ [61] from rfl, show lit ">" = [62] from rfl]
  simp only [List.append_assoc, List.cons_append, List.nil_append, List.flatten_cons, List.flatten_nil, List.append_nil]

theorem openTag_plain (name : String) : OpenTag (lit name, []) ([60] ++ lit name ++ [62]) := ⟨[], .nil, by simp⟩

/-! ## The elements of a run -/

/-- an element for `c`, if `c` -/
def elemIf (c : Prop) [Decidable c] (x : Element) : List Element := if c then [x] else []

theorem tagged_if {c : Prop} [Decidable c] {x : Element} {t : Bytes × Bytes} (h : OpenTag x t.1) (h' : t.2 = closeTag x) :
    Tagged (elemIf c x) (if c then [t] else []) := by
  unfold elemIf
  split
  · exact .cons ⟨h, h'⟩ .nil
  · exact .nil

theorem turns_if {c : Prop} [Decidable c] {x : Element} {d d' : TextDatum} (h : c → Styled x.1 x.2 d d' ∧ ¬(x.1 = lit "span" ∧ ∃ a ∈ x.2, BadAttr a))
    (h' : ¬c → d' = d) : Turns (elemIf c x) d d' := by
  unfold elemIf
  split
  · rename_i hc; exact .inr ⟨x, rfl, (h hc).1, (h hc).2⟩
  · rename_i hc; exact .inl ⟨rfl, h' hc⟩

theorem one_bad {n : Bytes} {a : Bytes × Bytes} (h : ¬BadAttr a) : ¬(n = lit "span" ∧ ∃ b ∈ [a], BadAttr b) := by
  rintro ⟨-, b, hb, h'⟩
  rw [List.mem_singleton] at hb
  exact h (hb ▸ h')

theorem none_bad {n : Bytes} : ¬(n = lit "span" ∧ ∃ b ∈ ([] : List (Bytes × Bytes)), BadAttr b) := by
  rintro ⟨-, b, hb, -⟩
  exact absurd hb List.not_mem_nil

theorem turns_span {c : Prop} [Decidable c] {a : Bytes × Bytes} {d d' : TextDatum} (hb : c → ¬BadAttr a) (h : ¬c → d' = d)
    (h' : c → d' = { d with
      font := (if a.1 = lit "font" then some a.2 else none).getD d.font
      foreColor := (if a.1 = lit "foreground" then (colourValue a.2).join else none).or d.foreColor
      size := (unitsOf "size" a).getD d.size
      letterSpacing := (unitsOf "letter_spacing" a).getD d.letterSpacing
      rise := (unitsOf "rise" a).getD d.rise }) : Turns (elemIf c (lit "span", [a])) d d' :=
  turns_if (fun hc => ⟨(h' hc) ▸ styled_span a d, one_bad (hb hc)⟩) h

/-- the elements written for a run of which the foreground and background colours have the given values -/
def elementsFor (td : TextDatum) (f b : RGBA32) : List Element :=
  elemIf (f.r ≠ 0 ∨ f.g ≠ 0 ∨ f.b ≠ 0) (lit "span", [(lit "foreground", 35 :: (fmtHex2 (f.r >>> 8) ++ fmtHex2 (f.g >>> 8) ++ fmtHex2 (f.b >>> 8)))]) ++
    elemIf (b.r ≠ 0 ∨ b.g ≠ 0 ∨ b.b ≠ 0) (lit "span", [(lit "background", 35 :: (fmtHex2 b.r ++ fmtHex2 b.g ++ fmtHex2 b.b))]) ++
    elemIf (td.font ≠ lit "Sans") (lit "span", [(lit "font", td.font)]) ++
    elemIf (td.bold = true) (lit "b", []) ++
    elemIf (td.italic = true) (lit "i", []) ++
    elemIf (td.underline = true) (lit "u", []) ++
    elemIf (td.strikethrough = true) (lit "s", []) ++
    elemIf (td.letterSpacing ≠ 0) (lit "span", [(lit "letter_spacing", fmtDec (td.letterSpacing <<< 10))]) ++
    elemIf (td.size ≠ 18) (lit "span", [(lit "size", fmtDec (td.size <<< 10))]) ++
    elemIf (td.rise ≠ 0) (lit "span", [(lit "rise", fmtDec (td.rise <<< 10))])

theorem elements_tagged {e : TextEnv} {td : TextDatum} {tags : List (Bytes × Bytes)} (hf : PlainFont td.font) (h : markupTags e td = some tags) :
    ∃ f b, td.foreColor = some f ∧ td.backColor = some b ∧ Tagged (elementsFor td f.rgba32 b.rgba32) tags := by
  unfold markupTags at h
  obtain ⟨f, h1, h⟩ := Option.bind_eq_some_iff.1 h
  obtain ⟨b, h2, h⟩ := Option.bind_eq_some_iff.1 h
  cases h
  refine ⟨f, b, h1, h2, ?_⟩
  unfold elementsFor
  refine ((((((((Tagged.append ?_ ?_).append ?_).append ?_).append ?_).append ?_).append ?_).append ?_).append ?_).append ?_
  · exact tagged_if (openTag_color _ _ _ _) rfl
  · exact tagged_if (openTag_color _ _ _ _) rfl
  · exact tagged_if (openTag_font e hf) rfl
  · exact tagged_if (openTag_plain "b") rfl
  · exact tagged_if (openTag_plain "i") rfl
  · exact tagged_if (openTag_plain "u") rfl
  · exact tagged_if (openTag_plain "s") rfl
  · exact tagged_if (openTag_num _ _) rfl
  · exact tagged_if (openTag_num _ _) rfl
  · exact tagged_if (openTag_num _ _) rfl

theorem tagged_text : ∀ {xs : List Element} {tags : List (Bytes × Bytes)}, Tagged xs tags →
    ∃ ops, List.Forall₂ OpenTag xs ops ∧ tags.flatMap (·.1) = ops.flatten ∧ tags.reverse.flatMap (·.2) = xs.reverse.flatMap closeTag
  | _, _, .nil => ⟨[], .nil, rfl, rfl⟩
  | x :: xs, t :: ts, .cons h hs => by
    obtain ⟨ops, h1, h2, h3⟩ := tagged_text hs
    refine ⟨t.1 :: ops, .cons h.1 h1, ?_, ?_⟩
    · rw [List.flatMap_cons, h2, List.flatten_cons]
    · rw [List.reverse_cons, List.flatMap_append, h3, List.reverse_cons, List.flatMap_append, List.flatMap_singleton, List.flatMap_singleton, h.2]

theorem shade_rgba (r g b : UInt32) (hr : r.toNat < 256) (hg : g.toNat < 256) (hb : b.toNat < 256) :
    shade (some (.rgba (UInt8.ofNat r.toNat) (UInt8.ofNat g.toNat) (UInt8.ofNat b.toNat) 255)) = some (r, g, b) := by
  have h : ∀ n : UInt32, n.toNat < 256 → widen32 (UInt8.ofNat n.toNat) >>> (8 : UInt32) = n := by
    intro n hn
    have h' : ∀ k : Fin 256, (widen32 (UInt8.ofNat k.val) >>> (8 : UInt32)).toNat = k.val := by decide +kernel
    exact UInt32.toNat_inj.1 (h' ⟨n.toNat, hn⟩)
  show some (widen32 _ >>> (8 : UInt32), widen32 _ >>> (8 : UInt32), widen32 _ >>> (8 : UInt32)) = _
  rw [h r hr, h g hg, h b hb]

theorem flag_turns (name : String) {c : Bool} {d d' : TextDatum} (h : c = false → d' = d) (h' : c = true → Styled (lit name) [] d d') :
    Turns (elemIf (c = true) (lit name, [])) d d' :=
  turns_if (fun hc => ⟨h' hc, none_bad⟩) (fun hc => h (by simpa using hc))

theorem elements_runs {td : TextDatum} {f b : Color} (hfc : td.foreColor = some f) (hv : ValidRGBA f.rgba32)
    (hs : td.size.toNat < 2 ^ 22) (hl : td.letterSpacing.toNat < 2 ^ 22) (hr : td.rise.toNat < 2 ^ 22) {base : TextDatum} (hd : DefaultStyle base) (s : Bytes) :
    ∃ r, RunsOf (around (elementsFor td f.rgba32 b.rgba32) s) base [r] ∧ SameStyle td r ∧ r.backColor = base.backColor ∧ r.data = s := by
  have small : ∀ n : UInt32, n.toNat ≤ 65535 → (n >>> 8).toNat < 256 := by
    intro n hn
    rw [UInt32.toNat_shiftRight]
    show n.toNat >>> (8 % 32) < 256
    rw [show 8 % 32 = 8 from rfl, Nat.shiftRight_eq_div_pow]
    omega
  have c1 := small _ hv.1
  have c2 := small _ hv.2.1
  have c3 := small _ hv.2.2.1
  have hcol := hex2_read c1 c2 c3
  obtain ⟨z, hz⟩ : ∃ z, z = if f.rgba32.r ≠ 0 ∨ f.rgba32.g ≠ 0 ∨ f.rgba32.b ≠ 0 then
    some (Color.rgba (UInt8.ofNat (f.rgba32.r >>> 8).toNat) (UInt8.ofNat (f.rgba32.g >>> 8).toNat) (UInt8.ofNat (f.rgba32.b >>> 8).toNat) 255) else base.foreColor := ⟨_, rfl⟩
  have hshade : shade z = shade td.foreColor := by
    rw [hz, hfc]
    by_cases hc : f.rgba32.r ≠ 0 ∨ f.rgba32.g ≠ 0 ∨ f.rgba32.b ≠ 0
    · rw [if_pos hc, shade_rgba _ _ _ c1 c2 c3]; rfl
    · rw [if_neg hc, hd.fore]
      simp only [ne_eq, not_or, Decidable.not_not] at hc
      show _ = some (f.rgba32.r >>> (8 : UInt32), f.rgba32.g >>> (8 : UInt32), f.rgba32.b >>> (8 : UInt32))
      rw [hc.1, hc.2.1, hc.2.2]
      rfl
  refine ⟨⟨z, base.backColor, td.size, td.letterSpacing, td.rise, td.bold, td.italic, td.underline, td.strikethrough, td.font, s⟩, ?_,
    ⟨rfl, rfl, rfl, rfl, rfl, rfl, rfl, rfl, hshade⟩, rfl, rfl⟩
  obtain ⟨bf, bb, bs, bl, br, b1, b2, b3, b4, bn, bd⟩ := base
  obtain ⟨e1, e2, e3, e4, e5, e6, e7, e8, -⟩ := hd
  dsimp only at e1 e2 e3 e4 e5 e6 e7 e8 hz ⊢
  subst e1 e2 e3 e4 e5 e6 e7 e8
  unfold elementsFor
  rw [List.append_assoc] at hcol
  simp only [List.append_assoc]
  refine Turns.runs (d' := ⟨z, bb, 18, 0, 0, false, false, false, false, lit "Sans", bd⟩) ?_ <|
    Turns.runs (d' := ⟨z, bb, 18, 0, 0, false, false, false, false, lit "Sans", bd⟩) ?_ <|
    Turns.runs (d' := ⟨z, bb, 18, 0, 0, false, false, false, false, td.font, bd⟩) ?_ <|
    Turns.runs (d' := ⟨z, bb, 18, 0, 0, td.bold, false, false, false, td.font, bd⟩) ?_ <|
    Turns.runs (d' := ⟨z, bb, 18, 0, 0, td.bold, td.italic, false, false, td.font, bd⟩) ?_ <|
    Turns.runs (d' := ⟨z, bb, 18, 0, 0, td.bold, td.italic, td.underline, false, td.font, bd⟩) ?_ <|
    Turns.runs (d' := ⟨z, bb, 18, 0, 0, td.bold, td.italic, td.underline, td.strikethrough, td.font, bd⟩) ?_ <|
    Turns.runs (d' := ⟨z, bb, 18, td.letterSpacing, 0, td.bold, td.italic, td.underline, td.strikethrough, td.font, bd⟩) ?_ <|
    Turns.runs (d' := ⟨z, bb, td.size, td.letterSpacing, 0, td.bold, td.italic, td.underline, td.strikethrough, td.font, bd⟩) ?_ ?_
  · refine turns_span ?_ ?_ ?_
    · rintro - (⟨-, h⟩ | ⟨h, -⟩)
      · dsimp only at h; rw [hcol] at h; cases h
      · revert h; dsimp only; decide
    · intro hc; rw [hz, if_neg hc]
    · intro hc
      rw [hz, if_pos hc]
      dsimp only
      rw [if_pos rfl, hcol, if_neg (by decide)]
      unfold unitsOf
      dsimp only
      rw [if_neg (by decide), if_neg (by decide), if_neg (by decide)]
      rfl
  · refine turns_span ?_ (fun _ => rfl) ?_
    · rintro - (⟨h, -⟩ | ⟨h, -⟩) <;> revert h <;> dsimp only <;> decide
    · intro _
      unfold unitsOf
      dsimp only
      rw [if_neg (by decide), if_neg (by decide), if_neg (by decide), if_neg (by decide), if_neg (by decide)]
      rfl
  · refine turns_span ?_ ?_ ?_
    · rintro - (⟨h, -⟩ | ⟨h, -⟩) <;> revert h <;> dsimp only <;> decide
    · intro hc; rw [Decidable.not_not.1 hc]
    · intro _
      unfold unitsOf
      dsimp only
      rw [if_pos rfl, if_neg (by decide), if_neg (by decide), if_neg (by decide), if_neg (by decide)]
      rfl
  · refine flag_turns "b" (fun h => by rw [h]) (fun h => ?_)
    rw [h]
    constructor <;> rfl
  · refine flag_turns "i" (fun h => by rw [h]) (fun h => ?_)
    rw [h]
    constructor <;> first | rfl | (rw [decide_eq_false (by decide), Bool.or_false])
  · refine flag_turns "u" (fun h => by rw [h]) (fun h => ?_)
    rw [h]
    constructor <;> first | rfl | (rw [decide_eq_false (by decide), Bool.or_false])
  · refine flag_turns "s" (fun h => by rw [h]) (fun h => ?_)
    rw [h]
    constructor <;> first | rfl | (rw [decide_eq_false (by decide), Bool.or_false])
  · obtain ⟨u1, u2⟩ := units_read "letter_spacing" hl
    refine turns_span ?_ ?_ ?_
    · rintro - (⟨h, -⟩ | ⟨-, h⟩)
      · revert h; dsimp only; decide
      · exact u2 h
    · intro hc; rw [Decidable.not_not.1 hc]
    · intro _
      rw [u1]
      unfold unitsOf
      dsimp only
      rw [if_neg (by decide), if_neg (by decide), if_neg (by decide), if_neg (by decide)]
      rfl
  · obtain ⟨u1, u2⟩ := units_read "size" hs
    refine turns_span ?_ ?_ ?_
    · rintro - (⟨h, -⟩ | ⟨-, h⟩)
      · revert h; dsimp only; decide
      · exact u2 h
    · intro hc; rw [Decidable.not_not.1 hc]
    · intro _
      rw [u1]
      unfold unitsOf
      dsimp only
      rw [if_neg (by decide), if_neg (by decide), if_neg (by decide), if_neg (by decide)]
      rfl
  · obtain ⟨u1, u2⟩ := units_read "rise" hr
    rw [← List.append_nil (elemIf (td.rise ≠ 0) _)]
    refine Turns.runs (d' := ⟨z, bb, td.size, td.letterSpacing, td.rise, td.bold, td.italic, td.underline, td.strikethrough, td.font, bd⟩) ?_ .text
    refine turns_span ?_ ?_ ?_
    · rintro - (⟨h, -⟩ | ⟨-, h⟩)
      · revert h; dsimp only; decide
      · exact u2 h
    · intro hc; rw [Decidable.not_not.1 hc]
    · intro _
      rw [u1]
      unfold unitsOf
      dsimp only
      rw [if_neg (by decide), if_neg (by decide), if_neg (by decide), if_neg (by decide)]
      rfl

/-! ## C92: the markup of a run carries its style -/

/-- The whole claim would be: the markup written for a run consists of elements around the text, which give the text exactly the style of the run, read
by the reader of this package.  It holds of everything but the background, for fonts with plain names and for sizes below 2^22; what is missing are the
background (`C92_refuted`), sizes whose 1024-fold does not fit into 32 bits (`C92_size_refuted`) and fonts with names that have to be escaped. -/
theorem C92_style_partial (e : TextEnv) (td : TextDatum) (m : Bytes) (h : writeTextMarkup e td = some m) (hf : PlainFont td.font)
    (hs : td.size.toNat < 2 ^ 22) (hl : td.letterSpacing.toNat < 2 ^ 22) (hr : td.rise.toNat < 2 ^ 22)
    (hv : ∀ f, td.foreColor = some f → ValidRGBA f.rgba32) :
    ∃ (els : List Element) (ops : List Bytes), List.Forall₂ OpenTag els ops ∧
      m = ops.flatten ++ fmtQ e (htmlEscape td.data) ++ els.reverse.flatMap closeTag ∧
      ∀ base, DefaultStyle base → ∀ s, ∃ r, RunsOf (around els s) base [r] ∧ SameStyle td r ∧ r.backColor = base.backColor ∧ r.data = s := by
  unfold writeTextMarkup at h
  obtain ⟨tags, ht, h⟩ := Option.bind_eq_some_iff.1 h
  cases h
  obtain ⟨f, b, h1, -, h3⟩ := elements_tagged hf ht
  obtain ⟨ops, h4, h5, h6⟩ := tagged_text h3
  refine ⟨_, ops, h4, ?_, fun base hd s => elements_runs h1 (hv f h1) hs hl hr hd s⟩
  rw [h5, h6]

/-- bold underlined red text in 24 pt Serif -/
example (e : TextEnv) : ∃ m, writeTextMarkup e ⟨some (.rgba 255 0 0 255), some (.gray 0), 24, 2, 0, true, false, true, false, lit "Serif", lit "a<b"⟩ = some m ∧
    PlainFont (lit "Serif") ∧ ValidRGBA (Color.rgba 255 0 0 255).rgba32 :=
  ⟨_, rfl, by unfold PlainFont; decide, by unfold ValidRGBA; decide +kernel⟩

/-- the style without markup: black Sans -/
example : DefaultStyle ⟨some (.gray 0), some (.alpha 0), 18, 0, 0, false, false, false, false, lit "Sans", []⟩ :=
  ⟨rfl, rfl, rfl, rfl, rfl, rfl, rfl, rfl, rfl⟩

theorem around_back : ∀ (els : List Element) (s : Bytes) {base : TextDatum} {rs : TextData}, RunsOf (around els s) base rs → ∀ r ∈ rs, r.backColor = base.backColor
  | [], s, base, rs, h => by
    cases h
    intro r hr
    rw [List.mem_singleton] at hr
    rw [hr]
  | x :: xs, s, base, rs, h => by
    cases h with
    | elem _ hs hi =>
      cases hi with
      | cons h1 h2 =>
        cases h2
        intro r hr
        rw [List.append_nil] at hr
        rw [around_back xs s h1 r hr, hs.back]

/-- C92 is false: no element at all, so none that is written for the run, changes the background, and a run with another background than the text
around it is read without it. -/
theorem C92_refuted (td base : TextDatum) (hb : shade base.backColor ≠ shade td.backColor) (els : List Element) (s : Bytes) (rs : TextData)
    (h : RunsOf (around els s) base rs) : ∀ r ∈ rs, shade r.backColor ≠ shade td.backColor := by
  intro r hr
  rw [around_back els s h r hr]
  exact hb

/-- red text on white where the text around it has no background -/
example : shade (some (.alpha 0)) ≠ shade (some (.gray 255)) := by unfold shade; decide +kernel

/-- C92 is false of large sizes: the number written for a size from 2^22 on is not that of the size. -/
theorem C92_size_refuted (n : UInt32) (hn : 2 ^ 22 ≤ n.toNat) : unitsOf "size" (lit "size", fmtDec (n <<< 10)) ≠ some n := by
  obtain ⟨h1, h2, h3⟩ := fmtDec_spec (n <<< 10)
  have hd : decimalU32 (fmtDec (n <<< 10)) = some (n <<< 10).toNat := by
    unfold decimalU32
    rw [if_pos ⟨h2, h1, by rw [h3]; exact (n <<< 10).toNat_lt⟩, h3]
  unfold unitsOf
  rw [if_pos rfl, hd]
  intro h
  have h' := congrArg UInt32.toNat (Option.some.inj h)
  have hlt := (n <<< 10).toNat_lt
  rw [UInt32.toNat_ofNat', Nat.mod_eq_of_lt (by omega)] at h'
  omega

example : 2 ^ 22 ≤ (5000000 : UInt32).toNat := by decide

end Limage
