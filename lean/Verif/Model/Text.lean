import Verif.Model.XcfImage
import Verif.Model.Writer
/-!
# Text layers: xcf/text.go and the parser in xcf/parasites.go

Library code that is modelled: the tokeniser and parser of `vimagination.zapto.org/parser`, `fmt`'s `%q`, `%d` and
`%02X`, `html.EscapeString` and `strconv.ParseUint`.  Parameters: the table of printable characters (`strconv.IsPrint`),
`strconv.ParseFloat` with the conversions to `uint32` and `uint8`, and the tokens found by `encoding/xml`.

All characters the tokeniser looks for are ASCII, and no byte of a longer UTF-8 sequence is; so the tokeniser is
modelled on bytes, except where it takes a whole character (`quotedString`).
-/
namespace Limage

/-- bytes of an ASCII string literal -/
def lit (s : String) : Bytes := s.toList.map fun c => UInt8.ofNat c.toNat

/-- library functions -/
structure TextEnv where
  /-- `strconv.IsPrint` for characters above 0xff -/
  printable : Nat → Bool
  /-- `strconv.ParseFloat`, with the result converted to `uint32` and `uint8`; `none` = error -/
  parseFloat : Bytes → Option (UInt32 × UInt8)

/-! ### Formatting -/

/-- `%d` -/
def decDigits : Nat → Nat → Bytes
  | 0, _ => []
  | f + 1, n => (if n < 10 then [] else decDigits f (n / 10)) ++ [UInt8.ofNat (48 + n % 10)]

/-- `%d` of a number of at most 32 bits -/
def fmtDec (n : UInt32) : Bytes := decDigits 10 n.toNat

/-- a hexadecimal digit; `a` is the code of the letter for ten -/
def hexDigit (a n : Nat) : UInt8 := UInt8.ofNat (if n < 10 then 48 + n else a + (n - 10))

/-- hexadecimal number of exactly `k` digits -/
def hexFixed (a : Nat) : Nat → Nat → Bytes
  | 0, _ => []
  | k + 1, n => hexFixed a k (n / 16) ++ [hexDigit a (n % 16)]

/-- hexadecimal number without leading zeros -/
def hexDigits (a : Nat) : Nat → Nat → Bytes
  | 0, _ => []
  | f + 1, n => (if n < 16 then [] else hexDigits a f (n / 16)) ++ [hexDigit a (n % 16)]

/-- `%02X` -/
def fmtHex2 (n : UInt32) : Bytes := if n < 256 then hexFixed 65 2 n.toNat else hexDigits 65 8 n.toNat

/-- `utf8.DecodeRune`: width and character of a valid sequence at the start; `none` if there is none (width 1, U+FFFD) -/
def decodeRune : Bytes → Option (Nat × Nat)
  | [] => none
  | b0 :: s =>
    if b0 < 0x80 then some (1, b0.toNat)
    else if b0 < 0xc2 then none
    else if b0 < 0xe0 then
      match s with
      | b1 :: _ => if 0x80 ≤ b1 ∧ b1 ≤ 0xbf then some (2, (b0.toNat - 0xc0) * 64 + (b1.toNat - 0x80)) else none
      | _ => none
    else if b0 < 0xf0 then
      match s with
      | b1 :: b2 :: _ =>
        if (if b0 = 0xe0 then 0xa0 else 0x80) ≤ b1 ∧ b1 ≤ (if b0 = 0xed then 0x9f else 0xbf) ∧ 0x80 ≤ b2 ∧ b2 ≤ 0xbf then
          some (3, ((b0.toNat - 0xe0) * 64 + (b1.toNat - 0x80)) * 64 + (b2.toNat - 0x80))
        else none
      | _ => none
    else if b0 < 0xf5 then
      match s with
      | b1 :: b2 :: b3 :: _ =>
        if (if b0 = 0xf0 then 0x90 else 0x80) ≤ b1 ∧ b1 ≤ (if b0 = 0xf4 then 0x8f else 0xbf) ∧
            0x80 ≤ b2 ∧ b2 ≤ 0xbf ∧ 0x80 ≤ b3 ∧ b3 ≤ 0xbf then
          some (4, (((b0.toNat - 0xf0) * 64 + (b1.toNat - 0x80)) * 64 + (b2.toNat - 0x80)) * 64 + (b3.toNat - 0x80))
        else none
      | _ => none
    else none

/-- `strconv.IsPrint` -/
def TextEnv.isPrint (e : TextEnv) (c : Nat) : Bool :=
  if c ≤ 0xff then (0x20 ≤ c && c < 0x7f) || (0xa1 ≤ c && c ≠ 0xad) else e.printable c

/-- how `strconv.Quote` writes one character (`b` are its bytes) -/
def quoteRune (e : TextEnv) (c : Nat) (b : Bytes) : Bytes :=
  if c = 34 ∨ c = 92 then 92 :: b
  else if e.isPrint c then b
  else if c = 7 then lit "\\a" else if c = 8 then lit "\\b" else if c = 12 then lit "\\f" else if c = 10 then lit "\\n"
  else if c = 13 then lit "\\r" else if c = 9 then lit "\\t" else if c = 11 then lit "\\v"
  else if c < 0x20 ∨ c = 0x7f then lit "\\x" ++ hexFixed 97 2 c
  else if c < 0x10000 then lit "\\u" ++ hexFixed 97 4 c
  else lit "\\U" ++ hexFixed 97 8 c

/-- the inside of `strconv.Quote`; the first argument bounds the number of characters -/
def quoteBody (e : TextEnv) : Nat → Bytes → Bytes
  | 0, _ => []
  | _, [] => []
  | f + 1, b :: s =>
    match decodeRune (b :: s) with
    | none => lit "\\x" ++ hexFixed 97 2 b.toNat ++ quoteBody e f s
    | some (w, c) => quoteRune e c ((b :: s).take w) ++ quoteBody e f ((b :: s).drop w)

/-- `%q` -/
def fmtQ (e : TextEnv) (s : Bytes) : Bytes := [34] ++ quoteBody e s.length s ++ [34]

/-- `html.EscapeString` -/
def htmlEscape (s : Bytes) : Bytes :=
  s.flatMap fun b =>
    if b = 38 then lit "&amp;" else if b = 39 then lit "&#39;" else if b = 60 then lit "&lt;"
    else if b = 62 then lit "&gt;" else if b = 34 then lit "&#34;" else [b]

/-! ### Writing -/

/-- text.go:264-272: an opening tag with a colour as attribute, and its closing tag -/
def colorSpan (attr : String) (r g b : UInt32) : Bytes :=
  lit "<span " ++ lit attr ++ lit "=\\\"#" ++ fmtHex2 r ++ fmtHex2 g ++ fmtHex2 b ++ lit "\\\">"

/-- text.go:299-312: an opening tag with a number as attribute -/
def numSpan (attr : String) (n : UInt32) : Bytes := lit "<span " ++ lit attr ++ lit "=\\\"" ++ fmtDec n ++ lit "\\\">"

/-- text.go:262-312: the opening tags written for a run, each with its closing tag.  `none` = panic (a colour is nil). -/
def markupTags (e : TextEnv) (td : TextDatum) : Option (List (Bytes × Bytes)) := do
  let f ← td.foreColor
  let b ← td.backColor
  let f := f.rgba32
  let b := b.rgba32
  return (if f.r ≠ 0 ∨ f.g ≠ 0 ∨ f.b ≠ 0 then [(colorSpan "foreground" (f.r >>> 8) (f.g >>> 8) (f.b >>> 8), lit "</span>")] else []) ++
    (if b.r ≠ 0 ∨ b.g ≠ 0 ∨ b.b ≠ 0 then [(colorSpan "background" b.r b.g b.b, lit "</span>")] else []) ++
    (if td.font ≠ lit "Sans" then [(lit "<span font=" ++ fmtQ e td.font ++ lit ">", lit "</span>")] else []) ++
    (if td.bold then [(lit "<b>", lit "</b>")] else []) ++
    (if td.italic then [(lit "<i>", lit "</i>")] else []) ++
    (if td.underline then [(lit "<u>", lit "</u>")] else []) ++
    (if td.strikethrough then [(lit "<s>", lit "</s>")] else []) ++
    (if td.letterSpacing ≠ 0 then [(numSpan "letter_spacing" (td.letterSpacing <<< 10), lit "</span>")] else []) ++
    (if td.size ≠ 18 then [(numSpan "size" (td.size <<< 10), lit "</span>")] else []) ++
    (if td.rise ≠ 0 then [(numSpan "rise" (td.rise <<< 10), lit "</span>")] else [])

/-- xcf/text.go:261-321 `writeTextMarkup`: the tags, the text, the closing tags in reverse order. -/
def writeTextMarkup (e : TextEnv) (td : TextDatum) : Option Bytes := do
  let tags ← markupTags e td
  return tags.flatMap (·.1) ++ fmtQ e (htmlEscape td.data) ++ tags.reverse.flatMap (·.2)

/-- text.go:224-226, without the panics of a run -/
def writeRuns (e : TextEnv) : TextData → Option Bytes
  | [] => some []
  | td :: ts => do
    let a ← writeTextMarkup e td
    let b ← writeRuns e ts
    return a ++ b

/-- xcf/text.go:207-259 `WriteText`: the data of the parasite; `none` = panic (a colour that is nil).
The writing of the properties is in `Model/XcfEncode.lean`. -/
def textData (e : TextEnv) (text : TextData) (dx dy : UInt32) : Option Bytes := do
  let (base, start) ← match text with
    | [t] => some (t, lit "(text " ++ fmtQ e t.data ++ lit ")\n")
    | ts => do
      let runs ← writeRuns e ts
      some (⟨none, none, 18, 0, 0, false, false, false, false, lit "Sans", []⟩,
        lit "(markup \"<markup>" ++ runs ++ lit "</markup>\")\n")
  let c ← base.foreColor
  let c := c.rgba32
  return start ++
    lit "(font " ++ fmtQ e base.font ++ lit ")\n" ++
    lit "(font-size " ++ fmtDec base.size ++ lit ".000000000)\n" ++
    lit "(font-size-units pixels)\n(antialias yes)\n(base-direction ltr)\n" ++
    lit "(color (color-rgb " ++ fmtDec (c.r >>> 8) ++ lit ".000000 " ++ fmtDec (c.g >>> 8) ++ lit ".000000 " ++
    fmtDec (c.b >>> 8) ++ lit ".000000))\n" ++
    lit "(justify left)\n(box-mode dynamic)\n" ++
    lit "(box-width " ++ fmtDec dx ++ lit ".000000)\n" ++
    lit "(box-height " ++ fmtDec dy ++ lit ".000000)\n" ++
    lit "(box-unit pixels)\n(hinting yes)\n" ++ [0]

/-! ### Parsing -/

/-- parasites.go:108 `valName`: letters and `-` -/
def isName (b : UInt8) : Bool := (97 ≤ b && b ≤ 122) || (65 ≤ b && b ≤ 90) || b = 45
/-- parasites.go:109 `digit` -/
def isDigit (b : UInt8) : Bool := 48 ≤ b && b ≤ 57
/-- parasites.go:111 `whitespace`: line feed, carriage return and space -/
def isSpace (b : UInt8) : Bool := b = 10 || b = 13 || b = 32

/-- parasites.go:289-303: what is added for a character behind a backslash (`string(t.Peek())`, U+FFFD at the end and for an
invalid byte), and the rest.  The character is not skipped at the end. -/
def escaped (d : Bytes) : Bytes × Bytes :=
  match d with
  | [] => ([92, 0xef, 0xbf, 0xbd], [])
  | b :: s =>
    if b = 34 ∨ b = 92 then ([b], s)
    else
      match decodeRune (b :: s) with
      | some (w, _) => (92 :: (b :: s).take w, (b :: s).drop w)
      | none => ([92, 0xef, 0xbf, 0xbd], s)

/-- parasites.go:276-311 `quotedString`, behind the opening quote; the first argument bounds the number of steps -/
def quotedString : Nat → Bytes → Bytes × Bytes
  | 0, d => ([], d)
  | f + 1, d =>
    let plain := d.takeWhile fun b => b ≠ 34 && b ≠ 92
    match d.drop plain.length with
    | [] => (plain, [])
    | b :: d =>
      if b = 92 then
        let (c, d) := escaped d
        let (s, d) := quotedString f d
        (plain ++ c ++ s, d)
      else (plain, d)

/-- a value in front of its conversion -/
inductive Raw where
  | str (s : Bytes)
  | num (digits : Bytes)

/-- the token that ends a run of values -/
inductive Stop where
  | opn | cls | done | bad
deriving DecidableEq

/-- the number at the start: digits, perhaps a dot, digits -/
def numberLen (d : Bytes) : Nat :=
  let a := (d.takeWhile isDigit).length
  match d.drop a with
  | b :: d => if b = 46 then a + 1 + (d.takeWhile isDigit).length else a
  | [] => a

/-- `p.AcceptRun(tokenValueString, tokenValueNumber)` (parasites.go:137) with `valueTK` (226-274): the values, the token behind
them and what follows it.  `hang`: at a character that cannot start a value, `valueTK` returns an empty value again
and again.  The first argument bounds the number of values (`panic` if it is too small, which does not happen:
`parseTags_fuel`). -/
def valueRun : Nat → Bytes → Outcome (List Raw × Stop × Bytes)
  | 0, _ => .panic
  | f + 1, d =>
    let next (v : Raw) (d : Bytes) : Outcome (List Raw × Stop × Bytes) :=
      match valueRun f d with
      | .ok (vs, x) => .ok (v :: vs, x)
      | .panic => .panic
      | .hang => .hang
    match d.dropWhile isSpace with
    | [] => .ok ([], .bad, [])
    | b :: d =>
      if b = 0 then .ok ([], .done, b :: d)
      else if b = 40 then .ok ([], .opn, d)
      else if b = 41 then .ok ([], .cls, d)
      else if b = 34 then
        let (s, d) := quotedString (d.length + 1) d
        next (.str s) d
      else if isDigit b then next (.num ((b :: d).take (numberLen (b :: d)))) ((b :: d).drop (numberLen (b :: d)))
      else if isName b then next (.str ((b :: d).takeWhile isName)) ((b :: d).dropWhile isName)
      else .hang

/-- parasites.go:121-125 `tag` and its values -/
inductive Val where
  | str (s : Bytes)
  | num (u32 : UInt32) (u8 : UInt8)
  | tag (name : Bytes) (vals : List Val)

/-- result of `readTag`: a tag, an error with `p.Err` being `io.EOF`, another error -/
inductive TagRes where
  | tag (name : Bytes) (vals : List Val) (rest : Bytes)
  | eof
  | err

/-- parasites.go:139-151: the conversion of a run of values; `none` = error of `ParseFloat` -/
def convert (e : TextEnv) : List Raw → Option (List Val)
  | [] => some []
  | .str s :: vs => return .str s :: (← convert e vs)
  | .num d :: vs => do
    let (a, b) ← e.parseFloat d
    return .num a b :: (← convert e vs)

mutual
/-- parasites.go:127-135, behind the opening parenthesis: the name (`nameTK`, 210-224), then the values.
The first argument bounds the number of steps. -/
def readTag (e : TextEnv) : Nat → Bytes → Outcome TagRes
  | 0, _ => .panic
  | f + 1, d =>
    match d.takeWhile isName with
    | [] => .ok .err
    | n :: name => readValues e f (n :: name) [] (d.dropWhile isName)

/-- parasites.go:136-177: the loop over runs of values and nested tags -/
def readValues (e : TextEnv) : Nat → Bytes → List Val → Bytes → Outcome TagRes
  | 0, _, _, _ => .panic
  | f + 1, name, acc, d =>
    match valueRun (d.length + 1) d with
    | .panic => .panic
    | .hang => .hang
    | .ok (raws, stop, d) =>
      match convert e raws with
      | none => .ok (if stop = .done then .eof else .err)
      | some vs =>
        match stop with
        | .cls => .ok (.tag name (acc ++ vs) d)
        | .done => .ok .eof
        | .bad => .ok .err
        | .opn =>
          match readTag e f d with
          | .ok (.tag n ws d) => readValues e f name (acc ++ vs ++ [.tag n ws]) d
          | x => x
end

/-- xcf/parasites.go:82-101 `parasite.Parse`, with `openTK` (191-208); `none` = error -/
def parseTags (e : TextEnv) : Nat → Bytes → Outcome (Option (List (Bytes × List Val)))
  | 0, _ => .panic
  | f + 1, d =>
    match d.dropWhile isSpace with
    | [] => .ok (some [])
    | b :: d =>
      if b = 0 then .ok (some [])
      else if b = 40 then
        match readTag e (2 * d.length + 2) d with
        | .panic => .panic
        | .hang => .hang
        | .ok .eof => .ok (some [])
        | .ok .err => .ok none
        | .ok (.tag n vs d) =>
          match parseTags e f d with
          | .ok (some ts) => .ok (some ((n, vs) :: ts))
          | x => x
      else .ok none

/-- `v.(string)` -/
def Val.string : Val → Bytes
  | .str s => s
  | _ => []
/-- `uint32` of `v.(float64)` -/
def Val.u32 : Val → UInt32
  | .num a _ => a
  | _ => 0
/-- `uint8` of `v.(float64)` -/
def Val.u8 : Val → UInt8
  | .num _ b => b
  | _ => 0

/-- text.go:97-107: the colour of a tag; `none` = panic -/
def parseColor (v : Val) (c : Option Color) : Option (Option Color) :=
  match v with
  | .tag name vs =>
    if name = lit "color-rgb" ∧ vs.length ≠ 3 then
      match vs with
      | r :: g :: b :: _ => some (some (.lrgb r.u8 g.u8 b.u8))
      | _ => none
    else some c
  | _ => some c

/-- text.go:74-115: one tag; the markup and the default style; `none` = panic -/
def parseTextTag (s : Bytes × TextDatum) (t : Bytes × List Val) : Option (Bytes × TextDatum) :=
  let (markup, d) := s
  if t.1 = lit "text" then
    match t.2 with
    | [] => none
    | v :: _ => some (markup, { d with data := v.string })
  else
    match t.2 with
    | [v] =>
      if t.1 = lit "markup" then some (v.string, d)
      else if t.1 = lit "font" then some (markup, { d with font := v.string })
      else if t.1 = lit "font-size" then some (markup, { d with size := v.u32 })
      else if t.1 = lit "color" then do
        let c ← parseColor v d.foreColor
        return (markup, { d with foreColor := c })
      else some (markup, d)
    | _ => some (markup, d)

/-- xcf/text.go:65-116 `parseText`; `color.Alpha{}` and `color.Gray{}` are the colours at the start. `none` = panic -/
def parseText (tags : List (Bytes × List Val)) : Option (Bytes × TextDatum) :=
  tags.foldlM parseTextTag ([], ⟨some (.gray 0), some (.alpha 0), 0, 0, 0, false, false, false, false, [], []⟩)

/-! ### Markup -/

/-- `encoding/xml` tokens that matter -/
inductive XmlTok where
  | start (name : Bytes) (attrs : List (Bytes × Bytes))
  | chars (s : Bytes)
  | stop
  | other

/-- value of a digit in the given base -/
def digitVal (base : Nat) (b : UInt8) : Option Nat :=
  let n := b.toNat
  let v := if 48 ≤ n ∧ n ≤ 57 then n - 48 else if 97 ≤ n ∧ n ≤ 122 then n - 87 else if 65 ≤ n ∧ n ≤ 90 then n - 55 else 99
  if v < base then some v else none

/-- `strconv.ParseUint(s, base, 32)`, `none` = error -/
def parseUint (base : Nat) (s : Bytes) : Option UInt32 :=
  if s = [] then none
  else do
    let n ← s.foldlM (fun a b => do let v ← digitVal base b; if a * base + v < 2 ^ 32 then some (a * base + v) else none) 0
    return UInt32.ofNat n

/-- text.go:126-147: the attribute `foreground`; `none` = error -/
def foreground (v : Bytes) (c : Option Color) : Option (Option Color) :=
  match v with
  | 35 :: ds =>
    if ds.length = 6 then do
      let n ← parseUint 16 ds
      return some (.rgba (n >>> 16).toUInt8 ((n >>> 8) &&& 255).toUInt8 (n &&& 255).toUInt8 255)
    else if ds.length = 3 then do
      let n ← parseUint 16 ds
      let r := (n >>> 4) &&& 240
      let g := n &&& 240
      let b := n &&& 15
      return some (.rgba (r ||| (r >>> 4)).toUInt8 (g ||| (g >>> 4)).toUInt8 (b ||| (b <<< 4)).toUInt8 255)
    else some c
  | _ => some c

/-- text.go:122-170: one attribute of a span; `none` = error -/
def spanAttr (d : TextDatum) (a : Bytes × Bytes) : Option TextDatum :=
  if a.1 = lit "font" then some { d with font := a.2 }
  else if a.1 = lit "foreground" then do
    let c ← foreground a.2 d.foreColor
    return { d with foreColor := c }
  else if a.1 = lit "size" then do
    let n ← parseUint 10 a.2
    return { d with size := n >>> 10 }
  else if a.1 = lit "letter_spacing" then do
    let n ← parseUint 10 a.2
    return { d with letterSpacing := n >>> 10 }
  else if a.1 = lit "rise" then do
    let n ← parseUint 10 a.2
    return { d with rise := n >>> 10 }
  else some d

/-- xcf/text.go:118-182 `processText`; `none` = error -/
def processText (name : Bytes) (attrs : List (Bytes × Bytes)) (d : TextDatum) : Option TextDatum :=
  if name = lit "span" then attrs.foldlM spanAttr d
  else if name = lit "b" then some { d with bold := true }
  else if name = lit "i" then some { d with italic := true }
  else if name = lit "s" then some { d with strikethrough := true }
  else if name = lit "u" then some { d with underline := true }
  else some d

/-- text.go:35-61: the loop over the tokens; the stack has its top first; `eof`: whether the tokens end with `io.EOF`.
The result is `panic` (no style on the stack), an error or the runs. -/
def markupRuns (eof : Bool) : List XmlTok → List TextDatum → Outcome (Option TextData)
  | [], _ => .ok (if eof then some [] else none)
  | .start name attrs :: ts, stack =>
    match stack with
    | [] => .panic
    | d :: stack =>
      match processText name attrs d with
      | none => .ok none
      | some d' => markupRuns eof ts (d' :: d :: stack)
  | .chars s :: ts, stack =>
    match stack with
    | [] => .panic
    | d :: stack =>
      match markupRuns eof ts (d :: stack) with
      | .ok (some rs) => .ok (some ({ d with data := s } :: rs))
      | x => x
  | .stop :: ts, stack =>
    match stack with
    | [] => .panic
    | _ :: stack => markupRuns eof ts stack
  | .other :: ts, stack => markupRuns eof ts stack

/-- xcf/text.go:19-63 `parseTextData`.  `xml`: the tokens found in a document, and whether they end with `io.EOF`. -/
def parseTextData (e : TextEnv) (xml : Bytes → List XmlTok × Bool) (data : Bytes) : Outcome (Option TextData) :=
  match parseTags e (data.length + 1) data with
  | .panic => .panic
  | .hang => .hang
  | .ok none => .ok none
  | .ok (some tags) =>
    match parseText tags with
    | none => .panic
    | some (markup, d) =>
      if d.data ≠ [] then .ok (some [d])
      else markupRuns (xml markup).2 (xml markup).1 [d]

end Limage
