import Verif.Spec.Text
/-!
# Specification of the markup of a text
-/
namespace Limage.Spec

/-- a name of an element or an attribute -/
def MarkupName (s : Bytes) : Prop := s ≠ [] ∧ ∀ b ∈ s, 97 ≤ b.toNat ∧ b.toNat ≤ 122 ∨ b.toNat = 95

/-- An attribute, with its value between quotes or between escaped quotes; a value cannot contain `<`. -/
inductive Attribute : Bytes → Prop
  | quoted {name w s} : MarkupName name → Quoting w s → 60 ∉ w → Attribute (32 :: name ++ [61, 34] ++ w ++ [34])
  | escaped {name v} : MarkupName name → 60 ∉ v → 34 ∉ v → 92 ∉ v → Attribute (32 :: name ++ [61, 92, 34] ++ v ++ [92, 34])

/-- attributes -/
inductive Attributes : Bytes → Prop
  | nil : Attributes []
  | cons {a b} : Attribute a → Attributes b → Attributes (a ++ b)

/-- Properly nested markup: text without `<` and `>`, elements around markup, and sequences of these. -/
inductive Nested : Bytes → Prop
  | text {s} : 60 ∉ s → 62 ∉ s → Nested s
  | elem {name attrs body} : MarkupName name → Attributes attrs → Nested body →
      Nested ([60] ++ name ++ attrs ++ [62] ++ body ++ ([60, 47] ++ name ++ [62]))
  | append {a b} : Nested a → Nested b → Nested (a ++ b)

/-! ### The styles of runs -/

/-- XML: elements with attributes, text, and other things that are not shown -/
inductive Node where
  | elem (name : Bytes) (attrs : List (Bytes × Bytes)) (children : List Node)
  | text (s : Bytes)
  | other

mutual
/-- what `encoding/xml` returns for a node -/
def Node.tokens (n : Node) : List XmlTok :=
  match n with
  | .elem name attrs ns => .start name attrs :: tokensAll ns ++ [.stop]
  | .text s => [.chars s]
  | .other => [.other]
termination_by structural n
/-- what `encoding/xml` returns for nodes -/
def tokensAll (ns : List Node) : List XmlTok :=
  match ns with
  | [] => []
  | n :: ns => n.tokens ++ tokensAll ns
termination_by structural ns
end

/-- value of the last attribute for which there is one -/
def lastOf {α : Type} (f : Bytes × Bytes → Option α) (attrs : List (Bytes × Bytes)) : Option α := attrs.reverse.findSome? f

/-- a hexadecimal digit -/
def hexNibble (b : UInt8) : Option Nat :=
  let n := b.toNat
  if 48 ≤ n ∧ n ≤ 57 then some (n - 48) else if 97 ≤ n ∧ n ≤ 102 then some (n - 87) else if 65 ≤ n ∧ n ≤ 70 then some (n - 55) else none

/-- a decimal number below 2^32 -/
def decimalU32 (s : Bytes) : Option Nat :=
  if s ≠ [] ∧ (∀ b ∈ s, 48 ≤ b.toNat ∧ b.toNat ≤ 57) ∧ digitsValue s < 2 ^ 32 then some (digitsValue s) else none

/-- `#RRGGBB` and `#RGB`: `none` for something else, `some none` for these with letters that are not hexadecimal digits -/
def colourValue (v : Bytes) : Option (Option Color) :=
  match v with
  | [35, a, b, c, d, e, f] => some do
    return .rgba (UInt8.ofNat (16 * (← hexNibble a) + (← hexNibble b))) (UInt8.ofNat (16 * (← hexNibble c) + (← hexNibble d)))
      (UInt8.ofNat (16 * (← hexNibble e) + (← hexNibble f))) 255
  | [35, a, b, c] => some do
    return .rgba (UInt8.ofNat (17 * (← hexNibble a))) (UInt8.ofNat (17 * (← hexNibble b))) (UInt8.ofNat (17 * (← hexNibble c))) 255
  | _ => none

/-- an attribute of a span with a value that it must not have -/
def BadAttr (a : Bytes × Bytes) : Prop :=
  a.1 = lit "foreground" ∧ colourValue a.2 = some none ∨
  (a.1 = lit "size" ∨ a.1 = lit "letter_spacing" ∨ a.1 = lit "rise") ∧ decimalU32 a.2 = none

/-- the number given by an attribute, in units of 1/1024 -/
def unitsOf (name : String) (a : Bytes × Bytes) : Option UInt32 :=
  if a.1 = lit name then (decimalU32 a.2).map fun n => UInt32.ofNat (n / 1024) else none

/-- the style that an element gives to what is in it: the last of several attributes counts -/
structure Styled (name : Bytes) (attrs : List (Bytes × Bytes)) (d d' : TextDatum) : Prop where
  font : d'.font = if name = lit "span" then (lastOf (fun a => if a.1 = lit "font" then some a.2 else none) attrs).getD d.font else d.font
  fore : d'.foreColor = if name = lit "span" then
    (lastOf (fun a => if a.1 = lit "foreground" then (colourValue a.2).join else none) attrs).or d.foreColor else d.foreColor
  size : d'.size = if name = lit "span" then (lastOf (unitsOf "size") attrs).getD d.size else d.size
  spacing : d'.letterSpacing = if name = lit "span" then (lastOf (unitsOf "letter_spacing") attrs).getD d.letterSpacing else d.letterSpacing
  rise : d'.rise = if name = lit "span" then (lastOf (unitsOf "rise") attrs).getD d.rise else d.rise
  bold : d'.bold = (d.bold || name = lit "b")
  italic : d'.italic = (d.italic || name = lit "i")
  underline : d'.underline = (d.underline || name = lit "u")
  strike : d'.strikethrough = (d.strikethrough || name = lit "s")
  back : d'.backColor = d.backColor
  data : d'.data = d.data

mutual
/-- The runs of a node in a style: one for each text, with the style given by the elements around it. -/
inductive RunsOf : Node → TextDatum → TextData → Prop
  | elem {name attrs ns d d' rs} : ¬(name = lit "span" ∧ ∃ a ∈ attrs, BadAttr a) → Styled name attrs d d' → RunsIn ns d' rs →
      RunsOf (.elem name attrs ns) d rs
  | text {s d} : RunsOf (.text s) d [{ d with data := s }]
  | other {d} : RunsOf .other d []
/-- the runs of nodes -/
inductive RunsIn : List Node → TextDatum → TextData → Prop
  | nil {d} : RunsIn [] d []
  | cons {n ns d a b} : RunsOf n d a → RunsIn ns d b → RunsIn (n :: ns) d (a ++ b)
end

mutual
/-- somewhere in the node there is a span with a bad attribute -/
def Node.Bad (n : Node) : Prop :=
  match n with
  | .elem name attrs ns => (name = lit "span" ∧ ∃ a ∈ attrs, BadAttr a) ∨ AnyBad ns
  | _ => False
termination_by structural n
/-- somewhere in the nodes there is a span with a bad attribute -/
def AnyBad (ns : List Node) : Prop :=
  match ns with
  | [] => False
  | n :: ns => n.Bad ∨ AnyBad ns
termination_by structural ns
end

end Limage.Spec
