import Verif.Spec.XcfProps
import Verif.Model.Text
/-!
# Specification of the description of a text layer

A description is a list of tags `(name value …)`; a value is a word, a quoted string, a number or a tag.
-/
namespace Limage.Spec

/-- a letter or a dash -/
def NameByte (b : UInt8) : Prop := 97 ≤ b.toNat ∧ b.toNat ≤ 122 ∨ 65 ≤ b.toNat ∧ b.toNat ≤ 90 ∨ b.toNat = 45

/-- a word -/
def Word (s : Bytes) : Prop := s ≠ [] ∧ ∀ b ∈ s, NameByte b

/-- digits -/
def Digits (s : Bytes) : Prop := ∀ b ∈ s, 48 ≤ b.toNat ∧ b.toNat ≤ 57

/-- a number: digits, and perhaps a dot and more digits -/
def Number (s : Bytes) : Prop := ∃ a, a ≠ [] ∧ Digits a ∧ (s = a ∨ ∃ b, Digits b ∧ s = a ++ 46 :: b)

/-- `Quoting w s`: `w`, between quotes, stands for `s`.  A backslash in front of a quote or a backslash is dropped, one in
front of another ASCII character is kept. -/
inductive Quoting : Bytes → Bytes → Prop
  | nil : Quoting [] []
  | plain {b w s} : b ≠ 34 → b ≠ 92 → Quoting w s → Quoting (b :: w) (b :: s)
  | drop {b w s} : b = 34 ∨ b = 92 → Quoting w s → Quoting (92 :: b :: w) (b :: s)
  | keep {b w s} : b ≠ 34 → b ≠ 92 → b < 0x80 → Quoting w s → Quoting (92 :: b :: w) (92 :: b :: s)

/-- a value; a quoted string has the written form and what it stands for -/
inductive Item where
  | word (s : Bytes)
  | quoted (w s : Bytes)
  | number (s : Bytes)
  | tag (name : Bytes) (items : List Item)

mutual
/-- a value as it is written -/
def Item.print (i : Item) : Bytes :=
  match i with
  | .word s => s
  | .quoted w _ => 34 :: w ++ [34]
  | .number s => s
  | .tag name is => 40 :: name ++ printAll is ++ [41]
termination_by structural i
/-- values, with a space in front of each -/
def printAll (is : List Item) : Bytes :=
  match is with
  | [] => []
  | i :: is => 32 :: i.print ++ printAll is
termination_by structural is
end

mutual
/-- a value that can be written -/
def Item.Ok (i : Item) : Prop :=
  match i with
  | .word s => Word s
  | .quoted w s => Quoting w s
  | .number s => Number s
  | .tag name is => Word name ∧ AllOkItems is
termination_by structural i
/-- values that can be written -/
def AllOkItems (is : List Item) : Prop :=
  match is with
  | [] => True
  | i :: is => i.Ok ∧ AllOkItems is
termination_by structural is
end

mutual
/-- what a value means; `num` is the meaning of numbers, `none` if one has none -/
def Item.val (num : Bytes → Option (UInt32 × UInt8)) (i : Item) : Option Val :=
  match i with
  | .word s => some (.str s)
  | .quoted _ s => some (.str s)
  | .number s => (num s).map fun x => .num x.1 x.2
  | .tag name is => (vals num is).map fun vs => .tag name vs
termination_by structural i
/-- what values mean -/
def vals (num : Bytes → Option (UInt32 × UInt8)) (is : List Item) : Option (List Val) :=
  match is with
  | [] => some []
  | i :: is => (i.val num).bind fun v => (vals num is).map fun vs => v :: vs
termination_by structural is
end

/-- a description: a tag on each line -/
def description (ts : List (Bytes × List Item)) : Bytes := ts.flatMap fun t => (Item.tag t.1 t.2).print ++ [10]

/-- what a description means -/
def meaning (num : Bytes → Option (UInt32 × UInt8)) : List (Bytes × List Item) → Option (List (Bytes × List Val))
  | [] => some []
  | t :: ts => (vals num t.2).bind fun vs => (meaning num ts).map fun r => (t.1, vs) :: r

/-! ### Characters that can be read -/

/-- a place in a description -/
inductive Place where
  | outside | digits | fraction | quotes | slash
deriving DecidableEq

/-- Outside of quoted strings there are only letters, dashes, numbers, parentheses, spaces and line ends; what is behind a zero
byte does not matter. -/
def Clean : Place → Bytes → Prop
  | _, [] => True
  | .quotes, b :: s => Clean (if b = 34 then .outside else if b = 92 then .slash else .quotes) s
  | .slash, _ :: s => Clean .quotes s
  | p, b :: s =>
    if b = 0 then True
    else if b = 34 then Clean .quotes s
    else if 48 ≤ b.toNat ∧ b.toNat ≤ 57 then Clean (if p = .fraction then .fraction else .digits) s
    else if b = 46 then p = .digits ∧ Clean .fraction s
    else (NameByte b ∨ b = 32 ∨ b = 10 ∨ b = 13 ∨ b = 40 ∨ b = 41) ∧ Clean .outside s

/-! ### What is written -/

/-- a character that is written as it is; `pr` tells which of those beyond Latin-1 are -/
def Printable (pr : Nat → Bool) (c : Nat) : Prop :=
  32 ≤ c ∧ c ≤ 126 ∨ 161 ≤ c ∧ c ≤ 255 ∧ c ≠ 173 ∨ 255 < c ∧ pr c = true

/-- a text of printable characters -/
def Plain (pr : Nat → Bool) (s : Bytes) : Prop :=
  ∃ cs : List Char, s = cs.flatMap String.utf8EncodeChar ∧ ∀ c ∈ cs, Printable pr c.val.toNat

/-- the number that digits stand for -/
def digitsValue (s : Bytes) : Nat := s.foldl (fun n b => 10 * n + (b.toNat - 48)) 0

/-- numbers with zeros behind the dot are read as they should be, up to 32 bits -/
def ReadsNumbers (num : Bytes → Option (UInt32 × UInt8)) : Prop :=
  ∀ s k, Digits s → s ≠ [] → digitsValue s < 2 ^ 32 →
    ∃ b, num (s ++ 46 :: List.replicate k 48) = some (UInt32.ofNat (digitsValue s), b)

end Limage.Spec
