import Verif.Model.Rle
/-!
# Image properties, as documented (GIMP's xcf.txt)

The payload of every property of an image, independent of the decoder.
-/
namespace Limage.Spec

/-- valid UTF-8: the encoding of some characters -/
def Utf8 (b : Bytes) : Prop := ∃ cs : List Char, b = cs.flatMap String.utf8EncodeChar

/-- a string: its length with the closing zero, its bytes and the zero; the empty string is the
number 0 -/
def str (s : Bytes) : Bytes := if s = [] then be 4 0 else be 4 (s.length + 1) ++ s ++ [0]

/-- a parasite: name, flags, and data with its length -/
def parasite (name : Bytes) (flags : Nat) (data : Bytes) : Bytes :=
  str name ++ be 4 flags ++ be 4 data.length ++ data

/-- "gimp-text-layer" -/
def textName : Bytes := [103, 105, 109, 112, 45, 116, 101, 120, 116, 45, 108, 97, 121, 101, 114]

/-- Somewhere in the file there is a description of text `b`: a parasite with its name.  One that does not end before the file
does is filled up with zeros. -/
def TextIn (D b : Bytes) : Prop :=
  b = [] ∨ ∃ flags x k, flags < 2 ^ 32 ∧ b.length < 2 ^ 32 ∧ b = x ++ List.replicate k 0 ∧
    (str textName ++ be 4 flags ++ be 4 b.length ++ x) <:+: D

/-- an old-style path: name, locked, state, closed, number of points, version 1, 2 (with a
dummy) or 3 (with a tattoo as well), and 12 bytes for each point -/
inductive PathEntry : Bytes → Prop
  | v1 (name a b c pts : Bytes) (n : Nat) : a.length = 4 → b.length = 1 → c.length = 4 → pts.length = 12 * n →
      PathEntry (str name ++ a ++ b ++ c ++ be 4 n ++ be 4 1 ++ pts)
  | v2 (name a b c d pts : Bytes) (n : Nat) : a.length = 4 → b.length = 1 → c.length = 4 → d.length = 4 →
      pts.length = 12 * n → PathEntry (str name ++ a ++ b ++ c ++ be 4 n ++ be 4 2 ++ d ++ pts)
  | v3 (name a b c d e pts : Bytes) (n : Nat) : a.length = 4 → b.length = 1 → c.length = 4 → d.length = 4 →
      e.length = 4 → pts.length = 12 * n → PathEntry (str name ++ a ++ b ++ c ++ be 4 n ++ be 4 3 ++ d ++ e ++ pts)

/-- a stroke: type 1, closed, numbers per point, number of points; a point has a type and its numbers -/
inductive Stroke : Bytes → Prop
  | mk (closed pts : Bytes) (nf np : Nat) : closed.length = 4 → 2 ≤ nf → nf ≤ 6 → pts.length = np * (4 + 4 * nf) →
      Stroke (be 4 1 ++ closed ++ be 4 nf ++ be 4 np ++ pts)

/-- a path: name, tattoo, visible, linked, its parasites and its strokes -/
inductive Vector : Bytes → Prop
  | mk (name a b c : Bytes) (ps : List (Bytes × Nat × Bytes)) (ss : List Bytes) : a.length = 4 → b.length = 4 →
      c.length = 4 → (∀ s ∈ ss, Stroke s) →
      Vector (str name ++ a ++ b ++ c ++ be 4 ps.length ++ be 4 ss.length ++
        ps.flatMap (fun p => parasite p.1 p.2.1 p.2.2) ++ ss.flatten)

/-- the numbers of the properties with a meaning for images -/
def imageProps : List UInt32 := [1, 6, 8, 9, 17, 18, 19, 20, 21, 22, 23, 24, 25, 28, 39]

/-- `Payload typ body`: `body` is a payload of property `typ`. -/
inductive Payload : UInt32 → Bytes → Prop
  | colors (cs : List (UInt8 × UInt8 × UInt8)) :
      Payload 1 (be 4 cs.length ++ cs.flatMap fun c => [c.1, c.2.1, c.2.2])
  | opacity (n : Nat) : n ≤ 255 → Payload 6 (be 4 n)
  | flag (t : UInt32) (n : Nat) : t ∈ [8, 9, 28] → n ≤ 1 → Payload t (be 4 n)
  | compression (c : UInt8) : c ≤ 1 → Payload 17 [c]
  | guides (gs : List Bytes) : (∀ g ∈ gs, g.length = 5) → Payload 18 gs.flatten
  | resolution (x y : Bytes) : x.length = 4 → y.length = 4 → Payload 19 (x ++ y)
  | tattoo (n : Nat) : Payload 20 (be 4 n)
  | parasites (ps : List (Bytes × Nat × Bytes)) : (∀ p ∈ ps, Utf8 p.1) →
      Payload 21 (ps.flatMap fun p => parasite p.1 p.2.1 p.2.2)
  | unit (n : Nat) : n ≤ 4 → Payload 22 (be 4 n)
  | paths (active : Bytes) (es : List Bytes) : active.length = 4 → (∀ e ∈ es, PathEntry e) →
      Payload 23 (active ++ be 4 es.length ++ es.flatten)
  | userUnit (f d s1 s2 s3 s4 s5 : Bytes) : f.length = 4 → d.length = 4 →
      Payload 24 (f ++ d ++ str s1 ++ str s2 ++ str s3 ++ str s4 ++ str s5)
  | vectors (active : Bytes) (vs : List Bytes) : active.length = 4 → (∀ v ∈ vs, Vector v) →
      Payload 25 (be 4 1 ++ active ++ be 4 vs.length ++ vs.flatten)
  | samples (ss : List Bytes) : (∀ s ∈ ss, s.length = 8) → Payload 39 ss.flatten
  | other (t : UInt32) (b : Bytes) : t ∉ imageProps → t ≠ 0 → Payload t b

/-- A property list, of properties that satisfy `P`: each with type and length, closed by a zero type and length. -/
inductive PropList (P : UInt32 → Bytes → Prop) : Bytes → Prop
  | done : PropList P (be 4 0 ++ be 4 0)
  | more (t : UInt32) (body rest : Bytes) : t ≠ 0 → body.length < 2 ^ 32 → Payload t body → P t body →
      PropList P rest → PropList P (be 4 t.toNat ++ be 4 body.length ++ body ++ rest)

end Limage.Spec
