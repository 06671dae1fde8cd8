import Verif.Props.Grouping
/-! # Layers cut into pieces (C163) -/
namespace Limage
open Spec

/-! ## Specification -/

namespace Spec

/-- the pieces of a layer: in its mode, apart from each other, together where the layer is, and each with the colours of the layer -/
structure PiecesOf (ρ : Nat → UInt16) (l : Layer) (ps : List Layer) : Prop where
  mode : ∀ q ∈ ps, q.mode = l.mode
  apart : ps.Pairwise fun a b => ∀ p, ¬ (shows p a ∧ shows p b)
  covers : ∀ p, shows p l ↔ ∃ q ∈ ps, shows p q
  colours : ∀ q ∈ ps, ∀ p n, shows p q → layerAt ρ q p n = layerAt ρ l p n

/-- rectangles that do not overlap and make up `b` -/
def Tiles (b : Rect) (rs : List Rect) : Prop :=
  (rs.Pairwise fun a c => ∀ p, ¬ (inRect a p ∧ inRect c p)) ∧ ∀ p, inRect b p ↔ ∃ r ∈ rs, inRect r p

/-- C163 as stated: cutting a layer into pieces with `SubImageLayer` does not change the picture. -/
def CutsCleanly : Prop := ∀ (ρ : Nat → UInt16) (upper lower : List Layer) (l : Layer) (rs : List Rect), rs ≠ [] → Tiles l.bounds rs → ∀ (p : Pt) (n : Nat),
  Img.at ρ (.group (upper ++ rs.map (subImageLayer · l) ++ lower)) p n = Img.at ρ (.group (upper ++ [l] ++ lower)) p n

/-- the part of a layer in `r`, with the image cut and moved as well -/
def pieceIn (r : Rect) (l : Layer) (i : Leaf) : Layer :=
  { l with bounds := r, image := .leaf ⟨⟨0, 0, r.x1 - r.x0, r.y1 - r.y0⟩, i.model,
      fun q => i.pixel ⟨q.x + (r.x0 - l.bounds.x0), q.y + (r.y0 - l.bounds.y0)⟩⟩ }

end Spec

/-! ## Proofs -/

theorem layersAt_pieces_none {ρ : Nat → UInt16} {cm : Option ColorModel} (p : Pt) (n : Nat) (lower : List Layer) :
    ∀ ps : List Layer, (∀ q ∈ ps, ¬ shows p q) → layersAt ρ cm (ps ++ lower) p n = layersAt ρ cm lower p n
  | [], _ => rfl
  | q :: ps, h => by
    rw [List.cons_append, layersAt_cons, layersAt_pieces_none p n lower ps fun q hq => h q (List.mem_cons_of_mem _ hq)]
    cases layersAt ρ cm lower p n with
    | none => rfl
    | some x =>
      rw [Option.bind_some]
      exact drawLayer_hidden _ _ (h q List.mem_cons_self)

/-- a layer is drawn by what it shows and its mode -/
theorem drawLayer_piece {ρ : Nat → UInt16} {cm : Option ColorModel} {l q : Layer} {p : Pt} (hl : shows p l) (hq : shows p q) (hm : q.mode = l.mode)
    (hc : ∀ n, layerAt ρ q p n = layerAt ρ l p n) (c : Color) (n : Nat) : drawLayer ρ cm q p c n = drawLayer ρ cm l p c n := by
  rw [drawLayer_shows _ _ hl, drawLayer_shows _ _ hq, hm, hc n]

theorem layersAt_pieces {ρ : Nat → UInt16} {cm : Option ColorModel} {l : Layer} (p : Pt) (n : Nat) (lower : List Layer) (hl : shows p l) :
    ∀ ps : List Layer, (∀ q ∈ ps, q.mode = l.mode) → (ps.Pairwise fun a b => ∀ p, ¬ (shows p a ∧ shows p b)) → (∃ q ∈ ps, shows p q) →
    (∀ q ∈ ps, ∀ p n, shows p q → layerAt ρ q p n = layerAt ρ l p n) → layersAt ρ cm (ps ++ lower) p n = layersAt ρ cm (l :: lower) p n
  | [], _, _, h, _ => by obtain ⟨q, hq, -⟩ := h; exact absurd hq List.not_mem_nil
  | q :: ps, hm, ha, he, hc => by
    rw [List.pairwise_cons] at ha
    rw [List.cons_append]
    by_cases hq : shows p q
    · rw [layersAt_cons, layersAt_cons, layersAt_pieces_none p n lower ps fun a h1 h2 => ha.1 a h1 p ⟨hq, h2⟩]
      refine congrArg _ (funext fun x => ?_)
      exact drawLayer_piece hl hq (hm q List.mem_cons_self) (fun n => hc q List.mem_cons_self p n hq) x.1 x.2
    · rw [layersAt_cons, layersAt_pieces p n lower hl ps (fun a h => hm a (List.mem_cons_of_mem _ h)) ha.2 ?_ fun a h => hc a (List.mem_cons_of_mem _ h)]
      · cases layersAt ρ cm (l :: lower) p n with
        | none => rfl
        | some x =>
          rw [Option.bind_some]
          exact drawLayer_hidden _ _ hq
      · obtain ⟨a, h1, h2⟩ := he
        rcases List.mem_cons.1 h1 with rfl | h1
        · exact absurd h2 hq
        · exact ⟨a, h1, h2⟩

theorem layersAt_above {ρ : Nat → UInt16} {cm : Option ColorModel} {p : Pt} {n : Nat} {a b : List Layer} (h : layersAt ρ cm a p n = layersAt ρ cm b p n) :
    ∀ upper : List Layer, layersAt ρ cm (upper ++ a) p n = layersAt ρ cm (upper ++ b) p n
  | [] => h
  | l :: upper => by rw [List.cons_append, List.cons_append, layersAt_cons, layersAt_cons, layersAt_above h upper]

/-- **C163** (pieces that show what the layer shows).  A layer may be replaced by pieces of it, in every mode and with every layer above and below. -/
theorem C163_pieces_partial (ρ : Nat → UInt16) (upper lower : List Layer) (l : Layer) (ps : List Layer) (h : PiecesOf ρ l ps)
    (hm : groupModel (upper ++ ps ++ lower) = groupModel (upper ++ [l] ++ lower)) (p : Pt) (n : Nat) :
    Img.at ρ (.group (upper ++ ps ++ lower)) p n = Img.at ρ (.group (upper ++ [l] ++ lower)) p n := by
  rw [at_group, at_group, hm, List.append_assoc, List.append_assoc, List.singleton_append]
  refine layersAt_above ?_ upper
  by_cases hl : shows p l
  · exact layersAt_pieces p n lower hl ps h.mode h.apart ((h.covers p).1 hl) h.colours
  · rw [layersAt_pieces_none p n lower ps fun q h1 h2 => hl ((h.covers p).2 ⟨q, h1, h2⟩), layersAt_cons]
    cases layersAt ρ (groupModel (upper ++ l :: lower)) lower p n with
    | none => rfl
    | some x =>
      rw [Option.bind_some]
      exact (drawLayer_hidden _ _ hl).symm

theorem shows_pieceIn {r : Rect} {l : Layer} {i : Leaf} {p : Pt} : shows p (pieceIn r l i) ↔ l.invisible = false ∧ inRect r p := Iff.rfl

/-- rectangles that make up the bounds of a layer cut it into pieces -/
theorem tiles_pieces (ρ : Nat → UInt16) (l : Layer) (i : Leaf) (hi : l.image = .leaf i) (rs : List Rect) (h : Tiles l.bounds rs) :
    PiecesOf ρ l (rs.map (pieceIn · l i)) where
  mode := by
    intro q hq
    obtain ⟨r, -, rfl⟩ := List.mem_map.1 hq
    rfl
  apart := List.pairwise_map.2 (h.1.imp fun hab p hp => hab p ⟨hp.1.2, hp.2.2⟩)
  covers := by
    intro p
    constructor
    · rintro ⟨h1, h2⟩
      obtain ⟨r, hr, h3⟩ := (h.2 p).1 h2
      exact ⟨_, List.mem_map.2 ⟨r, hr, rfl⟩, h1, h3⟩
    · rintro ⟨q, hq, h1, h2⟩
      obtain ⟨r, hr, rfl⟩ := List.mem_map.1 hq
      exact ⟨h1, (h.2 p).2 ⟨r, hr, h2⟩⟩
  colours := by
    intro q hq p n hs
    obtain ⟨r, -, rfl⟩ := List.mem_map.1 hq
    unfold layerAt pieceIn
    rw [hi]
    dsimp only [Img.at]
    have e : (⟨p.x - r.x0 + (r.x0 - l.bounds.x0), p.y - r.y0 + (r.y0 - l.bounds.y0)⟩ : Pt) = ⟨p.x - l.bounds.x0, p.y - l.bounds.y0⟩ := by
      congr 1 <;> omega
    rw [e]

theorem pieces_model {upper lower : List Layer} {l : Layer} {rs : List Rect} (f : Rect → Layer) (hne : rs ≠ []) (hf : ∀ r, (f r).image.colorModel = l.image.colorModel) :
    groupModel (upper ++ rs.map f ++ lower) = groupModel (upper ++ [l] ++ lower) := by
  rw [List.append_assoc, List.append_assoc]
  refine groupModel_append upper ?_
  obtain ⟨r, rs, rfl⟩ := List.exists_cons_of_ne_nil hne
  rw [List.map_cons, List.cons_append, List.singleton_append, groupModel_cons, groupModel_cons, hf]

/-- **C163** (layers cut along with their images).  The claim holds if the images are cut and moved along with the layers, however many pieces are made. -/
theorem C163_cut_partial (ρ : Nat → UInt16) (upper lower : List Layer) (l : Layer) (i : Leaf) (hi : l.image = .leaf i) (rs : List Rect) (hne : rs ≠ [])
    (h : Tiles l.bounds rs) (p : Pt) (n : Nat) :
    Img.at ρ (.group (upper ++ rs.map (pieceIn · l i) ++ lower)) p n = Img.at ρ (.group (upper ++ [l] ++ lower)) p n :=
  C163_pieces_partial ρ upper lower l _ (tiles_pieces ρ l i hi rs h) (pieces_model _ hne fun r => by rw [hi]; rfl) p n

theorem tiles_two {x0 x x1 y0 y1 : Int} (h0 : x0 ≤ x) (h1 : x ≤ x1) : Tiles ⟨x0, y0, x1, y1⟩ [⟨x0, y0, x, y1⟩, ⟨x, y0, x1, y1⟩] := by
  constructor
  · simp only [List.pairwise_cons, List.mem_singleton, List.not_mem_nil, false_implies, implies_true, List.Pairwise.nil, and_true, forall_eq, inRect]
    intro p
    omega
  · intro p
    simp only [List.mem_cons, List.not_mem_nil, or_false, exists_eq_or_imp, exists_eq_left, inRect]
    omega

-- a translucent Multiply layer over a Normal one, cut at x = 1
example (i : Leaf) (p : Pt) :
    let l : Layer := ⟨[], ⟨0, 0, 2, 1⟩, Mode.multiply, false, 100, .leaf i⟩
    Img.at (fun _ => 0) (.group ([pieceIn ⟨0, 0, 1, 1⟩ l i, pieceIn ⟨1, 0, 2, 1⟩ l i] ++ [pixelLayer (.gray 128) .other Mode.normal])) p 0 =
      Img.at (fun _ => 0) (.group ([l] ++ [pixelLayer (.gray 128) .other Mode.normal])) p 0 :=
  C163_cut_partial _ [] _ _ i rfl [⟨0, 0, 1, 1⟩, ⟨1, 0, 2, 1⟩] (by decide) (tiles_two (by decide) (by decide)) p 0

/-- **C163** (layers of one colour).  The claim holds for layers with the same colour at every point. -/
theorem C163_plain_partial (ρ : Nat → UInt16) (upper lower : List Layer) (l : Layer) (col : Color) (hi : ∀ q n, l.image.at ρ q n = some (col, n))
    (rs : List Rect) (hne : rs ≠ []) (h : Tiles l.bounds rs) (p : Pt) (n : Nat) :
    Img.at ρ (.group (upper ++ rs.map (subImageLayer · l) ++ lower)) p n = Img.at ρ (.group (upper ++ [l] ++ lower)) p n := by
  have hs : ∀ r p, shows p (subImageLayer r l) ↔ l.invisible = false ∧ inRect r p ∧ inRect l.bounds p := by
    intro r p
    exact Iff.and Iff.rfl (inRect_inter r l.bounds p)
  refine C163_pieces_partial ρ upper lower l _ ⟨?_, ?_, ?_, ?_⟩ (pieces_model (subImageLayer · l) hne fun r => rfl) p n
  · intro q hq
    obtain ⟨r, -, rfl⟩ := List.mem_map.1 hq
    rfl
  · exact List.pairwise_map.2 (h.1.imp fun hab p hp => hab p ⟨((hs _ _).1 hp.1).2.1, ((hs _ _).1 hp.2).2.1⟩)
  · intro p
    constructor
    · rintro ⟨h1, h2⟩
      obtain ⟨r, hr, h3⟩ := (h.2 p).1 h2
      exact ⟨_, List.mem_map.2 ⟨r, hr, rfl⟩, (hs r p).2 ⟨h1, h3, h2⟩⟩
    · rintro ⟨q, hq, h1⟩
      obtain ⟨r, hr, rfl⟩ := List.mem_map.1 hq
      have := (hs r p).1 h1
      exact ⟨this.1, this.2.2⟩
  · intro q hq p n _
    obtain ⟨r, -, rfl⟩ := List.mem_map.1 hq
    unfold layerAt
    rw [show (subImageLayer r l).image = l.image from rfl, hi, hi]
    rfl

-- a plain translucent layer cut at x = 1
example (p : Pt) :
    let l : Layer := ⟨[], ⟨0, 0, 2, 1⟩, Mode.screen, false, 100, .leaf ⟨⟨0, 0, 2, 1⟩, .other, fun _ => some (.gray 128)⟩⟩
    Img.at (fun _ => 0) (.group ([subImageLayer ⟨0, 0, 1, 1⟩ l, subImageLayer ⟨1, 0, 2, 1⟩ l] ++ [pixelLayer (.gray 128) .other Mode.normal])) p 0 =
      Img.at (fun _ => 0) (.group ([l] ++ [pixelLayer (.gray 128) .other Mode.normal])) p 0 :=
  C163_plain_partial _ [] _ _ (.gray 128) (fun _ _ => rfl) [⟨0, 0, 1, 1⟩, ⟨1, 0, 2, 1⟩] (by decide) (tiles_two (by decide) (by decide)) p 0

/-- C163 as stated does not hold: `SubImageLayer` moves the bounds but not the image, so that the second piece shows what the first shows. -/
theorem C163_refuted : ¬ CutsCleanly := by
  intro h
  have h := h (fun _ => 0) [] [] ⟨[], ⟨0, 0, 2, 1⟩, Mode.normal, false, 0, .leaf ⟨⟨0, 0, 2, 1⟩, .other, fun q => some (if q.x = 0 then .gray 0 else .gray 255)⟩⟩
    [⟨0, 0, 1, 1⟩, ⟨1, 0, 2, 1⟩] (by decide) (tiles_two (by decide) (by decide)) ⟨1, 0⟩ 0
  revert h
  decide +kernel

end Limage
