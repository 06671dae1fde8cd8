import Verif.Props.PaletteOnly
import Verif.Props.Registered
/-! # Pictures with a background (C168) -/
namespace Limage
open Spec

/-! ## Specification -/

namespace Spec

/-- the pixel of a layer at a point is opaque -/
def OpaqueAt (ρ : Nat → UInt16) (l : Layer) (p : Pt) : Prop := ∀ n c k, layerAt ρ l p n = some (c, k) → c.toNRGBA.a = 0xffff

/-- C168 as stated: where a layer in mode Normal is opaque, so is the picture, whatever is above and below. -/
def StaysOpaque : Prop := ∀ (ρ : Nat → UInt16) (upper lower : List Layer) (l : Layer) (p : Pt) (n : Nat) (c : Color) (k : Nat),
  l.mode = Mode.normal → shows p l → OpaqueAt ρ l p → Img.at ρ (.group (upper ++ l :: lower)) p n = some (c, k) → c.toNRGBA.a = 0xffff

end Spec

/-! ## Proofs -/

theorem draw_opaque {ρ : Nat → UInt16} {cm : Option ColorModel} {l : Layer} {p : Pt} {c c' : Color} {n n' : Nat} (hm : l.mode = Mode.normal)
    (hs : shows p l) (ho : OpaqueAt ρ l p) (h : drawLayer ρ cm l p c n = some (c', n')) : c'.toNRGBA.a = 0xffff := by
  rw [drawLayer_shows _ _ hs] at h
  cases cm with
  | none => cases h
  | some cm =>
  rw [Option.bind_some] at h
  cases hx : layerAt ρ l p n with
  | none => rw [hx] at h; cases h
  | some x =>
  obtain ⟨t, k⟩ := x
  have ht := ho n t k hx
  rw [hx, Option.bind_some] at h
  dsimp only at h
  have hd : ¬ Mode.normal = Mode.dissolve := by decide
  rw [hm, if_neg hd] at h
  split at h
  · rw [if_pos (by rw [ht]; decide)] at h
    cases h
    rfl
  · rw [C01_opaque_top 0 c t ht] at h
    cases h
    exact ht

/-- **C168**, if no layer in mode Color is seen above.  Full statement: `StaysOpaque`; `C168_refuted` shows that it is false with one. -/
theorem C168_opaque_partial (ρ : Nat → UInt16) (upper lower : List Layer) (l : Layer) (p : Pt) (n : Nat) (c : Color) (k : Nat)
    (hm : l.mode = Mode.normal) (hs : shows p l) (ho : OpaqueAt ρ l p) (hu : ∀ a ∈ upper, shows p a → a.mode ≠ Mode.color)
    (h : Img.at ρ (.group (upper ++ l :: lower)) p n = some (c, k)) : c.toNRGBA.a = 0xffff := by
  rw [at_group] at h
  generalize groupModel (upper ++ l :: lower) = cm at h
  induction upper generalizing c k with
  | nil =>
    rw [List.nil_append, layersAt_cons] at h
    obtain ⟨⟨c', k'⟩, _, h2⟩ := Option.bind_eq_some_iff.1 h
    exact draw_opaque hm hs ho h2
  | cons a upper ih =>
    rw [List.cons_append, layersAt_cons] at h
    obtain ⟨⟨c', k'⟩, h1, h2⟩ := Option.bind_eq_some_iff.1 h
    have h3 := ih c' k' (fun b hb => hu b (List.mem_cons_of_mem _ hb)) h1
    by_cases ha : shows p a
    · have h4 := drawLayer_covers (.inl (hu a List.mem_cons_self ha)) h2
      rw [h3] at h4
      exact UInt16.le_antisymm (UInt16.le_iff_toNat_le.2 (u16_le _)) h4
    · dsimp only at h2
      rw [drawLayer_hidden _ _ ha] at h2
      cases h2
      exact h3

/-- a faint layer in mode Multiply and one in mode Normal above an opaque one -/
example : OpaqueAt (fun _ => 0) ⟨[], ⟨0, 0, 4, 4⟩, Mode.normal, false, 0, plainLeaf (.gray 9) .gray⟩ ⟨1, 1⟩ ∧
    shows ⟨1, 1⟩ (⟨[], ⟨0, 0, 4, 4⟩, Mode.normal, false, 0, plainLeaf (.gray 9) .gray⟩ : Layer) ∧
    ∃ c k, Img.at (fun _ => 0) (.group ([⟨[], ⟨0, 0, 4, 4⟩, Mode.multiply, false, 200, plainLeaf (.nrgba 9 8 7 60) .other⟩,
      ⟨[], ⟨0, 0, 4, 4⟩, Mode.normal, false, 0, plainLeaf (.nrgba 9 8 7 60) .other⟩] ++
      [⟨[], ⟨0, 0, 4, 4⟩, Mode.normal, false, 0, plainLeaf (.gray 9) .gray⟩])) ⟨1, 1⟩ 0 = some (c, k) := by
  refine ⟨fun n c k h => ?_, by simp [shows, inRect], _, _, by cbv⟩
  have : layerAt (fun _ => 0) (⟨[], ⟨0, 0, 4, 4⟩, Mode.normal, false, 0, plainLeaf (.gray 9) .gray⟩ : Layer) ⟨1, 1⟩ n = some (.gray 9, n) := by cbv
  rw [this] at h
  cases h
  decide

/-- C168 is false: a transparent layer in mode Color makes the picture transparent. -/
theorem C168_refuted : ¬ StaysOpaque := by
  intro H
  have h : ∃ c k, Img.at (fun _ => 0) (.group ([⟨[], ⟨0, 0, 4, 4⟩, Mode.color, false, 0, plainLeaf (.nrgba 9 8 7 0) .other⟩] ++
      [⟨[], ⟨0, 0, 4, 4⟩, Mode.normal, false, 0, plainLeaf (.gray 9) .gray⟩])) ⟨1, 1⟩ 0 = some (c, k) ∧ c.toNRGBA.a = 0 := ⟨_, _, by cbv, by decide⟩
  obtain ⟨c, k, h, ha⟩ := h
  have := H (fun _ => 0) _ [] _ ⟨1, 1⟩ 0 c k rfl (by simp [shows, inRect]) (fun n c k h => by
    have e : layerAt (fun _ => 0) (⟨[], ⟨0, 0, 4, 4⟩, Mode.normal, false, 0, plainLeaf (.gray 9) .gray⟩ : Layer) ⟨1, 1⟩ n = some (.gray 9, n) := by cbv
    rw [e] at h
    cases h
    decide) h
  rw [ha] at this
  exact absurd this (by decide)

theorem framed_opaque {R : Rect} {k : Nat} {pal : List Color} (hp : RGBPalette pal) {i : Img} (h : Framed R k pal i) {x : Leaf} (hx : PixelsOf x i)
    (hn : noAlpha x.model) (hm : ∀ m, ¬ MaskOf m x i) :
    ∀ (ρ : Nat → UInt16) (p : Pt) (n m : Nat) (c : Color), Rect.mem p R = true → i.at ρ p n = some (c, m) → c.toNRGBA.a = 0xffff := by
  induction h with
  | nil => cases hx
  | leaf y h1 h2 h3 h4 =>
    cases hx
    intro ρ p n m c hin e
    rw [Img.at] at e
    obtain ⟨c', hc, e'⟩ := Option.map_eq_some_iff.1 e
    obtain ⟨rfl, -⟩ := Prod.mk.inj e'
    have hk := h4 p c' (by rw [h2]; exact hin) hc
    have : k = 2 ∨ k = 4 := by
      have : k = 0 ∨ k = 1 ∨ k = 2 ∨ k = 3 ∨ k = 4 ∨ k = 5 := by omega
      rw [h3] at hn
      unfold noAlpha kindModel at hn
      rcases this with rfl | rfl | rfl | rfl | rfl | rfl <;> simp at hn ⊢
    rcases this with rfl | rfl
    · obtain ⟨y, rfl⟩ := hk
      rfl
    · obtain ⟨v, hv, rfl | rfl⟩ := hk
      · obtain ⟨r, g, b, rfl⟩ := hp _ hv
        rfl
      · rfl
  | text t _ ih =>
    cases hx with
    | text hx =>
      intro ρ p n m c hin e
      rw [Img.at] at e
      exact ih hx (fun m h => hm m (.text h)) ρ p n m c hin e
  | masked msk _ _ _ =>
    cases hx with
    | masked hx => exact absurd (.mask hx) (hm msk)

/-- **C168** for files: if the lowest layer of a grey or indexed picture has no alpha, no mask and no opacity, every pixel of the picture where that layer is
is opaque. -/
theorem C168_file (env : Env) (sch : Sched) (hv : sch.Valid) (dec : Bool) (D : Bytes) (upper : List Layer) (l : Layer)
    (h : decodeImage env sch dec D = .ok (.ok (upper ++ [l]))) (hb : fromBE ((D.drop 22).take 4) ≠ 0) (x : Leaf) (hx : PixelsOf x l.image)
    (hn : noAlpha x.model) (hm : ∀ m, ¬ MaskOf m x l.image) (hi : l.invisible = false) (ht : l.transparency = 0)
    (ρ : Nat → UInt16) (p : Pt) (n : Nat) (c : Color) (k : Nat) (hp : inRect l.bounds p)
    (e : (Img.group (upper ++ [l])).at ρ p n = some (c, k)) : c.toNRGBA.a = 0xffff := by
  obtain ⟨⟨pal, h1⟩, h2⟩ := C91_accepted env sch hv dec D _ h
  have hmem : l ∈ upper ++ [l] := List.mem_append_right _ List.mem_cons_self
  have hmode : ∀ a ∈ upper ++ [l], plainMode a.mode := (h1 _ .self).2.1 hb
  have hl : l.mode = Mode.normal := by
    rcases hmode l hmem with q | q
    · exact q
    · rcases h2 l (by simp) with q' | q'
      · exact q'
      · rw [q'] at q
        exact absurd q (by decide)
  refine C168_opaque_partial ρ upper [] l p n c k hl ⟨hi, hp⟩ (fun n c k e => ?_) (fun a ha _ => ?_) e
  · obtain ⟨hd, r, he, hf, -⟩ := decode_finished hv h
    unfold layerAt at e
    cases hy : l.image.at ρ ⟨p.x - l.bounds.x0, p.y - l.bounds.y0⟩ n with
    | none => rw [hy] at e; cases e
    | some y =>
      obtain ⟨c2, k2⟩ := y
      rw [hy] at e
      cases e
      rw [ht, (C20_opacity c2 (255 - 0)).1 (by decide)]
      rcases (hf _ .self).1 l hmem with ⟨t, hi, _⟩ | ⟨y, ⟨w, h, off, o, kk, i, q1, q2, q3, q4, _⟩, y1, y2, _⟩
      · rw [hi] at hx; cases hx
      · rw [q1] at y1
        have y1 : i = l.image := by cases y1; rfl
        subst y1
        exact framed_opaque (readHead_rgb he) q4 hx hn hm ρ _ n _ c2 (mem_inRect.2 (cut_inside (y2.symm.trans q2) p hp)) hy
  · rcases hmode a (List.mem_append_left _ ha) with q | q <;> rw [q] <;> decide

/-- whether this is a picture with one visible grey layer without alpha -/
def isGreyLeaf : Outcome (Except Err (List Layer)) → Bool
  | .ok (.ok [⟨_, b, _, false, 0, .leaf L⟩]) => L.model == .gray && b == ⟨0, 0, 1, 1⟩
  | _ => false

/-- a grey file with a background -/
example : ∃ l x, decodeImage exEnv exSched true onePixelFile = .ok (.ok ([] ++ [l])) ∧ fromBE ((onePixelFile.drop 22).take 4) ≠ 0 ∧ PixelsOf x l.image ∧
    noAlpha x.model ∧ (∀ m, ¬ MaskOf m x l.image) ∧ l.invisible = false ∧ l.transparency = 0 ∧ inRect l.bounds ⟨0, 0⟩ := by
  have h1 : isGreyLeaf (decodeImage exEnv exSched true onePixelFile) = true := by decide +kernel
  unfold isGreyLeaf at h1
  split at h1
  · next L e =>
    simp only [Bool.and_eq_true, beq_iff_eq] at h1
    refine ⟨_, L, e, by decide +kernel, .leaf, .inl h1.1, (fun m hm => by cases hm), rfl, rfl, ?_⟩
    rw [h1.2]
    simp [inRect]
  · cases h1

end Limage
