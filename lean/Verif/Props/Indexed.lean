import Verif.Spec.Steady
import Verif.Props.Image
import Verif.Model.XcfEncode
/-!
# C81: pixels of indexed images; C82: images without Dissolve look the same every time
-/
namespace Limage
open Spec

theorem half_iff (a : UInt16) : a > 0x7fff ↔ 0x8000 ≤ a.toNat := by
  rw [gt_iff_lt, UInt16.lt_iff_toNat_lt]
  exact Iff.rfl

/-- **C81**: a pixel of an image with a palette is the colour of the topmost layer that covers more than half of it, made
opaque; transparent if there is none.  (No Dissolve layer shows; the layers' own pixels need no random numbers.) -/
theorem C81_topmost (ρ : Nat → UInt16) (g : List Layer) (p : Pt) (n : Nat) (pal : List Color)
    (hcm : groupModel g = some (.palette pal))
    (pix : Layer → Color) (hpix : ∀ l ∈ g, shows p l → ∀ n, layerAt ρ l p n = some (pix l, n))
    (hmode : ∀ l ∈ g, shows p l → l.mode ≠ Mode.dissolve) :
    Img.at ρ (.group g) p n = some
      (match topmost p pix g with
       | some l => .nrgba64 { (pix l).toNRGBA with a := 0xffff }
       | none => .alpha 0, n) := by
  rw [at_group, hcm]
  clear hcm
  induction g with
  | nil => exact layersAt_nil ..
  | cons a g ih =>
    rw [layersAt_cons, ih (fun l hl => hpix l (List.mem_cons_of_mem _ hl)) (fun l hl => hmode l (List.mem_cons_of_mem _ hl)),
      Option.bind_some]
    dsimp only
    unfold topmost
    rw [List.find?_cons]
    by_cases hs : shows p a
    · rw [drawLayer_shows _ n hs, Option.bind_some, hpix a (List.mem_cons_self ..) hs n, Option.bind_some]
      dsimp only
      have hd := hmode a (List.mem_cons_self ..) hs
      rw [if_pos (by simp [hd, ColorModel.isPalette])]
      by_cases ha : (pix a).toNRGBA.a > 0x7fff
      · rw [if_pos ha]
        simp [hs, (half_iff _).1 ha]
      · rw [if_neg ha]
        have : ¬ 0x8000 ≤ (pix a).toNRGBA.a.toNat := fun h => ha ((half_iff _).2 h)
        simp only [hs, this, and_false, decide_false]
    · rw [drawLayer_hidden _ _ hs]
      simp only [hs, false_and, decide_false]

/-- an indexed layer -/
example : groupModel [⟨[], ⟨0, 0, 2, 2⟩, Mode.multiply, false, 0, .leaf ⟨⟨0, 0, 2, 2⟩, .palette [.lrgb 1 2 3], fun _ => some (.lrgb 1 2 3)⟩⟩] = some (.palette [.lrgb 1 2 3]) ∧
    ∀ ρ n, layerAt ρ ⟨[], ⟨0, 0, 2, 2⟩, Mode.multiply, false, 0, .leaf ⟨⟨0, 0, 2, 2⟩, .palette [.lrgb 1 2 3], fun _ => some (.lrgb 1 2 3)⟩⟩ ⟨1, 1⟩ n = some (.lrgb 1 2 3, n) :=
  ⟨rfl, fun _ _ => rfl⟩

/-- **C81**: so its coverage is all or nothing. -/
theorem C81_all_or_nothing (ρ : Nat → UInt16) (g : List Layer) (p : Pt) (n : Nat) (pal : List Color)
    (hcm : groupModel g = some (.palette pal)) (hmode : ∀ l ∈ g, shows p l → l.mode ≠ Mode.dissolve)
    (c : Color) (n' : Nat) (h : Img.at ρ (.group g) p n = some (c, n')) :
    c.toNRGBA.a = 0 ∨ c.toNRGBA.a = 0xffff := by
  rw [at_group, hcm] at h
  clear hcm
  induction g generalizing c n' with
  | nil =>
    rw [layersAt_nil] at h
    injection h with h
    injection h with h _
    left
    rw [← h]
    rfl
  | cons a g ih =>
    rw [layersAt_cons] at h
    obtain ⟨⟨c0, n0⟩, h0, h⟩ := Option.bind_eq_some_iff.1 h
    have ih := ih (fun l hl => hmode l (List.mem_cons_of_mem _ hl)) c0 n0 h0
    dsimp only at h
    by_cases hs : shows p a
    · rw [drawLayer_shows _ _ hs, Option.bind_some] at h
      obtain ⟨⟨t, n1⟩, -, h⟩ := Option.bind_eq_some_iff.1 h
      have hd := hmode a (List.mem_cons_self ..) hs
      dsimp only at h
      rw [if_pos (by simp [hd, ColorModel.isPalette])] at h
      by_cases ha : t.toNRGBA.a > 0x7fff
      · rw [if_pos ha] at h
        injection h with h
        injection h with h _
        right
        rw [← h]
        rfl
      · rw [if_neg ha] at h
        injection h with h
        injection h with h _
        rw [← h]
        exact ih
    · rw [drawLayer_hidden _ _ hs] at h
      injection h with h
      injection h with h _
      rw [← h]
      exact ih

/-- a leaf of one colour with a palette -/
def paletteLeaf (c : Color) : Img := .leaf ⟨⟨0, 0, 4, 4⟩, .palette [c], fun _ => some c⟩
/-- two layers of an indexed image: a faint red one above a green one -/
def indexedPair : List Layer :=
  [⟨[], ⟨0, 0, 2, 2⟩, Mode.normal, false, 200, paletteLeaf (.lrgb 255 0 0)⟩,
   ⟨[], ⟨0, 0, 4, 4⟩, Mode.multiply, false, 100, paletteLeaf (.lrgb 0 255 0)⟩]

example : groupModel indexedPair = some (.palette [.lrgb 255 0 0]) ∧
    (∀ l ∈ indexedPair, shows ⟨1, 1⟩ l → l.mode ≠ Mode.dissolve) ∧ (∀ l ∈ indexedPair, shows ⟨1, 1⟩ l) ∧
    (∀ l ∈ indexedPair, ∃ c, ∀ n, layerAt (fun _ => 0) l ⟨1, 1⟩ n = some (c, n)) ∧
    Img.at (fun _ => 0) (.group indexedPair) ⟨1, 1⟩ 0 = some (.nrgba64 ⟨0, 0xffff, 0, 0xffff⟩, 0) := by
  refine ⟨?_, ?_, ?_, ?_, by cbv⟩
  · unfold indexedPair paletteLeaf
    rw [groupModel, Img.colorModel]
  · intro l hl _
    rcases List.mem_cons.1 hl with rfl | hl
    · decide
    · rw [List.mem_singleton.1 hl]; decide
  · intro l hl
    rcases List.mem_cons.1 hl with rfl | hl
    · simp [shows, inRect]
    · rw [List.mem_singleton.1 hl]; simp [shows, inRect]
  · intro l hl
    rcases List.mem_cons.1 hl with rfl | hl
    · exact ⟨transparency (.lrgb 255 0 0) (255 - 200), fun n => by simp only [layerAt, paletteLeaf]; rw [Img.at]; rfl⟩
    · rw [List.mem_singleton.1 hl]
      exact ⟨transparency (.lrgb 0 255 0) (255 - 100), fun n => by simp only [layerAt, paletteLeaf]; rw [Img.at]; rfl⟩

/-! ## C82 -/

mutual
theorem steady_at (i : Img) (h : Steady i) (p : Pt) : ∃ c : Option Color, ∀ ρ n, i.at ρ p n = c.map (·, n) := by
  match i with
  | .leaf l => exact ⟨l.pixel p, fun ρ n => by rw [Img.at]⟩
  | .nil => exact ⟨none, fun ρ n => by rw [Img.at]; rfl⟩
  | .text i _ =>
    rw [Steady] at h
    obtain ⟨c, hc⟩ := steady_at i h p
    exact ⟨c, fun ρ n => by rw [Img.at]; exact hc ρ n⟩
  | .masked i m =>
    rw [Steady] at h
    obtain ⟨c, hc⟩ := steady_at i h p
    refine ⟨c.bind fun c => m.map fun m => transparency c (m.grayAt p), fun ρ n => ?_⟩
    rw [Img.at, hc]
    cases c <;> cases m <;> rfl
  | .group g =>
    rw [Steady] at h
    obtain ⟨c, hc⟩ := steady_layers g h (groupModel g) p
    exact ⟨c, fun ρ n => by rw [Img.at]; exact hc ρ n⟩
termination_by structural i

theorem steady_layers (g : List Layer) (h : SteadyAll g) (cm : Option ColorModel) (p : Pt) :
    ∃ c : Option Color, ∀ ρ n, layersAt ρ cm g p n = c.map (·, n) := by
  match g with
  | [] => exact ⟨some (.alpha 0), fun ρ n => by rw [layersAt]; rfl⟩
  | ⟨nm, b, mode, inv, tr, im⟩ :: rest =>
    rw [SteadyAll] at h
    obtain ⟨c, hc⟩ := steady_layers rest h.2 cm p
    cases hinv : inv with
    | true =>
      refine ⟨c, fun ρ n => ?_⟩
      rw [layersAt_cons, hc]
      cases c with
      | none => rfl
      | some c =>
        show drawLayer ρ cm _ p c n = _
        unfold drawLayer
        rw [if_pos rfl]
        rfl
    | false =>
      obtain ⟨hd, hs⟩ := h.1.resolve_left (by simp [hinv])
      obtain ⟨t, ht⟩ := steady_at im hs ⟨p.x - b.x0, p.y - b.y0⟩
      refine ⟨c.bind fun c => if ¬ Rect.mem p b then some c else cm.bind fun cm =>
        (t.map fun t => transparency t (255 - tr)).bind fun t =>
        if cm.isPalette then
          if t.toNRGBA.a > 0x7fff then some (.nrgba64 { t.toNRGBA with a := 0xffff }) else some c
        else composite 0 mode c t, fun ρ n => ?_⟩
      rw [layersAt_cons, hc]
      cases c with
      | none => rfl
      | some c =>
        show drawLayer ρ cm _ p c n = _
        unfold drawLayer
        rw [if_neg (by simp)]
        dsimp only
        rw [Option.bind_some]
        by_cases hb : ¬ Rect.mem p b
        · rw [if_pos hb, if_pos hb]; rfl
        · rw [if_neg hb, if_neg hb]
          cases cm with
          | none => rfl
          | some cm =>
            rw [Option.bind_some, Option.bind_some]
            unfold layerAt
            dsimp only
            rw [ht]
            cases t with
            | none => rfl
            | some t =>
              show (if _ then _ else _) = _
              by_cases hp : cm.isPalette = true
              · rw [if_pos (by simp [hd, hp])]
                simp only [Option.map_some, Option.bind_some, hp, if_true]
                split <;> rfl
              · rw [if_neg (by simp [hp]), if_neg hd]
                simp only [Option.map_some, Option.bind_some, hp, if_false, Bool.false_eq_true]
termination_by structural g
end

/-- **C82**: the pixels of an image without visible Dissolve layers do not depend on the random source, nor on what was asked
before, and asking for them draws no random number. -/
theorem C82_pixels (i : Img) (h : Steady i) (p : Pt) (ρ σ : Nat → UInt16) (m n : Nat) :
    (i.at ρ p m).map Prod.fst = (i.at σ p n).map Prod.fst ∧ ∀ c k, i.at ρ p m = some (c, k) → k = m := by
  obtain ⟨c, hc⟩ := steady_at i h p
  rw [hc, hc]
  refine ⟨by cases c <;> rfl, ?_⟩
  intro d k hk
  cases c with
  | none => cases hk
  | some c => injection hk with hk; injection hk with _ hk; exact hk.symm

/-- two indexed layers, none of them in mode Dissolve -/
example : Steady (.group indexedPair) := by
  unfold indexedPair paletteLeaf
  simp only [Steady, SteadyAll]
  exact ⟨.inr ⟨by decide, trivial⟩, .inr ⟨by decide, trivial⟩, trivial⟩

/-- the computation does not look at the random source -/
def Free {α : Type} (m : W α) : Prop := ∀ (env : WEnv) (ρ : Nat → UInt16) (s : WS), m { env with ρ := ρ } s = m env s

theorem Free.pure {α : Type} (a : α) : Free (Pure.pure a : W α) := fun _ _ _ => rfl

theorem Free.bind {α β : Type} {m : W α} {f : α → W β} (hm : Free m) (hf : ∀ a, Free (f a)) : Free (m >>= f) := by
  intro env ρ s
  show W.bind m f _ s = W.bind m f env s
  unfold W.bind
  rw [hm env ρ s]
  cases m env s with
  | none => rfl
  | some x =>
    obtain ⟨a, s, l⟩ := x
    dsimp only
    rw [hf a env ρ s]

theorem Free.get {α : Type} (o : Option α) : Free (W.get o) := fun _ _ _ => rfl
theorem Free.write (p : Bytes) : Free (write p) := fun _ _ _ => rfl
theorem Free.u32 (x : UInt32) : Free (writeUint32 x) := fun _ _ _ => rfl
theorem Free.u8 (x : UInt8) : Free (writeUint8 x) := fun _ _ _ => rfl
theorem Free.pos : Free currentPos := fun _ _ _ => rfl
theorem Free.ptr (p : PW) (x : UInt32) : Free (writePointer p x) := fun _ _ _ => rfl
theorem Free.reserve (n : UInt32) : Free (reservePointers n) := fun _ _ _ => rfl

theorem Free.writeAll (ps : List Bytes) : Free (writeAll ps) := by
  induction ps with
  | nil => exact Free.pure _
  | cons p ps ih => exact (Free.write p).bind fun _ => ih

theorem Free.u32s (xs : List UInt32) : Free (writeUint32s xs) := by
  induction xs with
  | nil => exact Free.pure _
  | cons x xs ih => exact (Free.u32 x).bind fun _ => ih

theorem Free.list (n : UInt32) : Free (reservePointerList n) :=
  (Free.reserve n).bind fun _ => (Free.u32 0).bind fun _ => Free.pure _

theorem Free.string (s : GoString) : Free (writeString s) :=
  (Free.u32 _).bind fun _ => (Free.write s).bind fun _ => Free.u8 0

theorem Free.pixel (i : Img) (h : Steady i) (p : Pt) : Free (pixelAt i p) := by
  intro env ρ s
  obtain ⟨c, hc⟩ := steady_at i h p
  unfold pixelAt
  dsimp only
  rw [hc, hc]

theorem Free.pixels (i : Img) (h : Steady i) (ps : List Pt) : Free (pixelsAt i ps) := by
  induction ps with
  | nil => exact Free.pure _
  | cons p ps ih => exact (Free.pixel i h p).bind fun _ => ih.bind fun _ => Free.pure _

theorem Free.channels (px : List Bytes) (k n : Nat) : Free (writeChannels px k n) := by
  induction k generalizing n with
  | zero => exact Free.pure _
  | succ k ih => exact ((Free.get _).bind fun ws => Free.writeAll ws).bind fun _ => ih _

theorem Free.tiles (i : Img) (h : Steady i) (f : Color → Bytes) (ch : Nat) (b : Rect) (os : List Pt) (pw : PW) :
    Free (writeTiles i f ch b os pw) := by
  induction os generalizing pw with
  | nil => exact Free.pure _
  | cons o os ih =>
    exact (Free.pixels i h _).bind fun _ => Free.pos.bind fun _ => (Free.ptr _ _).bind fun pw =>
      (Free.channels _ _ _).bind fun _ => ih pw

theorem Free.image (i : Img) (h : Steady i) (f : Color → Bytes) (ch : Nat) : Free (writeImage i f ch) := by
  refine (Free.get _).bind fun b => (Free.u32 _).bind fun _ => (Free.u32 _).bind fun _ => (Free.u32 _).bind fun _ =>
    Free.pos.bind fun _ => (Free.u32 _).bind fun _ => (Free.u32 _).bind fun _ => (Free.u32 _).bind fun _ =>
    (Free.u32 _).bind fun _ => (Free.list _).bind fun pw => Free.tiles i h f ch b _ pw

theorem Free.channel (m : GrayImg) : Free (writeChannel m) := by
  refine (Free.u32 _).bind fun _ => (Free.u32 _).bind fun _ => (Free.string _).bind fun _ => (Free.u32 _).bind fun _ =>
    (Free.u32 _).bind fun _ => Free.pos.bind fun _ => (Free.u32 _).bind fun _ => Free.image _ ?_ _ _
  unfold GrayImg.img
  rw [Steady]
  trivial

theorem Free.text (t : TextData) (dx dy : UInt32) : Free (writeText t dx dy) := by
  intro env ρ s
  unfold writeText
  dsimp only
  cases env.text t dx dy with
  | none => rfl
  | some d =>
    refine Free.bind (Free.u32 _) (fun _ => (Free.u32 _).bind fun _ => (Free.u32 _).bind fun _ => (Free.u32 _).bind fun _ =>
      (Free.u32 _).bind fun _ => (Free.string _).bind fun _ => (Free.u32 _).bind fun _ => (Free.u32 _).bind fun _ =>
      Free.write d) env ρ s

theorem Free.properties (e : Enc) (l : Layer) (ox oy : UInt32) (groups : List UInt32) :
    Free (writeProperties e l ox oy groups) := by
  refine (Free.u32 _).bind fun _ => (Free.u32 _).bind fun _ => (Free.u32 _).bind fun _ => (Free.string _).bind fun _ =>
    (Free.u32 _).bind fun _ => (Free.u32 _).bind fun _ => (Free.u32 _).bind fun _ => (Free.u32 _).bind fun _ =>
    (Free.u32 _).bind fun _ => (Free.u32 _).bind fun _ => (Free.u32 _).bind fun _ => (Free.u32 _).bind fun _ =>
    (Free.u32 _).bind fun _ => (Free.u32 _).bind fun _ => Free.bind ?_ fun _ => Free.bind ?_ fun _ => Free.bind ?_ fun _ =>
    (Free.u32 _).bind fun _ => (Free.u32 _).bind fun _ => (Free.u32 _).bind fun _ => Free.u32 _
  · unfold writePath
    split
    · exact (Free.u32 _).bind fun _ => (Free.u32 _).bind fun _ => Free.u32s _
    · exact Free.pure _
  · unfold writeTextProp
    split
    · exact Free.text _ _ _
    · exact Free.pure _
  · unfold writeGroupProp
    split
    · exact (Free.u32 _).bind fun _ => Free.u32 _
    · exact Free.pure _

theorem Free.mask (m : Option GrayImg) (ptrs : PW) : Free (writeMask m ptrs) := by
  cases m with
  | none => exact (Free.ptr _ _).bind fun _ => Free.pure _
  | some m => exact Free.pos.bind fun _ => (Free.ptr _ _).bind fun _ => Free.channel m

theorem Free.own (e : Enc) (l : Layer) (h : Steady l.image) (ox oy : UInt32) (groups : List UInt32) (pw : PW) :
    Free (writeOwn e l ox oy groups pw) := by
  have hc : Steady (layerContent l.image).1 := by
    unfold layerContent
    split
    · rename_i i m hi
      rw [hi, Steady] at h
      exact h
    · exact h
  exact Free.pos.bind fun _ => (Free.ptr _ _).bind fun _ => (Free.properties _ _ _ _ _).bind fun _ => (Free.u32 _).bind fun _ =>
    ((Free.reserve _).bind fun _ => Free.pos.bind fun _ => (Free.ptr _ _).bind fun _ => (Free.image _ hc _ _).bind fun _ =>
      Free.mask _ _).bind fun _ => Free.pure _

mutual
theorem Free.sub (e : Enc) (i : Img) (h : SteadyEvery i) (ox oy : UInt32) (groups : List UInt32) (pw : PW) :
    Free (writeSub e i ox oy groups pw) := by
  match i with
  | .group g =>
    rw [SteadyEvery] at h
    rw [writeSub]
    exact Free.layers e g h 0 ox oy groups pw
  | .leaf _ => rw [writeSub]; exact Free.pure _
  | .nil => rw [writeSub]; exact Free.pure _
  | .text _ _ => rw [writeSub]; exact Free.pure _
  | .masked _ _ => rw [writeSub]; exact Free.pure _
termination_by structural i

theorem Free.layers (e : Enc) (g : List Layer) (h : SteadyEach g) (n : Nat) (ox oy : UInt32) (groups : List UInt32) (pw : PW) :
    Free (writeLayers e g n ox oy groups pw) := by
  match g with
  | [] => rw [writeLayers]; exact Free.pure _
  | ⟨nm, b, mode, inv, tr, im⟩ :: rest =>
    rw [SteadyEach] at h
    rw [writeLayers]
    exact (Free.own e _ h.1 _ _ _ pw).bind fun pw => (Free.sub e im h.2.1 _ _ _ pw).bind fun pw =>
      Free.layers e rest h.2.2 (n + 1) ox oy groups pw
termination_by structural g
end

/-- **C82**: writing an image in which every layer's own image is without visible Dissolve layers does the same writes with the
same result whatever the random source returns. -/
theorem C82_encode (i : Img) (hs : Steady i) (h : SteadyEvery i) (env : WEnv) (ρ : Nat → UInt16) :
    runEncode { env with ρ := ρ } i = runEncode env i := by
  have hf : Free (encode i) := by
    refine (Free.write _).bind fun _ => (Free.get _).bind fun b => (Free.u32 _).bind fun _ => (Free.u32 _).bind fun _ =>
      (Free.get _).bind fun cm => (Free.u32 _).bind fun _ => Free.bind ?_ fun _ => (Free.u32 _).bind fun _ =>
      (Free.u32 _).bind fun _ => (Free.u8 _).bind fun _ => (Free.u32 _).bind fun _ => (Free.u32 _).bind fun _ => ?_
    · cases (encFor cm).palette with
      | none => exact Free.pure _
      | some p =>
        refine (Free.u32 _).bind fun _ => (Free.u32 _).bind fun _ => (Free.u32 _).bind fun _ => ?_
        induction p with
        | nil => exact Free.pure _
        | cons c cs ih => exact (Free.u8 _).bind fun _ => (Free.u8 _).bind fun _ => (Free.u8 _).bind fun _ => ih
    · unfold writeContent
      split
      · rename_i g
        rw [SteadyEvery] at h
        exact (Free.list _).bind fun pw => (Free.u32 _).bind fun _ => (Free.layers _ g h 0 0 0 [] pw).bind fun _ => Free.pure _
      · exact (Free.list _).bind fun pw => (Free.u32 _).bind fun _ => (Free.own _ _ hs _ _ _ pw).bind fun _ => Free.pure _
  unfold runEncode
  rw [hf env ρ WS.start]

example : Steady (.group indexedPair) ∧ SteadyEvery (.group indexedPair) := by
  unfold indexedPair paletteLeaf
  simp only [Steady, SteadyAll, SteadyEvery, SteadyEach]
  exact ⟨⟨.inr ⟨by decide, trivial⟩, .inr ⟨by decide, trivial⟩, trivial⟩, trivial, trivial, trivial, trivial, trivial⟩

end Limage
