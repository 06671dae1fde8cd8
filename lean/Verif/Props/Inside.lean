import Verif.Proofs.Layout
import Verif.Proofs.Image
import Verif.Props.Looks
import Verif.Props.Raster
/-!
# `Encode` only looks inside

What `Encode` writes for a picture depends on the pixels inside the images and inside the layers showing them, and on nothing else:
pixels elsewhere (the rest of a picture of which a part has been cut out, say) do not get into the file.
-/
namespace Limage
open Spec

/-! ## Specification -/

/-- two colours that give the same values whichever way they are asked for -/
def Spec.Indist (c c' : Color) : Prop :=
  c.rgba32 = c'.rgba32 ∧ c.toNRGBA = c'.toNRGBA ∧ nrgbaModel c = nrgbaModel c' ∧ grayModel c = grayModel c'

/-- the pixels of a mask inside it -/
def Spec.MaskSeen (m m' : Option GrayImg) : Prop :=
  match m, m' with
  | none, none => True
  | some m, some m' => m.rect = m'.rect ∧ ∀ q, inRect m.rect q → m.pix q = m'.pix q
  | _, _ => False

mutual
/-- Two images that differ at most in pixels outside the bounds of images and outside `R`, the part that is shown. -/
def Spec.Seen (R : Rect) (i j : Img) : Prop :=
  match i with
  | .leaf L => ∃ K, j = .leaf K ∧ L.bounds = K.bounds ∧ L.model = K.model ∧ ∀ q, inRect L.bounds q ∨ inRect R q →
      L.pixel q = none ∧ K.pixel q = none ∨ ∃ c c', L.pixel q = some c ∧ K.pixel q = some c' ∧ Indist c c'
  | .nil => j = .nil
  | .text i t => ∃ k, j = .text k t ∧ Seen R i k
  | .masked i m => ∃ k m', j = .masked k m' ∧ MaskSeen m m' ∧ Seen R i k
  | .group g => ∃ k, j = .group k ∧ SeenAll true g k
termination_by structural i

/-- Two lists of layers that differ at most in pixels outside the bounds of images and, if the layers are `drawn` at all, outside those of the
layers that are visible. -/
def Spec.SeenAll (drawn : Bool) (g k : List Layer) : Prop :=
  match g with
  | [] => k = []
  | ⟨name, b, mode, inv, tr, im⟩ :: rest => ∃ im' rest', k = ⟨name, b, mode, inv, tr, im'⟩ :: rest' ∧
      Seen (if drawn = true ∧ inv = false then ⟨0, 0, b.dx, b.dy⟩ else Rect.zero) im im' ∧ SeenAll drawn rest rest'
termination_by structural g
end

/-- The pictures given to `Encode`: it writes the layers of a group, not the picture they make. -/
def Spec.SeenTop (i j : Img) : Prop :=
  match i with
  | .group g => ∃ k, j = .group k ∧ SeenAll false g k
  | i => Seen Rect.zero i j

/-! ## Colours -/

theorem Spec.Indist.refl (c : Color) : Indist c c := ⟨rfl, rfl, rfl, rfl⟩

theorem indist_transparency {c c' : Color} (h : Indist c c') (o : UInt8) : Indist (transparency c o) (transparency c' o) := by
  unfold transparency
  split
  · exact h
  · split
    · exact .refl _
    · dsimp only
      rw [h.2.1]
      exact .refl _

theorem encFor_indist (cm : ColorModel) {c c' : Color} (h : Indist c c') : (encFor cm).func c = (encFor cm).func c' := by
  have h1 : rgbAlphaToBuf c = rgbAlphaToBuf c' := by unfold rgbAlphaToBuf; rw [h.2.2.1]
  have h2 : grayAlphaToBuf c = grayAlphaToBuf c' := by unfold grayAlphaToBuf grayAlphaModel; rw [h.2.2.2, h.1]
  have h3 : ∀ p, paletteAlphaToBuf p c = paletteAlphaToBuf p c' := by intro p; unfold paletteAlphaToBuf; rw [h.1]
  cases cm <;> first | exact h1 | exact h2 | exact h3 _

/-- results that cannot be told apart -/
def LikeAt (x y : Option (Color × Nat)) : Prop :=
  x = none ∧ y = none ∨ ∃ c c' n, x = some (c, n) ∧ y = some (c', n) ∧ Indist c c'

theorem LikeAt.refl (x : Option (Color × Nat)) : LikeAt x x := by
  cases x with
  | none => exact .inl ⟨rfl, rfl⟩
  | some x => exact .inr ⟨x.1, x.1, x.2, rfl, rfl, .refl _⟩

/-! ## Pixels -/

theorem drawLayer_like (ρ : Nat → UInt16) (cm : Option ColorModel) {l l' : Layer}
    (hb : l'.bounds = l.bounds) (hmo : l'.mode = l.mode) (hi : l'.invisible = l.invisible) (ht : l'.transparency = l.transparency) (p : Pt)
    (hat : l.invisible = false → inRect l.bounds p → ∀ n, LikeAt (l.image.at ρ ⟨p.x - l.bounds.x0, p.y - l.bounds.y0⟩ n)
      (l'.image.at ρ ⟨p.x - l.bounds.x0, p.y - l.bounds.y0⟩ n)) (c : Color) (n : Nat) :
    drawLayer ρ cm l p c n = drawLayer ρ cm l' p c n := by
  unfold drawLayer layerAt
  rw [hb, hmo, hi, ht]
  by_cases h1 : l.invisible = true
  · rw [if_pos h1, if_pos h1]
  · rw [if_neg h1, if_neg h1]
    by_cases h2 : Rect.mem p l.bounds = true
    · rw [if_neg (by simpa using h2), if_neg (by simpa using h2)]
      rcases hat (by simpa using h1) ((mem_iff ..).1 h2) n with ⟨e1, e2⟩ | ⟨a, a', k, e1, e2, e3⟩
      · rw [e1, e2]
      · rw [e1, e2]
        have h3 := (indist_transparency e3 (255 - l.transparency)).2.1
        simp only [Option.bind_eq_bind, Option.bind_some]
        refine congrArg _ (funext fun m => ?_)
        show (if (l.mode ≠ Mode.dissolve && m.isPalette) = true then
            (if (transparency a (255 - l.transparency)).toNRGBA.a > 0x7fff then
              some (Color.nrgba64 { (transparency a (255 - l.transparency)).toNRGBA with a := 0xffff }, k) else some (c, k))
          else if l.mode = Mode.dissolve then Option.map (fun c => (c, k + 1)) (composite (ρ k) l.mode c (transparency a (255 - l.transparency)))
          else Option.map (fun c => (c, k)) (composite 0 l.mode c (transparency a (255 - l.transparency)))) =
          if (l.mode ≠ Mode.dissolve && m.isPalette) = true then
            (if (transparency a' (255 - l.transparency)).toNRGBA.a > 0x7fff then
              some (Color.nrgba64 { (transparency a' (255 - l.transparency)).toNRGBA with a := 0xffff }, k) else some (c, k))
          else if l.mode = Mode.dissolve then Option.map (fun c => (c, k + 1)) (composite (ρ k) l.mode c (transparency a' (255 - l.transparency)))
          else Option.map (fun c => (c, k)) (composite 0 l.mode c (transparency a' (255 - l.transparency)))
        rw [composite_same _ _ h3, composite_same _ _ h3, h3]
    · rw [if_pos (by simpa using h2), if_pos (by simpa using h2)]

theorem grayAt_seen {m m' : GrayImg} (h : MaskSeen (some m) (some m')) (q : Pt) : m.grayAt q = m'.grayAt q := by
  unfold GrayImg.grayAt
  rw [← h.1]
  by_cases hq : Rect.mem q m.rect = true
  · rw [if_pos hq, if_pos hq, h.2 q ((mem_iff ..).1 hq)]
  · rw [if_neg hq, if_neg hq]

mutual
theorem bounds_seen {R : Rect} (i : Img) {j : Img} (h : Seen R i j) : i.bounds = j.bounds ∧ i.colorModel = j.colorModel := by
  match i with
  | .leaf L =>
    rw [Seen] at h
    obtain ⟨K, rfl, h1, h2, -⟩ := h
    exact ⟨congrArg some h1, by rw [Img.colorModel, Img.colorModel, h2]⟩
  | .nil => rw [Seen] at h; subst h; exact ⟨rfl, rfl⟩
  | .text i t =>
    rw [Seen] at h
    obtain ⟨k, rfl, h⟩ := h
    have := bounds_seen i h
    exact ⟨this.1, by rw [Img.colorModel, Img.colorModel]; exact this.2⟩
  | .masked i m =>
    rw [Seen] at h
    obtain ⟨k, m', rfl, -, h⟩ := h
    have := bounds_seen i h
    exact ⟨this.1, by rw [Img.colorModel, Img.colorModel]; exact this.2⟩
  | .group g =>
    rw [Seen] at h
    obtain ⟨k, rfl, h⟩ := h
    have := bounds_seenAll g h
    exact ⟨by unfold Img.bounds groupBounds; rw [this.1], by rw [Img.colorModel, Img.colorModel]; exact this.2⟩
termination_by structural i

theorem bounds_seenAll {drawn : Bool} (g : List Layer) {k : List Layer} (h : SeenAll drawn g k) :
    (∀ r : Rect, g.foldl (fun r l => r.union l.bounds) r = k.foldl (fun r l => r.union l.bounds) r) ∧ groupModel g = groupModel k := by
  match g with
  | [] => rw [SeenAll] at h; subst h; exact ⟨fun _ => rfl, rfl⟩
  | ⟨name, b, mode, inv, tr, im⟩ :: rest =>
    rw [SeenAll] at h
    obtain ⟨im', rest', rfl, h1, h2⟩ := h
    refine ⟨fun r => (bounds_seenAll rest h2).1 _, ?_⟩
    rw [groupModel, groupModel]
    exact (bounds_seen im h1).2
termination_by structural g
end

mutual
theorem at_seen (ρ : Nat → UInt16) {R : Rect} (i : Img) {j : Img} (h : Seen R i j) (q : Pt)
    (hq : inRect R q ∨ ∃ b, i.bounds = some b ∧ inRect b q) (n : Nat) : LikeAt (i.at ρ q n) (j.at ρ q n) := by
  match i with
  | .leaf L =>
    rw [Seen] at h
    obtain ⟨K, rfl, h1, h2, h3⟩ := h
    rw [Img.at, Img.at]
    have : inRect L.bounds q ∨ inRect R q := by
      rcases hq with hq | ⟨b, e, hq⟩
      · exact .inr hq
      · cases e; exact .inl hq
    rcases h3 q this with ⟨e1, e2⟩ | ⟨c, c', e1, e2, e3⟩
    · rw [e1, e2]; exact .inl ⟨rfl, rfl⟩
    · rw [e1, e2]; exact .inr ⟨c, c', n, rfl, rfl, e3⟩
  | .nil => rw [Seen] at h; subst h; exact .refl _
  | .text i t =>
    rw [Seen] at h
    obtain ⟨k, rfl, h⟩ := h
    rw [Img.at, Img.at]
    exact at_seen ρ i h q hq n
  | .masked i m =>
    rw [Seen] at h
    obtain ⟨k, m', rfl, hm, h⟩ := h
    rw [Img.at, Img.at]
    rcases at_seen ρ i h q hq n with ⟨e1, e2⟩ | ⟨c, c', n, e1, e2, e3⟩
    · rw [e1, e2]; exact .inl ⟨rfl, rfl⟩
    · rw [e1, e2]
      match m, m', hm with
      | none, none, _ => exact .inl ⟨rfl, rfl⟩
      | some m, some m', hm =>
        refine .inr ⟨_, _, n, rfl, rfl, ?_⟩
        rw [← grayAt_seen hm q]
        exact indist_transparency e3 _
  | .group g =>
    rw [Seen] at h
    obtain ⟨k, rfl, h⟩ := h
    rw [at_group, at_group, ← (bounds_seenAll g h).2, layersAt_seen ρ (groupModel g) g h q n]
    exact .refl _
termination_by structural i

theorem layersAt_seen (ρ : Nat → UInt16) (cm : Option ColorModel) (g : List Layer) {k : List Layer} (h : SeenAll true g k) (q : Pt) (n : Nat) :
    layersAt ρ cm g q n = layersAt ρ cm k q n := by
  match g with
  | [] => rw [SeenAll] at h; subst h; rfl
  | ⟨name, b, mode, inv, tr, im⟩ :: rest =>
    rw [SeenAll] at h
    obtain ⟨im', rest', rfl, h1, h2⟩ := h
    rw [layersAt_cons, layersAt_cons, layersAt_seen ρ cm rest h2 q n]
    refine congrArg _ (funext fun x => ?_)
    refine drawLayer_like ρ cm (l := ⟨name, b, mode, inv, tr, im⟩) (l' := ⟨name, b, mode, inv, tr, im'⟩) rfl rfl rfl rfl q ?_ x.1 x.2
    intro hv hp n
    dsimp only at hv hp ⊢
    rw [if_pos ⟨rfl, hv⟩] at h1
    refine at_seen ρ im h1 _ (.inl ?_) n
    unfold inRect Rect.dx Rect.dy at *
    dsimp only
    omega
termination_by structural g
end

/-! ## Writing -/

theorem pixelsAt_cons (i : Img) (p : Pt) (ps : List Pt) (env : WEnv) (s : WS) : pixelsAt i (p :: ps) env s =
    (i.at env.ρ p s.draws).bind fun x => (pixelsAt i ps env { s with draws := x.2 }).map fun y => (x.1 :: y.1, y.2) := by
  show W.bind (pixelAt i p) (fun c => W.bind (pixelsAt i ps) fun cs => pure (c :: cs)) env s = _
  unfold W.bind pixelAt
  cases i.at env.ρ p s.draws with
  | none => rfl
  | some x =>
    dsimp only [Option.bind_some]
    cases pixelsAt i ps env { s with draws := x.2 } with
    | none => rfl
    | some y =>
      show some (x.1 :: y.1, y.2.1, [] ++ (y.2.2 ++ [])) = _
      rw [List.nil_append, List.append_nil]
      rfl

theorem pixelsAt_seen {i j : Img} : ∀ {ps : List Pt} (_ : ∀ ρ, ∀ q ∈ ps, ∀ n, LikeAt (i.at ρ q n) (j.at ρ q n)) (env : WEnv) (s : WS),
    pixelsAt i ps env s = none ∧ pixelsAt j ps env s = none ∨ ∃ cs cs' s', pixelsAt i ps env s = some (cs, s') ∧
      pixelsAt j ps env s = some (cs', s') ∧ List.Forall₂ Indist cs cs' := by
  intro ps
  induction ps with
  | nil => intro _ env s; exact .inr ⟨[], [], (s, []), rfl, rfl, .nil⟩
  | cons p ps ih =>
    intro h env s
    rw [pixelsAt_cons, pixelsAt_cons]
    rcases h env.ρ p List.mem_cons_self s.draws with ⟨e1, e2⟩ | ⟨c, c', n, e1, e2, e3⟩
    · rw [e1, e2]; exact .inl ⟨rfl, rfl⟩
    · rw [e1, e2]
      dsimp only [Option.bind_some]
      rcases ih (fun ρ q hq n => h ρ q (List.mem_cons_of_mem _ hq) n) env { s with draws := n } with ⟨f1, f2⟩ | ⟨cs, cs', s', f1, f2, f3⟩
      · rw [f1, f2]; exact .inl ⟨rfl, rfl⟩
      · rw [f1, f2]
        exact .inr ⟨c :: cs, c' :: cs', s', rfl, rfl, .cons e3 f3⟩

theorem W.bind_congr {α β : Type} {m m' : W α} {f f' : α → W β} (h1 : m = m') (h2 : ∀ a, f a = f' a) : (m >>= f) = (m' >>= f') := by
  rw [h1, show f = f' from funext h2]

theorem writeTiles_seen {i j : Img} {f : Color → Bytes} (hf : ∀ c c', Indist c c' → f c = f c') (ch : Nat) (b : Rect) :
    ∀ {os : List Pt} (_ : ∀ o ∈ os, ∀ ρ, ∀ q ∈ tilePoints b o, ∀ n, LikeAt (i.at ρ q n) (j.at ρ q n)) (pw : PW),
    writeTiles i f ch b os pw = writeTiles j f ch b os pw := by
  intro os
  induction os with
  | nil => intro _ _; rfl
  | cons o os ih =>
    intro h pw
    unfold writeTiles
    funext env s
    show W.bind _ _ env s = W.bind _ _ env s
    unfold W.bind
    rcases pixelsAt_seen (h o List.mem_cons_self) env s with ⟨e1, e2⟩ | ⟨cs, cs', s', e1, e2, e3⟩
    · rw [e1, e2]
    · rw [e1, e2]
      dsimp only
      have hm : cs.map f = cs'.map f := by
        clear e1 e2
        induction e3 with
        | nil => rfl
        | cons a _ ih => rw [List.map_cons, List.map_cons, hf _ _ a, ih]
      rw [hm]
      have : ∀ pw, writeTiles i f ch b os pw = writeTiles j f ch b os pw := ih fun o ho => h o (List.mem_cons_of_mem _ ho)
      simp only [this]

theorem tilePoints_inside (b : Rect) : ∀ o ∈ tileOrigins b, ∀ q ∈ tilePoints b o, inRect b q := by
  intro o ho q hq
  unfold tileOrigins at ho
  obtain ⟨j, -, ho⟩ := List.mem_flatMap.1 ho
  obtain ⟨i, -, rfl⟩ := List.mem_map.1 ho
  unfold tilePoints at hq
  obtain ⟨y, hy, hq⟩ := List.mem_flatMap.1 hq
  obtain ⟨x, hx, rfl⟩ := List.mem_map.1 hq
  rw [List.mem_range] at hx hy
  unfold inRect
  dsimp only at hx hy ⊢
  omega

theorem writeImage_seen {R : Rect} {i j : Img} (h : Seen R i j) {f : Color → Bytes} (hf : ∀ c c', Indist c c' → f c = f c') (ch : Nat) :
    writeImage i f ch = writeImage j f ch := by
  unfold writeImage
  rw [← (bounds_seen i h).1]
  cases hb : i.bounds with
  | none => rfl
  | some b =>
    funext env s
    have : ∀ pw, writeTiles i f ch b (tileOrigins b) pw = writeTiles j f ch b (tileOrigins b) pw :=
      writeTiles_seen hf ch b fun o ho ρ q hq n => at_seen ρ i h q (.inr ⟨b, hb, tilePoints_inside b o ho q hq⟩) n
    show W.bind _ _ env s = W.bind _ _ env s
    unfold W.bind W.get
    simp only [Option.map_some, this]

theorem writeMask_seen {m m' : Option GrayImg} (h : MaskSeen m m') (pw : PW) : writeMask m pw = writeMask m' pw := by
  match m, m', h with
  | none, none, _ => rfl
  | some m, some m', h =>
    have h1 : m.grayAt = m'.grayAt := funext (grayAt_seen h)
    have h2 : m.rect = m'.rect := h.1
    unfold writeMask writeChannel GrayImg.img
    simp only [h1, h2]

theorem writeData_seen {R : Rect} {i j : Img} (h : Seen R i j) (cm : ColorModel) :
    writeLayerData (encFor cm) (layerContent i).1 (layerContent i).2 = writeLayerData (encFor cm) (layerContent j).1 (layerContent j).2 := by
  have key : ∀ {i j : Img} {m m' : Option GrayImg}, Seen R i j → MaskSeen m m' →
      writeLayerData (encFor cm) i m = writeLayerData (encFor cm) j m' := by
    intro i j m m' h hm
    unfold writeLayerData
    have h1 := writeImage_seen h (f := (encFor cm).func) (fun c c' h => encFor_indist cm h) (encFor cm).channels
    have h2 := fun pw => writeMask_seen hm pw
    simp only [h1, h2]
  cases i with
  | masked i m =>
    rw [Seen] at h
    obtain ⟨k, m', rfl, hm, h⟩ := h
    exact key h hm
  | leaf L =>
    have h' := h
    rw [Seen] at h'
    obtain ⟨K, rfl, -⟩ := h'
    exact key h trivial
  | nil =>
    rw [Seen] at h; subst h; rfl
  | text i t =>
    have h' := h
    rw [Seen] at h'
    obtain ⟨K, rfl, -⟩ := h'
    exact key h trivial
  | group g =>
    have h' := h
    rw [Seen] at h'
    obtain ⟨K, rfl, -⟩ := h'
    exact key h trivial

theorem kind_seen {R : Rect} {i j : Img} (h : Seen R i j) : layerTextData i = layerTextData j ∧ isGroup i = isGroup j := by
  cases i with
  | leaf L => rw [Seen] at h; obtain ⟨K, rfl, -⟩ := h; exact ⟨rfl, rfl⟩
  | nil => rw [Seen] at h; subst h; exact ⟨rfl, rfl⟩
  | text i t => rw [Seen] at h; obtain ⟨K, rfl, -⟩ := h; exact ⟨rfl, rfl⟩
  | masked i m => rw [Seen] at h; obtain ⟨K, m', rfl, -⟩ := h; exact ⟨rfl, rfl⟩
  | group g => rw [Seen] at h; obtain ⟨K, rfl, -⟩ := h; exact ⟨rfl, rfl⟩

theorem writeOwn_seen {R : Rect} {i j : Img} (h : Seen R i j) (cm : ColorModel) (name : GoString) (b : Rect) (mode : Mode) (inv : Bool) (tr : UInt8)
    (ox oy : UInt32) (groups : List UInt32) (pw : PW) :
    writeOwn (encFor cm) ⟨name, b, mode, inv, tr, i⟩ ox oy groups pw = writeOwn (encFor cm) ⟨name, b, mode, inv, tr, j⟩ ox oy groups pw := by
  unfold writeOwn writeProperties
  dsimp only
  rw [(kind_seen h).1, (kind_seen h).2, writeData_seen h cm]

mutual
theorem writeSub_seen (cm : ColorModel) {R : Rect} (i : Img) {j : Img} (h : Seen R i j) (ox oy : UInt32) (groups : List UInt32) (pw : PW) :
    writeSub (encFor cm) i ox oy groups pw = writeSub (encFor cm) j ox oy groups pw ∧ layerCountIn i = layerCountIn j := by
  match i with
  | .leaf L => rw [Seen] at h; obtain ⟨K, rfl, -⟩ := h; exact ⟨rfl, rfl⟩
  | .nil => rw [Seen] at h; subst h; exact ⟨rfl, rfl⟩
  | .text i t => rw [Seen] at h; obtain ⟨K, rfl, -⟩ := h; exact ⟨rfl, rfl⟩
  | .masked i m => rw [Seen] at h; obtain ⟨K, m', rfl, -⟩ := h; exact ⟨rfl, rfl⟩
  | .group g =>
    rw [Seen] at h
    obtain ⟨k, rfl, h⟩ := h
    rw [writeSub, writeSub, layerCountIn, layerCountIn]
    exact writeLayers_seen cm g h 0 ox oy groups pw
termination_by structural i

theorem writeLayers_seen (cm : ColorModel) {drawn : Bool} (g : List Layer) {k : List Layer} (h : SeenAll drawn g k) (n : Nat) (ox oy : UInt32)
    (groups : List UInt32) (pw : PW) :
    writeLayers (encFor cm) g n ox oy groups pw = writeLayers (encFor cm) k n ox oy groups pw ∧ layerCount g = layerCount k := by
  match g with
  | [] => rw [SeenAll] at h; subst h; exact ⟨rfl, rfl⟩
  | ⟨name, b, mode, inv, tr, im⟩ :: rest =>
    rw [SeenAll] at h
    obtain ⟨im', rest', rfl, h1, h2⟩ := h
    rw [writeLayers, writeLayers, layerCount, layerCount]
    constructor
    · refine W.bind_congr (writeOwn_seen h1 ..) fun pw => ?_
      exact W.bind_congr (writeSub_seen cm im h1 _ _ _ pw).1 fun pw => (writeLayers_seen cm rest h2 _ _ _ _ pw).1
    · rw [(writeSub_seen cm im h1 ox oy groups pw).2, (writeLayers_seen cm rest h2 n ox oy groups pw).2]
termination_by structural g
end

theorem top_seen {i j : Img} (h : SeenTop i j) : i.bounds = j.bounds ∧ i.colorModel = j.colorModel ∧
    ∀ cm, writeContent (encFor cm) i = writeContent (encFor cm) j := by
  have key : ∀ {i j : Img}, isGroup i = false → Seen Rect.zero i j → i.bounds = j.bounds ∧ i.colorModel = j.colorModel ∧
      ∀ cm, writeContent (encFor cm) i = writeContent (encFor cm) j := by
    intro i j hg h
    refine ⟨(bounds_seen i h).1, (bounds_seen i h).2, fun cm => ?_⟩
    have hg' := (kind_seen h).2
    rw [hg] at hg'
    have hw : ∀ {i : Img}, isGroup i = false → writeContent (encFor cm) i = (do
        let pw ← reservePointerList 1
        writeUint32 0
        let _ ← writeOwn (encFor cm) ⟨[], Rect.zero, 0, false, 0, i⟩ 0 0 [] pw) := by
      intro i hi
      cases i with
      | group g => cases hi
      | leaf _ => rfl
      | nil => rfl
      | text _ _ => rfl
      | masked _ _ => rfl
    rw [hw hg, hw hg'.symm]
    simp only [writeOwn_seen h]
  cases i with
  | group g =>
    obtain ⟨k, rfl, h⟩ := h
    have hb := bounds_seenAll g h
    refine ⟨by unfold Img.bounds groupBounds; rw [hb.1], by rw [Img.colorModel, Img.colorModel]; exact hb.2, fun cm => ?_⟩
    have h1 := (writeLayers_seen cm g h 0 0 0 [] ⟨0, none, 0⟩).2
    have h2 := fun pw => (writeLayers_seen cm g h 0 0 0 [] pw).1
    unfold writeContent
    dsimp only
    simp only [h1, h2]
  | leaf _ => exact key rfl h
  | nil => exact key rfl h
  | text _ _ => exact key rfl h
  | masked _ _ => exact key rfl h

/-- C113: `Encode` makes the same writes, with the same result, for two pictures that differ at most in pixels outside the bounds of their
images and outside the visible layers that are drawn (inside groups or under masks); whatever the destination does and whatever random numbers
are drawn. -/
theorem C113_inside (env : WEnv) (i j : Img) (h : SeenTop i j) : runEncode env i = runEncode env j := by
  obtain ⟨h1, h2, h3⟩ := top_seen h
  unfold runEncode encode
  simp only [h1, h2, h3]

/-- a picture of one pixel, every pixel outside it having the colour `c` -/
def pixelIn (c : Color) : Leaf := ⟨⟨0, 0, 1, 1⟩, .other, fun p => some (if p = ⟨0, 0⟩ then .nrgba 1 2 3 255 else c)⟩

/-- The hypotheses of C113 are met by layers in and outside groups, images reaching beyond the layers or not, and by text, masks and opaque
colours of different kinds. -/
example : ∃ i j : Img, SeenTop i j ∧ i ≠ j :=
  ⟨.group [⟨[], ⟨0, 0, 5, 5⟩, 0, false, 0, .masked (.leaf (pixelIn (.gray 0))) (some ⟨⟨0, 0, 1, 1⟩, fun p => p.x.toNat.toUInt8⟩)⟩,
      ⟨[], ⟨3, 3, 4, 4⟩, 0, true, 9, .group [⟨[], ⟨2, 2, 3, 3⟩, 0, false, 0, .text (.leaf (pixelIn (.gray 0))) []⟩]⟩],
    .group [⟨[], ⟨0, 0, 5, 5⟩, 0, false, 0, .masked (.leaf (pixelIn (.gray 7))) (some ⟨⟨0, 0, 1, 1⟩, fun _ => 0⟩)⟩,
      ⟨[], ⟨3, 3, 4, 4⟩, 0, true, 9, .group [⟨[], ⟨2, 2, 3, 3⟩, 0, false, 0, .text (.leaf (pixelIn (.gray 7))) []⟩]⟩], by
    have hp : ∀ q, inRect ⟨0, 0, 1, 1⟩ q → q = ⟨0, 0⟩ := by
      rintro ⟨x, y⟩ h
      simp only [inRect] at h
      rw [Pt.mk.injEq]
      omega
    have hl : ∀ R : Rect, (∀ q, inRect R q → q = ⟨0, 0⟩) → Seen R (.leaf (pixelIn (.gray 0))) (.leaf (pixelIn (.gray 7))) := by
      intro R hR
      rw [Seen]
      refine ⟨_, rfl, rfl, rfl, fun q hq => .inr ?_⟩
      have : q = ⟨0, 0⟩ := hq.elim (hp q) (hR q)
      subst this
      exact ⟨_, _, rfl, rfl, .refl _⟩
    refine ⟨⟨_, rfl, ?_⟩, ?_⟩
    · rw [SeenAll]
      refine ⟨_, _, rfl, ?_, ?_⟩
      · rw [Seen]
        refine ⟨_, _, rfl, ⟨rfl, fun q hq => ?_⟩, hl _ ?_⟩
        · obtain rfl := hp q hq; rfl
        · intro q hq
          rw [if_neg (fun h => by cases h.1)] at hq
          simp only [inRect, Rect.zero] at hq
          omega
      · rw [SeenAll]
        refine ⟨_, _, rfl, ?_, by rw [SeenAll]⟩
        rw [Seen]
        refine ⟨_, rfl, ?_⟩
        rw [SeenAll]
        refine ⟨_, _, rfl, ?_, by rw [SeenAll]⟩
        rw [Seen]
        refine ⟨_, rfl, hl _ fun q hq => hp q ?_⟩
        rw [if_pos ⟨rfl, rfl⟩] at hq
        exact hq
    · intro h
      injection h with h
      injection h with h _
      injection h with _ _ _ _ _ h
      injection h with h _
      injection h with h
      have := congrFun (congrArg Leaf.pixel h) ⟨1, 0⟩
      revert this
      unfold pixelIn
      decide⟩

/-! ## Pictures cut out of others -/

/-- An image of one of the raster types as limage sees it; `toColor` is its colour for a pixel. -/
def Raster.leaf {π : Type} (z : π) (toColor : π → Option Color) (cm : ColorModel) (h : Heap π) (m : Raster) : Leaf :=
  ⟨m.rect, cm, fun p => (Raster.get z h m p).bind toColor⟩

theorem sub_leaf_same {π : Type} (z : π) (toColor : π → Option Color) (cm : ColorModel)
    (ops ops' : List (ROp π)) (hw : WF 0 ops) (hw' : WF 0 ops') (s s' : RState π)
    (h : RState.run z ⟨[], []⟩ ops = some s) (h' : RState.run z ⟨[], []⟩ ops' = some s') (i i' : Nat) (m m' : Raster)
    (hm : s.imgs[i]? = some m) (hm' : s'.imgs[i']? = some m') (r : Rect) (hb : m.rect = m'.rect)
    (hp : ∀ p, inRect r p → inRect m.rect p → Raster.get z s.heap m p = Raster.get z s'.heap m' p) :
    ∃ k k', s.step z (.sub i r) = some ⟨s.heap, s.imgs ++ [k]⟩ ∧ s'.step z (.sub i' r) = some ⟨s'.heap, s'.imgs ++ [k']⟩ ∧
      k.leaf z toColor cm s.heap = k'.leaf z toColor cm s'.heap := by
  obtain ⟨k, a1, a2, a3, a4⟩ := C22_subimage_shows z ops hw s h i m hm r
  obtain ⟨k', b1, b2, b3, b4⟩ := C22_subimage_shows z ops' hw' s' h' i' m' hm' r
  have hrect : ∀ {s : RState π} {i : Nat} {m k : Raster}, s.imgs[i]? = some m → s.step z (.sub i r) = some ⟨s.heap, s.imgs ++ [k]⟩ →
      k.rect = if (r.inter m.rect).empty then Rect.zero else r.inter m.rect := by
    intro s i m k hm e
    simp only [RState.step, hm, Option.bind_some] at e
    obtain ⟨x, hx, e⟩ := Option.map_eq_some_iff.1 e
    injection e with _ e
    have := List.append_cancel_left e
    injection this with this _
    subst this
    unfold Raster.sub at hx
    dsimp only at hx
    split at hx
    · rename_i he
      injection hx with hx
      rw [if_pos he, ← hx]
    · rename_i he
      rw [if_neg he]
      split at hx
      · injection hx with hx
        rw [← hx]
      · cases hx
  have hr : k.rect = k'.rect := by rw [hrect hm a1, hrect hm' b1, hb]
  refine ⟨k, k', a1, b1, ?_⟩
  unfold Raster.leaf
  rw [hr]
  congr 1
  funext p
  by_cases hk : inRect k.rect p
  · rw [a3 p hk, b3 p (hr ▸ hk), hp p ((a2 p).1 hk).1 ((a2 p).1 hk).2]
  · rw [a4 p hk, b4 p (hr ▸ hk)]

/-- C114, what holds: after cutting out a part of an `RGB`, `GrayAlpha` or `PalettedAlpha` image with `SubImage`, `Encode` writes the same
whatever the rest of the image was, also when the part is used inside other pictures. -/
theorem C114_raster_partial {π : Type} (z : π) (toColor : π → Option Color) (cm : ColorModel)
    (ops ops' : List (ROp π)) (hw : WF 0 ops) (hw' : WF 0 ops') (s s' : RState π)
    (h : RState.run z ⟨[], []⟩ ops = some s) (h' : RState.run z ⟨[], []⟩ ops' = some s') (i i' : Nat) (m m' : Raster)
    (hm : s.imgs[i]? = some m) (hm' : s'.imgs[i']? = some m') (r : Rect) (hb : m.rect = m'.rect)
    (hp : ∀ p, inRect r p → inRect m.rect p → Raster.get z s.heap m p = Raster.get z s'.heap m' p) :
    ∃ k k', s.step z (.sub i r) = some ⟨s.heap, s.imgs ++ [k]⟩ ∧ s'.step z (.sub i' r) = some ⟨s'.heap, s'.imgs ++ [k']⟩ ∧
      ∀ (env : WEnv) (F : Leaf → Img), runEncode env (F (k.leaf z toColor cm s.heap)) = runEncode env (F (k'.leaf z toColor cm s'.heap)) := by
  obtain ⟨k, k', a1, a2, e⟩ := sub_leaf_same z toColor cm ops ops' hw hw' s s' h h' i i' m m' hm hm' r hb hp
  exact ⟨k, k', a1, a2, fun _ _ => by rw [e]⟩

/-- The hypotheses are met by two images that differ outside the part cut out. -/
example : ∃ s s' m m', RState.run (0 : Nat) ⟨[], []⟩ [.new ⟨0, 0, 3, 2⟩, .set 0 ⟨0, 0⟩ 5, .set 0 ⟨2, 1⟩ 6] = some s ∧
    RState.run (0 : Nat) ⟨[], []⟩ [.new ⟨0, 0, 3, 2⟩, .set 0 ⟨0, 0⟩ 7, .set 0 ⟨2, 1⟩ 6] = some s' ∧
    s.imgs[0]? = some m ∧ s'.imgs[0]? = some m' ∧ m.rect = m'.rect ∧ s.heap ≠ s'.heap ∧
    ∀ p, inRect ⟨1, 0, 3, 2⟩ p → inRect m.rect p → Raster.get 0 s.heap m p = Raster.get 0 s'.heap m' p := by
  refine ⟨_, _, _, _, rfl, rfl, rfl, rfl, rfl, by decide, ?_⟩
  rintro ⟨x, y⟩ h _
  simp only [inRect] at h
  obtain ⟨h1, h2, h3, h4⟩ := h
  have hx : x = 1 ∨ x = 2 := by omega
  have hy : y = 0 ∨ y = 1 := by omega
  rcases hx with rfl | rfl <;> rcases hy with rfl | rfl <;> rfl

/-- two pixels beside each other, the second of the colour `c` -/
def twoPixels (c : Color) : List Layer :=
  [⟨[], ⟨0, 0, 2, 1⟩, 0, false, 0, .leaf ⟨⟨0, 0, 2, 1⟩, .other, fun p => some (if p = ⟨1, 0⟩ then c else .nrgba 1 2 3 255)⟩⟩]

theorem oneLayer_at (ρ : Nat → UInt16) (b r : Rect) (f f' : Pt → Option Color) (p : Pt) (n : Nat)
    (h : inRect b p → f ⟨p.x - b.x0, p.y - b.y0⟩ = f' ⟨p.x - b.x0, p.y - b.y0⟩) :
    (Img.group [⟨[], b, 0, false, 0, .leaf ⟨r, .other, f⟩⟩]).at ρ p n = (Img.group [⟨[], b, 0, false, 0, .leaf ⟨r, .other, f'⟩⟩]).at ρ p n := by
  rw [at_group, at_group, layersAt_cons, layersAt_cons, layersAt_nil]
  rw [show ∀ c, groupModel [(⟨[], b, 0, false, 0, .leaf ⟨r, .other, c⟩⟩ : Layer)] = some .other from fun _ => rfl,
    show ∀ c, groupModel [(⟨[], b, 0, false, 0, .leaf ⟨r, .other, c⟩⟩ : Layer)] = some .other from fun _ => rfl]
  refine drawLayer_like ρ (some .other) (l := ⟨[], b, 0, false, 0, .leaf ⟨r, .other, f⟩⟩) (l' := ⟨[], b, 0, false, 0, .leaf ⟨r, .other, f'⟩⟩)
    rfl rfl rfl rfl p (fun _ hp n => ?_) (.alpha 0) n
  rw [Img.at, Img.at]
  dsimp only at hp ⊢
  rw [h hp]
  exact .refl _

theorem cropped_wrote (c : Color) (b : Bool) (h : ((runEncode ⟨fun _ => none, fun _ => 0, fun _ _ _ => none⟩
    (.group (groupSubImage ⟨0, 0, 1, 1⟩ (twoPixels c)))).map fun x => x.1.any fun c => c.data.contains 44) = some b) :
    ∃ l, runEncode ⟨fun _ => none, fun _ => 0, fun _ _ _ => none⟩ (.group (groupSubImage ⟨0, 0, 1, 1⟩ (twoPixels c))) = some l ∧
      (l.1.any fun c => c.data.contains 44) = b :=
  Option.map_eq_some_iff.1 h

theorem twoPixels_same (c c' : Color) :
    (∀ ρ p n, inRect ⟨0, 0, 1, 1⟩ p → (Img.group (twoPixels c)).at ρ p n = (Img.group (twoPixels c')).at ρ p n) ∧
    ∀ ρ p n, (Img.group (groupSubImage ⟨0, 0, 1, 1⟩ (twoPixels c))).at ρ p n = (Img.group (groupSubImage ⟨0, 0, 1, 1⟩ (twoPixels c'))).at ρ p n := by
  constructor
  · intro ρ p n hp
    refine oneLayer_at ρ _ _ _ _ p n fun _ => ?_
    dsimp only
    have : ¬ (⟨p.x - 0, p.y - 0⟩ : Pt) = ⟨1, 0⟩ := by
      simp only [inRect] at hp
      rw [Pt.mk.injEq]
      omega
    rw [if_neg this, if_neg this]
  · intro ρ p n
    refine oneLayer_at ρ (Rect.inter ⟨0, 0, 1, 1⟩ ⟨0, 0, 2, 1⟩) _ _ _ p n fun hp => ?_
    rw [show Rect.inter ⟨0, 0, 1, 1⟩ ⟨0, 0, 2, 1⟩ = ⟨0, 0, 1, 1⟩ from by decide] at hp ⊢
    dsimp only
    have : ¬ (⟨p.x - 0, p.y - 0⟩ : Pt) = ⟨1, 0⟩ := by
      simp only [inRect] at hp
      rw [Pt.mk.injEq]
      omega
    rw [if_neg this, if_neg this]

/-- C114 fails for layered images: `SubImage` of an `Image` changes the bounds of the layers and keeps the images in them, so that `Encode`
writes the pixels cut away.  Two pictures that are the same inside the part cut out, and from which what was cut out shows the same at every
point, give different files. -/
theorem C114_cropped_refuted : ∃ (g g' : List Layer) (r : Rect) (env : WEnv),
    (∀ ρ p n, inRect r p → (Img.group g).at ρ p n = (Img.group g').at ρ p n) ∧
    (∀ ρ p n, (Img.group (groupSubImage r g)).at ρ p n = (Img.group (groupSubImage r g')).at ρ p n) ∧
    runEncode env (.group (groupSubImage r g)) ≠ runEncode env (.group (groupSubImage r g')) := by
  refine ⟨twoPixels (.nrgba 44 5 6 255), twoPixels (.nrgba 7 8 9 255), ⟨0, 0, 1, 1⟩, ⟨fun _ => none, fun _ => 0, fun _ _ _ => none⟩, ?_, ?_, ?_⟩
  · exact (twoPixels_same _ _).1
  · exact (twoPixels_same _ _).2
  · intro h
    obtain ⟨l, e1, e2⟩ := cropped_wrote (.nrgba 44 5 6 255) true (by cbv)
    obtain ⟨l', f1, f2⟩ := cropped_wrote (.nrgba 7 8 9 255) false (by cbv)
    rw [e1, f1] at h
    injection h with h
    rw [h, f2] at e2
    cases e2

end Limage
