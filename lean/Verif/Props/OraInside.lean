import Verif.Props.Inside
import Verif.Model.Ora
/-!
# What of a picture gets into an OpenRaster file

The file that `Encode` of the package ora writes holds PNG files of the images of the layers, of the whole picture and of its thumbnail.  PNG
files show the pixels inside the bounds of what they are made of; what else of a picture can get into the file is the question here.
-/
namespace Limage
open Spec

/-! ## Specification -/

/-- `ColorModel` of what is given to `png.Encode`: that of the image embedded in a layer (layer.go:15) or a thumbnail (thumbnail.go:9) -/
def Spec.pngModel : Pic → Option ColorModel
  | .full m => m.top.colorModel
  | .thumb m _ => m.top.colorModel

/-- an image that has a palette and, it may be, a `ColorIndexAt` method which is asked for instead of the colours -/
def Spec.indexed : Pic → Bool
  | .full (.image (.leaf L)) => L.model.isPalette
  | _ => false

/-- What is assumed of `png.Encode`: it writes the same for images with the same bounds and the same colour model that show the same inside the
bounds, whichever random numbers are drawn. -/
def Spec.PngInside (env : OraEnv) : Prop :=
  ∀ p q, indexed p = false → indexed q = false → p.bounds env = q.bounds env → pngModel p = pngModel q →
    (∀ ρ n x b, p.bounds env = some b → inRect b x → LikeAt (p.at env ρ x n) (q.at env ρ x n)) → env.png p = env.png q

mutual
/-- no image that is written for a layer is indexed -/
def Spec.Unindexed (i : Img) : Prop :=
  match i with
  | .leaf L => L.model.isPalette = false
  | .group g => UnindexedAll g
  | _ => True
termination_by structural i
/-- of some layers -/
def Spec.UnindexedAll (g : List Layer) : Prop :=
  match g with
  | [] => True
  | ⟨_, _, _, _, _, i⟩ :: rest => Unindexed i ∧ UnindexedAll rest
termination_by structural g
end

/-- Arguments of `Encode` that differ at most in pixels outside the bounds of images and outside the visible layers. -/
def Spec.SeenInput : OraInput → OraInput → Prop
  | .image i, .image j => Seen Rect.zero i j
  | .layer l, .layer k => k = { l with image := k.image } ∧ Seen ⟨0, 0, l.bounds.dx, l.bounds.dy⟩ l.image k.image
  | _, _ => False

/-- there is no thumbnail that is scaled, or the picture is made of layers -/
def Spec.SmallOrLayered (m : OraInput) : Prop :=
  isGroup m.top = true ∨ ∀ b, m.bounds = some b → b.dx ≤ 256 ∧ b.dy ≤ 256

/-! ## Proofs -/

theorem full_seen {env : OraEnv} (law : PngInside env) {R : Rect} {i j : Img} (h : Seen R i j) (hi : Unindexed i) (hg : isGroup i = false) :
    env.png (.full (.image i)) = env.png (.full (.image j)) := by
  have hb := bounds_seen i h
  have hx : indexed (.full (.image i)) = false := by
    cases i with
    | leaf L => rw [Unindexed] at hi; exact hi
    | _ => rfl
  have hy : indexed (.full (.image j)) = false := by
    cases i with
    | leaf L =>
      rw [Unindexed] at hi
      rw [Seen] at h
      obtain ⟨K, rfl, -, e, -⟩ := h
      show K.model.isPalette = false
      rw [← e]
      exact hi
    | nil => rw [Seen] at h; subst h; rfl
    | text i t => rw [Seen] at h; obtain ⟨K, rfl, -⟩ := h; rfl
    | masked i m => rw [Seen] at h; obtain ⟨K, m', rfl, -⟩ := h; rfl
    | group g => cases hg
  exact law _ _ hx hy hb.1 hb.2 fun ρ n x b e hx => at_seen ρ i h x (.inr ⟨b, e, hx⟩) n

theorem writeOne_seen {env : OraEnv} (law : PngInside env) {R : Rect} {i j : Img} (h : Seen R i j) (hi : Unindexed i) (hg : isGroup i = false)
    (fails : Nat → Bool) (n : Nat) : writeOne env fails i n = writeOne env fails j n := by
  unfold writeOne writePng
  rw [full_seen law h hi hg]

mutual
theorem oraLayers_seen {env : OraEnv} (law : PngInside env) (fails : Nat → Bool) {R : Rect} (i : Img) {j : Img} (h : Seen R i j) (hi : Unindexed i)
    (n : Nat) : oraLayers env fails i n = oraLayers env fails j n := by
  match i with
  | .leaf L =>
    have := writeOne_seen law h hi rfl fails n
    rw [Seen] at h; obtain ⟨K, rfl, -⟩ := h
    rw [oraLayers, oraLayers]; exact this
  | .nil => rw [Seen] at h; subst h; rfl
  | .text i t =>
    have := writeOne_seen law h hi rfl fails n
    rw [Seen] at h; obtain ⟨K, rfl, -⟩ := h
    rw [oraLayers, oraLayers]; exact this
  | .masked i m =>
    have := writeOne_seen law h hi rfl fails n
    rw [Seen] at h; obtain ⟨K, m', rfl, -⟩ := h
    rw [oraLayers, oraLayers]; exact this
  | .group g =>
    rw [Seen] at h
    obtain ⟨k, rfl, h⟩ := h
    rw [Unindexed] at hi
    rw [oraLayers, oraLayers]
    exact writeGroup_seen law fails g h hi n
termination_by structural i

theorem writeGroup_seen {env : OraEnv} (law : PngInside env) (fails : Nat → Bool) {drawn : Bool} (g : List Layer) {k : List Layer}
    (h : SeenAll drawn g k) (hi : UnindexedAll g) (n : Nat) : writeGroup env fails g n = writeGroup env fails k n := by
  match g with
  | [] => rw [SeenAll] at h; subst h; rfl
  | ⟨name, b, mode, inv, tr, im⟩ :: rest =>
    rw [SeenAll] at h
    obtain ⟨im', rest', rfl, h1, h2⟩ := h
    rw [UnindexedAll] at hi
    rw [writeGroup, writeGroup, oraLayers_seen law fails im h1 hi.1 n]
    refine congrArg _ (funext fun r => ?_)
    rw [writeGroup_seen law fails rest h2 hi.2 r.2]
termination_by structural g
end

mutual
theorem writeStack_seen (env : OraEnv) (attrs : List (Bytes × Bytes)) {R : Rect} (i : Img) {j : Img} (h : Seen R i j) (n : Nat) :
    writeStack env attrs i n = writeStack env attrs j n := by
  match i with
  | .leaf L => rw [Seen] at h; obtain ⟨K, rfl, -⟩ := h; rfl
  | .nil => rw [Seen] at h; subst h; rfl
  | .text i t => rw [Seen] at h; obtain ⟨K, rfl, -⟩ := h; rfl
  | .masked i m => rw [Seen] at h; obtain ⟨K, m', rfl, -⟩ := h; rfl
  | .group g =>
    rw [Seen] at h
    obtain ⟨k, rfl, h⟩ := h
    rw [writeStack, writeStack, writeGroupStack_seen env g h n]
termination_by structural i

theorem writeGroupStack_seen (env : OraEnv) {drawn : Bool} (g : List Layer) {k : List Layer} (h : SeenAll drawn g k) (n : Nat) :
    writeGroupStack env g n = writeGroupStack env k n := by
  match g with
  | [] => rw [SeenAll] at h; subst h; rfl
  | ⟨name, b, mode, inv, tr, im⟩ :: rest =>
    rw [SeenAll] at h
    obtain ⟨im', rest', rfl, h1, h2⟩ := h
    rw [writeGroupStack, writeGroupStack, writeStack_seen env _ im h1 n]
    dsimp only
    rw [writeGroupStack_seen env rest h2]
termination_by structural g
end

theorem input_seen {m m' : OraInput} (h : SeenInput m m') : (∃ R, Seen R m.top m'.top) ∧ m.bounds = m'.bounds ∧
    ∀ ρ x n, (isGroup m.top = true ∨ ∃ b, m.bounds = some b ∧ inRect b x) → LikeAt (m.at ρ x n) (m'.at ρ x n) := by
  have grp : ∀ {R : Rect} {i j : Img}, Seen R i j → isGroup i = true → ∀ ρ x n, LikeAt (i.at ρ x n) (j.at ρ x n) := by
    intro R i j h hg ρ x n
    cases i with
    | group g =>
      have h' := h
      rw [Seen] at h
      obtain ⟨k, rfl, h⟩ := h
      rw [at_group, at_group, ← (bounds_seenAll g h).2, layersAt_seen ρ (groupModel g) g h x n]
      exact .refl _
    | _ => cases hg
  match m, m' with
  | .image i, .image j =>
    refine ⟨⟨_, h⟩, (bounds_seen i h).1, fun ρ x n hx => ?_⟩
    rcases hx with hx | hx
    · exact grp h hx ρ x n
    · exact at_seen ρ i h x (.inr hx) n
  | .layer l, .layer k =>
    obtain ⟨e, h⟩ := h
    have e1 : k.bounds = l.bounds := by rw [e]
    have e2 : k.transparency = l.transparency := by rw [e]
    refine ⟨⟨_, h⟩, congrArg some e1.symm, fun ρ x n hx => ?_⟩
    have key : LikeAt (l.image.at ρ ⟨x.x - l.bounds.x0, x.y - l.bounds.y0⟩ n) (k.image.at ρ ⟨x.x - l.bounds.x0, x.y - l.bounds.y0⟩ n) := by
      rcases hx with hx | ⟨b, e, hx⟩
      · exact grp h hx ..
      · injection e with e
        subst e
        refine at_seen ρ _ h _ (.inl ?_) n
        unfold inRect Rect.dx Rect.dy at *
        dsimp only
        omega
    show LikeAt (layerAt ρ l x n) (layerAt ρ k x n)
    unfold layerAt
    rw [e1, e2]
    rcases key with ⟨a1, a2⟩ | ⟨c, c', n', a1, a2, a3⟩
    · rw [a1, a2]; exact .inl ⟨rfl, rfl⟩
    · rw [a1, a2]
      exact .inr ⟨_, _, n', rfl, rfl, indist_transparency a3 _⟩
  | .image _, .layer _ => exact h.elim
  | .layer _, .image _ => exact h.elim

theorem indexed_seen {m m' : OraInput} (h : SeenInput m m') (hi : Unindexed m.top) : indexed (.full m) = false ∧ indexed (.full m') = false := by
  match m, m' with
  | .image i, .image j =>
    have h : Seen Rect.zero i j := h
    have hi : Unindexed i := hi
    cases i with
    | leaf L =>
      rw [Unindexed] at hi
      rw [Seen] at h
      obtain ⟨K, rfl, -, e, -⟩ := h
      refine ⟨hi, ?_⟩
      show K.model.isPalette = false
      rw [← e]
      exact hi
    | nil => rw [Seen] at h; subst h; exact ⟨rfl, rfl⟩
    | text i t => rw [Seen] at h; obtain ⟨K, rfl, -⟩ := h; exact ⟨rfl, rfl⟩
    | masked i m => rw [Seen] at h; obtain ⟨K, m', rfl, -⟩ := h; exact ⟨rfl, rfl⟩
    | group g => rw [Seen] at h; obtain ⟨K, rfl, -⟩ := h; exact ⟨rfl, rfl⟩
  | .layer _, .layer _ => exact ⟨rfl, rfl⟩
  | .image _, .layer _ => exact h.elim
  | .layer _, .image _ => exact h.elim

/-- C132, what holds: with a PNG encoder that only looks inside the bounds, `Encode` of the package ora writes the same file, or returns the
same error, for pictures that differ at most in pixels outside the bounds of their images and outside their visible layers - if they are made of
layers or at most 256 pixels wide and high. -/
theorem C132_inside_partial (env : OraEnv) (law : PngInside env) (m m' : OraInput) (h : SeenInput m m') (hi : Unindexed m.top)
    (hs : SmallOrLayered m) (fails : Nat → Bool) (closeFails : Bool) : oraEncode env fails closeFails m = oraEncode env fails closeFails m' := by
  obtain ⟨⟨R, h1⟩, h2, h3⟩ := input_seen h
  obtain ⟨x1, x2⟩ := indexed_seen h hi
  have hm : pngModel (.full m) = pngModel (.full m') := (bounds_seen _ h1).2
  have hf : env.png (.full m) = env.png (.full m') := law _ _ x1 x2 h2 hm fun ρ n x b e hx => h3 ρ x n (.inr ⟨b, e, hx⟩)
  have ht : ∀ b, m.bounds = some b → env.png (thumbPic m b.dx b.dy) = env.png (thumbPic m' b.dx b.dy) := by
    intro b hb
    unfold thumbPic
    split
    · rename_i hw
      rcases hs with hs | hs
      · refine law _ _ rfl rfl ?_ hm fun ρ n x b' _ _ => h3 ρ _ n (.inl hs)
        unfold Pic.bounds
        dsimp only
        rw [h2]
      · have := hs b hb
        omega
    · exact hf
  unfold oraEncode oraEntries
  rw [← h2]
  cases hb : m.bounds with
  | none => rfl
  | some b =>
    dsimp only
    unfold writePng stackTokens
    rw [oraLayers_seen law fails _ h1 hi, writeStack_seen env [] _ h1, hf, ht b hb]

/-! ## Examples -/

/-- an encoder that tells the colour of one pixel -/
def pointPng (x : Pt) : OraEnv :=
  let e : OraEnv := ⟨fun _ => ([], true), fun _ => [], fun _ => none, fun _ => .panic, fun _ => none, fun _ => [], fun x side => (x : Rat) * 256 / side⟩
  { e with png := fun p => .ok (match p.bounds e with
      | none => []
      | some b => if Rect.mem x b = true then
          (match p.at e (fun _ => 0) x 0 with
          | none => [1]
          | some c => [2, (nrgbaModel c.1).1]) else [3]) }

theorem pointPng_png (x : Pt) (p : Pic) : (pointPng x).png p = .ok (match p.bounds (pointPng x) with
      | none => []
      | some b => if Rect.mem x b = true then
          (match p.at (pointPng x) (fun _ => 0) x 0 with
          | none => [1]
          | some c => [2, (nrgbaModel c.1).1]) else [3]) := by
  cases p <;> rfl

theorem pointPng_inside (x : Pt) : PngInside (pointPng x) := by
  intro p p' _ _ hb _ h
  rw [pointPng_png, pointPng_png, ← hb]
  cases e : p.bounds (pointPng x) with
  | none => rfl
  | some b =>
    dsimp only
    split
    · rename_i hx
      rcases h (fun _ => 0) 0 x b e ((mem_iff ..).1 hx) with ⟨e1, e2⟩ | ⟨c, c', n, e1, e2, e3⟩
      · rw [e1, e2]
      · rw [e1, e2]
        dsimp only
        rw [e3.2.2.1]
    · rfl

/-- The hypotheses of C132 are met by a picture of a layer that is larger than a thumbnail. -/
example : ∃ env m m', PngInside env ∧ SeenInput m m' ∧ m ≠ m' ∧ Unindexed m.top ∧ SmallOrLayered m :=
  ⟨pointPng ⟨255, 0⟩,
    .image (.group [⟨[], ⟨0, 0, 1, 1⟩, 0, false, 0, .leaf (pixelIn (.gray 0))⟩, ⟨[], ⟨0, 0, 1000, 1⟩, 0, true, 0, .leaf (pixelIn (.gray 0))⟩]),
    .image (.group [⟨[], ⟨0, 0, 1, 1⟩, 0, false, 0, .leaf (pixelIn (.gray 7))⟩, ⟨[], ⟨0, 0, 1000, 1⟩, 0, true, 0, .leaf (pixelIn (.gray 9))⟩]),
    pointPng_inside _, by
      have hp : ∀ q, inRect ⟨0, 0, 1, 1⟩ q → q = ⟨0, 0⟩ := by
        rintro ⟨x, y⟩ h
        simp only [inRect] at h
        rw [Pt.mk.injEq]
        omega
      have hl : ∀ (R : Rect) (c c' : Color), (∀ q, inRect R q → q = ⟨0, 0⟩) → Seen R (.leaf (pixelIn c)) (.leaf (pixelIn c')) := by
        intro R c c' hR
        rw [Seen]
        refine ⟨_, rfl, rfl, rfl, fun q hq => .inr ?_⟩
        have : q = ⟨0, 0⟩ := hq.elim (hp q) (hR q)
        subst this
        exact ⟨_, _, rfl, rfl, .refl _⟩
      show Seen _ _ _
      rw [Seen]
      refine ⟨_, rfl, ?_⟩
      rw [SeenAll]
      refine ⟨_, _, rfl, hl _ _ _ fun q hq => hp q ?_, ?_⟩
      · rw [if_pos ⟨rfl, rfl⟩] at hq
        exact hq
      rw [SeenAll]
      refine ⟨_, _, rfl, hl _ _ _ fun q hq => ?_, by rw [SeenAll]⟩
      rw [if_neg (fun h => by cases h.2)] at hq
      simp only [inRect, Rect.zero] at hq
      omega,
    by
      intro h
      injection h with h
      injection h with h
      injection h with h _
      injection h with _ _ _ _ _ h
      injection h with h
      have := congrFun (congrArg Leaf.pixel h) ⟨1, 0⟩
      revert this
      unfold pixelIn
      decide,
    by
      simp only [OraInput.top, Unindexed, UnindexedAll, pixelIn]
      exact ⟨rfl, rfl, trivial⟩, .inl rfl⟩

/-- a picture of 1024 by 4 pixels, every pixel outside it having the colour `c` -/
def bannerIn (c : Color) : Leaf := ⟨⟨0, 0, 1024, 4⟩, .other, fun p => some (if Rect.mem p ⟨0, 0, 1024, 4⟩ then .nrgba 1 2 3 255 else c)⟩

theorem banner_file (c : Color) : ∃ es, oraEncode (pointPng ⟨255, 0⟩) (fun _ => false) false (.image (.leaf (bannerIn c))) =
    .ok ⟨none, some (es ++ [.of (lit "Thumbnails/thumbnail.png") [2, (nrgbaModel c).1]])⟩ := by
  have hb : (Pic.thumb (.image (.leaf (bannerIn c))) 1024).bounds (pointPng ⟨255, 0⟩) = some ⟨0, 0, 256, 1⟩ := by
    show some (Rect.mk (truncRat ((pointPng ⟨255, 0⟩).quotient 0 1024)) (truncRat ((pointPng ⟨255, 0⟩).quotient 0 1024))
      (truncRat ((pointPng ⟨255, 0⟩).quotient 1024 1024)) (truncRat ((pointPng ⟨255, 0⟩).quotient 4 1024))) = _
    clear c
    decide +kernel
  have ht : thumbPoint (pointPng ⟨255, 0⟩) 1024 ⟨255, 0⟩ = ⟨63, 63⟩ := by decide +kernel
  have h1 : (pointPng ⟨255, 0⟩).png (.thumb (.image (.leaf (bannerIn c))) 1024) = .ok [2, (nrgbaModel c).1] := by
    rw [pointPng_png, hb]
    dsimp only
    rw [if_pos (by decide), Pic.at, ht]
    rfl
  have h2 : ∀ p, ∃ d, (pointPng ⟨255, 0⟩).png p = .ok d := fun p => ⟨_, pointPng_png _ _⟩
  obtain ⟨d, hd⟩ := h2 (.full (.image (.leaf (bannerIn c))))
  refine ⟨[.of (lit "mimetype") oraMime, .of (dataName 1) d, .of (lit "stack.xml") ((pointPng ⟨255, 0⟩).xmlWrite
    (stackTokens (pointPng ⟨255, 0⟩) (.image (.leaf (bannerIn c))) 1024 4)), .of (lit "mergedimage.png") d], ?_⟩
  have h3 : thumbPic (.image (.leaf (bannerIn c))) 1024 4 = .thumb (.image (.leaf (bannerIn c))) 1024 := rfl
  have h4 : oraLayers (pointPng ⟨255, 0⟩) (fun _ => false) (.leaf (bannerIn c)) 0 = .ok ([.of (dataName 1) d], 1) := by
    rw [oraLayers, writeOne, writePng, hd]
    rfl
  have h5 : (OraInput.image (.leaf (bannerIn c))).bounds = some ⟨0, 0, 1024, 4⟩ := rfl
  have h6 : (OraInput.image (.leaf (bannerIn c))).top = .leaf (bannerIn c) := rfl
  have h7 : Rect.dx ⟨0, 0, 1024, 4⟩ = 1024 := rfl
  have h8 : Rect.dy ⟨0, 0, 1024, 4⟩ = 4 := rfl
  unfold oraEncode oraEntries
  rw [h5]
  dsimp only
  rw [h6, h4, h7, h8, h3]
  simp only [Bool.false_eq_true, if_false, OraRes.bind, writePng, hd, h1]
  rfl

/-- C132 fails for larger pictures that are not made of layers: the thumbnail of one that is 1024 pixels wide and 4 high shows points below the
picture (thumbnail.go:24 asks for the first coordinate twice). -/
theorem C132_refuted : ∃ (env : OraEnv) (m m' : OraInput), PngInside env ∧ SeenInput m m' ∧ Unindexed m.top ∧
    (∀ x side, env.quotient x side = (x : Rat) * 256 / side) ∧ oraEncode env (fun _ => false) false m ≠ oraEncode env (fun _ => false) false m' := by
  refine ⟨pointPng ⟨255, 0⟩, .image (.leaf (bannerIn (.nrgba 5 6 7 255))), .image (.leaf (bannerIn (.nrgba 8 6 7 255))),
    pointPng_inside _, ?_, ?_, fun _ _ => rfl, ?_⟩
  · show Seen _ _ _
    rw [Seen]
    refine ⟨_, rfl, rfl, rfl, fun q hq => .inr ⟨_, _, rfl, rfl, ?_⟩⟩
    have : Rect.mem q ⟨0, 0, 1024, 4⟩ = true := by
      rcases hq with hq | hq
      · exact (mem_iff ..).2 hq
      · simp only [inRect, Rect.zero] at hq
        omega
    rw [if_pos this, if_pos this]
    exact .refl _
  · show Unindexed (.leaf _)
    rw [Unindexed]
    rfl
  · obtain ⟨es, e⟩ := banner_file (.nrgba 5 6 7 255)
    obtain ⟨es', e'⟩ := banner_file (.nrgba 8 6 7 255)
    rw [e, e']
    intro h
    injection h with h
    injection h with _ h
    injection h with h
    have := congrArg (fun l => l.getLast?.map fun e => e.data) h
    simp only [List.getLast?_append, List.getLast?_singleton] at this
    revert this
    simp only [Option.some_or, Option.map_some]
    decide

/-! ## Pictures cut out of others -/

/-- C133, what holds: after cutting out a part of an `RGB`, `GrayAlpha` or `PalettedAlpha` image with `SubImage`, `Encode` writes the same
OpenRaster file whatever the rest of the image was, also when the part is used inside other pictures. -/
theorem C133_raster_partial {π : Type} (z : π) (toColor : π → Option Color) (cm : ColorModel)
    (ops ops' : List (ROp π)) (hw : WF 0 ops) (hw' : WF 0 ops') (s s' : RState π)
    (h : RState.run z ⟨[], []⟩ ops = some s) (h' : RState.run z ⟨[], []⟩ ops' = some s') (i i' : Nat) (m m' : Raster)
    (hm : s.imgs[i]? = some m) (hm' : s'.imgs[i']? = some m') (r : Rect) (hb : m.rect = m'.rect)
    (hp : ∀ p, inRect r p → inRect m.rect p → Raster.get z s.heap m p = Raster.get z s'.heap m' p) :
    ∃ k k', s.step z (.sub i r) = some ⟨s.heap, s.imgs ++ [k]⟩ ∧ s'.step z (.sub i' r) = some ⟨s'.heap, s'.imgs ++ [k']⟩ ∧
      ∀ (env : OraEnv) (fails : Nat → Bool) (closeFails : Bool) (F : Leaf → OraInput),
        oraEncode env fails closeFails (F (k.leaf z toColor cm s.heap)) = oraEncode env fails closeFails (F (k'.leaf z toColor cm s'.heap)) := by
  obtain ⟨k, k', a1, a2, e⟩ := sub_leaf_same z toColor cm ops ops' hw hw' s s' h h' i i' m m' hm hm' r hb hp
  exact ⟨k, k', a1, a2, fun _ _ _ _ => by rw [e]⟩

/-- The hypotheses are met by two images that differ outside the part cut out. -/
example : ∃ s s' m m', RState.run (0 : Nat) ⟨[], []⟩ [.new ⟨0, 0, 3, 2⟩, .set 0 ⟨0, 0⟩ 5, .set 0 ⟨2, 1⟩ 6] = some s ∧
    RState.run (0 : Nat) ⟨[], []⟩ [.new ⟨0, 0, 3, 2⟩, .set 0 ⟨0, 0⟩ 7, .set 0 ⟨2, 1⟩ 6] = some s' ∧
    s.imgs[0]? = some m ∧ s'.imgs[0]? = some m' ∧ m.rect = m'.rect ∧ s.heap ≠ s'.heap ∧
    ∀ p, inRect ⟨1, 0, 3, 2⟩ p → inRect m.rect p → Raster.get 0 s.heap m p = Raster.get 0 s'.heap m' p := by
  refine ⟨_, _, _, _, rfl, rfl, rfl, rfl, rfl, by decide, ?_⟩
  rintro ⟨x, y⟩ h _
  simp only [inRect] at h
  obtain ⟨h1, h2, h3, h4⟩ := h
  have hx : x = 1 ∨ x = 2 := by omega
  have hy : y = 0 ∨ y = 1 := by omega
  rcases hx with rfl | rfl <;> rcases hy with rfl | rfl <;> rfl

/-- the second entry of the archive -/
theorem cropped_file (c : Color) : ∃ e es, oraEncode (pointPng ⟨1, 0⟩) (fun _ => false) false
    (.image (.group (groupSubImage ⟨0, 0, 1, 1⟩ (twoPixels c)))) = .ok ⟨none, some (e :: .of (dataName 1) [2, (nrgbaModel c).1] :: es)⟩ := by
  have h1 : (pointPng ⟨1, 0⟩).png (.full (.image (.leaf ⟨⟨0, 0, 2, 1⟩, .other, fun p => some (if p = ⟨1, 0⟩ then c else .nrgba 1 2 3 255)⟩))) =
      .ok [2, (nrgbaModel c).1] := rfl
  have h2 : ∀ p, ∃ d, (pointPng ⟨1, 0⟩).png p = .ok d := fun p => ⟨_, pointPng_png _ _⟩
  generalize hm : (OraInput.image (.group (groupSubImage ⟨0, 0, 1, 1⟩ (twoPixels c)))) = m
  have h4 : oraLayers (pointPng ⟨1, 0⟩) (fun _ => false) m.top 0 = .ok ([.of (dataName 1) [2, (nrgbaModel c).1]], 1) := by
    subst hm
    rfl
  have h5 : ∃ b, m.bounds = some b := by subst hm; exact ⟨_, rfl⟩
  obtain ⟨b, hb⟩ := h5
  obtain ⟨d, hd⟩ := h2 (.full m)
  obtain ⟨t, ht⟩ := h2 (thumbPic m b.dx b.dy)
  unfold oraEncode oraEntries
  rw [hb]
  dsimp only
  rw [h4]
  simp only [Bool.false_eq_true, if_false, OraRes.bind, writePng, hd, ht]
  exact ⟨_, _, rfl⟩

/-- C133 fails for layered images: `SubImage` of an `Image` changes the bounds of the layers and keeps the images in them, which are written as
they are.  Two pictures that are the same inside the part cut out, and from which what was cut out shows the same at every point, give different
files. -/
theorem C133_cropped_refuted : ∃ (g g' : List Layer) (r : Rect) (env : OraEnv), PngInside env ∧
    (∀ ρ p n, inRect r p → (Img.group g).at ρ p n = (Img.group g').at ρ p n) ∧
    (∀ ρ p n, (Img.group (groupSubImage r g)).at ρ p n = (Img.group (groupSubImage r g')).at ρ p n) ∧
    oraEncode env (fun _ => false) false (.image (.group (groupSubImage r g))) ≠
      oraEncode env (fun _ => false) false (.image (.group (groupSubImage r g'))) := by
  refine ⟨twoPixels (.nrgba 44 5 6 255), twoPixels (.nrgba 7 8 9 255), ⟨0, 0, 1, 1⟩, pointPng ⟨1, 0⟩, pointPng_inside _, ?_, ?_, ?_⟩
  · exact (twoPixels_same _ _).1
  · exact (twoPixels_same _ _).2
  · obtain ⟨e, es, h⟩ := cropped_file (.nrgba 44 5 6 255)
    obtain ⟨e', es', h'⟩ := cropped_file (.nrgba 7 8 9 255)
    rw [h, h']
    intro h
    injection h with h
    injection h with _ h
    injection h with h
    injection h with _ h
    injection h with h _
    revert h
    decide

end Limage
