import Verif.Props.PixelBack
/-!
# C85: saving again what was loaded
-/
namespace Limage
open Spec

/-! ### Trees that differ only in modes and in the images of layers that are not groups -/

mutual
/-- as `SameImg`, whatever the modes -/
def LikeImg (P : Layer → Img → Prop) (l : Layer) (i j : Img) : Prop :=
  match i with
  | .group g => ∃ g', j = .group g' ∧ LikeTree P g g'
  | .leaf _ => P l j
  | .nil => P l j
  | .text _ _ => P l j
  | .masked _ _ => P l j
termination_by structural i

/-- as `SameTree`, whatever the modes -/
def LikeTree (P : Layer → Img → Prop) (g g' : List Layer) : Prop :=
  match g, g' with
  | [], [] => True
  | ⟨name, b, mode, inv, tr, im⟩ :: rest, l' :: rest' =>
    (l'.name = name ∧ l'.bounds = b ∧ l'.invisible = inv ∧ l'.transparency = tr ∧
      LikeImg P ⟨name, b, mode, inv, tr, im⟩ im l'.image) ∧ LikeTree P rest rest'
  | _, _ => False
termination_by structural g
end

mutual
theorem Spec.SameImg.like {P : Layer → Img → Prop} {M : Mode → Mode} {l : Layer} {i j : Img} (h : SameImg P M l i j) : LikeImg P l i j := by
  match i with
  | .group g =>
    unfold SameImg at h
    unfold LikeImg
    obtain ⟨g', h1, h2⟩ := h
    exact ⟨g', h1, Spec.SameTree.like h2⟩
  | .leaf _ => unfold SameImg at h; unfold LikeImg; exact h
  | .nil => unfold SameImg at h; unfold LikeImg; exact h
  | .text _ _ => unfold SameImg at h; unfold LikeImg; exact h
  | .masked _ _ => unfold SameImg at h; unfold LikeImg; exact h
termination_by structural i

theorem Spec.SameTree.like {P : Layer → Img → Prop} {M : Mode → Mode} {g g' : List Layer} (h : SameTree P M g g') : LikeTree P g g' := by
  match g, g' with
  | [], [] => trivial
  | [], _ :: _ => exact h.elim
  | ⟨name, b, mode, inv, tr, im⟩ :: rest, [] => exact h.elim
  | ⟨name, b, mode, inv, tr, im⟩ :: rest, l' :: rest' =>
    unfold SameTree at h
    unfold LikeTree
    obtain ⟨⟨h1, h2, h3, h4, h5, h6⟩, h7⟩ := h
    exact ⟨⟨h1, h2, h4, h5, Spec.SameImg.like h6⟩, Spec.SameTree.like h7⟩
termination_by structural g
end

/-- the mode of a layer does not matter -/
theorem LikeTree.bottom {P : Layer → Img → Prop} {m : Mode} : ∀ (g init : List Layer) (b : Layer), LikeTree P g (init ++ [b]) →
    LikeTree P g (init ++ [{ b with mode := m }])
  | [], [], _, h => h.elim
  | [], _ :: _, _, h => h.elim
  | ⟨name, c, mode, inv, tr, im⟩ :: rest, [], b, h => by
    rw [List.nil_append] at h ⊢
    unfold LikeTree at h ⊢
    exact h
  | ⟨name, c, mode, inv, tr, im⟩ :: rest, a :: init, b, h => by
    rw [List.cons_append] at h ⊢
    unfold LikeTree at h ⊢
    exact ⟨h.1, LikeTree.bottom rest init b h.2⟩

theorem LikeTree.fixBottom {P : Layer → Img → Prop} {g g' : List Layer} (h : LikeTree P g g') : LikeTree P g (fixBottom g') := by
  rcases fixBottom_cases g' with e | ⟨init, b, e1, e2⟩
  · rw [e]; exact h
  · rw [e2]
    rw [e1] at h
    exact h.bottom _ _ _

theorem LikeTree.union {P : Layer → Img → Prop} : ∀ (g g' : List Layer) (r : Rect), LikeTree P g g' →
    g'.foldl (fun r l => r.union l.bounds) r = g.foldl (fun r l => r.union l.bounds) r
  | [], [], _, _ => rfl
  | [], _ :: _, _, h => h.elim
  | ⟨_, _, _, _, _, _⟩ :: _, [], _, h => h.elim
  | ⟨name, b, mode, inv, tr, im⟩ :: rest, l' :: rest', r, h => by
    unfold LikeTree at h
    rw [List.foldl_cons, List.foldl_cons, h.1.2.1]
    exact LikeTree.union rest rest' _ h.2

theorem LikeTree.bounds {P : Layer → Img → Prop} {g g' : List Layer} (h : LikeTree P g g') : groupBounds g' = groupBounds g :=
  LikeTree.union g g' _ h

mutual
theorem LikeImg.every {P : Layer → Img → Prop} {A B : Img → Prop} (hP : ∀ l j, P l j → EveryIn B j)
    (hleaf : ∀ l j, P l j → A l.image → B j) (hgroup : ∀ g g', LikeTree P g g' → A (.group g) → B (.group g'))
    {l : Layer} {i j : Img} (h : LikeImg P l i j) (hl : l.image = i) (ha : A i) (he : EveryIn A i) : B j ∧ EveryIn B j := by
  match i with
  | .group g =>
    unfold LikeImg at h
    obtain ⟨g', rfl, h2⟩ := h
    unfold EveryIn at he ⊢
    exact ⟨hgroup g g' h2 ha, LikeTree.every hP hleaf hgroup h2 he⟩
  | .leaf _ => unfold LikeImg at h; exact ⟨hleaf l j h (by rw [hl]; exact ha), hP l j h⟩
  | .nil => unfold LikeImg at h; exact ⟨hleaf l j h (by rw [hl]; exact ha), hP l j h⟩
  | .text _ _ => unfold LikeImg at h; exact ⟨hleaf l j h (by rw [hl]; exact ha), hP l j h⟩
  | .masked _ _ => unfold LikeImg at h; exact ⟨hleaf l j h (by rw [hl]; exact ha), hP l j h⟩
termination_by structural i

theorem LikeTree.every {P : Layer → Img → Prop} {A B : Img → Prop} (hP : ∀ l j, P l j → EveryIn B j)
    (hleaf : ∀ l j, P l j → A l.image → B j) (hgroup : ∀ g g', LikeTree P g g' → A (.group g) → B (.group g'))
    {g g' : List Layer} (h : LikeTree P g g') (he : EveryLayer A g) : EveryLayer B g' := by
  match g, g' with
  | [], [] => unfold EveryLayer; trivial
  | [], _ :: _ => exact h.elim
  | ⟨name, b, mode, inv, tr, im⟩ :: rest, [] => exact h.elim
  | ⟨name, b, mode, inv, tr, im⟩ :: rest, ⟨name', b', mode', inv', tr', im'⟩ :: rest' =>
    unfold LikeTree at h
    unfold EveryLayer at he ⊢
    obtain ⟨⟨-, -, -, -, h5⟩, h6⟩ := h
    obtain ⟨h7, h8⟩ := LikeImg.every hP hleaf hgroup h5 rfl he.1 he.2.1
    exact ⟨h7, h8, LikeTree.every hP hleaf hgroup h6 he.2.2⟩
termination_by structural g
end

/-- what two layers at the same place of two trees have in common -/
structure LikePlaced (P : Layer → Img → Prop) (r r' : Placed) : Prop where
  name : r'.layer.name = r.layer.name
  bounds : r'.layer.bounds = r.layer.bounds
  ox : r'.ox = r.ox
  oy : r'.oy = r.oy
  path : r'.path = r.path
  image : (isGroupLayer r.layer = false ∧ P r.layer r'.layer.image) ∨
    ∃ g g', r.layer.image = .group g ∧ r'.layer.image = .group g' ∧ LikeTree P g g'

mutual
theorem LikeImg.placed {P : Layer → Img → Prop} (hP : ∀ l j ox oy path, P l j → placedIn j ox oy path = [])
    {l : Layer} {i j : Img} (h : LikeImg P l i j) (ox oy : Int) (path : List Nat) :
    List.Forall₂ (LikePlaced P) (placedIn i ox oy path) (placedIn j ox oy path) := by
  match i with
  | .group g =>
    unfold LikeImg at h
    obtain ⟨g', rfl, h2⟩ := h
    unfold placedIn
    exact LikeTree.placed hP h2 0 ox oy path
  | .leaf _ => unfold LikeImg at h; rw [hP l j ox oy path h]; unfold placedIn; exact .nil
  | .nil => unfold LikeImg at h; rw [hP l j ox oy path h]; unfold placedIn; exact .nil
  | .text _ _ => unfold LikeImg at h; rw [hP l j ox oy path h]; unfold placedIn; exact .nil
  | .masked _ _ => unfold LikeImg at h; rw [hP l j ox oy path h]; unfold placedIn; exact .nil
termination_by structural i

theorem LikeTree.placed {P : Layer → Img → Prop} (hP : ∀ l j ox oy path, P l j → placedIn j ox oy path = [])
    {g g' : List Layer} (h : LikeTree P g g') (n : Nat) (ox oy : Int) (path : List Nat) :
    List.Forall₂ (LikePlaced P) (placed g n ox oy path) (placed g' n ox oy path) := by
  match g, g' with
  | [], [] => unfold Spec.placed; exact .nil
  | [], _ :: _ => exact h.elim
  | ⟨name, b, mode, inv, tr, im⟩ :: rest, [] => exact h.elim
  | ⟨name, b, mode, inv, tr, im⟩ :: rest, ⟨name', b', mode', inv', tr', im'⟩ :: rest' =>
    unfold LikeTree at h
    obtain ⟨⟨h1, h2, -, -, h5⟩, h6⟩ := h
    dsimp only at h1 h2 h5
    subst h1 h2
    unfold Spec.placed
    refine .cons ⟨rfl, rfl, rfl, rfl, rfl, ?_⟩ (List.rel_append (LikeImg.placed hP h5 _ _ _) (LikeTree.placed hP h6 _ _ _ _))
    cases im with
    | group g =>
      unfold LikeImg at h5
      obtain ⟨g', e, h7⟩ := h5
      exact .inr ⟨g, g', rfl, e, h7⟩
    | leaf _ => unfold LikeImg at h5; exact .inl ⟨rfl, h5⟩
    | nil => unfold LikeImg at h5; exact .inl ⟨rfl, h5⟩
    | text _ _ => unfold LikeImg at h5; exact .inl ⟨rfl, h5⟩
    | masked _ _ => unfold LikeImg at h5; exact .inl ⟨rfl, h5⟩
termination_by structural g
end

/-! ### The pictures that come back can be stored again -/

/-- what the image of a layer without text is when it comes back -/
theorem Spec.ImgBack.cases {F : Fmt} {P : Bytes → TextData → Prop} {l : Layer} {j : Img} (h : ImgBack F P l j) :
    (∃ L, PixelsBack F (pixelsOf l.image) L ∧ maskOf l.image = none ∧ j = .leaf L) ∨
    (∃ L t, PixelsBack F (pixelsOf l.image) L ∧ (∃ t, textOf l = some t) ∧ j = .text (.leaf L) t) ∨
    ∃ L m m', PixelsBack F (pixelsOf l.image) L ∧ maskOf l.image = some m ∧ MaskBack m m' ∧ j = .masked (.leaf L) (some m') := by
  obtain ⟨L, hL, ⟨-, h2, h3⟩ | ⟨t, d, t', h1, -, -, h3⟩ | ⟨m, m', -, h2, h3, h4⟩⟩ := h
  · exact .inl ⟨L, hL, h2, h3⟩
  · exact .inr (.inl ⟨L, t', hL, ⟨t, h1⟩, h3⟩)
  · exact .inr (.inr ⟨L, m, m', hL, h2, h3, h4⟩)

theorem Spec.ImgBack.not_group {F : Fmt} {P : Bytes → TextData → Prop} {l : Layer} {j : Img} (h : ImgBack F P l j) :
    (∀ ox oy path, placedIn j ox oy path = []) ∧ (∀ B, EveryIn B j) ∧ totalIn j = 0 := by
  rcases h.cases with ⟨L, -, -, rfl⟩ | ⟨L, t, -, -, rfl⟩ | ⟨L, m, m', -, -, -, rfl⟩ <;>
    exact ⟨fun _ _ _ => by unfold placedIn; rfl, fun B => by unfold EveryIn; trivial, by unfold totalIn; rfl⟩

theorem Spec.SizeOk.move {b : Rect} (h : SizeOk b) : SizeOk ⟨0, 0, b.dx, b.dy⟩ := by
  obtain ⟨h1, h2, h3⟩ := h
  refine ⟨by show 0 ≤ b.x1 - b.x0; omega, by show 0 ≤ b.y1 - b.y0; omega, ?_⟩
  have e1 : (⟨0, 0, b.dx, b.dy⟩ : Rect).dx = b.dx := by show b.dx - 0 = b.dx; omega
  have e2 : (⟨0, 0, b.dx, b.dy⟩ : Rect).dy = b.dy := by show b.dy - 0 = b.dy; omega
  rw [e1, e2]
  exact h3

theorem again_encodable {F : Fmt} {P : Bytes → TextData → Prop} {g g' : List Layer} (h : LikeTree (ImgBack F P) g g')
    (hi : Encodable (.group g)) : Encodable (.group g') := by
  refine ⟨LikeTree.every (fun l j h => h.not_group.2.1 _) ?_ ?_ h hi.1, ?_⟩
  · intro l j h ⟨h1, h2⟩
    have key : ∀ L, PixelsBack F (pixelsOf l.image) L → ∀ b, (Img.leaf L).bounds = some b → SizeOk b := by
      rintro L ⟨b, e1, e2, -⟩ b' hb
      have hb : some L.bounds = some b' := by unfold Img.bounds at hb; exact hb
      cases hb
      rw [e2]
      exact (h1 b e1).move
    rcases h.cases with ⟨L, hL, -, rfl⟩ | ⟨L, t, hL, -, rfl⟩ | ⟨L, m, m', hL, hm, ⟨hr, -⟩, rfl⟩
    · exact ⟨key L hL, fun m hm => by cases hm⟩
    · exact ⟨fun b hb => key L hL b (by unfold pixelsOf at hb; unfold Img.bounds at hb; exact hb), fun m hm => by cases hm⟩
    · refine ⟨key L hL, fun m hm' => ?_⟩
      cases hm'
      rw [hr]
      exact (h2 m hm).move
  · rintro g g' h ⟨h1, -⟩
    refine ⟨fun b hb => ?_, fun m hm => by cases hm⟩
    have hb : some (groupBounds g') = some b := by unfold pixelsOf at hb; unfold Img.bounds at hb; exact hb
    rw [h.bounds] at hb
    exact h1 b (by unfold pixelsOf Img.bounds; exact hb)
  · have := (h.placed (fun l j ox oy path h => h.not_group.1 ox oy path) 0 0 0 []).length_eq
    rw [placed_length, placed_length] at this
    rw [← this]
    exact hi.2

theorem again_storable {F F' : Fmt} {P P' : Bytes → TextData → Prop} {W H : Int} {r r' : Placed} (h : LikePlaced (ImgBack F P) r r')
    (ht : textOf r.layer = none) (hs : Storable F P W H r) : Storable F' P' W H r' ∧ textOf r'.layer = none := by
  have hb := h.bounds
  have htx : textOf r'.layer = none := by
    rcases h.image with ⟨-, hi⟩ | ⟨g, g', -, e2, -⟩
    · rcases hi.cases with ⟨L, -, -, e⟩ | ⟨L, t, -, ⟨t', ht'⟩, e⟩ | ⟨L, m, m', -, -, -, e⟩
      · unfold textOf; rw [e]
      · rw [ht] at ht'; cases ht'
      · unfold textOf; rw [e]
    · unfold textOf; rw [e2]
  refine ⟨⟨by rw [h.name]; exact hs.name, by rw [h.ox, hb]; exact hs.x, by rw [h.oy, hb]; exact hs.y, ?_, ?_, ?_, by rw [h.path]; exact hs.path⟩, htx⟩
  · intro hg b hbb
    rcases h.image with ⟨hg', hi⟩ | ⟨g, g', -, e2, -⟩
    · have key : ∀ L, PixelsBack F (pixelsOf r.layer.image) L → (Img.leaf L).bounds = some b →
          b.dx = r'.layer.bounds.dx ∧ b.dy = r'.layer.bounds.dy := by
        rintro L ⟨c, e1, e2, -⟩ e
        have e : some L.bounds = some b := by unfold Img.bounds at e; exact e
        cases e
        obtain ⟨s1, s2⟩ := hs.size hg' c e1
        rw [e2, hb, ← s1, ← s2]
        exact ⟨Int.sub_zero _, Int.sub_zero _⟩
      rcases hi.cases with ⟨L, hL, -, e⟩ | ⟨L, t, hL, -, e⟩ | ⟨L, m, m', hL, -, -, e⟩
      · rw [e] at hbb; exact key L hL hbb
      · rw [e] at hbb; exact key L hL (by unfold pixelsOf at hbb; unfold Img.bounds at hbb; exact hbb)
      · rw [e] at hbb; exact key L hL hbb
    · unfold isGroupLayer at hg; rw [e2] at hg; cases hg
  · intro t d hd; rw [htx] at hd; cases hd
  · intro m hm
    rcases h.image with ⟨hg', hi⟩ | ⟨g, g', -, e2, -⟩
    · rcases hi.cases with ⟨L, hL, -, e⟩ | ⟨L, t, hL, -, e⟩ | ⟨L, m1, m', hL, hm1, ⟨hr, -⟩, e⟩
      · rw [e] at hm; cases hm
      · rw [e] at hm; cases hm
      · rw [e] at hm
        cases hm
        obtain ⟨s1, s2, s3, s4⟩ := hs.mask m1 hm1
        rw [h.ox, h.oy, hb, hr]
        exact ⟨s1, s2, by rw [← s3]; exact Int.sub_zero _, by rw [← s4]; exact Int.sub_zero _⟩
    · rw [e2] at hm; cases hm

mutual
theorem again_wholeImg {F : Fmt} {P : Bytes → TextData → Prop} (hF : F.typ = 2 → F.palette.getD [] ≠ [])
    (hc : ∀ c, ∃ c', colorOf F (F.conv c) = some c') {l : Layer} {i j : Img} (h : LikeImg (ImgBack F P) l i j) : Whole j := by
  have key : ∀ L, PixelsBack F (pixelsOf l.image) L → ∀ p, (L.pixel p).isSome := by
    rintro L ⟨b, -, -, -, e4, e5⟩ p
    by_cases hp : Rect.mem p L.bounds = true
    · obtain ⟨n, n', c, -, e⟩ := e5 p hp
      obtain ⟨c', hc'⟩ := hc c
      rw [e, hc']
      rfl
    · exact e4 hF p hp
  have leafCase : ImgBack F P l j → Whole j := by
    intro h
    rcases h.cases with ⟨L, hL, -, rfl⟩ | ⟨L, t, hL, -, rfl⟩ | ⟨L, m, m', hL, -, -, rfl⟩
    · unfold Whole; exact key L hL
    · unfold Whole; unfold Whole; exact key L hL
    · unfold Whole; exact ⟨by unfold Whole; exact key L hL, rfl⟩
  match i with
  | .group g =>
    unfold LikeImg at h
    obtain ⟨g', rfl, h2⟩ := h
    unfold Whole
    exact again_whole hF hc h2
  | .leaf _ => unfold LikeImg at h; exact leafCase h
  | .nil => unfold LikeImg at h; exact leafCase h
  | .text _ _ => unfold LikeImg at h; exact leafCase h
  | .masked _ _ => unfold LikeImg at h; exact leafCase h
termination_by structural i

theorem again_whole {F : Fmt} {P : Bytes → TextData → Prop} (hF : F.typ = 2 → F.palette.getD [] ≠ [])
    (hc : ∀ c, ∃ c', colorOf F (F.conv c) = some c') {g g' : List Layer} (h : LikeTree (ImgBack F P) g g') : WholeLayers g' := by
  match g, g' with
  | [], [] => unfold WholeLayers; trivial
  | [], _ :: _ => exact h.elim
  | ⟨name, b, mode, inv, tr, im⟩ :: rest, [] => exact h.elim
  | ⟨name, b, mode, inv, tr, im⟩ :: rest, ⟨name', b', mode', inv', tr', im'⟩ :: rest' =>
    unfold LikeTree at h
    unfold WholeLayers
    exact ⟨again_wholeImg hF hc h.1.2.2.2.2, again_whole hF hc h.2⟩
termination_by structural g
end

mutual
theorem again_modelImg {F : Fmt} {P : Bytes → TextData → Prop} {l : Layer} {i j : Img} (h : LikeImg (ImgBack F P) l i j) :
    j.colorModel = some (modelOf F) ∨ (i.colorModel = some .alpha ∧ j.colorModel = some .alpha) := by
  have leafCase : ImgBack F P l j → j.colorModel = some (modelOf F) := by
    intro h
    rcases h.cases with ⟨L, ⟨b, -, -, e3, -⟩, -, rfl⟩ | ⟨L, t, ⟨b, -, -, e3, -⟩, -, rfl⟩ | ⟨L, m, m', ⟨b, -, -, e3, -⟩, -, -, rfl⟩
    · unfold Img.colorModel; rw [e3]
    · unfold Img.colorModel; unfold Img.colorModel; rw [e3]
    · unfold Img.colorModel; unfold Img.colorModel; rw [e3]
  match i with
  | .group g =>
    unfold LikeImg at h
    obtain ⟨g', rfl, h2⟩ := h
    unfold Img.colorModel
    exact again_model h2
  | .leaf _ => unfold LikeImg at h; exact .inl (leafCase h)
  | .nil => unfold LikeImg at h; exact .inl (leafCase h)
  | .text _ _ => unfold LikeImg at h; exact .inl (leafCase h)
  | .masked _ _ => unfold LikeImg at h; exact .inl (leafCase h)
termination_by structural i

theorem again_model {F : Fmt} {P : Bytes → TextData → Prop} {g g' : List Layer} (h : LikeTree (ImgBack F P) g g') :
    groupModel g' = some (modelOf F) ∨ (groupModel g = some .alpha ∧ groupModel g' = some .alpha) := by
  match g, g' with
  | [], [] => right; unfold groupModel; exact ⟨rfl, rfl⟩
  | [], _ :: _ => exact h.elim
  | ⟨name, b, mode, inv, tr, im⟩ :: rest, [] => exact h.elim
  | ⟨name, b, mode, inv, tr, im⟩ :: rest, ⟨name', b', mode', inv', tr', im'⟩ :: rest' =>
    unfold LikeTree at h
    unfold groupModel
    exact again_modelImg h.1.2.2.2.2
termination_by structural g
end

/-! ### Sizes and modes -/

theorem again_layerBytes {F F' : Fmt} {P : Bytes → TextData → Prop} (hbpp : F'.bpp = F.bpp) {r r' : Placed} (h : LikePlaced (ImgBack F P) r r')
    (ht : textOf r.layer = none) (ht' : textOf r'.layer = none) : layerBytes F' r' = layerBytes F r := by
  have hpx : pixelBytes F'.bpp (pixelsOf r'.layer.image).bounds = pixelBytes F.bpp (pixelsOf r.layer.image).bounds ∧
      maskBytes (maskOf r'.layer.image) = maskBytes (maskOf r.layer.image) := by
    have hd : ∀ b : Rect, ∀ n, pixelBytes n (some ⟨0, 0, b.dx, b.dy⟩) = pixelBytes n (some b) := by
      intro b n
      unfold pixelBytes
      have e1 : (⟨0, 0, b.dx, b.dy⟩ : Rect).dx = b.dx := Int.sub_zero _
      have e2 : (⟨0, 0, b.dx, b.dy⟩ : Rect).dy = b.dy := Int.sub_zero _
      dsimp only
      rw [e1, e2]
    rcases h.image with ⟨-, hi⟩ | ⟨g, g', e1, e2, e3⟩
    · have key : ∀ L, PixelsBack F (pixelsOf r.layer.image) L →
          pixelBytes F'.bpp (Img.leaf L).bounds = pixelBytes F.bpp (pixelsOf r.layer.image).bounds := by
        rintro L ⟨b, e1, e2, -⟩
        rw [e1, show (Img.leaf L).bounds = some L.bounds by unfold Img.bounds; rfl, e2, hbpp, hd]
      rcases hi.cases with ⟨L, hL, hm, e⟩ | ⟨L, t, hL, ⟨t', ht'⟩, e⟩ | ⟨L, m1, m', hL, hm1, ⟨hr, -⟩, e⟩
      · rw [e, hm]; exact ⟨key L hL, rfl⟩
      · rw [ht] at ht'; cases ht'
      · rw [e, hm1]
        refine ⟨key L hL, ?_⟩
        unfold maskOf maskBytes
        dsimp only
        rw [hr, hd]
    · rw [e1, e2]
      refine ⟨?_, rfl⟩
      show pixelBytes _ (some (groupBounds g')) = pixelBytes _ (some (groupBounds g))
      rw [e3.bounds, hbpp]
  unfold layerBytes
  unfold textBytes
  rw [ht, ht', h.name, h.path, hpx.1, hpx.2]

theorem again_fileBytes {F F' : Fmt} {P : Bytes → TextData → Prop} (hbpp : F'.bpp = F.bpp) (hp : F'.palette = F.palette) {g g' : List Layer}
    (h : LikeTree (ImgBack F P) g g') (ht : ∀ r ∈ placed g 0 0 0 [], textOf r.layer = none)
    (ht' : ∀ r ∈ placed g' 0 0 0 [], textOf r.layer = none) : fileBytes F' (.group g') = fileBytes F (.group g) := by
  have hl : ∀ g, layersOf (.group g) = placed g 0 0 0 [] := fun _ => rfl
  unfold fileBytes
  rw [hp, hl, hl]
  have := h.placed (fun l j ox oy path h => h.not_group.1 ox oy path) 0 0 0 []
  congr 2
  generalize placed g 0 0 0 [] = ls at *
  generalize placed g' 0 0 0 [] = ls' at *
  clear h hl
  induction this with
  | nil => rfl
  | cons a _ ih =>
    rw [List.map_cons, List.map_cons, ih (fun r hr => ht r (List.mem_cons_of_mem _ hr)) (fun r hr => ht' r (List.mem_cons_of_mem _ hr)),
      again_layerBytes hbpp a (ht _ (List.mem_cons_self ..)) (ht' _ (List.mem_cons_self ..))]

mutual
theorem sameImg_placedModes {P : Layer → Img → Prop} {M : Mode → Mode} (hP : ∀ l j ox oy path, P l j → placedIn j ox oy path = [])
    {l : Layer} {i j : Img} (h : SameImg P M l i j) (ox oy : Int) (path : List Nat) : ∀ r ∈ placedIn j ox oy path, ∃ m, r.layer.mode = M m := by
  match i with
  | .group g =>
    unfold SameImg at h
    obtain ⟨g', rfl, h2⟩ := h
    unfold placedIn
    exact sameTree_placedModes hP h2 0 ox oy path
  | .leaf _ => unfold SameImg at h; rw [hP l j ox oy path h]; simp
  | .nil => unfold SameImg at h; rw [hP l j ox oy path h]; simp
  | .text _ _ => unfold SameImg at h; rw [hP l j ox oy path h]; simp
  | .masked _ _ => unfold SameImg at h; rw [hP l j ox oy path h]; simp
termination_by structural i

theorem sameTree_placedModes {P : Layer → Img → Prop} {M : Mode → Mode} (hP : ∀ l j ox oy path, P l j → placedIn j ox oy path = [])
    {g g' : List Layer} (h : SameTree P M g g') (n : Nat) (ox oy : Int) (path : List Nat) : ∀ r ∈ placed g' n ox oy path, ∃ m, r.layer.mode = M m := by
  match g, g' with
  | [], [] => unfold placed; simp
  | [], _ :: _ => exact h.elim
  | ⟨name, b, mode, inv, tr, im⟩ :: rest, [] => exact h.elim
  | ⟨name, b, mode, inv, tr, im⟩ :: rest, ⟨name', b', mode', inv', tr', im'⟩ :: rest' =>
    unfold SameTree at h
    obtain ⟨⟨h1, h2, h3, h4, h5, h6⟩, h7⟩ := h
    unfold placed
    intro r hr
    rcases List.mem_cons.1 hr with rfl | hr
    · exact ⟨mode, h3⟩
    · rcases List.mem_append.1 hr with hr | hr
      · exact sameImg_placedModes hP h6 _ _ _ r hr
      · exact sameTree_placedModes hP h7 _ _ _ _ r hr
termination_by structural g
end

theorem placed_bottom {m : Mode} : ∀ (init : List Layer) (b : Layer) (n : Nat) (ox oy : Int) (path : List Nat),
    ∀ r ∈ placed (init ++ [{ b with mode := m }]) n ox oy path,
      r.layer.mode = m ∨ ∃ r0 ∈ placed (init ++ [b]) n ox oy path, r0.layer.mode = r.layer.mode
  | [], ⟨name, c, mode, inv, tr, im⟩, n, ox, oy, path => by
    intro r hr
    rw [List.nil_append] at hr ⊢
    unfold placed at hr ⊢
    rcases List.mem_cons.1 hr with rfl | hr
    · exact .inl rfl
    · exact .inr ⟨r, List.mem_cons_of_mem _ hr, rfl⟩
  | ⟨name, c, mode, inv, tr, im⟩ :: init, b, n, ox, oy, path => by
    intro r hr
    rw [List.cons_append] at hr ⊢
    unfold placed at hr ⊢
    rcases List.mem_cons.1 hr with rfl | hr
    · exact .inr ⟨_, List.mem_cons_self .., rfl⟩
    · rcases List.mem_append.1 hr with hr | hr
      · exact .inr ⟨r, List.mem_cons_of_mem _ (List.mem_append_left _ hr), rfl⟩
      · rcases placed_bottom init b _ _ _ _ r hr with h | ⟨r0, h0, h⟩
        · exact .inl h
        · exact .inr ⟨r0, List.mem_cons_of_mem _ (List.mem_append_right _ h0), h⟩

/-- modes that came back come back again -/
theorem modeBack_idem (env : WEnv) (cm : ColorModel) (m : Mode) : modeBack (fmtOf env cm) m ∈ keptModes ((fmtOf env cm).typ == 0) := by
  have h1 : ∀ m, modeOf (UInt32.ofNat (modeID m).toNat) ∈ keptModes true := by
    intro m
    by_cases h : m.toNat < 42
    · have : ∀ m ∈ (List.range 42).map UInt32.ofNat, modeOf (UInt32.ofNat (modeID m).toNat) ∈ keptModes true := by decide
      exact this m (mode_small m h)
    · rw [modeID_high m (by omega)]
      decide
  unfold modeBack
  by_cases ht : (fmtOf env cm).typ = 0
  · rw [if_neg (by simpa using ht), ht]
    exact h1 m
  · rw [if_pos ht, show ((fmtOf env cm).typ == 0) = false by simpa using ht]
    split <;> decide

/-! ### Two round trips -/

theorem forall₂_of_right {α β : Type} {R : α → β → Prop} : ∀ {xs : List α} {ys : List β}, List.Forall₂ R xs ys → ∀ {b}, b ∈ ys → ∃ a ∈ xs, R a b
  | _, _, .cons h t, b, hb => by
    rcases List.mem_cons.1 hb with rfl | hb
    · exact ⟨_, List.mem_cons_self .., h⟩
    · obtain ⟨a, ha, hr⟩ := forall₂_of_right t hb
      exact ⟨a, List.mem_cons_of_mem _ ha, hr⟩

theorem fixBottom_last (g : List Layer) : ∀ m, ((fixBottom g).map (·.mode)).getLast? = some m → m = Mode.normal ∨ m = Mode.dissolve := by
  intro m hm
  unfold fixBottom at hm
  cases hl : g.getLast? with
  | none =>
    rw [hl] at hm
    dsimp only at hm
    rw [List.getLast?_map, hl] at hm
    cases hm
  | some l =>
    rw [hl] at hm
    dsimp only at hm
    by_cases h : l.mode = Mode.normal ∨ l.mode = Mode.dissolve
    · rw [if_pos h, List.getLast?_map, hl] at hm
      cases hm
      exact h
    · rw [if_neg h, List.map_append, List.map_singleton, List.getLast?_concat] at hm
      cases hm
      exact .inl rfl

theorem rgb_palette (p : List (UInt8 × UInt8 × UInt8)) : (p.map fun c => Color.lrgb c.1 c.2.1 c.2.2).map rgbModel = p := by
  rw [List.map_map]
  conv => rhs; rw [← List.map_id p]
  apply List.map_congr_left
  rintro ⟨r, g, b⟩ -
  show ((widen32 r >>> 8).toUInt8, (widen32 g >>> 8).toUInt8, (widen32 b >>> 8).toUInt8) = (r, g, b)
  rw [shr8_widen, shr8_widen, shr8_widen]

theorem again_typ (wenv wenv' : WEnv) (cm cm' : ColorModel)
    (h : cm' = modelOf (fmtOf wenv cm) ∨ cm = .alpha ∧ cm' = .alpha) :
    (fmtOf wenv' cm').typ = (fmtOf wenv cm).typ ∧ (fmtOf wenv' cm').bpp = (fmtOf wenv cm).bpp ∧
    (fmtOf wenv' cm').palette = (fmtOf wenv cm).palette ∧ ((fmtOf wenv cm).typ ≠ 2 → (fmtOf wenv' cm').conv = (fmtOf wenv cm).conv) := by
  rcases h with rfl | ⟨rfl, rfl⟩
  · cases cm with
    | palette p => exact ⟨rfl, rfl, congrArg some (rgb_palette _), fun h => absurd rfl h⟩
    | alphaPalette p => exact ⟨rfl, rfl, congrArg some (rgb_palette _), fun h => absurd rfl h⟩
    | _ => exact ⟨rfl, rfl, rfl, fun _ => rfl⟩
  · exact ⟨rfl, rfl, rfl, fun _ => rfl⟩

/-- the palette of a file is the one of the colour model -/
theorem palette_some (wenv : WEnv) {cm : ColorModel} (hp : cm ≠ .palette [] ∧ cm ≠ .alphaPalette []) :
    (fmtOf wenv cm).typ = 2 → (fmtOf wenv cm).palette.getD [] ≠ [] := by
  intro h h0
  cases cm with
  | palette p => exact hp.1 (by rw [List.map_eq_nil_iff.1 (show p.map rgbModel = [] from h0)])
  | alphaPalette p => exact hp.2 (by rw [List.map_eq_nil_iff.1 (show p.map rgbModel = [] from h0)])
  | _ => cases h

theorem some_palette (wenv : WEnv) {cm : ColorModel} (hp : (fmtOf wenv cm).typ = 2 → (fmtOf wenv cm).palette.getD [] ≠ []) :
    cm ≠ .palette [] ∧ cm ≠ .alphaPalette [] :=
  ⟨fun h => by subst h; exact hp rfl rfl, fun h => by subst h; exact hp rfl rfl⟩

/-- what was decoded can be encoded again, and is decoded to the same tree -/
theorem second_trip (wenv : WEnv) (env : Env) (sch : Sched) (hv : sch.Valid) (decompress : Bool) (g : List Layer)
    (hi : Encodable (.group g)) (l : List WCall) (h : runEncode wenv (.group g) = some (l, none)) (D : Bytes)
    (cm : ColorModel) (hcm : (Img.group g).colorModel = some cm) (hp : cm ≠ .palette [] ∧ cm ≠ .alphaPalette [])
    (hsize : fileBytes (fmtOf wenv cm) (.group g) ≤ maxString)
    (hd : decompress = true ∨ ∀ r ∈ placed g 0 0 0 [], maskOf r.layer.image = none)
    (hx : (groupBounds g).dx ≤ 2 ^ 31) (hy : (groupBounds g).dy ≤ 2 ^ 31)
    (ht : ∀ r ∈ placed g 0 0 0 [], textOf r.layer = none)
    (hs : ∀ r ∈ placed g 0 0 0 [], Storable (fmtOf wenv cm) (parsesTo env) (groupBounds g).dx (groupBounds g).dy r) :
    ∃ g' cm', decodeImage env sch decompress (store D l) = .ok (.ok g') ∧
      LikeTree (ImgBack (fmtOf wenv cm) (parsesTo env)) g g' ∧ (Img.group g').colorModel = some cm' ∧
      (cm' = modelOf (fmtOf wenv cm) ∨ cm = .alpha ∧ cm' = .alpha) ∧
      ∀ wenv', Works wenv' → ∃ l', runEncode wenv' (.group g') = some (l', none) ∧
        ∀ (env' : Env) (sch' : Sched), sch'.Valid → ∀ (decompress' : Bool) (D' : Bytes),
          (decompress' = true ∨ ∀ r ∈ placed g 0 0 0 [], maskOf r.layer.image = none) →
          ∃ g'', decodeImage env' sch' decompress' (store D' l') = .ok (.ok g'') ∧
            SameTree (ImgBack (fmtOf wenv' cm') (parsesTo env')) id g' g'' := by
  obtain ⟨size, hsz⟩ := C34_once wenv (.group g) hi l h
  have hmax := Nat.le_trans (encode_size wenv _ hi l h cm hcm size hsz) hsize
  obtain ⟨g0, h1, h2⟩ := round_trip wenv env sch hv decompress g hi l h D size hsz hmax cm hcm hd hx hy hs
  have hk : LikeTree (ImgBack (fmtOf wenv cm) (parsesTo env)) g (fixBottom g0) := h2.like.fixBottom
  have hm : ∃ cm', (Img.group (fixBottom g0)).colorModel = some cm' ∧ (cm' = modelOf (fmtOf wenv cm) ∨ cm = .alpha ∧ cm' = .alpha) := by
    have e : ∀ g, (Img.group g).colorModel = groupModel g := fun g => by rw [Img.colorModel]
    rw [e] at hcm
    rw [e]
    rcases again_model hk with h | ⟨h, h'⟩
    · exact ⟨_, h, .inl rfl⟩
    · rw [hcm] at h
      cases h
      exact ⟨_, h', .inr ⟨rfl, rfl⟩⟩
  obtain ⟨cm', hcm', hor⟩ := hm
  refine ⟨_, cm', h1, hk, hcm', hor, ?_⟩
  intro wenv' hw
  obtain ⟨et, eb, ep, ec⟩ := again_typ wenv wenv' cm cm' hor
  have hpl := hk.placed (fun l j ox oy path h => h.not_group.1 ox oy path) 0 0 0 []
  have hst : ∀ r ∈ placed (fixBottom g0) 0 0 0 [], ∀ env', Storable (fmtOf wenv' cm') (parsesTo env') (groupBounds g).dx (groupBounds g).dy r ∧
      textOf r.layer = none ∧ ((∀ r ∈ placed g 0 0 0 [], maskOf r.layer.image = none) → maskOf r.layer.image = none) := by
    intro r' hr' env'
    obtain ⟨r, hr, hrr⟩ := forall₂_of_right hpl hr'
    obtain ⟨s1, s2⟩ := again_storable (F' := fmtOf wenv' cm') (P' := parsesTo env') hrr (ht r hr) (hs r hr)
    refine ⟨s1, s2, fun hmask => ?_⟩
    have := hmask r hr
    rcases hrr.image with ⟨-, hi⟩ | ⟨g, g', -, e2, -⟩
    · rcases hi.cases with ⟨L, -, -, e⟩ | ⟨L, t, -, -, e⟩ | ⟨L, m1, m', -, hm1, -, e⟩
      · rw [e]; rfl
      · rw [e]; rfl
      · rw [this] at hm1; cases hm1
    · rw [e2]; rfl
  have hwh : Whole (.group (fixBottom g0)) := by
    unfold Whole
    exact again_whole (palette_some wenv hp) (colorOf_some wenv cm hp) hk
  have hfb := again_fileBytes eb ep hk ht (fun r hr => (hst r hr env).2.1)
  obtain ⟨l', size', k1, k2, k3⟩ := encodes_small _ hwh (again_encodable hk hi) wenv' (noText_fits wenv' fun r hr => (hst r hr env).2.1) hw hcm' (by rw [hfb]; exact hsize)
  refine ⟨l', k1, ?_⟩
  intro env' sch' hv' decompress' D' hd'
  refine C37_tree_partial wenv' env' sch' hv' decompress' _ (again_encodable hk hi) l' k1 D' size' k2 k3 cm' hcm' ?_
    (by rw [hk.bounds]; exact hx) (by rw [hk.bounds]; exact hy) (by rw [hk.bounds]; exact fun r hr => (hst r hr env').1) ?_ (fixBottom_last g0)
  · rcases hd' with hd' | hd'
    · exact .inl hd'
    · exact .inr fun r hr => (hst r hr env').2.2 hd'
  · rw [et]
    have hmodes := sameTree_placedModes (fun l j ox oy path h => h.not_group.1 ox oy path) h2 0 0 0 []
    have hb : ∀ r ∈ placed g0 0 0 0 [], r.layer.mode ∈ keptModes ((fmtOf wenv cm).typ == 0) := by
      intro r hr
      obtain ⟨m, hm⟩ := hmodes r hr
      rw [hm]
      exact modeBack_idem wenv cm m
    rcases fixBottom_cases g0 with e | ⟨init, b, e1, e2⟩
    · rw [e]; exact hb
    · rw [e2]
      rw [e1] at hb
      intro r hr
      rcases placed_bottom init b 0 0 0 [] r hr with hn | ⟨r0, h0, hn⟩
      · rw [hn]
        cases ((fmtOf wenv cm).typ == 0) <;> decide
      · rw [← hn]; exact hb r0 h0

mutual
theorem sameImg_mono_every {P Q : Layer → Img → Prop} {M : Mode → Mode} {K : Img → Prop} (hPQ : ∀ l j, (∀ g, l.image ≠ .group g) → K l.image → P l j → Q l j)
    {l : Layer} {i j : Img} (hl : l.image = i) (hk : K i) (he : EveryIn K i) (h : SameImg P M l i j) : SameImg Q M l i j := by
  match i with
  | .group g =>
    unfold SameImg at h ⊢
    obtain ⟨g', h1, h2⟩ := h
    unfold EveryIn at he
    exact ⟨g', h1, sameTree_mono_every hPQ he h2⟩
  | .leaf _ => unfold SameImg at h ⊢; exact hPQ _ _ (by rw [hl]; simp) (by rw [hl]; exact hk) h
  | .nil => unfold SameImg at h ⊢; exact hPQ _ _ (by rw [hl]; simp) (by rw [hl]; exact hk) h
  | .text _ _ => unfold SameImg at h ⊢; exact hPQ _ _ (by rw [hl]; simp) (by rw [hl]; exact hk) h
  | .masked _ _ => unfold SameImg at h ⊢; exact hPQ _ _ (by rw [hl]; simp) (by rw [hl]; exact hk) h
termination_by structural i

theorem sameTree_mono_every {P Q : Layer → Img → Prop} {M : Mode → Mode} {K : Img → Prop} (hPQ : ∀ l j, (∀ g, l.image ≠ .group g) → K l.image → P l j → Q l j)
    {g g' : List Layer} (he : EveryLayer K g) (h : SameTree P M g g') : SameTree Q M g g' := by
  match g, g' with
  | [], [] => exact h
  | [], _ :: _ => exact h
  | ⟨name, b, mode, inv, tr, im⟩ :: rest, [] => exact h
  | ⟨name, b, mode, inv, tr, im⟩ :: rest, l' :: rest' =>
    unfold SameTree at h ⊢
    unfold EveryLayer at he
    obtain ⟨⟨h1, h2, h3, h4, h5, h6⟩, h7⟩ := h
    exact ⟨⟨h1, h2, h3, h4, h5, sameImg_mono_every hPQ rfl he.1 he.2.1 h6⟩, sameTree_mono_every hPQ he.2.2 h7⟩
termination_by structural g
end

/-- Specification: `L'` is the same image as `L`: size, colour model and, as far as `kept` tells, the pixels. -/
def Spec.SameLeaf (kept : Color → Prop) (L L' : Leaf) : Prop :=
  L'.bounds = L.bounds ∧ L'.model = L.model ∧
    ∀ p, Rect.mem p L.bounds → ∃ c c', L.pixel p = some c ∧ L'.pixel p = some c' ∧ (kept c → c' = c)

/-- Specification: the image `j` of a layer is the same as the image `i`: pixels and mask. -/
def Spec.SameStored (kept : Color → Prop) (i j : Img) : Prop :=
  (∃ L L', inner i = .leaf L ∧ inner j = .leaf L' ∧ SameLeaf kept L L') ∧
  ((maskOf i = none ∧ maskOf j = none) ∨
    ∃ m m', maskOf i = some m ∧ maskOf j = some m' ∧ m'.rect = m.rect ∧ ∀ p, m'.grayAt p = m.grayAt p)

/-- the images of the layers that were decoded -/
def CameBack (F : Fmt) (i : Img) : Prop := (∀ g, i ≠ .group g) → ∃ L, inner i = .leaf L ∧ L.bounds.x0 = 0 ∧ L.bounds.y0 = 0 ∧
  L.model = modelOf F ∧ (∀ p, Rect.mem p L.bounds → ∃ c c', L.pixel p = some c' ∧ colorOf F (F.conv c) = some c') ∧
  ∀ m, maskOf i = some m → m.rect.x0 = 0 ∧ m.rect.y0 = 0

theorem cameBack {F : Fmt} {P : Bytes → TextData → Prop} (hc : ∀ c, ∃ c', colorOf F (F.conv c) = some c') {g g' : List Layer}
    (h : LikeTree (ImgBack F P) g g') (hi : Encodable (.group g)) : EveryLayer (CameBack F) g' := by
  refine LikeTree.every (fun l j h => h.not_group.2.1 _) ?_ ?_ h hi.1
  · intro l j h _ _
    have key : ∀ L, PixelsBack F (pixelsOf l.image) L → L.bounds.x0 = 0 ∧ L.bounds.y0 = 0 ∧ L.model = modelOf F ∧
        ∀ p, Rect.mem p L.bounds → ∃ c c', L.pixel p = some c' ∧ colorOf F (F.conv c) = some c' := by
      rintro L ⟨b, -, e2, e3, -, e5⟩
      refine ⟨by rw [e2], by rw [e2], e3, fun p hp => ?_⟩
      obtain ⟨n, n', c, -, e⟩ := e5 p hp
      obtain ⟨c', hc'⟩ := hc c
      exact ⟨c, c', by rw [e, hc'], hc'⟩
    rcases h.cases with ⟨L, hL, -, rfl⟩ | ⟨L, t, hL, -, rfl⟩ | ⟨L, m, m', hL, -, ⟨hr, -⟩, rfl⟩
    · obtain ⟨k1, k2, k3, k4⟩ := key L hL
      exact ⟨L, rfl, k1, k2, k3, k4, fun m hm => by cases hm⟩
    · obtain ⟨k1, k2, k3, k4⟩ := key L hL
      exact ⟨L, rfl, k1, k2, k3, k4, fun m hm => by cases hm⟩
    · obtain ⟨k1, k2, k3, k4⟩ := key L hL
      refine ⟨L, rfl, k1, k2, k3, k4, fun m hm => ?_⟩
      cases hm
      rw [hr]
      exact ⟨rfl, rfl⟩
  · intro g g' _ _ hg
    exact absurd rfl (hg g')

/-- Specification: the colours that are stored without loss: all in RGB files, opaque ones in grey and indexed files. -/
def Spec.storedExactly (rgb : Bool) (c : Color) : Prop := rgb = true ∨ (∃ y, c = .grayAlpha y 255) ∨ ∃ r g b, c = .nrgba r g b 255

/-- an opaque colour of the palette of a file is found again -/
theorem palette_again {p : List (UInt8 × UInt8 × UInt8)} {r g b i : UInt8} (h : p[i.toNat]? = some (r, g, b)) :
    ∃ j : UInt8, paletteAlphaToBuf (p.map fun c => Color.lrgb c.1 c.2.1 c.2.2) (.nrgba r g b 255) = [j, 255] ∧ p[j.toNat]? = some (r, g, b) := by
  have ho : ∀ r g b, Opaque8 (Color.lrgb r g b).rgba32 r g b := fun r g b => ⟨widen32_nat r, widen32_nat g, widen32_nat b, rfl⟩
  have hv : ∀ v ∈ p.map (fun c => Color.lrgb c.1 c.2.1 c.2.2), ValidRGBA v.rgba32 := by
    intro v hv
    obtain ⟨x, -, rfl⟩ := List.mem_map.1 hv
    exact valid_opaque8 (ho _ _ _)
  have hi : (p.map fun c => Color.lrgb c.1 c.2.1 c.2.2)[i.toNat]? = some (.lrgb r g b) := by rw [List.getElem?_map, h]; rfl
  obtain ⟨w, hw, hmin, hfirst⟩ := C19_nearest _ (List.ne_nil_of_mem (List.mem_of_getElem? hi)) (.lrgb r g b) (valid_opaque8 (ho r g b)) hv
  have hself : dist (Color.lrgb r g b).rgba32 (Color.lrgb r g b).rgba32 = 0 := by simp [dist, quarterSq]
  have hz := hmin _ (List.mem_of_getElem? hi)
  rw [hself] at hz
  have hle : paletteIndex (p.map fun c => Color.lrgb c.1 c.2.1 c.2.2) (.lrgb r g b) ≤ i.toNat := by
    apply Nat.le_of_not_lt
    intro hlt
    have := hfirst _ _ hlt hi
    rw [hself] at this
    omega
  have hlt := i.toNat_lt
  refine ⟨UInt8.ofNat (paletteIndex (p.map fun c => Color.lrgb c.1 c.2.1 c.2.2) (.lrgb r g b)), ?_, ?_⟩
  · unfold paletteAlphaToBuf
    rw [nrgba_opaque]
    dsimp only
    rw [low_widen, low_widen, low_widen]
    rfl
  · rw [UInt8.toNat_ofNat', Nat.mod_eq_of_lt (by omega)]
    rw [List.getElem?_map] at hw
    cases hx : p[paletteIndex (p.map fun c => Color.lrgb c.1 c.2.1 c.2.2) (.lrgb r g b)]? with
    | none => rw [hx] at hw; cases hw
    | some x =>
      rw [hx] at hw
      cases hw
      obtain ⟨r', g', b'⟩ := x
      unfold dist at hz
      rw [(ho r g b).1, (ho r g b).2.1, (ho r g b).2.2.1, (ho r' g' b').1, (ho r' g' b').2.1, (ho r' g' b').2.2.1] at hz
      rw [quarterSq_zero (x := r) (y := r') (by omega), quarterSq_zero (x := g) (y := g') (by omega), quarterSq_zero (x := b) (y := b') (by omega)]

theorem colorOf_again (wenv wenv' : WEnv) (cm cm' : ColorModel)
    (hor : cm' = modelOf (fmtOf wenv cm) ∨ cm = .alpha ∧ cm' = .alpha) (c0 c c' : Color) (h0 : colorOf (fmtOf wenv cm) ((fmtOf wenv cm).conv c0) = some c)
    (h : colorOf (fmtOf wenv' cm') ((fmtOf wenv' cm').conv c) = some c') (hk : storedExactly ((fmtOf wenv cm).typ == 0) c) : c' = c := by
  obtain ⟨et, -, ep, ec⟩ := again_typ wenv wenv' cm cm' hor
  have hrgb : ∀ cm, (fmtOf wenv cm).typ = 0 → ∃ F : Fmt, F.typ = 0 ∧ F.conv = rgbAlphaToBuf ∧ F = fmtOf wenv cm := by
    intro cm h
    refine ⟨_, h, ?_, rfl⟩
    cases cm <;> first | rfl | cases h
  by_cases h0t : (fmtOf wenv cm).typ = 0
  · obtain ⟨-, -, e1, rfl⟩ := hrgb cm h0t
    have hn : ∀ F : Fmt, F.typ = 0 → F.conv = rgbAlphaToBuf → ∀ c c', colorOf F (F.conv c) = some c' →
        c' = .nrgba (nrgbaModel c).1 (nrgbaModel c).2.1 (nrgbaModel c).2.2.1 (nrgbaModel c).2.2.2 := by
      intro F h1 h2 c c' h
      rw [h2] at h
      unfold colorOf rgbAlphaToBuf at h
      rw [h1] at h
      exact (Option.some.inj h).symm
    have := hn _ h0t e1 _ _ h0
    rw [this] at h ⊢
    rw [hn _ (by rw [et, h0t]) (by rw [ec (by rw [h0t]; decide), e1]) _ _ h]
    rfl
  by_cases h2t : (fmtOf wenv cm).typ = 2
  · have key : ∀ p, fmtOf wenv cm = fmtOf wenv (.palette p) → cm' = modelOf (fmtOf wenv (.palette p)) → c' = c := by
      intro p he hcm
      rw [he] at h0
      subst hcm
      have h0 : ((p.map rgbModel)[(UInt8.ofNat (paletteIndex p (.lrgb c0.rgba32.r.toUInt8 c0.rgba32.g.toUInt8 c0.rgba32.b.toUInt8))).toNat]?).map
          (fun x => Color.nrgba x.1 x.2.1 x.2.2 c0.rgba32.a.toUInt8) = some c := h0
      cases hx : (p.map rgbModel)[(UInt8.ofNat (paletteIndex p (.lrgb c0.rgba32.r.toUInt8 c0.rgba32.g.toUInt8 c0.rgba32.b.toUInt8))).toNat]? with
      | none => rw [hx] at h0; cases h0
      | some x =>
        rw [hx] at h0
        have h0 : Color.nrgba x.1 x.2.1 x.2.2 c0.rgba32.a.toUInt8 = c := Option.some.inj h0
        have ha : c = .nrgba x.1 x.2.1 x.2.2 255 := by
          rcases hk with hk | ⟨y, hk⟩ | ⟨r, g, b, hk⟩
          · exact absurd (by simpa using hk) h0t
          · rw [hk] at h0; cases h0
          · rw [hk] at h0 ⊢
            injection h0 with a1 a2 a3
            rw [a1, a2, a3]
        obtain ⟨j, k1, k2⟩ := palette_again (p := p.map rgbModel) (i := UInt8.ofNat _) (r := x.1) (g := x.2.1) (b := x.2.2) hx
        have h : colorOf (fmtOf wenv' (.alphaPalette ((p.map rgbModel).map fun c => Color.lrgb c.1 c.2.1 c.2.2)))
          (paletteAlphaToBuf ((p.map rgbModel).map fun c => Color.lrgb c.1 c.2.1 c.2.2) c) = some c' := h
        rw [ha, k1] at h
        have h : ((((p.map rgbModel).map fun c => Color.lrgb c.1 c.2.1 c.2.2).map rgbModel)[j.toNat]?).map
          (fun x => Color.nrgba x.1 x.2.1 x.2.2 255) = some c' := h
        rw [rgb_palette, k2] at h
        rw [ha]
        exact (Option.some.inj h).symm
    rcases hor with hor | ⟨rfl, rfl⟩
    · cases cm with
      | palette p => exact key p rfl hor
      | alphaPalette p => exact key p rfl hor
      | _ => cases h2t
    · cases h2t
  · have hg : (fmtOf wenv cm).conv = grayAlphaToBuf ∧ (fmtOf wenv cm).typ = 1 := by
      cases cm <;> first | exact ⟨rfl, rfl⟩ | exact absurd rfl h0t | exact absurd rfl h2t
    have hc : ∃ y a, c = .grayAlpha y a := by
      rw [hg.1] at h0
      unfold colorOf grayAlphaToBuf at h0
      rw [hg.2] at h0
      exact ⟨_, _, (Option.some.inj h0).symm⟩
    rcases hk with hk | ⟨y, rfl⟩ | ⟨r, g, b, rfl⟩
    · exact absurd (by simpa using hk) h0t
    · rw [ec h2t, hg.1] at h
      unfold colorOf grayAlphaToBuf at h
      rw [et, hg.2] at h
      have h : some (Color.grayAlpha (grayModel (.grayAlpha y 255)) ((Color.grayAlpha y 255).rgba32.a >>> 8).toUInt8) = some c' := h
      cases h
      have ho : Opaque8 (Color.grayAlpha y 255).rgba32 y y y := by
        unfold Opaque8
        rw [grayAlpha_opaque]
        exact ⟨widen32_nat y, widen32_nat y, widen32_nat y, rfl⟩
      have h255 : ((0xffff : UInt32) >>> 8).toUInt8 = 255 := by decide
      rw [grayModel_opaque ho, grayAlpha_opaque]
      dsimp only
      rw [h255]
    · obtain ⟨y, a, e⟩ := hc
      cases e

/-- **C85** (the part that holds): a picture without text that was saved and loaded can be saved again, and loading that gives the
same tree of layers with the same pixels and masks - every pixel in RGB files, opaque pixels in grey and indexed ones.
Full statement: also for other pixels of grey and indexed files; see `C85_refuted`. -/
theorem C85_partial (wenv : WEnv) (env : Env) (sch : Sched) (hv : sch.Valid) (decompress : Bool) (g : List Layer)
    (hi : Encodable (.group g)) (l : List WCall) (h : runEncode wenv (.group g) = some (l, none)) (D : Bytes)
    (cm : ColorModel) (hcm : (Img.group g).colorModel = some cm) (hp : cm ≠ .palette [] ∧ cm ≠ .alphaPalette [])
    (hsize : fileBytes (fmtOf wenv cm) (.group g) ≤ maxString)
    (hd : decompress = true ∨ ∀ r ∈ placed g 0 0 0 [], maskOf r.layer.image = none)
    (hx : (groupBounds g).dx ≤ 2 ^ 31) (hy : (groupBounds g).dy ≤ 2 ^ 31)
    (ht : ∀ r ∈ placed g 0 0 0 [], textOf r.layer = none)
    (hs : ∀ r ∈ placed g 0 0 0 [], Storable (fmtOf wenv cm) (parsesTo env) (groupBounds g).dx (groupBounds g).dy r) :
    ∃ g', decodeImage env sch decompress (store D l) = .ok (.ok g') ∧
      ∀ wenv', Works wenv' → ∃ l', runEncode wenv' (.group g') = some (l', none) ∧
        ∀ (env' : Env) (sch' : Sched), sch'.Valid → ∀ (decompress' : Bool) (D' : Bytes),
          (decompress' = true ∨ ∀ r ∈ placed g 0 0 0 [], maskOf r.layer.image = none) →
          ∃ g'', decodeImage env' sch' decompress' (store D' l') = .ok (.ok g'') ∧
            SameTree (fun l j => SameStored (storedExactly ((fmtOf wenv cm).typ == 0)) l.image j) id g' g'' := by
  obtain ⟨g', cm', h1, h2, h3, h4, h5⟩ := second_trip wenv env sch hv decompress g hi l h D cm hcm hp hsize hd hx hy ht hs
  refine ⟨g', h1, fun wenv' hw => ?_⟩
  obtain ⟨l', k1, k2⟩ := h5 wenv' hw
  refine ⟨l', k1, fun env' sch' hv' decompress' D' hd' => ?_⟩
  obtain ⟨g'', m1, m2⟩ := k2 env' sch' hv' decompress' D' hd'
  refine ⟨g'', m1, sameTree_mono_every ?_ (cameBack (colorOf_some wenv cm hp) h2 hi) m2⟩
  intro l j hng hk hj
  obtain ⟨L, e1, e2, e3, e4, e5, e6⟩ := hk hng
  obtain ⟨et, eb, ep, ec⟩ := again_typ wenv wenv' cm cm' h4
  have hmod : modelOf (fmtOf wenv' cm') = modelOf (fmtOf wenv cm) := by
    unfold modelOf
    rw [et, ep]
  have hpix : ∀ L', PixelsBack (fmtOf wenv' cm') (pixelsOf l.image) L' → SameLeaf (storedExactly ((fmtOf wenv cm).typ == 0)) L L' := by
    rintro L' ⟨b, f1, f2, f3, -, f5⟩
    have hat : (pixelsOf l.image).bounds = (Img.leaf L).bounds ∧ ∀ ρ p n, (pixelsOf l.image).at ρ p n = (Img.leaf L).at ρ p n := by
      rw [← e1]
      cases hli : l.image with
      | group g => exact absurd hli (hng g)
      | text i t => exact ⟨by unfold pixelsOf inner; dsimp only; rw [Img.bounds], fun ρ p n => by unfold pixelsOf inner; dsimp only; rw [Img.at]⟩
      | _ => exact ⟨rfl, fun _ _ _ => rfl⟩
    have hb : b = L.bounds := by
      rw [hat.1] at f1
      have f1 : some L.bounds = some b := by unfold Img.bounds at f1; exact f1
      cases f1
      rfl
    subst hb
    have hrect : (⟨0, 0, L.bounds.dx, L.bounds.dy⟩ : Rect) = L.bounds := by
      obtain ⟨⟨x0, y0, x1, y1⟩, md, px⟩ := L
      dsimp only at e2 e3 ⊢
      subst e2 e3
      show (⟨0, 0, x1 - 0, y1 - 0⟩ : Rect) = _
      rw [Int.sub_zero, Int.sub_zero]
    rw [hrect] at f2
    refine ⟨f2, by rw [f3, e4, hmod], fun p hq => ?_⟩
    obtain ⟨c0, c, q1, q2⟩ := e5 p hq
    obtain ⟨n, n', c1, q3, q4⟩ := f5 p (by rw [f2]; exact hq)
    rw [hat.2, e2, e3, Int.zero_add, Int.zero_add, show (Img.leaf L).at _ ⟨p.x, p.y⟩ n = (L.pixel p).map fun c => (c, n) by rw [Img.at], q1] at q3
    cases q3
    obtain ⟨c', hc'⟩ := colorOf_some wenv' cm' (some_palette wenv' (by rw [et, ep]; exact palette_some wenv hp)) c
    exact ⟨c, c', q1, by rw [q4, hc'], colorOf_again wenv wenv' cm cm' h4 c0 c c' q2 hc'⟩
  rcases hj.cases with ⟨L', hL, hm, rfl⟩ | ⟨L', t, hL, ⟨t', ht'⟩, rfl⟩ | ⟨L', m, m', hL, hm, ⟨hr, hgr⟩, rfl⟩
  · exact ⟨⟨L, L', e1, rfl, hpix L' hL⟩, .inl ⟨hm, rfl⟩⟩
  · refine ⟨⟨L, L', e1, rfl, hpix L' hL⟩, .inl ⟨?_, rfl⟩⟩
    unfold textOf at ht'
    cases hli : l.image <;> rw [hli] at ht' <;> first | rfl | cases ht'
  · refine ⟨⟨L, L', e1, rfl, hpix L' hL⟩, .inr ⟨m, m', hm, rfl, ?_⟩⟩
    obtain ⟨o1, o2⟩ := e6 m hm
    have hrect : m'.rect = m.rect := by
      rw [hr]
      obtain ⟨⟨x0, y0, x1, y1⟩, px⟩ := m
      dsimp only at o1 o2 ⊢
      subst o1 o2
      show (⟨0, 0, x1 - 0, y1 - 0⟩ : Rect) = _
      rw [Int.sub_zero, Int.sub_zero]
    refine ⟨hrect, fun p => ?_⟩
    by_cases hp : Rect.mem p m'.rect = true
    · rw [hgr p hp, o1, o2, Int.zero_add, Int.zero_add]
    · unfold GrayImg.grayAt
      rw [if_neg hp, if_neg (by rw [← hrect]; exact hp)]

/-- the hypotheses of `C85_partial` hold for a picture with a group, a mask, transparency and a hidden layer -/
example : ∃ l, Encodable (.group sampleLayers) ∧ runEncode goodSink (.group sampleLayers) = some (l, none) ∧
    (Img.group sampleLayers).colorModel = some .other ∧ (ColorModel.other ≠ .palette [] ∧ ColorModel.other ≠ .alphaPalette []) ∧
    fileBytes (fmtOf goodSink .other) (.group sampleLayers) ≤ maxString ∧ (groupBounds sampleLayers).dx ≤ 2 ^ 31 ∧
    (groupBounds sampleLayers).dy ≤ 2 ^ 31 ∧ (∀ r ∈ placed sampleLayers 0 0 0 [], textOf r.layer = none) ∧
    (∀ r ∈ placed sampleLayers 0 0 0 [], Storable (fmtOf goodSink .other) (parsesTo exEnv) (groupBounds sampleLayers).dx (groupBounds sampleLayers).dy r) := by
  obtain ⟨l, h⟩ := C74_encode_succeeds goodSink (.group sampleLayers) samplePicture_whole (fun _ _ _ _ _ _ => rfl) (fun _ => rfl)
  refine ⟨l, samplePicture_encodable, h, sample_model, ⟨by simp, by simp⟩, by decide +kernel, by rw [sample_bounds]; decide, by rw [sample_bounds]; decide, ?_, ?_⟩
  · intro r hr
    simp only [sampleLayers, samplePicture, placed, placedIn, List.cons_append, List.nil_append, List.mem_cons, List.not_mem_nil, or_false] at hr
    rcases hr with rfl | rfl | rfl <;> rfl
  · rw [sample_bounds]; exact sample_storable _ _

/-- and for an indexed picture whose pixel is an opaque colour of its palette -/
example : ∃ x : Mode × ColorModel × Color, x.2.1 = .palette [.gray 0, .lrgb 1 2 3] ∧ ∃ l, Encodable (.group ([x].map dot)) ∧
    runEncode goodSink (.group ([x].map dot)) = some (l, none) ∧ (Img.group ([x].map dot)).colorModel = some x.2.1 ∧
    (x.2.1 ≠ .palette [] ∧ x.2.1 ≠ .alphaPalette []) ∧ fileBytes (fmtOf goodSink x.2.1) (.group ([x].map dot)) ≤ maxString ∧
    (∀ r ∈ placed ([x].map dot) 0 0 0 [], Storable (fmtOf goodSink x.2.1) (parsesTo exEnv) 1 1 r) ∧
    colorOf (fmtOf goodSink x.2.1) ((fmtOf goodSink x.2.1).conv x.2.2) = some (.nrgba 1 2 3 255) ∧ storedExactly false (.nrgba 1 2 3 255) := by
  let x : Mode × ColorModel × Color := (Mode.normal, .palette [.gray 0, .lrgb 1 2 3], .lrgb 1 2 3)
  obtain ⟨l, h⟩ := C74_encode_succeeds goodSink (.group ([x].map dot)) (by unfold Whole; exact dots_whole _) (fun _ _ _ _ _ _ => rfl) (fun _ => rfl)
  refine ⟨x, rfl, l, dots_encodable [x] (by simp), h, dots_model x [], ⟨by simp [x], by simp [x]⟩, by decide +kernel, dots_storable _ _ _ (by simp),
    by decide +kernel, .inr (.inr ⟨1, 2, 3, rfl⟩)⟩

/-- the pixels of the layers of a picture, at the origin -/
def Spec.dotsOf (g : List Layer) : List (Option Color) := g.map fun a => match a.image with | .leaf L => L.pixel ⟨0, 0⟩ | _ => none

/-- **C85** is false for grey files: saving and loading a half transparent pixel makes it darker each time, since the grey
level is stored multiplied with alpha. -/
theorem C85_refuted (wenv wenv' : WEnv) (hw : Works wenv) (hw' : Works wenv') : ∃ (g : List Layer) (l : List WCall),
    dotsOf g = [some (.grayAlpha 255 128)] ∧ runEncode wenv (.group g) = some (l, none) ∧
    ∀ (env : Env) (sch : Sched), sch.Valid → ∀ (decompress : Bool) (D : Bytes), ∃ (g' : List Layer) (l' : List WCall),
      decodeImage env sch decompress (store D l) = .ok (.ok g') ∧ dotsOf g' = [some (.grayAlpha 128 128)] ∧
      runEncode wenv' (.group g') = some (l', none) ∧
      ∀ (env' : Env) (sch' : Sched), sch'.Valid → ∀ (decompress' : Bool) (D' : Bytes), ∃ g'',
        decodeImage env' sch' decompress' (store D' l') = .ok (.ok g'') ∧ dotsOf g'' = [some (.grayAlpha 64 128)] := by
  let x : Mode × ColorModel × Color := (Mode.normal, .grayAlpha, .grayAlpha 255 128)
  have hwh : Whole (.group ([x].map dot)) := by unfold Whole; exact dots_whole _
  have henc : Encodable (.group ([x].map dot)) := dots_encodable [x] (by simp)
  obtain ⟨l, h1⟩ := C74_encode_succeeds wenv _ hwh (dots_fit wenv _) hw
  refine ⟨_, l, rfl, h1, fun env sch hv decompress D => ?_⟩
  have hb : groupBounds ([x].map dot) = ⟨0, 0, 1, 1⟩ := dots_bounds [x] (by simp)
  have hsize : fileBytes (fmtOf wenv .grayAlpha) (.group ([x].map dot)) ≤ maxString := by
    have := dots_size (fmtOf wenv .grayAlpha) (bpp_le _ _) [x] 0
    unfold fileBytes
    have hl : layersOf (.group ([x].map dot)) = placed ([x].map dot) 0 0 0 [] := rfl
    have hp : ((fmtOf wenv .grayAlpha).palette.getD []).length = 0 := rfl
    rw [hl, hp]
    have hm : maxString = 16777216 := rfl
    rw [List.length_singleton] at this
    omega
  have hno : ∀ r ∈ placed ([x].map dot) 0 0 0 [], maskOf r.layer.image = none := by
    intro r hr
    obtain ⟨y, -, k, -, rfl⟩ := placed_dots _ _ r hr
    rfl
  obtain ⟨g', cm', k1, k2, k3, k4, k5⟩ := second_trip wenv env sch hv decompress _ henc l h1 D .grayAlpha (dots_model x []) (by simp) hsize
    (.inr hno) (by rw [hb]; decide) (by rw [hb]; decide)
    (by
      intro r hr
      obtain ⟨y, -, k, -, rfl⟩ := placed_dots _ _ r hr
      rfl) (by rw [hb]; exact dots_storable _ _ _ (by simp))
  have hcm : cm' = .grayAlpha := by
    rcases k4 with h | ⟨h, -⟩
    · exact h
    · cases h
  subst hcm
  obtain ⟨l', m1, m2⟩ := k5 wenv' hw'
  -- the layer that came back
  have hone : ∃ a L, g' = [a] ∧ a.image = .leaf L ∧ L.bounds = ⟨0, 0, 1, 1⟩ ∧ L.pixel ⟨0, 0⟩ = some (.grayAlpha 128 128) := by
    match g', k2 with
    | [], h => exact h.elim
    | a :: b :: _, h =>
      have h : LikeTree _ [dot x] (a :: b :: _) := h
      unfold dot LikeTree at h
      exact h.2.elim
    | [a], h =>
      have h : LikeTree (ImgBack (fmtOf wenv .grayAlpha) (parsesTo env)) [dot x] [a] := h
      have e : ImgBack (fmtOf wenv .grayAlpha) (parsesTo env) (dot x) a.image := by
        unfold dot LikeTree at h
        have := h.1.2.2.2.2
        unfold LikeImg at this
        exact this
      obtain ⟨L, ⟨b, c1, c2, c3, -, c4⟩, ho⟩ := e
      rcases ho with ⟨-, -, ho⟩ | ⟨t, _, _, ht, _⟩ | ⟨_, _, _, hm, _⟩
      · have c1 : some (⟨0, 0, 1, 1⟩ : Rect) = some b := c1
        cases c1
        refine ⟨a, L, rfl, ho, c2, ?_⟩
        obtain ⟨n, n', c, d1, d2⟩ := c4 ⟨0, 0⟩ (by rw [c2]; decide)
        have d1 : some (x.2.2, n) = some (c, n') := d1
        cases d1
        rw [d2]
        show some (Color.grayAlpha (grayModel (.grayAlpha 255 128)) ((Color.grayAlpha 255 128).rgba32.a >>> 8).toUInt8) = _
        decide
      · cases ht
      · cases hm
  obtain ⟨a, L, rfl, ha, hLb, hLp⟩ := hone
  refine ⟨[a], l', k1, ?_, m1, ?_⟩
  · unfold dotsOf
    rw [List.map_singleton, ha]
    dsimp only
    rw [hLp]
  · intro env' sch' hv' decompress' D'
    obtain ⟨g'', n1, n2⟩ := m2 env' sch' hv' decompress' D' (.inr hno)
    refine ⟨g'', n1, ?_⟩
    obtain ⟨b, r, rfl, -, -, -, -, -, e, h⟩ := sameTree_cons n2
    cases sameTree_nil h
    rw [ha] at e
    unfold SameImg at e
    obtain ⟨L', ⟨b', c1, c2, c3, -, c4⟩, ho⟩ := e
    rw [ha] at c1
    have c1 : some L.bounds = some b' := c1
    cases c1
    rw [hLb] at c2
    obtain ⟨n, n', c, d1, d2⟩ := c4 ⟨0, 0⟩ (by rw [c2]; decide)
    rw [hLb, ha] at d1
    have d1 : (L.pixel ⟨0, 0⟩).map (fun c => (c, n)) = some (c, n') := d1
    rw [hLp] at d1
    cases d1
    rcases ho with ⟨-, -, ho⟩ | ⟨t, _, _, ht, _⟩ | ⟨_, _, _, hm, _⟩
    · unfold dotsOf
      rw [List.map_singleton, ho]
      dsimp only
      rw [d2]
      rfl
    · unfold textOf at ht; rw [ha] at ht; cases ht
    · rw [ha] at hm; cases hm

example : Works goodSink := fun _ => rfl

end Limage
