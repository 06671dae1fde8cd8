import Verif.Props.XcfToOra
import Verif.Props.OraToXcf
/-!
# C124: XCF files loaded, saved and loaded again
-/
namespace Limage
open Spec

/-! ### Specification -/

/-- Specification: a layer that keeps its place: it is not empty, lies on the canvas and has the size of its image (nothing was cut off when it was
loaded); a mask is only at the origin and not on a text; its place in the tree has a number. -/
structure Spec.Resavable (W H : Int) (r : Placed) : Prop where
  x : 0 ≤ r.ox ∧ 0 < r.layer.bounds.dx ∧ r.ox + r.layer.bounds.dx ≤ W
  y : 0 ≤ r.oy ∧ 0 < r.layer.bounds.dy ∧ r.oy + r.layer.bounds.dy ≤ H
  size : (∃ t, r.layer.image = .group t) ∨ ∃ b, r.layer.image.bounds = some b ∧ b.dx = r.layer.bounds.dx ∧ b.dy = r.layer.bounds.dy
  mask : ∀ i m, r.layer.image = .masked i m → r.ox = 0 ∧ r.oy = 0 ∧ ∀ j t, i ≠ .text j t
  path : ∀ n ∈ r.path, n < 0xd800

/-- Specification: the modes that layers of an RGB file may have: those with a number in the format, and Luminance, which is read but not written. -/
def Spec.loadedModes : List Mode := Mode.luminance :: keptModes true

/-! ### What a layer is read as -/

/-- the images that layers are read with -/
def LayerShape (i : Img) : Prop :=
  ∃ o : Img, (o = .nil ∨ ∃ x, o = .leaf x) ∧
    (i = o ∨ (∃ t, i = .text o t) ∨ (∃ m, i = .masked o (some m)) ∨ ∃ t m, i = .masked (.text o t) (some m))

/-- what is known of layers that were read without an error -/
structure Labelled (base : Nat) (l : Layer) : Prop where
  name : Utf8 l.name
  mode : base = 0 → l.mode ∈ loadedModes
  image : LayerShape l.image

theorem modeOf_loaded (n : UInt32) : modeOf n ∈ loadedModes := by
  have ite : ∀ {c : Prop} [Decidable c] {a b : Mode}, a ∈ loadedModes → b ∈ loadedModes → (if c then a else b) ∈ loadedModes := by
    intro c _ a b ha hb
    split
    · exact ha
    · exact hb
  unfold modeOf
  iterate 36 (refine ite (by decide) ?_)
  decide

theorem layerProp_loaded {c : Ctx} (hb : c.baseType = 0) {typ plength : UInt32} {s s' : LProps} {r r' : R}
    (hs : s.mode ∈ loadedModes) (e : layerProp c typ plength s r = .ok (s', r')) : s'.mode ∈ loadedModes := by
  unfold layerProp at e
  by_cases h0 : typ = 9 ∨ typ = 28 ∨ typ = 11 ∨ typ = 12 ∨ typ = 10 ∨ typ = 13
  · rw [if_pos h0] at e
    obtain ⟨_, _, _, e⟩ := M.bind_inv e
    cases e; exact hs
  rw [if_neg h0] at e
  clear h0
  by_cases h0 : typ = 6
  · rw [if_pos h0] at e
    obtain ⟨_, _, _, e⟩ := M.bind_inv e
    obtain ⟨_, _, _, e⟩ := M.bind_inv e
    cases e; exact hs
  rw [if_neg h0] at e
  clear h0
  by_cases h0 : typ = 21
  · rw [if_pos h0] at e
    obtain ⟨_, _, _, e⟩ := M.bind_inv e
    cases e; exact hs
  rw [if_neg h0] at e
  clear h0
  by_cases h0 : typ = 20 ∨ typ = 5 ∨ typ = 31 ∨ typ = 26
  · rw [if_pos h0] at e
    obtain ⟨_, _, _, e⟩ := M.bind_inv e
    cases e; exact hs
  rw [if_neg h0] at e
  clear h0
  by_cases h0 : typ = 8
  · rw [if_pos h0] at e
    obtain ⟨_, _, _, e⟩ := M.bind_inv e
    cases e; exact hs
  rw [if_neg h0] at e
  clear h0
  by_cases h0 : typ = 2
  · rw [if_pos h0] at e
    cases e; exact hs
  rw [if_neg h0] at e
  clear h0
  by_cases h0 : typ = 29
  · rw [if_pos h0] at e
    cases e; exact hs
  rw [if_neg h0] at e
  clear h0
  by_cases h0 : typ = 30
  · rw [if_pos h0] at e
    obtain ⟨_, _, _, e⟩ := M.bind_inv e
    cases e; exact hs
  rw [if_neg h0] at e
  clear h0
  by_cases h0 : typ = 7
  · rw [if_pos h0] at e
    obtain ⟨_, _, _, e⟩ := M.bind_inv e
    cases e
    dsimp only
    rw [if_neg (not_not_intro hb)]
    exact modeOf_loaded _
  rw [if_neg h0] at e
  clear h0
  by_cases h0 : typ = 15
  · rw [if_pos h0] at e
    obtain ⟨_, _, _, e⟩ := M.bind_inv e
    obtain ⟨_, _, _, e⟩ := M.bind_inv e
    cases e; exact hs
  rw [if_neg h0] at e
  clear h0
  by_cases h0 : typ = 33
  · rw [if_pos h0] at e
    obtain ⟨_, _, _, e⟩ := M.bind_inv e
    cases e; exact hs
  rw [if_neg h0] at e
  clear h0
  obtain ⟨_, _, _, e⟩ := M.bind_inv e
  cases e; exact hs

theorem layerProps_loaded {c : Ctx} (hb : c.baseType = 0) : ∀ (f : Nat) {s s' : LProps} {r r' : R},
    s.mode ∈ loadedModes → layerProps c f s r = .ok (s', r') → s'.mode ∈ loadedModes := by
  intro f
  induction f with
  | zero => intro s s' r r' _ e; cases e
  | succ f ih =>
    intro s s' r r' hs e
    unfold layerProps at e
    obtain ⟨typ, r1, _, e⟩ := M.bind_inv e
    obtain ⟨pl, r2, _, e⟩ := M.bind_inv e
    split at e
    · obtain ⟨_, r3, _, e⟩ := M.bind_inv e
      cases e; exact hs
    · obtain ⟨s1, r3, h3, e⟩ := M.bind_inv e
      exact ih (layerProp_loaded hb hs h3) e

/-- what follows the name of a layer keeps errors -/
theorem afterName_keeps {c : Ctx} {r r' : R} {l : DLayer} (e : readLayer c r = .ok (l, r')) (he : r'.err = none) : Utf8 l.layer.name := by
  unfold readLayer at e
  obtain ⟨w, r1, _, e⟩ := M.bind_inv e
  obtain ⟨h, r2, _, e⟩ := M.bind_inv e
  obtain ⟨t, r3, _, e⟩ := M.bind_inv e
  by_cases ht : t >>> 1 ≠ c.baseType
  · rw [if_pos ht] at e
    obtain ⟨_, r4, h4, e⟩ := M.bind_inv e
    cases e
    exact absurd he (setError_isSome h4)
  rw [if_neg ht] at e
  obtain ⟨name, r4, h4, e⟩ := M.bind_inv e
  obtain ⟨s, r5, h5, e⟩ := M.bind_inv e
  obtain ⟨hp, r6, h6, e⟩ := M.bind_inv e
  obtain ⟨mp, r7, h7, e⟩ := M.bind_inv e
  obtain ⟨_, r8, h8, e⟩ := M.bind_inv e
  dsimp only at e
  obtain ⟨im, r9, h9, e⟩ := M.bind_inv e
  have k9 : (layerImage c s.group w h t r8 = .ok (im, r9)) → r9.err = none → r8.err = none := by
    intro e
    have : Ext [] (layerImage c s.group w h t) (layerImage c s.group w h t) := by
      unfold layerImage
      refine Ext.ite (Ext.pure _) ((readImage_ext _ _ _ _).bind fun x => ?_)
      cases x <;> exact Ext.pure _
    exact (this.keeps _ _ _ e).none
  have k8 : r8.err = none → r4.err = none := fun h =>
    ((readLayerProperties_ext (t := []) c).keeps _ _ _ h5).none (((readPtr_ext (t := []) _).keeps _ _ _ h6).none
      (((readPtr_ext (t := []) _).keeps _ _ _ h7).none (((goto_ext (t := []) _).keeps _ _ _ h8).none h)))
  have fin : r9.err = none → Utf8 name := fun h => (C52_accepted _ _ _ h4 (k8 (k9 h9 h))).1
  cases im with
  | none => cases e; exact fin he
  | some im =>
    dsimp only at e
    obtain ⟨im2, r10, h10, e⟩ := M.bind_inv e
    have k10 : r10.err = none → r9.err = none := ((layerText_ext (t := []) _ _ _).keeps _ _ _ h10).none
    cases im2 with
    | none => cases e; exact fin (k10 he)
    | some im2 =>
      dsimp only at e
      by_cases hm : mp ≠ 0
      · rw [if_pos hm] at e
        obtain ⟨_, r11, h11, e⟩ := M.bind_inv e
        obtain ⟨im3, r12, h12, e⟩ := M.bind_inv e
        cases e
        exact fin (k10 (((goto_ext (t := []) _).keeps _ _ _ h11).none (((readMask_ext (t := []) _ _ _).keeps _ _ _ h12).none he)))
      · rw [if_neg hm] at e; cases e; exact fin (k10 he)

/-- what a layer read without an error is -/
theorem readLayer_labels {c : Ctx} {r r' : R} {l : DLayer} (e : readLayer c r = .ok (l, r')) (he : r'.err = none) : Labelled c.baseType.toNat l.layer := by
  have hname := afterName_keeps e he
  have rest : (c.baseType = 0 → l.layer.mode ∈ loadedModes) ∧ LayerShape l.layer.image := by
    unfold readLayer at e
    obtain ⟨w, r1, _, e⟩ := M.bind_inv e
    obtain ⟨h, r2, _, e⟩ := M.bind_inv e
    obtain ⟨t, r3, _, e⟩ := M.bind_inv e
    by_cases ht : t >>> 1 ≠ c.baseType
    · rw [if_pos ht] at e
      obtain ⟨_, r4, h4, e⟩ := M.bind_inv e
      cases e
      exact absurd he (setError_isSome h4)
    rw [if_neg ht] at e
    obtain ⟨name, r4, _, e⟩ := M.bind_inv e
    obtain ⟨s, r5, h5, e⟩ := M.bind_inv e
    obtain ⟨hp, r6, _, e⟩ := M.bind_inv e
    obtain ⟨mp, r7, _, e⟩ := M.bind_inv e
    obtain ⟨_, r8, _, e⟩ := M.bind_inv e
    have hmode : c.baseType = 0 → s.mode ∈ loadedModes := fun hb => layerProps_loaded hb _ (show (0 : Mode) ∈ loadedModes by decide) h5
    dsimp only at e
    obtain ⟨im, r9, h9, e⟩ := M.bind_inv e
    cases im with
    | none => cases e; exact ⟨hmode, .nil, .inl rfl, .inl rfl⟩
    | some im =>
      have hb : im = .nil ∨ ∃ x, im = .leaf x := by
        unfold layerImage at h9
        by_cases hg : s.group = true
        · rw [if_pos hg] at h9; cases h9; exact .inl rfl
        · rw [if_neg hg] at h9
          obtain ⟨x, r1, h1, h9⟩ := M.bind_inv h9
          cases x with
          | none => cases h9
          | some d => cases h9; exact .inr ⟨_, rfl⟩
      dsimp only at e
      obtain ⟨im2, r10, h10, e⟩ := M.bind_inv e
      cases im2 with
      | none => cases e; exact ⟨hmode, im, hb, .inl rfl⟩
      | some im2 =>
        have hb2 : im2 = im ∨ ∃ t, im2 = .text im t := by
          unfold layerText at h10
          cases hp : getParasite s.parasites textParasiteName with
          | none => rw [hp] at h10; cases h10; exact .inl rfl
          | some t =>
            rw [hp] at h10
            dsimp only at h10
            cases ht : c.env.parseText t.data with
            | panic => rw [ht] at h10; cases h10
            | hang => rw [ht] at h10; cases h10
            | ok d =>
              rw [ht] at h10
              cases d with
              | none =>
                obtain ⟨_, r1, _, h10⟩ := M.bind_inv h10
                cases h10
              | some d => cases h10; exact .inr ⟨_, rfl⟩
        have hs2 : LayerShape im2 := ⟨im, hb, by
          rcases hb2 with rfl | ⟨t, rfl⟩
          · exact .inl rfl
          · exact .inr (.inl ⟨t, rfl⟩)⟩
        dsimp only at e
        by_cases hm : mp ≠ 0
        · rw [if_pos hm] at e
          obtain ⟨_, r11, _, e⟩ := M.bind_inv e
          obtain ⟨im3, r12, h12, e⟩ := M.bind_inv e
          cases e
          refine ⟨hmode, ?_⟩
          show LayerShape im3
          unfold readMask at h12
          obtain ⟨x, r1, h1, h12⟩ := M.bind_inv h12
          cases x with
          | none => cases h12; exact hs2
          | some m =>
            dsimp only at h12
            split at h12
            · cases h12
              refine ⟨im, hb, ?_⟩
              rcases hb2 with rfl | ⟨t, rfl⟩
              · exact .inr (.inr (.inl ⟨m, rfl⟩))
              · exact .inr (.inr (.inr ⟨t, m, rfl⟩))
            · obtain ⟨_, r2, _, h12⟩ := M.bind_inv h12
              cases h12; exact hs2
        · rw [if_neg hm] at e; cases e; exact ⟨hmode, hs2⟩
  refine ⟨hname, fun h0 => rest.1 ?_, rest.2⟩
  exact UInt32.toNat_inj.1 h0

/-! ### Labels of the tree -/

/-- what is known of layers in the heap -/
def HLabelled (base : Nat) (x : HLayer) : Prop :=
  Utf8 x.name ∧ (base = 0 → x.mode ∈ loadedModes) ∧ ∃ i, x.image = .val i ∧ LayerShape i

theorem makeGroups_labels {c : Rect} {b : Nat} : ∀ {ls : List DLayer} {s s' : GState}, GInv s → (∀ l ∈ ls, Labelled b l.layer) →
    (∀ i, ∀ x ∈ s.items i, HLabelled b x) → makeGroups c ls s = .ok s' → ∀ i, ∀ x ∈ s'.items i, HLabelled b x := by
  intro ls
  induction ls with
  | nil => intro s s' _ _ h2 h; cases h; exact h2
  | cons l ls ih =>
    intro s s' hi hl h2 h
    unfold makeGroups at h
    cases hs : groupStep c l s with
    | error e => rw [hs] at h; cases h
    | ok s1 =>
      rw [hs] at h
      obtain ⟨gi, g, x, hgi, hg, hlk, hx, hit, _⟩ := groupStep_ok hi hs
      have hL := hl l List.mem_cons_self
      refine ih (groupStep_inv hi hs) (fun l hl' => hl l (List.mem_cons_of_mem _ hl')) ?_ h
      intro i y hy
      rw [hit] at hy
      by_cases hig : i = gi
      · rw [if_pos hig] at hy
        rcases List.mem_append.1 hy with hy | hy
        · exact h2 gi y hy
        · rw [List.mem_singleton.1 hy, hx]
          exact ⟨hL.name, hL.mode, _, rfl, hL.image⟩
      · rw [if_neg hig] at hy; exact h2 i y hy

/-- what is known of layers in the tree -/
def TLabelled (base : Nat) (l : Layer) : Prop :=
  Utf8 l.name ∧ (base = 0 → l.mode ∈ loadedModes) ∧ ((∃ t, l.image = .group t) ∨ LayerShape l.image)

theorem shape_not_group {t : List Layer} (h : LayerShape (.group t)) : False := by
  obtain ⟨o, ho, h | ⟨_, h⟩ | ⟨_, h⟩ | ⟨_, _, h⟩⟩ := h
  · subst h
    rcases ho with h | ⟨_, h⟩ <;> cases h
  · cases h
  · cases h
  · cases h

theorem groupTree_labels {b : Nat} {s : GState} (h1 : ∀ i, ∀ x ∈ s.items i, HLabelled b x) (P : List Nat) :
    ∀ f i g, GroupIn g (groupTree s P f i) → ∀ l ∈ g, TLabelled b l := by
  intro f
  induction f with
  | zero =>
    intro i g hg
    cases hg with
    | self => intro l hl; cases hl
    | deeper hx _ _ => cases hx
  | succ f ih =>
    intro i g hg
    have hmem : ∀ (k : Nat) (hk : k < (s.items i).length), ∀ l, l = (⟨(s.items i)[k].name, (s.items i)[k].bounds, (s.items i)[k].mode, (s.items i)[k].invisible, (s.items i)[k].transparency,
      match childAt s P i k with
      | some c => .group (groupTree s P f c)
      | none =>
        match (s.items i)[k].image with
        | .val i => i
        | .slice _ => .nil⟩ : Layer) → Utf8 l.name ∧ (b = 0 → l.mode ∈ loadedModes) ∧ ((∃ c, l.image = .group (groupTree s P f c)) ∨ LayerShape l.image) := by
      intro k hk l hl
      obtain ⟨q1, q2, im, him, q3⟩ := h1 i _ (List.getElem_mem hk)
      rw [hl]
      refine ⟨q1, q2, ?_⟩
      cases hc : childAt s P i k with
      | some c => left; exact ⟨c, rfl⟩
      | none => right; dsimp only; rw [him]; exact q3
    cases hg with
    | self =>
      intro l hl
      unfold groupTree at hl
      obtain ⟨k, hk, he⟩ := List.mem_mapIdx.1 hl
      obtain ⟨q1, q2, q3⟩ := hmem k hk l he.symm
      exact ⟨q1, q2, q3.imp (fun ⟨c, h⟩ => ⟨_, h⟩) id⟩
    | deeper hx hi hg =>
      unfold groupTree at hx
      obtain ⟨k, hk, he⟩ := List.mem_mapIdx.1 hx
      obtain ⟨-, -, q3⟩ := hmem k hk _ he.symm
      rcases q3 with ⟨c, hc⟩ | hv
      · rw [hc] at hi
        cases hi
        exact ih c g hg
      · rw [hi] at hv
        exact (shape_not_group hv).elim

theorem fixBottom_labels {b : Nat} {g : List Layer} (h : ∀ l ∈ g, TLabelled b l) : ∀ l ∈ fixBottom g, TLabelled b l := by
  unfold fixBottom
  cases hl : g.getLast? with
  | none => exact h
  | some l =>
    dsimp only
    split
    · exact h
    · intro x hx
      rcases List.mem_append.1 hx with hx | hx
      · exact h x (List.dropLast_subset _ hx)
      · rw [List.mem_singleton.1 hx]
        obtain ⟨q1, q2, q3⟩ := h l (List.mem_of_getLast? hl)
        exact ⟨q1, fun _ => (show (0 : Mode) ∈ loadedModes by decide), q3⟩

/-- the labels of a decoded picture -/
theorem decode_labels {env : Env} {sch : Sched} (hv : sch.Valid) {dec : Bool} {D : Bytes} {g : List Layer}
    (h : decodeImage env sch dec D = .ok (.ok g)) : ∀ s, GroupIn s g → ∀ l ∈ s, TLabelled (fromBE ((D.drop 22).take 4)) l := by
  unfold decodeImage at h
  split at h
  · cases h
  · cases h
  · cases h
  · rename_i hd r hh
    rw [readHead_baseType D hd r hh]
    unfold decodeLayers at h
    split at h
    · cases h
    · cases h
    · cases h
    · rename_i ls hl
      cases hm : makeGroups (sizeRect hd.width.toNat hd.height.toNat) ls GState.start with
      | error e => rw [hm] at h; cases h
      | ok s =>
        rw [hm] at h
        dsimp only at h
        have hi := makeGroups_inv ginv_start hm
        rw [makeImage_tree hi _ (hv.2 _)] at h
        cases h
        have hstart : ∀ i, GState.start.items i = [] := by
          intro i
          rcases Nat.eq_zero_or_pos i with rfl | hi0
          · rfl
          · unfold GState.items
            rw [List.getD_eq_getElem?_getD, List.getElem?_eq_none (by exact hi0)]
            rfl
        have hls : ∀ l ∈ ls, Labelled hd.baseType.toNat l.layer := by
          intro l hl'
          obtain ⟨p, _, r2, r3, e, he⟩ := readLayers_layers hv hl l hl'
          exact readLayer_labels e he
        have k1 := makeGroups_labels ginv_start hls (fun i x hx => by rw [hstart] at hx; cases hx) hm
        intro t ht
        rcases groupIn_fixBottom ht with rfl | ht
        · exact fixBottom_labels (groupTree_labels k1 _ _ _ _ .self)
        · exact groupTree_labels k1 _ _ _ _ ht

/-- **C124**, names and modes: whatever `Decode` or `DecodeCompressed` accept, all layers, those in groups too, have names that are valid UTF-8; in
RGB files each has one of the modes with a number in the format, or Luminance. -/
theorem C124_labels (env : Env) (sch : Sched) (hv : sch.Valid) (dec : Bool) (D : Bytes) (g : List Layer)
    (h : decodeImage env sch dec D = .ok (.ok g)) (s : List Layer) (hs : GroupIn s g) (l : Layer) (hl : l ∈ s) :
    Utf8 l.name ∧ (fromBE ((D.drop 22).take 4) = 0 → l.mode ∈ loadedModes) :=
  ⟨(decode_labels hv h s hs l hl).1, (decode_labels hv h s hs l hl).2.1⟩

/-- a file with a masked layer -/
example : (decodeImage exEnv exSched true maskedLayer).isImage = true ∧ exSched.Valid :=
  ⟨by decide +kernel, fun _ => List.Perm.refl _, fun _ => List.Perm.refl _⟩

/-! ### The layers of a loaded RGB picture -/

mutual
theorem placedIn_groupIn (i : Img) (ox oy : Int) (path : List Nat) : ∀ r ∈ placedIn i ox oy path, ∃ t s, i = .group t ∧ GroupIn s t ∧ r.layer ∈ s := by
  intro r hr
  match i with
  | .group g =>
    unfold placedIn at hr
    obtain ⟨s, h1, h2⟩ := placed_groupIn g 0 ox oy path r hr
    exact ⟨g, s, rfl, h1, h2⟩
  | .leaf _ => unfold placedIn at hr; cases hr
  | .nil => unfold placedIn at hr; cases hr
  | .text _ _ => unfold placedIn at hr; cases hr
  | .masked _ _ => unfold placedIn at hr; cases hr
termination_by structural i

theorem placed_groupIn (g : List Layer) (n : Nat) (ox oy : Int) (path : List Nat) : ∀ r ∈ placed g n ox oy path, ∃ s, GroupIn s g ∧ r.layer ∈ s := by
  intro r hr
  match g with
  | [] => unfold placed at hr; cases hr
  | ⟨name, b, mode, inv, tr, im⟩ :: rest =>
    unfold placed at hr
    rcases List.mem_cons.1 hr with rfl | hr
    · exact ⟨_, .self, List.mem_cons_self⟩
    rcases List.mem_append.1 hr with hr | hr
    · obtain ⟨t, s, rfl, h1, h2⟩ := placedIn_groupIn im _ _ _ r hr
      exact ⟨s, .deeper List.mem_cons_self rfl h1, h2⟩
    · obtain ⟨s, h1, h2⟩ := placed_groupIn rest _ _ _ _ r hr
      cases h1 with
      | self => exact ⟨_, .self, List.mem_cons_of_mem _ h2⟩
      | deeper hx hi hg => exact ⟨s, .deeper (List.mem_cons_of_mem _ hx) hi hg, h2⟩
termination_by structural g
end

/-- the image of a layer that is read from an RGB file and can be saved -/
structure PlainLeaf (b : Rect) (x : Leaf) : Prop where
  bounds : x.bounds = ⟨0, 0, b.dx, b.dy⟩
  model : x.model = .other
  readable : ∀ p, (x.pixel p).isSome
  colour : ∀ p c, Rect.mem p x.bounds → x.pixel p = some c → (∃ r g b a, c = .nrgba r g b a) ∨ ∃ r g b, Opaque8 c.rgba32 r g b

/-- such a layer -/
def PlainLayer (l : Layer) : Prop :=
  (∃ t, l.image = .group t) ∨ ∃ x, PlainLeaf l.bounds x ∧ (l.image = .leaf x ∨ (∃ t, l.image = .text (.leaf x) t) ∨
    ∃ m, l.image = .masked (.leaf x) (some m) ∧ m.rect = ⟨0, 0, l.bounds.dx, l.bounds.dy⟩)

theorem built_group {b : Nat} {pal : List Color} {s g : List Layer} (h : GroupIn s g) (hb : Built b pal (.group g)) : ∀ l ∈ s, Built b pal l.image := by
  induction h with
  | self => cases hb with | group h => exact h
  | deeper hx hi _ ih =>
    cases hb with
    | group h =>
      have := h _ hx
      rw [hi] at this
      exact ih this

theorem built_some {b : Nat} {pal : List Color} {i : Img} (h : Built b pal i) (hb : b = 0) : ∀ x, PixelsOf x i → ∀ p, (x.pixel p).isSome := by
  induction h with
  | nil => intro x hx; cases hx
  | leaf e hk hb' _ =>
    intro x hx p
    cases hx
    refine leaf_isSome e hk (fun pal hp => ?_) p
    have : e.kind = 0 ∨ e.kind = 1 := by omega
    have hm : (DecImg.eager e).leaf.model = .other := by
      show kindModel e.kind _ = _
      rcases this with h | h <;> rw [h] <;> rfl
    rw [hm] at hp
    rcases hp with h | h <;> cases h
  | text t _ ih => intro x hx; cases hx with | text hx => exact ih x hx
  | masked m _ ih => intro x hx; cases hx with | masked hx => exact ih x hx
  | group _ => intro x hx; cases hx

theorem plainLayers {env : Env} {sch : Sched} (hv : sch.Valid) {D : Bytes} {g : List Layer} (h : decodeImage env sch true D = .ok (.ok g))
    (hrgb : fromBE ((D.drop 22).take 4) = 0) {W H : Int} (hr : ∀ r ∈ placed g 0 0 0 [], Resavable W H r) : ∀ r ∈ placed g 0 0 0 [], PlainLayer r.layer := by
  intro r hp
  obtain ⟨s, hs, hl⟩ := placed_groupIn g 0 0 0 [] r hp
  obtain ⟨pal, -, hfr⟩ := decode_framed hv h
  obtain ⟨hd, r0, hh, hbu⟩ := decode_built hv h
  have hb0 : hd.baseType.toNat = 0 := by rw [← readHead_baseType D hd r0 hh, hrgb]
  have hsome := built_some (built_group hs hbu r.layer hl) hb0
  obtain ⟨-, -, hshape⟩ := decode_labels hv h s hs _ hl
  have R := hr r hp
  rcases hfr s hs _ hl with hg | ⟨rc, k, r1, r2, hk, hF⟩
  · exact .inl hg
  rcases R.size with hg | ⟨b, hb, hdx, hdy⟩
  · exact .inl hg
  right
  rcases hshape with ⟨t, ht⟩ | ⟨o, ho, hsh⟩
  · rw [ht] at hF; cases hF
  have hk0 : k = 0 ∨ k = 1 := by rw [hrgb] at hk; omega
  have ox := R.x.2.1
  have oy := R.y.2.1
  -- the pixels
  have leaf : ∀ x, PixelsOf x r.layer.image → r.layer.image.bounds = some x.bounds → PlainLeaf r.layer.bounds x ∧ rc = x.bounds := by
    intro x hx hxb
    rw [hb] at hxb
    cases hxb
    obtain ⟨p1, p2, p3⟩ := framed_pixels hF hx
    refine ⟨⟨?_, by rw [p3]; rcases hk0 with rfl | rfl <;> rfl, hsome x hx, fun p c hm hc => ?_⟩, p2.symm⟩
    · have e1 : x.bounds.x0 = 0 := by rw [p2, r1]
      have e2 : x.bounds.y0 = 0 := by rw [p2, r2]
      generalize x.bounds = q at *
      obtain ⟨q1, q2, q3, q4⟩ := q
      simp only [Rect.dx, Rect.dy] at *
      subst e1 e2
      rw [← hdx, ← hdy, Int.sub_zero, Int.sub_zero]
    · have := framed_colour hF hx p c hm hc
      rcases hk0 with rfl | rfl
      · obtain ⟨r, g, b, rfl⟩ := this
        exact .inr ⟨_, _, _, opaque8_lrgb r g b⟩
      · exact .inl this
  rcases hsh with hi | ⟨t, hi⟩ | ⟨m, hi⟩ | ⟨t, m, hi⟩
  · rcases ho with rfl | ⟨x, rfl⟩
    · rw [hi] at hb; cases hb
    · exact ⟨x, (leaf x (by rw [hi]; exact .leaf) (by rw [hi]; rfl)).1, .inl hi⟩
  · rcases ho with rfl | ⟨x, rfl⟩
    · rw [hi] at hb; cases hb
    · exact ⟨x, (leaf x (by rw [hi]; exact .text .leaf) (by rw [hi]; rfl)).1, .inr (.inl ⟨t, hi⟩)⟩
  · rcases ho with rfl | ⟨x, rfl⟩
    · rw [hi] at hb; cases hb
    · obtain ⟨h1, h2⟩ := leaf x (by rw [hi]; exact .masked .leaf) (by rw [hi]; rfl)
      refine ⟨x, h1, .inr (.inr ⟨m, hi, ?_⟩)⟩
      have hm := framed_mask hF (x := x) (m := m) (by rw [hi]; exact .mask .leaf)
      rw [h2, h1.bounds] at hm
      rcases hm with hm | ⟨-, hm⟩
      · exact hm
      · refine absurd ?_ (hm ⟨0, 0⟩)
        exact ⟨Int.le_refl 0, ox, Int.le_refl 0, oy⟩
  · exact absurd rfl ((R.mask _ _ hi).2.2 o t)

/-! ### Trees of such layers -/

mutual
theorem plain_wholeIn (i : Img) (ox oy : Int) (path : List Nat) (h : ∀ r ∈ placedIn i ox oy path, PlainLayer r.layer) (t : List Layer) (ht : i = .group t) : WholeLayers t := by
  match i with
  | .group g =>
    injection ht with ht
    subst ht
    unfold placedIn at h
    exact plain_whole g _ _ _ _ h
  | .leaf _ => cases ht
  | .nil => cases ht
  | .text _ _ => cases ht
  | .masked _ _ => cases ht
termination_by structural i
theorem plain_whole (g : List Layer) (n : Nat) (ox oy : Int) (path : List Nat) (h : ∀ r ∈ placed g n ox oy path, PlainLayer r.layer) : WholeLayers g := by
  match g with
  | [] => unfold WholeLayers; trivial
  | ⟨name, b, mode, inv, tr, im⟩ :: rest =>
    unfold placed at h
    unfold WholeLayers
    refine ⟨?_, plain_whole rest _ _ _ _ fun r hr => h r (List.mem_cons_of_mem _ (List.mem_append_right _ hr))⟩
    have hin := plain_wholeIn im _ _ _ (fun r hr => h r (List.mem_cons_of_mem _ (List.mem_append_left _ hr)))
    rcases h _ List.mem_cons_self with ⟨t, ht⟩ | ⟨x, hx, hi | ⟨t, hi⟩ | ⟨m, hi, -⟩⟩
    · have ht : im = .group t := ht
      subst ht
      unfold Whole
      exact hin t rfl
    · have hi : im = .leaf x := hi
      subst hi
      unfold Whole
      exact hx.readable
    · have hi : im = .text (.leaf x) t := hi
      subst hi
      unfold Whole; unfold Whole
      exact hx.readable
    · have hi : im = .masked (.leaf x) (some m) := hi
      subst hi
      unfold Whole; unfold Whole
      exact ⟨hx.readable, rfl⟩
termination_by structural g
end

mutual
/-- the colour model is that of RGB images, or of an empty group -/
theorem plain_modelIn (i : Img) (ox oy : Int) (path : List Nat) (h : ∀ r ∈ placedIn i ox oy path, PlainLayer r.layer) (t : List Layer) (ht : i = .group t) :
    ∃ cm, groupModel t = some cm ∧ (cm = .other ∨ cm = .alpha) := by
  match i with
  | .group g =>
    injection ht with ht
    subst ht
    unfold placedIn at h
    exact plain_model g _ _ _ _ h
  | .leaf _ => cases ht
  | .nil => cases ht
  | .text _ _ => cases ht
  | .masked _ _ => cases ht
termination_by structural i
theorem plain_model (g : List Layer) (n : Nat) (ox oy : Int) (path : List Nat) (h : ∀ r ∈ placed g n ox oy path, PlainLayer r.layer) :
    ∃ cm, groupModel g = some cm ∧ (cm = .other ∨ cm = .alpha) := by
  match g with
  | [] => exact ⟨.alpha, by unfold groupModel; rfl, .inr rfl⟩
  | ⟨name, b, mode, inv, tr, im⟩ :: rest =>
    unfold placed at h
    unfold groupModel
    have hin := plain_modelIn im _ _ _ (fun r hr => h r (List.mem_cons_of_mem _ (List.mem_append_left _ hr)))
    rcases h _ List.mem_cons_self with ⟨t, ht⟩ | ⟨x, hx, hi | ⟨t, hi⟩ | ⟨m, hi, -⟩⟩
    · have ht : im = .group t := ht
      subst ht
      unfold Img.colorModel
      exact hin t rfl
    · have hi : im = .leaf x := hi
      subst hi
      unfold Img.colorModel
      exact ⟨_, rfl, .inl hx.model⟩
    · have hi : im = .text (.leaf x) t := hi
      subst hi
      unfold Img.colorModel; unfold Img.colorModel
      exact ⟨_, rfl, .inl hx.model⟩
    · have hi : im = .masked (.leaf x) (some m) := hi
      subst hi
      unfold Img.colorModel; unfold Img.colorModel
      exact ⟨_, rfl, .inl hx.model⟩
termination_by structural g
end

theorem plain_exact {b : Rect} {x : Leaf} (h : PlainLeaf b x) {cm : ColorModel} (hcm : cm = .other ∨ cm = .alpha) : ExactLeaf cm b x := by
  refine ⟨h.bounds, fun p c hm hc => ?_⟩
  rcases hcm with rfl | rfl <;> exact h.colour p c hm hc

mutual
theorem plain_flawlessIn (cm : ColorModel) (hcm : cm = .other ∨ cm = .alpha) (i : Img) (ox oy : Int) (path : List Nat)
    (h : ∀ r ∈ placedIn i ox oy path, PlainLayer r.layer) (t : List Layer) (ht : i = .group t) : Flawless cm t := by
  match i with
  | .group g =>
    injection ht with ht
    subst ht
    unfold placedIn at h
    exact plain_flawless cm hcm g _ _ _ _ h
  | .leaf _ => cases ht
  | .nil => cases ht
  | .text _ _ => cases ht
  | .masked _ _ => cases ht
termination_by structural i
theorem plain_flawless (cm : ColorModel) (hcm : cm = .other ∨ cm = .alpha) (g : List Layer) (n : Nat) (ox oy : Int) (path : List Nat)
    (h : ∀ r ∈ placed g n ox oy path, PlainLayer r.layer) : Flawless cm g := by
  match g with
  | [] => unfold Flawless; trivial
  | ⟨name, b, mode, inv, tr, im⟩ :: rest =>
    have hmod := plain_model (⟨name, b, mode, inv, tr, im⟩ :: rest) n ox oy path h
    unfold placed at h
    unfold Flawless
    refine ⟨?_, ?_, plain_flawless cm hcm rest _ _ _ _ fun r hr => h r (List.mem_cons_of_mem _ (List.mem_append_right _ hr))⟩
    · intro m hm
      unfold groupModel at hmod
      obtain ⟨c, e, hc⟩ := hmod
      rw [hm] at e
      cases e
      rcases hc with rfl | rfl <;> rfl
    have hin := plain_flawlessIn cm hcm im _ _ _ (fun r hr => h r (List.mem_cons_of_mem _ (List.mem_append_left _ hr)))
    rcases h _ List.mem_cons_self with ⟨t, ht⟩ | ⟨x, hx, hi | ⟨t, hi⟩ | ⟨m, hi, hr⟩⟩
    · have ht : im = .group t := ht
      subst ht
      unfold Exactly
      exact hin t rfl
    · have hi : im = .leaf x := hi
      subst hi
      unfold Exactly
      exact plain_exact hx hcm
    · have hi : im = .text (.leaf x) t := hi
      subst hi
      unfold Exactly
      exact ⟨x, rfl, plain_exact hx hcm⟩
    · have hi : im = .masked (.leaf x) (some m) := hi
      subst hi
      unfold Exactly
      exact ⟨⟨x, rfl, plain_exact hx hcm⟩, m, rfl, by rw [hr], by rw [hr]⟩
termination_by structural g
end

/-! ### C124 -/

/-- such pictures can be stored -/
theorem xcf_storable {env : Env} {sch : Sched} (hv : sch.Valid) {D : Bytes} {g : List Layer} (h : decodeImage env sch true D = .ok (.ok g))
    (hrgb : fromBE ((D.drop 22).take 4) = 0) {W H : Int} (hr : ∀ r ∈ placed g 0 0 0 [], Resavable W H r) (F : Fmt) (P : Bytes → TextData → Prop)
    (htx : ∀ r ∈ placed g 0 0 0 [], ∀ t d, textOf r.layer = some t → F.text t r.layer.bounds.dx r.layer.bounds.dy = some d → ∃ t', P d t') :
    ∀ r ∈ placed g 0 0 0 [], Storable F P W H r := by
  intro r hp
  have R := hr r hp
  obtain ⟨s, hs, hl⟩ := placed_groupIn g 0 0 0 [] r hp
  have hpl := plainLayers hv h hrgb hr r hp
  refine ⟨(decode_labels hv h s hs _ hl).1, R.x, R.y, fun hg b hb => ?_, htx r hp, fun m hm => ?_, R.path⟩
  · rcases hpl with ⟨t, ht⟩ | ⟨x, hx, hi | ⟨t, hi⟩ | ⟨m, hi, -⟩⟩
    · simp [isGroupLayer, ht] at hg
    all_goals
      rw [hi] at hb
      have hb : some x.bounds = some b := hb
      cases hb
      rw [hx.bounds]
      simp [Rect.dx, Rect.dy]
  · rcases hpl with ⟨t, ht⟩ | ⟨x, hx, hi | ⟨t, hi⟩ | ⟨m', hi, hr⟩⟩
    · rw [ht] at hm; cases hm
    · rw [hi] at hm; cases hm
    · rw [hi] at hm; cases hm
    · rw [hi] at hm
      have hm : some m' = some m := hm
      cases hm
      refine ⟨(R.mask _ _ hi).1, (R.mask _ _ hi).2.1, ?_, ?_⟩ <;> rw [hr] <;> simp [Rect.dx, Rect.dy]

/-- **C124** (the part that holds).  A picture that `Decode` loads from any RGB XCF file, with layers on the canvas that were not cut (`Resavable`) and
without the mode Luminance, can be saved; if the file has up to 16 MiB, the same tree of layers is loaded from it - names, bounds, modes,
visibility, opacity, masks - and the picture has the same colour at every point.  (Text layers come back if their data can be parsed; files with
masks can only be loaded with `Decode`.)
Full statement: every file that is accepted; false by `C124_refuted` for the mode Luminance, and by `C37_refuted` for pictures not at the origin. -/
theorem C124_resave_partial (env₀ : Env) (sch₀ : Sched) (hv₀ : sch₀.Valid) (D₀ : Bytes) (g : List Layer) (h : decodeImage env₀ sch₀ true D₀ = .ok (.ok g))
    (hrgb : fromBE ((D₀.drop 22).take 4) = 0) (henc : Encodable (.group g)) (hx : (groupBounds g).dx ≤ 2 ^ 31) (hy : (groupBounds g).dy ≤ 2 ^ 31)
    (hr : ∀ r ∈ placed g 0 0 0 [], Resavable (groupBounds g).dx (groupBounds g).dy r) (hlum : ∀ r ∈ placed g 0 0 0 [], r.layer.mode ≠ Mode.luminance)
    (wenv : WEnv) (hw : Works wenv) (htx : TextsFit wenv (.group g)) :
    ∃ l size, runEncode wenv (.group g) = some (l, none) ∧ ExactlyOnce l size ∧
      (size ≤ maxString → ∀ (env : Env) (sch : Sched), sch.Valid → ∀ (decompress : Bool) (D : Bytes),
        (decompress = true ∨ ∀ r ∈ placed g 0 0 0 [], maskOf r.layer.image = none) →
        (∀ r ∈ placed g 0 0 0 [], ∀ t d, textOf r.layer = some t → (fmtOf wenv .other).text t r.layer.bounds.dx r.layer.bounds.dy = some d → ∃ t', parsesTo env d t') →
        ∃ g', decodeImage env sch decompress (store D l) = .ok (.ok g') ∧
          (∃ cm, SameTree (ImgBack (fmtOf wenv cm) (parsesTo env)) id g g' ∧ (fmtOf wenv cm).typ = 0) ∧
          ∀ (ρ : Nat → UInt16) (p : Pt) (n : Nat), (Img.group g').at ρ p n = (Img.group g).at ρ p n) := by
  have hpl := plainLayers hv₀ h hrgb hr
  have hwh : Whole (.group g) := by unfold Whole; exact plain_whole g 0 0 0 [] hpl
  obtain ⟨cm, hcm, hc⟩ := plain_model g 0 0 0 [] hpl
  have hcm : (Img.group g).colorModel = some cm := by unfold Img.colorModel; exact hcm
  have htyp : (fmtOf wenv cm).typ = 0 := by rcases hc with rfl | rfl <;> rfl
  have hE := plain_flawless cm hc g 0 0 0 [] hpl
  obtain ⟨l, hl⟩ := C74_encode_succeeds wenv _ hwh htx hw
  obtain ⟨size, hsz⟩ := C34_once wenv _ henc l hl
  refine ⟨l, size, hl, hsz, fun hmax env sch hv decompress D hdm htx => ?_⟩
  have hst := xcf_storable hv₀ h hrgb hr (fmtOf wenv cm) (parsesTo env) (by rcases hc with rfl | rfl <;> exact htx)
  have hk : ∀ r ∈ placed g 0 0 0 [], r.layer.mode ∈ keptModes ((fmtOf wenv cm).typ == 0) := by
    intro r hp
    obtain ⟨s, hs, hls⟩ := placed_groupIn g 0 0 0 [] r hp
    rcases List.mem_cons.1 ((decode_labels hv₀ h s hs _ hls).2.1 hrgb) with e | e
    · exact absurd e (hlum r hp)
    · rw [htyp]; exact e
  have hbm : ∀ m, (g.map (·.mode)).getLast? = some m → m = Mode.normal ∨ m = Mode.dissolve := by
    intro m hm
    rw [List.getLast?_map] at hm
    obtain ⟨a, ha, rfl⟩ := Option.map_eq_some_iff.1 hm
    exact (C91_accepted env₀ sch₀ hv₀ true D₀ g h).2 a ha
  obtain ⟨g', h1, h2⟩ := C37_tree_partial wenv env sch hv decompress g henc l hl D size hsz hmax cm hcm hdm hx hy hst hk hbm
  refine ⟨g', h1, ⟨cm, h2, htyp⟩, fun ρ p n => ?_⟩
  obtain ⟨g'', h3, h4⟩ := C86_looks_partial wenv env sch hv decompress g henc l hl D size hsz hmax cm hcm
    (by rcases hc with rfl | rfl <;> rfl) (by rcases hc with rfl | rfl <;> simp) hdm hx hy hst hk hbm hE
  rw [h1] at h3
  cases h3
  exact h4 ρ p n

/-! ### Examples -/

/-- an RGB file with two layers of one pixel, the upper one with a mode -/
def twoXcf (mode : Nat) : Bytes :=
  [103, 105, 109, 112, 32, 120, 99, 102, 32, 118, 48, 48, 51, 0] ++ be 4 1 ++ be 4 1 ++ be 4 0 ++
  be 4 17 ++ be 4 1 ++ [1] ++ be 4 0 ++ be 4 0 ++ be 4 59 ++ be 4 147 ++ be 4 0 ++ be 4 0 ++
  -- 59: upper layer
  be 4 1 ++ be 4 1 ++ be 4 1 ++ be 4 0 ++ be 4 7 ++ be 4 4 ++ be 4 mode ++ be 4 0 ++ be 4 0 ++ be 4 103 ++ be 4 0 ++
  -- 103: hierarchy, 123: level, 139: tile
  be 4 1 ++ be 4 1 ++ be 4 4 ++ be 4 123 ++ be 4 0 ++ be 4 1 ++ be 4 1 ++ be 4 139 ++ be 4 0 ++ [0, 9, 0, 8, 0, 7, 0, 255] ++
  -- 147: lower layer, with the same pixels
  be 4 1 ++ be 4 1 ++ be 4 1 ++ be 4 0 ++ be 4 0 ++ be 4 0 ++ be 4 103 ++ be 4 0

/-- the picture in it -/
def twoLayers (m : Mode) (p q : Pt → Option Color) : List Layer :=
  [⟨[], ⟨0, 0, 1, 1⟩, m, false, 0, .leaf ⟨⟨0, 0, 1, 1⟩, .other, p⟩⟩, ⟨[], ⟨0, 0, 1, 1⟩, Mode.normal, false, 0, .leaf ⟨⟨0, 0, 1, 1⟩, .other, q⟩⟩]

/-- whether this is the picture -/
def isTwo (m : Mode) : Outcome (Except Err (List Layer)) → Bool
  | .ok (.ok [⟨[], b, mode, false, 0, .leaf L⟩, ⟨[], b', mode', false, 0, .leaf L'⟩]) => b == ⟨0, 0, 1, 1⟩ && mode == m && L.bounds == ⟨0, 0, 1, 1⟩ && L.model == .other &&
      b' == ⟨0, 0, 1, 1⟩ && mode' == Mode.normal && L'.bounds == ⟨0, 0, 1, 1⟩ && L'.model == .other
  | _ => false

theorem isTwo_iff {m : Mode} {x : Outcome (Except Err (List Layer))} (h : isTwo m x = true) : ∃ p q, x = .ok (.ok (twoLayers m p q)) := by
  unfold isTwo at h
  split at h
  · next b mode L b' mode' L' =>
    obtain ⟨lb, lm, px⟩ := L
    obtain ⟨lb', lm', px'⟩ := L'
    simp only [Bool.and_eq_true, beq_iff_eq] at h
    obtain ⟨⟨⟨⟨⟨⟨⟨rfl, rfl⟩, rfl⟩, rfl⟩, rfl⟩, rfl⟩, rfl⟩, rfl⟩ := h
    exact ⟨px, px', rfl⟩
  · cases h

theorem two_multiply : isTwo Mode.multiply (decodeImage exEnv exSched true (twoXcf 3)) = true := by decide +kernel

theorem two_luminance : isTwo Mode.luminance (decodeImage exEnv exSched true (twoXcf 56)) = true := by decide +kernel

theorem two_bounds (m : Mode) (p q : Pt → Option Color) : groupBounds (twoLayers m p q) = ⟨0, 0, 1, 1⟩ := rfl

theorem two_placed (m : Mode) (p q : Pt → Option Color) : placed (twoLayers m p q) 0 0 0 [] = [
    ⟨⟨[], ⟨0, 0, 1, 1⟩, m, false, 0, .leaf ⟨⟨0, 0, 1, 1⟩, .other, p⟩⟩, 0, 0, [0]⟩,
    ⟨⟨[], ⟨0, 0, 1, 1⟩, Mode.normal, false, 0, .leaf ⟨⟨0, 0, 1, 1⟩, .other, q⟩⟩, 0, 0, [1]⟩] := rfl

theorem two_encodable (m : Mode) (p q : Pt → Option Color) : Encodable (.group (twoLayers m p q)) := by
  refine ⟨everyLayer_placed _ _ 0 0 0 [] fun r hr => ⟨fun b hb => ?_, fun w hw => ?_⟩, show (2 : Nat) < 2 ^ 32 by decide⟩
  · rw [two_placed] at hr
    simp only [List.mem_cons, List.not_mem_nil, or_false] at hr
    have : b = ⟨0, 0, 1, 1⟩ := by rcases hr with rfl | rfl <;> (cases hb; rfl)
    subst this
    exact ⟨by decide, by decide, by decide⟩
  · rw [two_placed] at hr
    simp only [List.mem_cons, List.not_mem_nil, or_false] at hr
    rcases hr with rfl | rfl <;> cases hw

theorem two_resavable (m : Mode) (p q : Pt → Option Color) :
    ∀ r ∈ placed (twoLayers m p q) 0 0 0 [], Resavable (groupBounds (twoLayers m p q)).dx (groupBounds (twoLayers m p q)).dy r := by
  rw [two_bounds, two_placed]
  intro r hr
  simp only [List.mem_cons, List.not_mem_nil, or_false] at hr
  have hp : ∀ p ∈ [[0], [1]], ∀ n ∈ p, n < 0xd800 := by decide
  have one : (0 : Int) ≤ 0 ∧ (0 : Int) < (⟨0, 0, 1, 1⟩ : Rect).dx ∧ 0 + (⟨0, 0, 1, 1⟩ : Rect).dx ≤ (⟨0, 0, 1, 1⟩ : Rect).dx := by decide
  rcases hr with rfl | rfl
  · exact ⟨one, one, .inr ⟨_, rfl, rfl, rfl⟩, (fun i w h => by cases h), hp [0] (by decide)⟩
  · exact ⟨one, one, .inr ⟨_, rfl, rfl, rfl⟩, (fun i w h => by cases h), hp [1] (by decide)⟩

theorem two_size (wenv : WEnv) (m : Mode) (p q : Pt → Option Color) : fileBytes (fmtOf wenv .other) (.group (twoLayers m p q)) ≤ maxString := by
  have : fileBytes (fmtOf wenv .other) (.group (twoLayers m p q)) = fileBytes (fmtOf goodSink .other) (.group (twoLayers Mode.hue (fun _ => none) (fun _ => none))) := rfl
  rw [this]
  decide +kernel

/-- a file with two layers is loaded, saved and loaded again -/
example : ∃ g l g', decodeImage exEnv exSched true (twoXcf 3) = .ok (.ok g) ∧ g.map (·.mode) = [Mode.multiply, Mode.normal] ∧
    runEncode goodSink (.group g) = some (l, none) ∧ decodeImage exEnv exSched false (store [] l) = .ok (.ok g') ∧
    ∀ (ρ : Nat → UInt16) (p : Pt) (n : Nat), (Img.group g').at ρ p n = (Img.group g).at ρ p n := by
  obtain ⟨p, q, h⟩ := isTwo_iff two_multiply
  obtain ⟨l, size, h1, h2, h3⟩ := C124_resave_partial exEnv exSched exSched_valid _ _ h (by decide) (two_encodable _ _ _) (by rw [two_bounds]; decide)
    (by rw [two_bounds]; decide) (two_resavable _ _ _)
    (by
        rw [two_placed]
        intro r hr
        simp only [List.mem_cons, List.not_mem_nil, or_false] at hr
        rcases hr with rfl | rfl
        · exact (show Mode.multiply ≠ Mode.luminance by decide)
        · exact (show Mode.normal ≠ Mode.luminance by decide)) goodSink
    (fun _ => rfl) (fun _ _ _ _ _ _ => rfl)
  obtain ⟨g', h4, -, h5⟩ := h3 (Nat.le_trans (encode_size goodSink _ (two_encodable _ _ _) l h1 .other rfl size h2) (two_size _ _ _ _)) exEnv exSched exSched_valid false []
    (.inr (by rw [two_placed]; intro r hr; simp only [List.mem_cons, List.not_mem_nil, or_false] at hr; rcases hr with rfl | rfl <;> rfl))
    (by rw [two_placed]; intro r hr t d ht; simp only [List.mem_cons, List.not_mem_nil, or_false] at hr; rcases hr with rfl | rfl <;> cases ht)
  exact ⟨_, l, g', h, rfl, h1, h4, h5⟩

/-- names and modes of this file -/
example : ∃ g, decodeImage exEnv exSched true (twoXcf 56) = .ok (.ok g) ∧ ∀ l ∈ g, Utf8 l.name ∧ l.mode ∈ loadedModes := by
  obtain ⟨p, q, h⟩ := isTwo_iff two_luminance
  exact ⟨_, h, fun l hl => ⟨(C124_labels exEnv exSched exSched_valid true _ _ h _ .self l hl).1,
    (C124_labels exEnv exSched exSched_valid true _ _ h _ .self l hl).2 (by decide)⟩⟩

/-- C124 is false: a file with a layer in the mode Luminance is loaded, and saved without an error, but then the layer has another mode. -/
theorem C124_refuted (wenv : WEnv) (hw : Works wenv) :
    ∃ a b l, decodeImage exEnv exSched true (twoXcf 56) = .ok (.ok [a, b]) ∧ a.mode = Mode.luminance ∧
      (∀ r ∈ placed [a, b] 0 0 0 [], Resavable (groupBounds [a, b]).dx (groupBounds [a, b]).dy r) ∧ runEncode wenv (.group [a, b]) = some (l, none) ∧
      ∀ (env : Env) (sch : Sched), sch.Valid → ∀ (decompress : Bool) (D : Bytes), ∃ a' g',
        decodeImage env sch decompress (store D l) = .ok (.ok (a' :: g')) ∧ a'.mode ≠ Mode.luminance := by
  obtain ⟨p, q, h⟩ := isTwo_iff two_luminance
  have hpl := plainLayers exSched_valid h (by decide) (two_resavable _ p q)
  have hwh : Whole (.group (twoLayers Mode.luminance p q)) := by unfold Whole; exact plain_whole _ 0 0 0 [] hpl
  obtain ⟨l, size, h5, h6, h7⟩ := encodes_small _ hwh (two_encodable _ p q) wenv (noText_fits wenv (by show ∀ r ∈ placed _ 0 0 0 [], _; rw [two_placed]; intro r hr; simp only [List.mem_cons, List.not_mem_nil, or_false] at hr; rcases hr with rfl | rfl <;> rfl)) hw (show (Img.group (twoLayers Mode.luminance p q)).colorModel = some .other from rfl)
    (two_size wenv _ p q)
  refine ⟨_, _, l, h, rfl, two_resavable _ p q, h5, fun env sch hv decompress D => ?_⟩
  obtain ⟨g', h8, h9⟩ := round_trip wenv env sch hv decompress _ (two_encodable _ p q) l h5 D size h6 h7 .other rfl
    (.inr (by rw [two_placed]; intro r hr; simp only [List.mem_cons, List.not_mem_nil, or_false] at hr; rcases hr with rfl | rfl <;> rfl))
    (by rw [two_bounds]; decide) (by rw [two_bounds]; decide)
    (xcf_storable exSched_valid h (by decide) (two_resavable _ p q) _ _
      (by rw [two_placed]; intro r hr t d ht; simp only [List.mem_cons, List.not_mem_nil, or_false] at hr; rcases hr with rfl | rfl <;> cases ht))
  unfold twoLayers at h9
  obtain ⟨a, r', rfl, -, -, e1, -, -, -, h9⟩ := sameTree_cons h9
  obtain ⟨b, r', rfl, -, -, -, -, -, -, h9⟩ := sameTree_cons h9
  cases sameTree_nil h9
  have hne : a.mode ≠ Mode.luminance := by
    rw [e1]
    exact fun h => absurd ((modeBack_other wenv _).1 h) (show Mode.luminance ∉ keptModes true by decide)
  have hfx : ∃ r, fixBottom [a, b] = a :: r := by
    unfold fixBottom
    rw [show [a, b].getLast? = some b from rfl]
    dsimp only
    split
    · exact ⟨_, rfl⟩
    · exact ⟨_, rfl⟩
  obtain ⟨r, hr⟩ := hfx
  exact ⟨a, r, by rw [h8, hr], hne⟩

example : Works goodSink := fun _ => rfl

end Limage
