import Verif.Props.RoundTrip
import Verif.Proofs.ReadFail
import Verif.Props.Color
/-!
# C37 to C42: what is lost between encoding and decoding
-/
namespace Limage
open Spec

/-! ### Pictures of single points -/

/-- a layer with a single point at the origin -/
def dot (x : Mode × ColorModel × Color) : Layer := ⟨[100], ⟨0, 0, 1, 1⟩, x.1, false, 0, .leaf ⟨⟨0, 0, 1, 1⟩, x.2.1, fun _ => some x.2.2⟩⟩

/-- what is known of a placed dot -/
theorem placed_dots : ∀ (xs : List (Mode × ColorModel × Color)) (n : Nat) (r : Placed), r ∈ placed (xs.map dot) n 0 0 [] →
    ∃ x ∈ xs, ∃ k, k < n + xs.length ∧ r = ⟨dot x, 0, 0, [k]⟩
  | [], n, r, h => by unfold placed at h; cases h
  | x :: xs, n, r, h => by
    rw [List.map_cons] at h
    unfold dot placed placedIn at h
    rw [List.nil_append] at h
    rcases List.mem_cons.1 h with h | h
    · exact ⟨x, List.mem_cons_self .., n, by simp, h⟩
    · obtain ⟨y, h1, k, h2, h3⟩ := placed_dots xs (n + 1) r h
      exact ⟨y, List.mem_cons_of_mem _ h1, k, by rw [List.length_cons]; omega, h3⟩

theorem dots_bounds : ∀ (xs : List (Mode × ColorModel × Color)), xs ≠ [] → groupBounds (xs.map dot) = ⟨0, 0, 1, 1⟩ := by
  have h : ∀ (xs : List (Mode × ColorModel × Color)), (xs.map dot).foldl (fun r (l : Layer) => r.union l.bounds) (⟨0, 0, 1, 1⟩ : Rect) = ⟨0, 0, 1, 1⟩ := by
    intro xs
    induction xs with
    | nil => rfl
    | cons x xs ih => rw [List.map_cons, List.foldl_cons]; exact ih
  intro xs hne
  cases xs with
  | nil => exact absurd rfl hne
  | cons x xs => exact h xs

theorem dots_model (x : Mode × ColorModel × Color) (xs : List (Mode × ColorModel × Color)) :
    (Img.group ((x :: xs).map dot)).colorModel = some x.2.1 := by
  rw [List.map_cons]
  unfold dot Img.colorModel groupModel Img.colorModel
  rfl

theorem dots_whole (xs : List (Mode × ColorModel × Color)) : WholeLayers (xs.map dot) := by
  induction xs with
  | nil => rw [List.map_nil]; unfold WholeLayers; trivial
  | cons x xs ih =>
    rw [List.map_cons]
    unfold dot WholeLayers Whole
    exact ⟨fun _ => rfl, ih⟩

theorem dots_storable (F : Fmt) (P : Bytes → TextData → Prop) (xs : List (Mode × ColorModel × Color)) (hx : xs.length ≤ 1000) :
    ∀ r ∈ placed (xs.map dot) 0 0 0 [], Storable F P 1 1 r := by
  intro r hr
  obtain ⟨x, -, k, hk, rfl⟩ := placed_dots xs 0 r hr
  refine ⟨(utf8Valid_iff _).1 (by simp [dot]; decide), by simp [dot]; decide, by simp [dot]; decide, ?_, by simp [textOf, dot], by simp [maskOf, dot], ?_⟩
  · intro _ b hb
    simp only [dot, pixelsOf, Img.bounds, Option.some.injEq] at hb
    subst hb
    exact ⟨rfl, rfl⟩
  · intro n hn
    rw [List.mem_singleton] at hn
    omega

theorem dots_size (F : Fmt) (hF : F.bpp ≤ 4) : ∀ (xs : List (Mode × ColorModel × Color)) (n : Nat),
    ((placed (xs.map dot) n 0 0 []).map (layerBytes F)).sum ≤ 16721 * xs.length
  | [], n => by unfold placed; exact Nat.le_refl _
  | x :: xs, n => by
    have ih := dots_size F hF xs (n + 1)
    rw [List.map_cons]
    unfold dot placed placedIn
    rw [List.nil_append, List.map_cons, List.sum_cons, List.length_cons]
    have : layerBytes F ⟨⟨[100], ⟨0, 0, 1, 1⟩, x.1, false, 0, .leaf ⟨⟨0, 0, 1, 1⟩, x.2.1, fun _ => some x.2.2⟩⟩,
        0 + 0, 0 + 0, [] ++ [n]⟩ = 201 + 4130 * F.bpp := by
      simp only [layerBytes, textBytes, textOf, pixelsOf, maskOf, maskBytes, Img.bounds, pixelBytes, List.length_cons, List.length_nil, List.length_append]
      rw [show tilesAlong (⟨0, 0, 1, 1⟩ : Rect).dx = 1 from rfl, show tilesAlong (⟨0, 0, 1, 1⟩ : Rect).dy = 1 from rfl]
      omega
    have ih' : ((placed (xs.map dot) (n + 1) 0 0 []).map (layerBytes F)).sum ≤ 16721 * xs.length := ih
    show layerBytes F ⟨⟨[100], ⟨0, 0, 1, 1⟩, x.1, false, 0, .leaf ⟨⟨0, 0, 1, 1⟩, x.2.1, fun _ => some x.2.2⟩⟩,
        0 + 0, 0 + 0, [] ++ [n]⟩ + ((placed (xs.map dot) (n + 1) 0 0 []).map (layerBytes F)).sum ≤ _
    omega

theorem dots_encodable (xs : List (Mode × ColorModel × Color)) (hx : xs.length ≤ 1000) : Encodable (.group (xs.map dot)) := by
  have h1 : ∀ xs : List (Mode × ColorModel × Color), EveryLayer LayerSizeOk (xs.map dot) := by
    intro xs
    induction xs with
    | nil => rw [List.map_nil]; unfold EveryLayer; trivial
    | cons x xs ih =>
      rw [List.map_cons]
      unfold dot EveryLayer EveryIn
      refine ⟨⟨?_, by intro m hm; cases hm⟩, trivial, ih⟩
      intro b hb
      simp only [pixelsOf, Img.bounds, Option.some.injEq] at hb
      subst hb
      unfold SizeOk
      decide
  have h2 : ∀ xs : List (Mode × ColorModel × Color), total (xs.map dot) = xs.length := by
    intro xs
    induction xs with
    | nil => rw [List.map_nil]; unfold total; rfl
    | cons x xs ih =>
      rw [List.map_cons]
      unfold dot total totalIn
      rw [List.length_cons]
      have : total (xs.map dot) = xs.length := ih
      show 1 + 0 + total (xs.map dot) = _
      omega
  exact ⟨h1 xs, by rw [h2]; omega⟩

/-- Specification: the writer accepts everything. -/
def Spec.Works (wenv : WEnv) : Prop := ∀ k, wenv.sink k = none

/-- pictures without texts -/
theorem noText_fits (env : WEnv) {i : Img} (h : ∀ r ∈ layersOf i, textOf r.layer = none) : TextsFit env i := by
  intro r hr t ht
  rw [h r hr] at ht
  cases ht

theorem dots_fit (env : WEnv) (xs : List (Mode × ColorModel × Color)) : TextsFit env (.group (xs.map dot)) := by
  refine noText_fits env fun r hr => ?_
  obtain ⟨x, -, k, -, rfl⟩ := placed_dots xs 0 r hr
  rfl

theorem bpp_le (wenv : WEnv) (cm : ColorModel) : (fmtOf wenv cm).bpp ≤ 4 := by
  cases cm <;> simp [fmtOf, encFor]

/-- pictures of dots are written and read -/
theorem dots_back (wenv : WEnv) (hw : Works wenv) (x : Mode × ColorModel × Color) (xs : List (Mode × ColorModel × Color))
    (hx : (x :: xs).length ≤ 900) (hp : ((fmtOf wenv x.2.1).palette.getD []).length ≤ 256) :
    ∃ l, runEncode wenv (.group ((x :: xs).map dot)) = some (l, none) ∧
      ∀ (env : Env) (sch : Sched), sch.Valid → ∀ (decompress : Bool) (D : Bytes), ∃ g',
        decodeImage env sch decompress (store D l) = .ok (.ok (fixBottom g')) ∧
        SameTree (ImgBack (fmtOf wenv x.2.1) (parsesTo env)) (modeBack (fmtOf wenv x.2.1)) ((x :: xs).map dot) g' := by
  have hsize : fileBytes (fmtOf wenv x.2.1) (.group ((x :: xs).map dot)) ≤ maxString := by
    have := dots_size (fmtOf wenv x.2.1) (bpp_le _ _) (x :: xs) 0
    unfold fileBytes
    have hl : layersOf (.group ((x :: xs).map dot)) = placed ((x :: xs).map dot) 0 0 0 [] := rfl
    rw [hl]
    have hm : maxString = 16777216 := rfl
    omega
  have hwh : Whole (.group ((x :: xs).map dot)) := by unfold Whole; exact dots_whole _
  obtain ⟨l, size, h1, h2, h3⟩ := encodes_small _ hwh (dots_encodable _ (by omega)) wenv (dots_fit wenv (x :: xs)) hw (dots_model x xs) hsize
  refine ⟨l, h1, fun env sch hv decompress D => ?_⟩
  have hb := dots_bounds (x :: xs) (by simp)
  refine round_trip wenv env sch hv decompress _ (dots_encodable _ (by omega)) l h1 D size h2 h3 x.2.1 (dots_model x xs) (.inr ?_)
    (by rw [hb]; decide) (by rw [hb]; decide) (by rw [hb]; exact dots_storable _ _ _ (by omega))
  intro r hr
  obtain ⟨y, -, k, -, rfl⟩ := placed_dots _ _ r hr
  rfl

mutual
theorem SameImg.mono {P Q : Layer → Img → Prop} {M : Mode → Mode} (hPQ : ∀ l j, P l j → Q l j) {l : Layer} {i j : Img}
    (h : SameImg P M l i j) : SameImg Q M l i j := by
  match i with
  | .group g =>
    unfold SameImg at h ⊢
    obtain ⟨g', h1, h2⟩ := h
    exact ⟨g', h1, SameTree.mono hPQ h2⟩
  | .leaf _ => unfold SameImg at h ⊢; exact hPQ _ _ h
  | .nil => unfold SameImg at h ⊢; exact hPQ _ _ h
  | .text _ _ => unfold SameImg at h ⊢; exact hPQ _ _ h
  | .masked _ _ => unfold SameImg at h ⊢; exact hPQ _ _ h
termination_by structural i

theorem SameTree.mono {P Q : Layer → Img → Prop} {M : Mode → Mode} (hPQ : ∀ l j, P l j → Q l j) {g g' : List Layer}
    (h : SameTree P M g g') : SameTree Q M g g' := by
  match g, g' with
  | [], [] => exact h
  | [], _ :: _ => exact h
  | ⟨name, b, mode, inv, tr, im⟩ :: rest, [] => exact h
  | ⟨name, b, mode, inv, tr, im⟩ :: rest, l' :: rest' =>
    unfold SameTree at h ⊢
    obtain ⟨⟨h1, h2, h3, h4, h5, h6⟩, h7⟩ := h
    exact ⟨⟨h1, h2, h3, h4, h5, SameImg.mono hPQ h6⟩, SameTree.mono hPQ h7⟩
termination_by structural g
end

theorem sameTree_nil {P : Layer → Img → Prop} {M : Mode → Mode} {g' : List Layer} (h : SameTree P M [] g') : g' = [] := by
  cases g' with
  | nil => rfl
  | cons _ _ => exact h.elim

theorem sameTree_cons {P : Layer → Img → Prop} {M : Mode → Mode} {l : Layer} {g g' : List Layer} (h : SameTree P M (l :: g) g') :
    ∃ l' r', g' = l' :: r' ∧ l'.name = l.name ∧ l'.bounds = l.bounds ∧ l'.mode = M l.mode ∧ l'.invisible = l.invisible ∧ l'.transparency = l.transparency ∧ SameImg P M l l.image l'.image ∧ SameTree P M g r' := by
  obtain ⟨name, b, mode, inv, tr, im⟩ := l
  cases g' with
  | nil => exact h.elim
  | cons l' r' =>
    unfold SameTree at h
    obtain ⟨⟨h1, h2, h3, h4, h5, h6⟩, h7⟩ := h
    exact ⟨l', r', rfl, h1, h2, h3, h4, h5, h6, h7⟩

theorem fixBottom_cases (g : List Layer) : fixBottom g = g ∨ ∃ init b, g = init ++ [b] ∧ fixBottom g = init ++ [{ b with mode := Mode.normal }] := by
  unfold fixBottom
  cases hl : g.getLast? with
  | none => exact .inl rfl
  | some b =>
    dsimp only
    split
    · exact .inl rfl
    · refine .inr ⟨g.dropLast, b, ?_, rfl⟩
      rw [List.getLast?_eq_some_iff] at hl
      obtain ⟨ys, rfl⟩ := hl
      rw [List.dropLast_concat]

/-! ### Modes (C39) -/

theorem modeBack_other (wenv : WEnv) (m : Mode) : modeBack (fmtOf wenv .other) m = m ↔ m ∈ keptModes true :=
  modeBack_kept wenv .other m

/-- C39 is false.  There are modes that do not survive: every mode the file format has no number for, on an upper layer. -/
theorem C39_refuted (wenv : WEnv) (hw : Works wenv) (m : Mode) (hm : m ∉ keptModes true) :
    ∃ (g : List Layer) (l : List WCall), g.map (·.mode) = [m, Mode.normal] ∧ runEncode wenv (.group g) = some (l, none) ∧
      ∀ (env : Env) (sch : Sched), sch.Valid → ∀ (decompress : Bool) (D : Bytes), ∃ g',
        decodeImage env sch decompress (store D l) = .ok (.ok g') ∧ ∃ m', g'.map (·.mode) = [m', Mode.normal] ∧ m' ≠ m := by
  obtain ⟨l, h1, h2⟩ := dots_back wenv hw (m, .other, .nrgba 9 8 7 255) [(Mode.normal, .other, .nrgba 9 8 7 255)] (by simp) (by simp [fmtOf, encFor])
  refine ⟨_, l, rfl, h1, fun env sch hv decompress D => ?_⟩
  obtain ⟨g', h3, h4⟩ := h2 env sch hv decompress D
  rw [List.map_cons, List.map_cons, List.map_nil] at h4
  obtain ⟨a, r', rfl, -, -, e1, -, -, -, h4⟩ := sameTree_cons h4
  obtain ⟨b, r', rfl, -, -, e2, -, -, -, h4⟩ := sameTree_cons h4
  cases sameTree_nil h4
  have e2 : b.mode = Mode.normal := by rw [e2]; exact (modeBack_other wenv _).2 (by decide)
  refine ⟨_, h3, a.mode, ?_, ?_⟩
  · unfold fixBottom
    rw [show [a, b].getLast? = some b from rfl]
    dsimp only
    rw [if_pos (.inl e2), List.map_cons, List.map_cons, List.map_nil, e2]
  · rw [e1]
    exact fun h => hm ((modeBack_other wenv m).1 h)

/-- seven modes have no number of their own -/
example : Works goodSink ∧ ∀ m ∈ [Mode.luminance, Mode.luminosity, Mode.plus, Mode.destinationIn, Mode.destinationOut, Mode.sourceAtop, Mode.destinationAtop], m ∉ keptModes true :=
  ⟨fun _ => rfl, by decide⟩

/-- C39 is false also for the other modes: the lowest layer gets the mode Normal, unless it is Normal or Dissolve. -/
theorem C39_bottom_refuted (wenv : WEnv) (hw : Works wenv) (m : Mode) (hm : m ≠ Mode.normal ∧ m ≠ Mode.dissolve) :
    ∃ (g : List Layer) (l : List WCall), g.map (·.mode) = [m] ∧ runEncode wenv (.group g) = some (l, none) ∧
      ∀ (env : Env) (sch : Sched), sch.Valid → ∀ (decompress : Bool) (D : Bytes), ∃ g',
        decodeImage env sch decompress (store D l) = .ok (.ok g') ∧ ∃ m', g'.map (·.mode) = [m'] ∧ m' ≠ m := by
  obtain ⟨l, h1, h2⟩ := dots_back wenv hw (m, .other, .nrgba 9 8 7 255) [] (by simp) (by simp [fmtOf, encFor])
  refine ⟨_, l, rfl, h1, fun env sch hv decompress D => ?_⟩
  obtain ⟨g', h3, h4⟩ := h2 env sch hv decompress D
  rw [List.map_cons, List.map_nil] at h4
  obtain ⟨a, r', rfl, -, -, -, -, -, -, h4⟩ := sameTree_cons h4
  cases sameTree_nil h4
  refine ⟨_, h3, ?_⟩
  unfold fixBottom
  rw [show [a].getLast? = some a from rfl]
  dsimp only
  split
  · rename_i h
    refine ⟨a.mode, rfl, ?_⟩
    rcases h with h | h <;> rw [h]
    · exact hm.1.symm
    · exact hm.2.symm
  · exact ⟨0, rfl, hm.1.symm⟩

example : Works goodSink ∧ Mode.multiply ≠ Mode.normal ∧ Mode.multiply ≠ Mode.dissolve := ⟨fun _ => rfl, by decide⟩

/-- C39 (the part that holds).  The modes the file format has are decoded for all layers except the lowest one; that one
keeps its mode or becomes Normal.
Full statement: every mode of every layer; false by `C39_refuted` and `C39_bottom_refuted`. -/
theorem C39_modes_partial (wenv : WEnv) (env : Env) (sch : Sched) (hv : sch.Valid) (decompress : Bool) (g : List Layer)
    (hi : Encodable (.group g)) (l : List WCall) (h : runEncode wenv (.group g) = some (l, none)) (D : Bytes)
    (size : Nat) (hsz : ExactlyOnce l size) (hmax : size ≤ maxString)
    (cm : ColorModel) (hcm : (Img.group g).colorModel = some cm)
    (hd : decompress = true ∨ ∀ r ∈ placed g 0 0 0 [], maskOf r.layer.image = none)
    (hx : (groupBounds g).dx ≤ 2 ^ 31) (hy : (groupBounds g).dy ≤ 2 ^ 31)
    (hs : ∀ r ∈ placed g 0 0 0 [], Storable (fmtOf wenv cm) (parsesTo env) (groupBounds g).dx (groupBounds g).dy r)
    (hk : ∀ r ∈ placed g 0 0 0 [], r.layer.mode ∈ keptModes ((fmtOf wenv cm).typ == 0)) :
    ∃ g' g'', decodeImage env sch decompress (store D l) = .ok (.ok g'') ∧ SameTree (fun _ _ => True) id g g' ∧
      (g'' = g' ∨ ∃ init b, g' = init ++ [b] ∧ g'' = init ++ [{ b with mode := Mode.normal }]) := by
  obtain ⟨g', h1, h2⟩ := round_trip wenv env sch hv decompress g hi l h D size hsz hmax cm hcm hd hx hy hs
  have h3 := sameTree_id g g' 0 0 0 [] h2 fun r hr => (modeBack_kept wenv cm _).2 (hk r hr)
  exact ⟨g', _, h1, SameTree.mono (fun _ _ _ => trivial) h3, fixBottom_cases g'⟩

/-! ### Bounds (C37) -/

/-- a single layer is placed on the canvas -/
theorem single_tree (order : Nat → List Nat) (ho : ∀ n, (order n).Perm (List.range n)) (R : Rect) (d : DLayer) (hg : d.group = false) (hp : d.itemPath = []) :
    ∃ s, makeGroups R [d] GState.start = .ok s ∧
      makeImage (order s.map.length) s = some (fixBottom [{ d.layer with bounds := d.layer.bounds.inter R }]) := by
  have e : makeGroups R [d] GState.start = .ok ⟨[[⟨d.layer.name, (d.layer.bounds.inter R).sub ⟨0, 0⟩, d.layer.mode, d.layer.invisible,
      d.layer.transparency, .val d.layer.image⟩]], [⟨0, 0, 0, none⟩], [([], 0)], 1, d.alpha⟩ := by
    unfold makeGroups groupStep
    rw [if_neg (by simp [GState.start]), hp, hg]
    rfl
  refine ⟨_, e, ?_⟩
  have : order 1 = [0] := by
    have := ho 1
    rwa [show List.range 1 = [0] from rfl, List.perm_singleton] at this
  show makeImage (order 1) _ = _
  rw [this]
  have hs : (d.layer.bounds.inter R).sub ⟨0, 0⟩ = d.layer.bounds.inter R := by
    simp [Rect.sub]
  rw [hs]
  rfl

/-- C37 is false.  The position of a picture whose layer does not start at the origin is lost: the canvas is as large as the
picture, but starts at the origin, and the decoder cuts the layer to the canvas. -/
theorem C37_refuted (wenv : WEnv) (env : Env) (sch : Sched) (hv : sch.Valid) (decompress : Bool) (a : Layer)
    (hi : Encodable (.group [a])) (l : List WCall) (h : runEncode wenv (.group [a]) = some (l, none)) (D : Bytes)
    (size : Nat) (hsz : ExactlyOnce l size) (hmax : size ≤ maxString)
    (cm : ColorModel) (hcm : (Img.group [a]).colorModel = some cm)
    (hg : isGroupLayer a = false) (hm : maskOf a.image = none)
    (hs : Storable (fmtOf wenv cm) (parsesTo env) (2 ^ 31) (2 ^ 31) ⟨a, a.bounds.x0, a.bounds.y0, [0]⟩)
    (hoff : a.bounds.x0 ≠ 0 ∨ a.bounds.y0 ≠ 0) :
    ∃ a', decodeImage env sch decompress (store D l) = .ok (.ok [a']) ∧ a'.name = a.name ∧ a'.bounds ≠ a.bounds := by
  obtain ⟨b, h1, h2⟩ := written wenv _ hi l h D size hsz hmax cm hcm
  obtain ⟨_, ⟨x1, x2, x3⟩, ⟨y1, y2, y3⟩, _⟩ := id hs
  dsimp only at x1 x2 x3 y1 y2 y3
  have hb : b = a.bounds := by
    have : (Img.group [a]).bounds = some (groupBounds [a]) := by unfold Img.bounds; rfl
    rw [h1] at this
    cases this
    rfl
  subst hb
  have hl : layersOf (.group [a]) = [⟨a, a.bounds.x0, a.bounds.y0, [0]⟩] := by
    obtain ⟨name, c, mode, inv, tr, im⟩ := a
    show placed [⟨name, c, mode, inv, tr, im⟩] 0 0 0 [] = _
    unfold placed
    have : placedIn im (0 + c.x0) (0 + c.y0) ([] ++ [0]) = [] := by
      unfold placedIn
      cases im with
      | group g => simp [isGroupLayer] at hg
      | _ => rfl
    rw [this]
    unfold placed
    simp
  rw [hl] at h2
  obtain ⟨ds, e1, e2⟩ := decode_layers env sch decompress _ _ (fmtOk_fmtOf wenv cm) _ _ h2
    (.inr (by intro r hr; rw [List.mem_singleton] at hr; subst hr; exact hm)) (W := 2 ^ 31) (H := 2 ^ 31) (by decide) (by decide)
    (by intro r hr; rw [List.mem_singleton] at hr; subst hr; exact hs)
  match ds, e1 with
  | [d], .cons hd .nil =>
    obtain ⟨s, f1, f2⟩ := single_tree sch.groups hv.2 (sizeRect (u32 a.bounds.dx).toNat (u32 a.bounds.dy).toNat) d
      (hd.group.trans hg) (by rw [hd.itemPath]; rfl)
    rw [f1] at e2
    dsimp only at e2
    rw [f2] at e2
    dsimp only at e2
    obtain ⟨w, hw⟩ := Int.eq_ofNat_of_zero_le (Int.le_of_lt x2)
    obtain ⟨ht, hht⟩ := Int.eq_ofNat_of_zero_le (Int.le_of_lt y2)
    have hcan : sizeRect (u32 a.bounds.dx).toNat (u32 a.bounds.dy).toNat = ⟨0, 0, a.bounds.dx, a.bounds.dy⟩ := by
      rw [hw, hht, u32_nat, u32_nat, u32_toNat (by omega), u32_toNat (by omega)]
      rfl
    have hne : d.layer.bounds.inter (sizeRect (u32 a.bounds.dx).toNat (u32 a.bounds.dy).toNat) ≠ a.bounds := by
      rw [hcan, hd.bounds]
      unfold Rect.inter
      dsimp only
      split
      · intro h0
        rw [← h0] at x2
        exact absurd x2 (by decide)
      · intro h0
        have c1 := congrArg Rect.x1 h0
        have c2 := congrArg Rect.y1 h0
        dsimp only at c1 c2
        unfold Rect.dx at *
        unfold Rect.dy at *
        omega
    obtain ⟨m, hm'⟩ : ∃ m, fixBottom [{ d.layer with bounds := d.layer.bounds.inter (sizeRect (u32 a.bounds.dx).toNat (u32 a.bounds.dy).toNat) }] =
        [{ d.layer with bounds := d.layer.bounds.inter (sizeRect (u32 a.bounds.dx).toNat (u32 a.bounds.dy).toNat), mode := m }] := by
      unfold fixBottom
      rw [List.getLast?_singleton]
      dsimp only
      split
      · exact ⟨d.layer.mode, rfl⟩
      · exact ⟨0, rfl⟩
    rw [hm'] at e2
    exact ⟨_, e2, hd.name, hne⟩

/-- a layer of one point, one point away from the origin -/
def shifted : Layer := ⟨[100], ⟨1, 0, 2, 1⟩, Mode.normal, false, 0, .leaf ⟨⟨0, 0, 1, 1⟩, .other, fun _ => some (.nrgba 1 2 3 4)⟩⟩

theorem shifted_encodable : Encodable (.group [shifted]) := by
  refine ⟨?_, by decide⟩
  unfold shifted
  simp only [EveryLayer, EveryIn, LayerSizeOk, pixelsOf, maskOf, SizeOk, Img.bounds, Option.some.injEq,
    forall_eq', reduceCtorEq, false_implies, implies_true, and_true]
  decide

theorem shifted_whole : Whole (.group [shifted]) := by
  unfold Whole WholeLayers shifted Whole WholeLayers
  exact ⟨fun _ => rfl, trivial⟩

example : ∃ l size, Encodable (.group [shifted]) ∧ runEncode goodSink (.group [shifted]) = some (l, none) ∧ ExactlyOnce l size ∧ size ≤ maxString ∧
    (Img.group [shifted]).colorModel = some .other ∧ isGroupLayer shifted = false ∧ maskOf shifted.image = none ∧
    Storable (fmtOf goodSink .other) (parsesTo exEnv) (2 ^ 31) (2 ^ 31) ⟨shifted, shifted.bounds.x0, shifted.bounds.y0, [0]⟩ ∧
    (shifted.bounds.x0 ≠ 0 ∨ shifted.bounds.y0 ≠ 0) := by
  obtain ⟨l, size, h1, h2, h3⟩ := encodes_small (.group [shifted]) shifted_whole shifted_encodable goodSink
    (fun _ _ _ _ _ _ => rfl) (fun _ => rfl) rfl (by decide +kernel)
  refine ⟨l, size, shifted_encodable, h1, h2, h3, rfl, rfl, rfl, ?_, .inl (by decide)⟩
  refine ⟨(utf8Valid_iff _).1 (by decide), by decide, by decide, ?_, by simp [textOf, shifted], by simp [maskOf, shifted], by decide⟩
  intro _ b hb
  simp only [shifted, pixelsOf, Img.bounds, Option.some.injEq] at hb
  subst hb; decide

/-! ### Images that are not layered (C40) -/

/-- C40 is false.  No image other than a layered one can be read back: its layer is written with the size (0, 0). -/
theorem C40_refuted (wenv : WEnv) (env : Env) (sch : Sched) (hv : sch.Valid) (decompress : Bool) (i : Img) (hn : ∀ g, i ≠ .group g)
    (hi : Encodable i) (l : List WCall) (h : runEncode wenv i = some (l, none)) (D : Bytes)
    (size : Nat) (hsz : ExactlyOnce l size) (hmax : size ≤ maxString) (cm : ColorModel) (hcm : i.colorModel = some cm)
    (b : Rect) (hb : (pixelsOf i).bounds = some b) (hx : 0 < b.dx ∧ b.dx < 2 ^ 32) :
    decodeImage env sch decompress (store D l) = .ok (.error .inconsistentData) := by
  obtain ⟨c, h1, h2⟩ := written wenv _ hi l h D size hsz hmax cm hcm
  have hl : layersOf i = [⟨⟨[], Rect.zero, 0, false, 0, i⟩, 0, 0, []⟩] := by
    cases i with
    | group g => exact absurd rfl (hn g)
    | _ => rfl
  rw [hl] at h2
  have hg : isGroupLayer ⟨[], Rect.zero, 0, false, 0, i⟩ = false := by
    cases i with
    | group g => exact absurd rfl (hn g)
    | _ => rfl
  refine decode_wrong_size env sch hv decompress _ _ (fmtOk_fmtOf wenv cm) _ _ h2 ?_ hg hb (.inl ?_)
  · exact (utf8Valid_iff []).1 (by decide)
  · obtain ⟨w, hw⟩ := Int.eq_ofNat_of_zero_le (Int.le_of_lt hx.1)
    rw [hw, u32_nat]
    intro h0
    have := congrArg UInt32.toNat h0
    rw [u32_toNat (by omega), show (u32 (Rect.zero).dx).toNat = 0 from rfl] at this
    omega

/-- an image of one point, at (0, 0) -/
def onePoint : Leaf := ⟨⟨0, 0, 1, 1⟩, .other, fun _ => some (.nrgba 1 2 3 255)⟩

theorem onePoint_encodable : Encodable (.leaf onePoint) := by
  refine ⟨?_, by intro m hm; cases hm⟩
  intro b hb
  simp only [pixelsOf, Img.bounds, Option.some.injEq] at hb
  subst hb
  unfold SizeOk onePoint
  decide

example : ∃ l size, (∀ g, Img.leaf onePoint ≠ .group g) ∧ Encodable (.leaf onePoint) ∧ runEncode goodSink (.leaf onePoint) = some (l, none) ∧
    ExactlyOnce l size ∧ size ≤ maxString ∧ (Img.leaf onePoint).colorModel = some .other ∧
    ∃ b, (pixelsOf (.leaf onePoint)).bounds = some b ∧ 0 < b.dx ∧ b.dx < 2 ^ 32 := by
  obtain ⟨l, size, h1, h2, h3⟩ := encodes_small (.leaf onePoint) (by unfold Whole; intro p; rfl) onePoint_encodable goodSink
    (fun _ _ _ _ _ _ => rfl) (fun _ => rfl) rfl (by decide +kernel)
  exact ⟨l, size, (fun g hg => by cases hg), onePoint_encodable, h1, h2, h3, rfl, _, rfl, by decide⟩

/-- C40 (the part that holds).  An image is read back if it is first made the only layer of a layered image, at the origin and of the image's
size.
Full statement: the same for the image itself; false by `C40_refuted`. -/
theorem C40_wrapped_partial (wenv : WEnv) (env : Env) (sch : Sched) (hv : sch.Valid) (decompress : Bool) (L : Leaf) (name : GoString)
    (hu : Utf8 name) (hx : 0 < L.bounds.dx ∧ L.bounds.dx ≤ 2 ^ 31) (hy : 0 < L.bounds.dy ∧ L.bounds.dy ≤ 2 ^ 31)
    (hp : ∀ p, (L.pixel p).isSome) (hw : Works wenv)
    (hsize : fileBytes (fmtOf wenv L.model) (.group [⟨name, ⟨0, 0, L.bounds.dx, L.bounds.dy⟩, Mode.normal, false, 0, .leaf L⟩]) ≤ maxString) :
    ∃ l, runEncode wenv (.group [⟨name, ⟨0, 0, L.bounds.dx, L.bounds.dy⟩, Mode.normal, false, 0, .leaf L⟩]) = some (l, none) ∧ ∀ D, ∃ L',
      decodeImage env sch decompress (store D l) = .ok (.ok [⟨name, ⟨0, 0, L.bounds.dx, L.bounds.dy⟩, Mode.normal, false, 0, .leaf L'⟩]) ∧
      PixelsBack (fmtOf wenv L.model) (.leaf L) L' := by
  have hbig : tilesAlong L.bounds.dx * tilesAlong L.bounds.dy * (4 + 4130 * (fmtOf wenv L.model).bpp) ≤ maxString := by
    refine Nat.le_trans ?_ hsize
    simp only [fileBytes, layersOf, placed, placedIn, List.nil_append, List.append_nil, List.map_cons, List.map_nil, List.sum_cons, List.sum_nil,
      layerBytes, pixelsOf, Img.bounds, pixelBytes]
    generalize tilesAlong L.bounds.dx * tilesAlong L.bounds.dy * (4 + 4130 * (fmtOf wenv L.model).bpp) = n
    omega
  have hi : Encodable (.group [⟨name, ⟨0, 0, L.bounds.dx, L.bounds.dy⟩, Mode.normal, false, 0, .leaf L⟩]) := by
    refine ⟨?_, ?_⟩
    · unfold EveryLayer EveryIn EveryLayer
      refine ⟨⟨?_, by intro m hm; cases hm⟩, trivial, trivial⟩
      intro b hb
      simp only [pixelsOf, Img.bounds, Option.some.injEq] at hb
      subst hb
      have hx1 := hx.1
      have hy1 := hy.1
      unfold Rect.dx at hx1
      unfold Rect.dy at hy1
      refine ⟨by omega, by omega, ?_⟩
      have : tilesAlong L.bounds.dx * tilesAlong L.bounds.dy ≤ tilesAlong L.bounds.dx * tilesAlong L.bounds.dy * (4 + 4130 * (fmtOf wenv L.model).bpp) :=
        Nat.le_mul_of_pos_right _ (by omega)
      have hm : maxString = 16777216 := rfl
      omega
    · unfold total totalIn total
      decide
  have hcm : (Img.group [⟨name, ⟨0, 0, L.bounds.dx, L.bounds.dy⟩, Mode.normal, false, 0, .leaf L⟩]).colorModel = some L.model := by
    unfold Img.colorModel groupModel Img.colorModel; rfl
  obtain ⟨l, size, h1, h2, h3⟩ := encodes_small _ (by unfold Whole WholeLayers Whole WholeLayers; exact ⟨hp, trivial⟩) hi wenv (noText_fits wenv (by simp [layersOf, placed, placedIn, textOf])) hw hcm hsize
  refine ⟨l, h1, fun D => ?_⟩
  have hpl : placed [⟨name, ⟨0, 0, L.bounds.dx, L.bounds.dy⟩, Mode.normal, false, 0, .leaf L⟩] 0 0 0 [] =
      [⟨⟨name, ⟨0, 0, L.bounds.dx, L.bounds.dy⟩, Mode.normal, false, 0, .leaf L⟩, 0, 0, [0]⟩] := by
    simp [placed, placedIn]
  have hgb : groupBounds [⟨name, ⟨0, 0, L.bounds.dx, L.bounds.dy⟩, Mode.normal, false, 0, .leaf L⟩] = ⟨0, 0, L.bounds.dx, L.bounds.dy⟩ := rfl
  have hst : ∀ r ∈ placed [⟨name, ⟨0, 0, L.bounds.dx, L.bounds.dy⟩, Mode.normal, false, 0, .leaf L⟩] 0 0 0 [],
      Storable (fmtOf wenv L.model) (parsesTo env) L.bounds.dx L.bounds.dy r := by
    rw [hpl]
    intro r hr
    rw [List.mem_singleton] at hr
    subst hr
    refine ⟨hu, ?_, ?_, ?_, by simp [textOf], by simp [maskOf], by simp⟩
    · simp [Rect.dx] at *; omega
    · simp [Rect.dy] at *; omega
    · intro _ b hb
      simp only [pixelsOf, Img.bounds, Option.some.injEq] at hb
      subst hb
      simp [Rect.dx, Rect.dy]
  have hdx : (⟨0, 0, L.bounds.dx, L.bounds.dy⟩ : Rect).dx = L.bounds.dx := by show L.bounds.dx - 0 = _; omega
  have hdy : (⟨0, 0, L.bounds.dx, L.bounds.dy⟩ : Rect).dy = L.bounds.dy := by show L.bounds.dy - 0 = _; omega
  obtain ⟨g', e1, e2⟩ := C37_tree_partial wenv env sch hv decompress _ hi l h1 D size h2 h3 L.model hcm
    (.inr (by rw [hpl]; intro r hr; rw [List.mem_singleton] at hr; subst hr; rfl)) (by rw [hgb, hdx]; exact hx.2) (by rw [hgb, hdy]; exact hy.2)
    (by rw [hgb, hdx, hdy]; exact hst)
    (by
      rw [hpl]; intro r hr; rw [List.mem_singleton] at hr; subst hr
      show Mode.normal ∈ _
      generalize ((fmtOf wenv L.model).typ == 0) = z
      cases z <;> decide)
    (by intro m hm; exact .inl (by simpa [eq_comm] using hm))
  obtain ⟨⟨n', b', m', i', t', im'⟩, r', rfl, e3, e4, e5, e6, e7, e8, e9⟩ := sameTree_cons e2
  cases sameTree_nil e9
  dsimp only at e3 e4 e5 e6 e7 e8
  unfold SameImg at e8
  obtain ⟨L', hL', ho⟩ := e8
  subst e3 e4 e5 e6 e7
  rcases ho with ⟨-, -, rfl⟩ | ⟨t, _, _, ht, _⟩ | ⟨_, _, _, hm, _⟩
  · exact ⟨L', e1, hL'⟩
  · cases ht
  · cases hm

example : Utf8 [111] ∧ 0 < onePoint.bounds.dx ∧ onePoint.bounds.dx ≤ 2 ^ 31 ∧ (∀ p, (onePoint.pixel p).isSome) ∧ Works goodSink ∧
    fileBytes (fmtOf goodSink onePoint.model) (.group [⟨[111], ⟨0, 0, onePoint.bounds.dx, onePoint.bounds.dy⟩, Mode.normal, false, 0, .leaf onePoint⟩]) ≤ maxString :=
  ⟨(utf8Valid_iff _).1 (by decide), by decide, by decide, fun _ => rfl, fun _ => rfl, by decide +kernel⟩

/-! ### Masks (C41) -/

/-- C41 is false.  A picture with a masked layer that is not at the origin cannot be decoded. -/
theorem C41_offset_refuted (wenv : WEnv) (env : Env) (sch : Sched) (hv : sch.Valid) (g : List Layer)
    (hi : Encodable (.group g)) (l : List WCall) (h : runEncode wenv (.group g) = some (l, none)) (D : Bytes)
    (size : Nat) (hsz : ExactlyOnce l size) (hmax : size ≤ maxString)
    (cm : ColorModel) (hcm : (Img.group g).colorModel = some cm)
    (hs : ∀ r ∈ placed g 0 0 0 [], StorableMask (fmtOf wenv cm) (parsesTo env) (2 ^ 31) (2 ^ 31) r)
    (hx : ∃ r ∈ placed g 0 0 0 [], maskOf r.layer.image ≠ none ∧ ¬ (r.ox = 0 ∧ r.oy = 0)) :
    decodeImage env sch true (store D l) = .ok (.error .inconsistentData) := by
  obtain ⟨b, h1, h2⟩ := written wenv _ hi l h D size hsz hmax cm hcm
  exact decode_masks env sch hv _ _ (fmtOk_fmtOf wenv cm) _ _ h2 (by decide) (by decide) hs hx

/-- C41 is false.  `DecodeCompressed` panics on every mask. -/
theorem C41_compressed_refuted (wenv : WEnv) (env : Env) (sch : Sched) (g : List Layer)
    (hi : Encodable (.group g)) (l : List WCall) (h : runEncode wenv (.group g) = some (l, none)) (D : Bytes)
    (size : Nat) (hsz : ExactlyOnce l size) (hmax : size ≤ maxString)
    (cm : ColorModel) (hcm : (Img.group g).colorModel = some cm)
    (hx : ∃ r ∈ placed g 0 0 0 [], maskOf r.layer.image ≠ none ∧ StorableMask (fmtOf wenv cm) (parsesTo env) (2 ^ 31) (2 ^ 31) r) :
    decodeImage env sch false (store D l) = .panic := by
  obtain ⟨b, h1, h2⟩ := written wenv _ hi l h D size hsz hmax cm hcm
  exact decode_masks_lazy env sch _ _ (fmtOk_fmtOf wenv cm) _ _ h2 (by decide) (by decide) hx

/-- a layer of one point with a mask, one point away from the origin, below it a layer without mask at the origin -/
def maskedOff : List Layer :=
  [⟨[100], ⟨1, 0, 2, 1⟩, Mode.normal, false, 0, .masked (.leaf onePoint) (some ⟨⟨0, 0, 1, 1⟩, fun _ => 77⟩)⟩,
   ⟨[101], ⟨0, 0, 1, 1⟩, Mode.normal, false, 0, .leaf onePoint⟩]

theorem maskedOff_encodable : Encodable (.group maskedOff) := by
  refine ⟨?_, by decide⟩
  unfold maskedOff onePoint
  simp only [EveryLayer, EveryIn, LayerSizeOk, pixelsOf, maskOf, SizeOk, Img.bounds, Option.some.injEq,
    forall_eq', reduceCtorEq, false_implies, implies_true, and_true]
  decide

theorem maskedOff_whole : Whole (.group maskedOff) := by
  simp only [Whole, WholeLayers, maskedOff, onePoint]
  exact ⟨⟨fun _ => rfl, rfl⟩, fun _ => rfl, trivial⟩

theorem maskedOff_storable (F : Fmt) (P : Bytes → TextData → Prop) : ∀ r ∈ placed maskedOff 0 0 0 [], StorableMask F P (2 ^ 31) (2 ^ 31) r := by
  intro r hr
  simp only [maskedOff, placed, placedIn, List.nil_append, List.mem_cons, List.not_mem_nil, or_false] at hr
  rcases hr with rfl | rfl
  · refine ⟨(utf8Valid_iff _).1 (by decide), by decide, by decide, ?_, by simp [textOf], ?_, by decide⟩
    · intro _ b hb
      simp only [pixelsOf, Img.bounds, Option.some.injEq, onePoint] at hb
      subst hb; decide
    · intro m hm
      simp only [maskOf, Option.some.injEq] at hm
      subst hm; decide
  · refine ⟨(utf8Valid_iff _).1 (by decide), by decide, by decide, ?_, by simp [textOf], by simp [maskOf], by decide⟩
    intro _ b hb
    simp only [pixelsOf, Img.bounds, Option.some.injEq, onePoint] at hb
    subst hb; decide

example : ∃ l size, Encodable (.group maskedOff) ∧ runEncode goodSink (.group maskedOff) = some (l, none) ∧ ExactlyOnce l size ∧ size ≤ maxString ∧
    (Img.group maskedOff).colorModel = some .other ∧
    (∀ r ∈ placed maskedOff 0 0 0 [], StorableMask (fmtOf goodSink .other) (parsesTo exEnv) (2 ^ 31) (2 ^ 31) r) ∧
    ∃ r ∈ placed maskedOff 0 0 0 [], maskOf r.layer.image ≠ none ∧ ¬ (r.ox = 0 ∧ r.oy = 0) := by
  obtain ⟨l, size, h1, h2, h3⟩ := encodes_small (.group maskedOff) maskedOff_whole maskedOff_encodable goodSink
    (fun _ _ _ _ _ _ => rfl) (fun _ => rfl) rfl (by decide +kernel)
  refine ⟨l, size, maskedOff_encodable, h1, h2, h3, rfl, maskedOff_storable _ _, ?_⟩
  simp [maskedOff, placed, placedIn, maskOf]

/-- C41 (the part that holds).  `Decode` returns the masks of layers at the origin, whatever the rest of the picture is like.
Full statement: masks at every position, for `Decode` and `DecodeCompressed`; false by `C41_offset_refuted` and
`C41_compressed_refuted`. -/
theorem C41_origin_partial (wenv : WEnv) (env : Env) (sch : Sched) (hv : sch.Valid) (g : List Layer)
    (hi : Encodable (.group g)) (l : List WCall) (h : runEncode wenv (.group g) = some (l, none)) (D : Bytes)
    (size : Nat) (hsz : ExactlyOnce l size) (hmax : size ≤ maxString)
    (cm : ColorModel) (hcm : (Img.group g).colorModel = some cm)
    (hx : (groupBounds g).dx ≤ 2 ^ 31) (hy : (groupBounds g).dy ≤ 2 ^ 31)
    (hs : ∀ r ∈ placed g 0 0 0 [], Storable (fmtOf wenv cm) (parsesTo env) (groupBounds g).dx (groupBounds g).dy r) :
    ∃ g' g'', decodeImage env sch true (store D l) = .ok (.ok g'') ∧
      (g'' = g' ∨ ∃ init b, g' = init ++ [b] ∧ g'' = init ++ [{ b with mode := Mode.normal }]) ∧
      SameTree (fun l j => ∀ m, maskOf l.image = some m → ∃ i m', j = .masked i (some m') ∧ MaskBack m m') (modeBack (fmtOf wenv cm)) g g' := by
  obtain ⟨g', h1, h2⟩ := round_trip wenv env sch hv true g hi l h D size hsz hmax cm hcm (.inl rfl) hx hy hs
  refine ⟨g', _, h1, fixBottom_cases g', SameTree.mono ?_ h2⟩
  rintro l j ⟨L, -, ho⟩ m hm
  rcases ho with ⟨-, h, -⟩ | ⟨t, d, t', ht, -⟩ | ⟨m1, m', -, h, hb, rfl⟩
  · rw [h] at hm; cases hm
  · exfalso
    revert ht hm
    unfold maskOf textOf
    cases l.image <;> simp
  · rw [h] at hm
    cases hm
    exact ⟨_, m', rfl, hb⟩

/-- the hypotheses hold for a picture with a mask at the origin -/
example : ∃ r ∈ placed sampleLayers 0 0 0 [], maskOf r.layer.image ≠ none := by
  simp [sampleLayers, samplePicture, placed, placedIn, maskOf]

end Limage
