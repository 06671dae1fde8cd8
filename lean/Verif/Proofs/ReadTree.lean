import Verif.Proofs.ReadHead
import Verif.Props.Readable
/-! Building the tree of layers again. -/
namespace Limage
open Spec

/-- the item `it` at place `k` of group `gi` stands for the layer `l`, not a group -/
def RepLeaf (P : Layer → Img → Prop) (s : GState) (l : Layer) (it : HLayer) (gi k : Nat) : Prop :=
  (∀ c, s.parentOf c ≠ some (gi, k)) ∧ ∃ j, it.image = .val j ∧ P l j

mutual
/-- the item `it` at place `k` of group `gi` stands for the layer `l` with image `i` -/
def RepImg (P : Layer → Img → Prop) (M : Mode → Mode) (s : GState) (lo : Nat) (l : Layer) (i : Img) (it : HLayer) (gi k : Nat) : Prop :=
  match i with
  | .group g => ∃ c, lo ≤ c ∧ c < s.objs.length ∧ c ∈ s.map.map (·.2) ∧ s.parentOf c = some (gi, k) ∧
      (s.items c).length = g.length ∧ RepList P M s lo g c 0
  | .leaf _ => RepLeaf P s l it gi k
  | .nil => RepLeaf P s l it gi k
  | .text _ _ => RepLeaf P s l it gi k
  | .masked _ _ => RepLeaf P s l it gi k
termination_by structural i

/-- the items of group `gi` from `n` on stand for the layers `g`; the groups inside have numbers from `lo` on -/
def RepList (P : Layer → Img → Prop) (M : Mode → Mode) (s : GState) (lo : Nat) (g : List Layer) (gi n : Nat) : Prop :=
  match g with
  | [] => True
  | ⟨name, b, mode, inv, tr, im⟩ :: rest =>
    (∃ it, (s.items gi)[n]? = some it ∧ it.name = name ∧ it.bounds = b ∧ it.mode = M mode ∧ it.invisible = inv ∧
      it.transparency = tr ∧ RepImg P M s lo ⟨name, b, mode, inv, tr, im⟩ im it gi n) ∧ RepList P M s lo rest gi (n + 1)
termination_by structural g
end

/-- `s'` has what `s` has, and nothing new in the groups from `lo` on -/
structure KeepsTree (s s' : GState) (lo : Nat) : Prop where
  objs : ∀ (j : Nat) (o : GroupObj), s.objs[j]? = some o → s'.objs[j]? = some o
  vals : ∀ v ∈ s.map.map (·.2), v ∈ s'.map.map (·.2)
  items : ∀ j, lo ≤ j → j < s.objs.length → s'.items j = s.items j
  fresh : ∀ j p k, s.objs.length ≤ j → s'.parentOf j = some (p, k) → lo ≤ p → s.objs.length ≤ p

theorem len_of_prefix {s s' : GState} (h : ∀ (j : Nat) (o : GroupObj), s.objs[j]? = some o → s'.objs[j]? = some o) : s.objs.length ≤ s'.objs.length := by
  rcases Nat.lt_or_ge s'.objs.length s.objs.length with hlt | hge
  · obtain ⟨o, ho⟩ : ∃ o, s.objs[s'.objs.length]? = some o := ⟨_, List.getElem?_eq_getElem hlt⟩
    have := (List.getElem?_eq_some_iff.1 (h _ _ ho)).1
    omega
  · exact hge

theorem parentOf_prefix {s s' : GState} (h : ∀ (j : Nat) (o : GroupObj), s.objs[j]? = some o → s'.objs[j]? = some o) {j : Nat} (hj : j < s.objs.length) :
    s'.parentOf j = s.parentOf j := by
  unfold GState.parentOf
  rw [h j _ (List.getElem?_eq_getElem hj), List.getElem?_eq_getElem hj]

theorem parentOf_lt {s : GState} {j : Nat} {x : Nat × Nat} (h : s.parentOf j = some x) : j < s.objs.length := by
  unfold GState.parentOf at h
  cases ho : s.objs[j]? with
  | none => rw [ho] at h; cases h
  | some o => exact (List.getElem?_eq_some_iff.1 ho).1

theorem RepLeaf.keep {P : Layer → Img → Prop} {s s' : GState} {l : Layer} {it : HLayer} {gi k : Nat}
    (hp : ∀ (j : Nat) (o : GroupObj), s.objs[j]? = some o → s'.objs[j]? = some o)
    (h : ∀ j, s.objs.length ≤ j → s'.parentOf j ≠ some (gi, k)) (hr : RepLeaf P s l it gi k) : RepLeaf P s' l it gi k := by
  refine ⟨fun c hc => ?_, hr.2⟩
  rcases Nat.lt_or_ge c s.objs.length with hlt | hge
  · rw [parentOf_prefix hp hlt] at hc
    exact hr.1 c hc
  · exact h c hge hc

mutual
theorem RepImg.keep {P : Layer → Img → Prop} {M : Mode → Mode} {s s' : GState} {lo lo' : Nat} (hk : KeepsTree s s' lo) (hlo : lo' ≤ lo)
    (i : Img) (l : Layer) (it : HLayer) (gi k : Nat) (h : ∀ j, s.objs.length ≤ j → s'.parentOf j ≠ some (gi, k))
    (hr : RepImg P M s lo l i it gi k) : RepImg P M s' lo' l i it gi k := by
  match i with
  | .group g =>
    unfold RepImg at hr ⊢
    obtain ⟨c, h1, h2, h3, h4, h5, h6⟩ := hr
    refine ⟨c, by omega, Nat.lt_of_lt_of_le h2 (len_of_prefix hk.objs), hk.vals c h3, ?_, ?_, ?_⟩
    · rw [parentOf_prefix hk.objs h2]; exact h4
    · rw [hk.items c h1 h2]; exact h5
    · refine RepList.keep hk hlo g c 0 ?_ ?_ h6
      · intro k _; rw [hk.items c h1 h2]
      · intro j k hj hp
        have := hk.fresh j c k hj hp h1
        omega
  | .leaf _ => unfold RepImg at hr ⊢; exact RepLeaf.keep hk.objs h hr
  | .nil => unfold RepImg at hr ⊢; exact RepLeaf.keep hk.objs h hr
  | .text _ _ => unfold RepImg at hr ⊢; exact RepLeaf.keep hk.objs h hr
  | .masked _ _ => unfold RepImg at hr ⊢; exact RepLeaf.keep hk.objs h hr
termination_by structural i

theorem RepList.keep {P : Layer → Img → Prop} {M : Mode → Mode} {s s' : GState} {lo lo' : Nat} (hk : KeepsTree s s' lo) (hlo : lo' ≤ lo)
    (g : List Layer) (gi n : Nat) (h1 : ∀ k, k < n + g.length → (s'.items gi)[k]? = (s.items gi)[k]?)
    (h2 : ∀ j k, s.objs.length ≤ j → s'.parentOf j = some (gi, k) → n + g.length ≤ k)
    (hr : RepList P M s lo g gi n) : RepList P M s' lo' g gi n := by
  match g with
  | [] => unfold RepList; trivial
  | ⟨name, b, mode, inv, tr, im⟩ :: rest =>
    unfold RepList at hr ⊢
    obtain ⟨⟨it, e1, e2, e3, e4, e5, e6, e7⟩, e8⟩ := hr
    rw [List.length_cons] at h1 h2
    refine ⟨⟨it, ?_, e2, e3, e4, e5, e6, ?_⟩, ?_⟩
    · rw [h1 n (by omega)]; exact e1
    · refine RepImg.keep hk hlo im _ it gi n ?_ e7
      intro j hj hp
      have := h2 j n hj hp
      omega
    · refine RepList.keep hk hlo rest gi (n + 1) ?_ ?_ e8
      · intro k hk; exact h1 k (by omega)
      · intro j k hj hp
        have := h2 j k hj hp
        omega
termination_by structural g
end

/-! ### The tree -/

theorem childAt_some {s : GState} (hi : GInv s) {P : List Nat} {gi k c : Nat} (hc : c ∈ P) (hp : s.parentOf c = some (gi, k)) :
    childAt s P gi k = some c := by
  unfold childAt
  cases hf : P.find? fun c => s.parentOf c = some (gi, k) with
  | none =>
    have := List.find?_eq_none.1 hf c hc
    simp [hp] at this
  | some d =>
    have h2 := List.find?_some hf
    simp at h2
    rw [hi.uniq d c _ h2 hp]

theorem childAt_none {s : GState} {P : List Nat} {gi k : Nat} (h : ∀ c, s.parentOf c ≠ some (gi, k)) : childAt s P gi k = none := by
  unfold childAt
  rw [List.find?_eq_none]
  intro c _
  simp [h c]

/-- what is built for the items of group `gi` from `n` on -/
def treeFrom (s : GState) (Q : List Nat) (f gi n : Nat) : List Layer :=
  ((s.items gi).drop n).mapIdx fun k l =>
    ⟨l.name, l.bounds, l.mode, l.invisible, l.transparency,
      match childAt s Q gi (n + k) with
      | some c => .group (groupTree s Q f c)
      | none =>
        match l.image with
        | .val i => i
        | .slice _ => .nil⟩

theorem groupTree_from (s : GState) (Q : List Nat) (f gi : Nat) : groupTree s Q (f + 1) gi = treeFrom s Q f gi 0 := by
  unfold treeFrom
  rw [groupTree, List.drop_zero]
  congr 1
  funext k l
  rw [Nat.zero_add]
  cases childAt s Q gi k with
  | some c => rfl
  | none => cases l.image <;> rfl

theorem treeFrom_cons {s : GState} {Q : List Nat} {f gi n : Nat} {it : HLayer} (h : (s.items gi)[n]? = some it) :
    treeFrom s Q f gi n = ⟨it.name, it.bounds, it.mode, it.invisible, it.transparency,
      match childAt s Q gi n with
      | some c => .group (groupTree s Q f c)
      | none =>
        match it.image with
        | .val i => i
        | .slice _ => .nil⟩ :: treeFrom s Q f gi (n + 1) := by
  unfold treeFrom
  obtain ⟨hl, he⟩ := List.getElem?_eq_some_iff.1 h
  rw [List.drop_eq_getElem_cons hl, he, List.mapIdx_cons]
  simp only [Nat.add_zero]
  congr 2
  funext k l
  rw [show n + (k + 1) = n + 1 + k by omega]

mutual
theorem RepImg.same {P : Layer → Img → Prop} {M : Mode → Mode} {s : GState} (hi : GInv s) {lo : Nat}
    (i : Img) (l : Layer) (it : HLayer) (gi k : Nat) (f : Nat) (hf : s.objs.length ≤ f + gi + 1) (hg : gi < s.objs.length)
    (hr : RepImg P M s lo l i it gi k) :
    SameImg P M l i (match childAt s (s.map.map (·.2)) gi k with
      | some c => .group (groupTree s (s.map.map (·.2)) f c)
      | none =>
        match it.image with
        | .val i => i
        | .slice _ => .nil) := by
  match i with
  | .group g =>
    unfold RepImg at hr
    obtain ⟨c, h1, h2, h3, h4, h5, h6⟩ := hr
    have hca := childAt_some hi h3 h4
    have hlt := (childAt_lt hi hca).1
    rw [hca]
    unfold SameImg
    refine ⟨_, rfl, ?_⟩
    obtain ⟨f, rfl⟩ : ∃ f', f = f' + 1 := ⟨f - 1, by omega⟩
    rw [groupTree_from]
    exact RepList.same hi g c 0 f (by omega) h2 (by omega) h6
  | .leaf _ =>
    unfold RepImg at hr; unfold SameImg
    obtain ⟨h1, j, h2, h3⟩ := hr
    rw [childAt_none h1, h2]; exact h3
  | .nil =>
    unfold RepImg at hr; unfold SameImg
    obtain ⟨h1, j, h2, h3⟩ := hr
    rw [childAt_none h1, h2]; exact h3
  | .text _ _ =>
    unfold RepImg at hr; unfold SameImg
    obtain ⟨h1, j, h2, h3⟩ := hr
    rw [childAt_none h1, h2]; exact h3
  | .masked _ _ =>
    unfold RepImg at hr; unfold SameImg
    obtain ⟨h1, j, h2, h3⟩ := hr
    rw [childAt_none h1, h2]; exact h3
termination_by structural i

theorem RepList.same {P : Layer → Img → Prop} {M : Mode → Mode} {s : GState} (hi : GInv s) {lo : Nat}
    (g : List Layer) (gi n : Nat) (f : Nat) (hf : s.objs.length ≤ f + gi + 1) (hg : gi < s.objs.length)
    (hl : (s.items gi).length = n + g.length)
    (hr : RepList P M s lo g gi n) : SameTree P M g (treeFrom s (s.map.map (·.2)) f gi n) := by
  match g with
  | [] =>
    have e : treeFrom s (s.map.map (·.2)) f gi n = [] := by
      unfold treeFrom
      rw [List.drop_eq_nil_of_le (by rw [hl]; exact Nat.le_refl _)]
      rfl
    rw [e]
    unfold SameTree
    trivial
  | ⟨name, b, mode, inv, tr, im⟩ :: rest =>
    unfold RepList at hr
    obtain ⟨⟨it, e1, e2, e3, e4, e5, e6, e7⟩, e8⟩ := hr
    rw [treeFrom_cons e1]
    unfold SameTree
    rw [List.length_cons] at hl
    refine ⟨⟨e2, e3, e4, e5, e6, ?_⟩, RepList.same hi rest gi (n + 1) f hf hg (by omega) e8⟩
    exact RepImg.same hi im _ it gi n f hf hg e7
termination_by structural g
end

/-! ### Adding layers -/

/-- the next layer of group `gi`, which is at `path` and at `(ox, oy)`, has number `n` -/
structure AddsTo (s : GState) (gi n : Nat) (ox oy : Int) (path : List Nat) : Prop where
  inv : GInv s
  key : lookupKey s.map path = some gi
  obj : ∃ par, s.objs[gi]? = some ⟨gi, ox, oy, par⟩
  len : (s.items gi).length = n
  cnt : path = [] → s.n = UInt32.ofNat n
  fresh : ∀ m k, n ≤ m → lookupKey s.map (path ++ m :: k) = none
  alpha : s.alpha = true

/-- `s'` is `s` with `len` more layers in group `gi`, and what is inside of them -/
structure Grows (s s' : GState) (gi n : Nat) (path : List Nat) (len : Nat) : Prop where
  inv : GInv s'
  objs : ∀ (j : Nat) (o : GroupObj), s.objs[j]? = some o → s'.objs[j]? = some o
  items : ∀ j, j < s.objs.length → j ≠ gi → s'.items j = s.items j
  own : ∃ new, s'.items gi = s.items gi ++ new ∧ new.length = len
  parents : ∀ j p k, s.objs.length ≤ j → s'.parentOf j = some (p, k) → p = gi ∧ n ≤ k ∨ s.objs.length ≤ p
  lookups : ∀ key, (∀ m k, n ≤ m → key ≠ path ++ m :: k) → lookupKey s'.map key = lookupKey s.map key
  vals : ∀ v ∈ s.map.map (·.2), v ∈ s'.map.map (·.2)
  cnt : s'.n = if path = [] then s.n + UInt32.ofNat len else s.n
  alpha : s'.alpha = true

theorem assignKey_fresh {m : List (Key × Nat)} {k : Key} {v : Nat} (h : lookupKey m k = none) : assignKey m k v = m ++ [(k, v)] := by
  unfold assignKey
  congr 1
  rw [List.filter_eq_self]
  intro e he
  unfold lookupKey at h
  have := List.find?_eq_none.1 (Option.map_eq_none_iff.1 h) e he
  simpa using this

theorem pathKey_nat {path : List Nat} (h : ∀ n ∈ path, n < 0xd800) : pathKey (path.map UInt32.ofNat) = path := by
  unfold pathKey
  rw [List.map_map]
  conv => rhs; rw [← List.map_id path]
  apply List.map_congr_left
  intro n hn
  have := h n hn
  show runeKey (UInt32.ofNat n) = n
  unfold runeKey
  rw [u32_toNat (by omega), if_pos (.inl this)]

theorem makeGroups_append {b : Rect} : ∀ {l1 l2 : List DLayer} {s s' : GState}, makeGroups b l1 s = .ok s' →
    makeGroups b (l1 ++ l2) s = makeGroups b l2 s'
  | [], l2, s, s', h => by cases h; rfl
  | l :: l1, l2, s, s', h => by
    rw [List.cons_append]
    unfold makeGroups at h
    conv => lhs; unfold makeGroups
    cases hs : groupStep b l s with
    | error e => rw [hs] at h; cases h
    | ok s1 =>
      rw [hs] at h
      exact makeGroups_append h

theorem groupStep_exists {b : Rect} {d : DLayer} {s : GState} {gi : Nat} {o : GroupObj} (ha : s.alpha = true)
    (hk : lookupKey s.map (pathKey (layerPlace s.n d).dropLast) = some gi) (ho : s.objs[gi]? = some o) :
    ∃ s1, groupStep b d s = .ok s1 := by
  unfold groupStep
  unfold layerPlace at hk
  rw [if_neg (by rw [ha]; decide)]
  dsimp only
  rw [hk]
  dsimp only
  rw [ho]
  dsimp only
  split
  · exact ⟨_, rfl⟩
  · exact ⟨_, rfl⟩

theorem step_back {P : Layer → Img → Prop} {M : Mode → Mode} {W H : Int} {s : GState} {gi n : Nat} {ox oy : Int} {path : List Nat}
    (hp : AddsTo s gi n ox oy path) {l : Layer} {d : DLayer}
    (hd : LayerGot P M ⟨l, ox + l.bounds.x0, oy + l.bounds.y0, path ++ [n]⟩ d)
    (hs : OnCanvas W H ⟨l, ox + l.bounds.x0, oy + l.bounds.y0, path ++ [n]⟩) :
    ∃ s1, groupStep ⟨0, 0, W, H⟩ d s = .ok s1 ∧ GInv s1 ∧
      (∀ j, s1.items j = if j = gi then s.items gi ++ [⟨l.name, l.bounds, M l.mode, l.invisible, l.transparency, .val d.layer.image⟩]
        else s.items j) ∧
      s1.n = (if path = [] then s.n + 1 else s.n) ∧ s1.alpha = true ∧
      (isGroupLayer l = false → s1.objs = s.objs ∧ s1.map = s.map) ∧
      (isGroupLayer l = true → s1.objs = s.objs ++ [⟨s.objs.length, ox + l.bounds.x0, oy + l.bounds.y0, some (gi, n)⟩] ∧
        s1.map = s.map ++ [(path ++ [n], s.objs.length)]) := by
  have hpath : ∀ m ∈ path ++ [n], m < 0xd800 := hs.path
  have hpl : layerPlace s.n d = (path ++ [n]).map UInt32.ofNat := by
    unfold layerPlace
    rw [hd.itemPath]
    dsimp only
    by_cases h0 : path = []
    · rw [h0, hp.cnt h0]
      rfl
    · rw [if_pos (show 1 < (path ++ [n]).length by
        have := List.length_pos_iff.2 h0
        rw [List.length_append, List.length_singleton]; omega), if_neg (by simp)]
  have hip : d.itemPath = [] ↔ path = [] := by
    rw [hd.itemPath]
    dsimp only
    by_cases h0 : path = []
    · rw [h0]; simp
    · rw [if_pos (show 1 < (path ++ [n]).length by
        have := List.length_pos_iff.2 h0
        rw [List.length_append, List.length_singleton]; omega)]
      simp [h0]
  have hkey : pathKey (layerPlace s.n d).dropLast = path := by
    rw [hpl, ← List.map_dropLast, List.dropLast_concat, pathKey_nat fun m hm => hpath m (List.mem_append_left _ hm)]
  obtain ⟨par, ho⟩ := hp.obj
  have hk : lookupKey s.map (pathKey (layerPlace s.n d).dropLast) = some gi := by rw [hkey]; exact hp.key
  obtain ⟨s1, h1⟩ := groupStep_exists (b := ⟨0, 0, W, H⟩) hp.alpha hk ho
  obtain ⟨gi', o, hl, g1, g2, g3, g4, g5, g6, g7, g8, g9⟩ := groupStep_ok hp.inv h1
  rw [hk] at g3
  cases g3
  rw [ho] at g2
  cases g2
  have hb : (d.layer.bounds.inter ⟨0, 0, W, H⟩).sub ⟨ox, oy⟩ = l.bounds := by
    obtain ⟨x1, x2, x3⟩ := hs.x
    obtain ⟨y1, y2, y3⟩ := hs.y
    dsimp only at x1 x2 x3 y1 y2 y3
    rw [hd.bounds]
    unfold Rect.inter Rect.empty Rect.sub
    dsimp only
    unfold Rect.dx at x2 x3 ⊢
    unfold Rect.dy at y2 y3 ⊢
    rw [if_neg (by simp; omega)]
    cases hb : l.bounds with
    | mk x0 y0 x1' y1' =>
      rw [hb] at x1 x2 x3 y1 y2 y3
      dsimp only at x1 x2 x3 y1 y2 y3
      simp only [Rect.mk.injEq]
      omega
  refine ⟨s1, h1, groupStep_inv hp.inv h1, ?_, ?_, ?_, ?_, ?_⟩
  · intro j
    rw [g5 j, g4, hb, hd.name, hd.mode, hd.invisible, hd.transparency]
  · rw [g6]; simp only [hip]
  · rw [g7, hd.alpha]
  · intro h
    exact g8 (by rw [hd.group]; exact h)
  · intro h
    obtain ⟨a, b⟩ := g9 (by rw [hd.group]; exact h)
    refine ⟨?_, ?_⟩
    · rw [a, hd.bounds, hp.len]
    · rw [b, hpl, pathKey_nat hpath, assignKey_fresh (hp.fresh n [] (Nat.le_refl _))]

/-- a layer that is not a group, added and followed by others -/
theorem grow_leaf {s s1 s3 : GState} {gi n len : Nat} {path : List Nat} {it : HLayer}
    (h1 : ∀ j, s1.items j = if j = gi then s.items gi ++ [it] else s.items j)
    (h2 : s1.n = (if path = [] then s.n + 1 else s.n)) (h3 : s1.objs = s.objs) (h4 : s1.map = s.map)
    (hg : Grows s1 s3 gi (n + 1) path len) : Grows s s3 gi n path (len + 1) where
  inv := hg.inv
  objs j o h := hg.objs j o (by rw [h3]; exact h)
  items j hj hne := by rw [hg.items j (by rw [h3]; exact hj) hne, h1, if_neg hne]
  own := by
    obtain ⟨new, a, b⟩ := hg.own
    refine ⟨it :: new, ?_, ?_⟩
    · rw [a, h1, if_pos rfl, List.append_assoc]; rfl
    · rw [List.length_cons, b]
  parents j p k hj h := by
    have := hg.parents j p k (by rw [h3]; exact hj) h
    rw [h3] at this
    omega
  lookups key hk := by
    rw [hg.lookups key fun m k hm => hk m k (by omega), h4]
  vals v hv := hg.vals v (by rw [h4]; exact hv)
  cnt := by
    rw [hg.cnt, h2]
    split
    · rw [UInt32.ofNat_add, UInt32.add_assoc, UInt32.add_comm 1]; rfl
    · rfl
  alpha := hg.alpha

/-- a group -/
theorem grow_group {s s1 s2 s3 : GState} {gi n len len' : Nat} {ox oy ox' oy' : Int} {path : List Nat} {it : HLayer}
    (hp : AddsTo s gi n ox oy path)
    (h1 : ∀ j, s1.items j = if j = gi then s.items gi ++ [it] else s.items j)
    (h2 : s1.n = (if path = [] then s.n + 1 else s.n)) (h3 : s1.objs = s.objs ++ [⟨s.objs.length, ox', oy', some (gi, n)⟩])
    (h4 : s1.map = s.map ++ [(path ++ [n], s.objs.length)])
    (hg : Grows s1 s2 s.objs.length 0 (path ++ [n]) len') (hg' : Grows s2 s3 gi (n + 1) path len) : Grows s s3 gi n path (len + 1) := by
  obtain ⟨par, ho⟩ := hp.obj
  have hgi : gi < s.objs.length := (List.getElem?_eq_some_iff.1 ho).1
  have l1 : s1.objs.length = s.objs.length + 1 := by rw [h3, List.length_append]; rfl
  have l2 := len_of_prefix hg.objs
  have o1 : ∀ (j : Nat) (o : GroupObj), s.objs[j]? = some o → s1.objs[j]? = some o := by
    intro j o h
    rw [h3, List.getElem?_append_left (List.getElem?_eq_some_iff.1 h).1]
    exact h
  have i2 : ∀ j, j < s.objs.length → s2.items j = s1.items j := fun j hj => hg.items j (by omega) (by omega)
  exact {
    inv := hg'.inv
    objs := fun j o h => hg'.objs j o (hg.objs j o (o1 j o h))
    items := fun j hj hne => by
      rw [hg'.items j (by omega) hne, i2 j hj, h1, if_neg hne]
    own := by
      obtain ⟨new, a, b⟩ := hg'.own
      refine ⟨it :: new, ?_, ?_⟩
      · rw [a, i2 gi hgi, h1, if_pos rfl, List.append_assoc]; rfl
      · rw [List.length_cons, b]
    parents := fun j p k hj h => by
      rcases Nat.lt_or_ge j s2.objs.length with hlt | hge
      · rw [parentOf_prefix hg'.objs hlt] at h
        rcases Nat.lt_or_ge j s1.objs.length with hlt1 | hge1
        · rw [parentOf_prefix hg.objs hlt1] at h
          have : j = s.objs.length := by omega
          subst this
          unfold GState.parentOf at h
          rw [h3, List.getElem?_append_right (Nat.le_refl _), Nat.sub_self] at h
          cases h
          exact .inl ⟨rfl, Nat.le_refl _⟩
        · have := hg.parents j p k hge1 h
          omega
      · have := hg'.parents j p k hge h
        omega
    lookups := fun key hk => by
      rw [hg'.lookups key fun m k hm => hk m k (by omega), hg.lookups key fun m k hm h => hk n (m :: k) (Nat.le_refl _) (by
        rw [h, List.append_assoc]; rfl), h4]
      unfold lookupKey
      rw [List.find?_append]
      have : (List.find? (fun e : Key × Nat => decide (e.1 = key)) [(path ++ [n], s.objs.length)]) = none := by
        have := hk n [] (Nat.le_refl _)
        simp [Ne.symm this]
      rw [this, Option.or_none]
    vals := fun v hv => hg'.vals v (hg.vals v (by rw [h4, List.map_append]; exact List.mem_append_left _ hv))
    cnt := by
      rw [hg'.cnt, hg.cnt, if_neg (show path ++ [n] ≠ [] by simp), h2]
      split
      · rw [UInt32.ofNat_add, UInt32.add_assoc, UInt32.add_comm 1]; rfl
      · rfl
    alpha := hg'.alpha }

/-- the rest of a group, after a layer that is not a group -/
theorem AddsTo.leaf {s s1 : GState} {gi n : Nat} {ox oy : Int} {path : List Nat} {it : HLayer} (hp : AddsTo s gi n ox oy path) (hi : GInv s1)
    (h1 : ∀ j, s1.items j = if j = gi then s.items gi ++ [it] else s.items j)
    (h2 : s1.n = (if path = [] then s.n + 1 else s.n)) (h3 : s1.objs = s.objs) (h4 : s1.map = s.map) (h5 : s1.alpha = true) :
    AddsTo s1 gi (n + 1) ox oy path where
  inv := hi
  key := by rw [h4]; exact hp.key
  obj := by rw [h3]; exact hp.obj
  len := by rw [h1, if_pos rfl, List.length_append, hp.len]; rfl
  cnt h := by rw [h2, if_pos h, hp.cnt h, UInt32.ofNat_add]; rfl
  fresh m k hm := by rw [h4]; exact hp.fresh m k (by omega)
  alpha := h5

/-- the layers of a new group -/
theorem AddsTo.inside {s s1 : GState} {gi n : Nat} {ox oy ox' oy' : Int} {path : List Nat} {it : HLayer} (hp : AddsTo s gi n ox oy path) (hi : GInv s1)
    (h1 : ∀ j, s1.items j = if j = gi then s.items gi ++ [it] else s.items j)
    (h3 : s1.objs = s.objs ++ [⟨s.objs.length, ox', oy', some (gi, n)⟩])
    (h4 : s1.map = s.map ++ [(path ++ [n], s.objs.length)]) (h5 : s1.alpha = true) :
    AddsTo s1 s.objs.length 0 ox' oy' (path ++ [n]) where
  inv := hi
  key := by
    rw [h4, ← assignKey_fresh (hp.fresh n [] (Nat.le_refl _)), lookupKey_assign_eq]
  obj := by rw [h3, List.getElem?_append_right (Nat.le_refl _), Nat.sub_self]; exact ⟨_, rfl⟩
  len := by
    obtain ⟨par, ho⟩ := hp.obj
    have hgi : gi < s.objs.length := (List.getElem?_eq_some_iff.1 ho).1
    rw [h1, if_neg (by omega)]
    unfold GState.items
    rw [List.getD_eq_getElem?_getD, List.getElem?_eq_none (by rw [hp.inv.len])]
    rfl
  cnt h := by simp at h
  fresh m k _ := by
    rw [h4, ← assignKey_fresh (hp.fresh n [] (Nat.le_refl _)), lookupKey_assign_ne (by simp), List.append_assoc]
    exact hp.fresh n (m :: k) (Nat.le_refl _)
  alpha := h5

/-- the rest of a group, after a group -/
theorem AddsTo.group {s s1 s2 : GState} {gi n len' : Nat} {ox oy ox' oy' : Int} {path : List Nat} {it : HLayer} (hp : AddsTo s gi n ox oy path)
    (h1 : ∀ j, s1.items j = if j = gi then s.items gi ++ [it] else s.items j)
    (h2 : s1.n = (if path = [] then s.n + 1 else s.n)) (h3 : s1.objs = s.objs ++ [⟨s.objs.length, ox', oy', some (gi, n)⟩])
    (h4 : s1.map = s.map ++ [(path ++ [n], s.objs.length)])
    (hg : Grows s1 s2 s.objs.length 0 (path ++ [n]) len') : AddsTo s2 gi (n + 1) ox oy path := by
  obtain ⟨par, ho⟩ := hp.obj
  have hgi : gi < s.objs.length := (List.getElem?_eq_some_iff.1 ho).1
  have l1 : s1.objs.length = s.objs.length + 1 := by rw [h3, List.length_append]; rfl
  have e4 : ∀ key, key ≠ path ++ [n] → lookupKey s1.map key = lookupKey s.map key := by
    intro key hk
    rw [h4, ← assignKey_fresh (hp.fresh n [] (Nat.le_refl _)), lookupKey_assign_ne hk]
  exact {
    inv := hg.inv
    key := by
      rw [hg.lookups path fun m k _ h => by
        have := congrArg List.length h
        simp at this, e4 path (by
          intro h
          have := congrArg List.length h
          simp at this)]
      exact hp.key
    obj := ⟨par, hg.objs gi _ (by rw [h3, List.getElem?_append_left hgi]; exact ho)⟩
    len := by rw [hg.items gi (by omega) (by omega), h1, if_pos rfl, List.length_append, hp.len]; rfl
    cnt := fun h => by rw [hg.cnt, if_neg (by simp), h2, if_pos h, hp.cnt h, UInt32.ofNat_add]; rfl
    fresh := fun m k hm => by
      rw [hg.lookups _ fun m' k' _ h => by
        rw [List.append_assoc] at h
        have := List.append_cancel_left h
        simp at this
        omega, e4 _ (by
          intro h
          have := List.append_cancel_left h
          simp at this
          omega)]
      exact hp.fresh m k (by omega)
    alpha := hg.alpha }

theorem keepsTree_refl (s : GState) (lo : Nat) : KeepsTree s s lo where
  objs _ _ h := h
  vals _ h := h
  items _ _ _ := rfl
  fresh j p k hj h _ := by
    have := parentOf_lt h
    omega

mutual
theorem build_img {P : Layer → Img → Prop} {M : Mode → Mode} {W H : Int} (i : Img) (g : List Layer) (hg : i = .group g) (ox oy : Int)
    (path : List Nat) (gi : Nat) (ds : List DLayer) (s : GState) (hp : AddsTo s gi 0 ox oy path)
    (hd : List.Forall₂ (LayerGot P M) (placedIn i ox oy path) ds) (hs : ∀ r ∈ placedIn i ox oy path, OnCanvas W H r) :
    ∃ s', makeGroups ⟨0, 0, W, H⟩ ds s = .ok s' ∧ Grows s s' gi 0 path g.length ∧
      RepList P M s' s.objs.length g gi 0 := by
  match i with
  | .group g' =>
    injection hg with hg
    subst hg
    unfold placedIn at hd hs
    exact build_list g' 0 ox oy path gi ds s hp hd hs
  | .leaf _ => cases hg
  | .nil => cases hg
  | .text _ _ => cases hg
  | .masked _ _ => cases hg
termination_by structural i

theorem build_list {P : Layer → Img → Prop} {M : Mode → Mode} {W H : Int} (g : List Layer) (n : Nat) (ox oy : Int)
    (path : List Nat) (gi : Nat) (ds : List DLayer) (s : GState) (hp : AddsTo s gi n ox oy path)
    (hd : List.Forall₂ (LayerGot P M) (placed g n ox oy path) ds) (hs : ∀ r ∈ placed g n ox oy path, OnCanvas W H r) :
    ∃ s', makeGroups ⟨0, 0, W, H⟩ ds s = .ok s' ∧ Grows s s' gi n path g.length ∧
      RepList P M s' s.objs.length g gi n := by
  match g with
  | [] =>
    unfold placed at hd
    cases hd
    refine ⟨s, rfl, ?_, ?_⟩
    · exact {
        inv := hp.inv, objs := fun _ _ h => h, items := fun _ _ _ => rfl, own := ⟨[], by simp, rfl⟩
        parents := fun j p k hj h => by
          have := parentOf_lt h
          omega
        lookups := fun _ _ => rfl, vals := fun _ h => h
        cnt := by split <;> simp
        alpha := hp.alpha }
    · unfold RepList; trivial
  | ⟨name, b, mode, inv, tr, im⟩ :: rest =>
    unfold placed at hd hs
    obtain ⟨d, ds', hd1, hd2, rfl⟩ := List.forall₂_cons_left_iff.1 hd
    obtain ⟨ds1, ds2, hd3, hd4, rfl⟩ : ∃ ds1 ds2, List.Forall₂ (LayerGot P M) (placedIn im (ox + b.x0) (oy + b.y0) (path ++ [n])) ds1 ∧
        List.Forall₂ (LayerGot P M) (placed rest (n + 1) ox oy path) ds2 ∧ ds' = ds1 ++ ds2 := by
      refine ⟨ds'.take (placedIn im (ox + b.x0) (oy + b.y0) (path ++ [n])).length,
        ds'.drop (placedIn im (ox + b.x0) (oy + b.y0) (path ++ [n])).length, ?_, ?_, (List.take_append_drop _ _).symm⟩
      · have := List.forall₂_take (placedIn im (ox + b.x0) (oy + b.y0) (path ++ [n])).length hd2
        rwa [List.take_left] at this
      · have := List.forall₂_drop (placedIn im (ox + b.x0) (oy + b.y0) (path ++ [n])).length hd2
        rwa [List.drop_left] at this
    have hs1 := hs _ (List.mem_cons_self ..)
    obtain ⟨s1, e1, e2, e3, e4, e5, e6, e7⟩ := step_back hp (l := ⟨name, b, mode, inv, tr, im⟩) hd1 hs1
    obtain ⟨par, ho⟩ := hp.obj
    have hgi : gi < s.objs.length := (List.getElem?_eq_some_iff.1 ho).1
    have hno : ∀ c, s.parentOf c ≠ some (gi, n) := by
      intro c hc
      have hcl := parentOf_lt hc
      unfold GState.parentOf at hc
      rw [List.getElem?_eq_getElem hcl] at hc
      rcases Nat.eq_zero_or_pos c with h0 | h0
      · obtain ⟨o, h1, h2⟩ := hp.inv.root
        subst h0
        rw [List.getElem?_eq_getElem hcl] at h1
        cases h1
        simp [h2] at hc
      · obtain ⟨p, k, h1, h2, h3⟩ := hp.inv.parent c _ (List.getElem?_eq_getElem hcl) h0
        simp only [Option.bind_some, h1, Option.some.injEq, Prod.mk.injEq] at hc
        obtain ⟨rfl, rfl⟩ := hc
        have := hp.len
        omega
    cases hgl : isGroupLayer ⟨name, b, mode, inv, tr, im⟩ with
    | true =>
      obtain ⟨g', hg'⟩ : ∃ g', im = .group g' := by
        unfold isGroupLayer at hgl
        cases im with
        | group g' => exact ⟨g', rfl⟩
        | leaf => cases hgl
        | nil => cases hgl
        | text => cases hgl
        | masked => cases hgl
      obtain ⟨a1, a2⟩ := e7 hgl
      obtain ⟨s2, f1, f2, f3⟩ := build_img im g' hg' (ox + b.x0) (oy + b.y0) (path ++ [n]) s.objs.length ds1 s1
        (hp.inside e2 e3 a1 a2 e5) hd3 (fun r hr => hs r (List.mem_cons_of_mem _ (List.mem_append_left _ hr)))
      obtain ⟨s3, k1, k2, k3⟩ := build_list rest (n + 1) ox oy path gi ds2 s2 (hp.group e3 e4 a1 a2 f2) hd4
        (fun r hr => hs r (List.mem_cons_of_mem _ (List.mem_append_right _ hr)))
      have l1 : s1.objs.length = s.objs.length + 1 := by rw [a1, List.length_append]; rfl
      have l2 := len_of_prefix f2.objs
      refine ⟨s3, ?_, grow_group hp e3 e4 a1 a2 f2 k2, ?_⟩
      · unfold makeGroups
        rw [e1]
        dsimp only
        rw [makeGroups_append f1]
        exact k1
      · unfold RepList
        obtain ⟨new, w1, w2⟩ := k2.own
        have hc : s.objs.length ≠ gi := by omega
        have i3 : s3.items s.objs.length = s2.items s.objs.length := k2.items _ (by omega) hc
        have n1 := (hp.inside e2 e3 a1 a2 e5).len
        obtain ⟨new', w3, w4⟩ := f2.own
        refine ⟨⟨⟨name, b, M mode, inv, tr, .val d.layer.image⟩, ?_, rfl, rfl, rfl, rfl, rfl, ?_⟩, RepList.keep (keepsTree_refl s3 _) (by omega) rest gi (n + 1) (fun _ _ => rfl)
          (fun j k hj h => by have := parentOf_lt h; omega) k3⟩
        · rw [w1, f2.items gi (by omega) (by omega), e3, if_pos rfl, List.append_assoc,
            List.getElem?_append_right (by rw [hp.len]), hp.len, Nat.sub_self]
          rfl
        · have l3 := len_of_prefix k2.objs
          have hr : RepImg P M s3 s.objs.length ⟨name, b, mode, inv, tr, im⟩ (.group g')
              ⟨name, b, M mode, inv, tr, .val d.layer.image⟩ gi n := by
            unfold RepImg
            refine ⟨s.objs.length, Nat.le_refl _, by omega, ?_, ?_, ?_, ?_⟩
            · refine k2.vals _ (f2.vals _ ?_)
              rw [a2, List.map_append]
              exact List.mem_append_right _ (List.mem_singleton.2 rfl)
            · rw [parentOf_prefix k2.objs (by omega), parentOf_prefix f2.objs (by omega)]
              unfold GState.parentOf
              rw [a1, List.getElem?_append_right (Nat.le_refl _), Nat.sub_self]
              rfl
            · rw [i3, w3, List.length_append, n1, w4, Nat.zero_add]
            · refine RepList.keep (lo := s1.objs.length) ?_ (by omega) g' s.objs.length 0 (fun k _ => by rw [i3]) ?_ f3
              · exact {
                  objs := k2.objs, vals := k2.vals
                  items := fun j h1 h2 => k2.items j h2 (by omega)
                  fresh := fun j p k h1 h2 h3 => by
                    have := k2.parents j p k h1 h2
                    omega }
              · intro j k hj h
                have := k2.parents j _ k hj h
                omega
          rw [← hg'] at hr
          exact hr
    | false =>
      obtain ⟨a1, a2⟩ := e6 hgl
      have hpl : placedIn im (ox + b.x0) (oy + b.y0) (path ++ [n]) = [] := by
        unfold isGroupLayer at hgl
        cases im with
        | group g' => cases hgl
        | leaf => rfl
        | nil => rfl
        | text => rfl
        | masked => rfl
      rw [hpl] at hd3
      cases hd3
      obtain ⟨s3, k1, k2, k3⟩ := build_list rest (n + 1) ox oy path gi ds2 s1 (hp.leaf e2 e3 e4 a1 a2 e5) hd4
        (fun r hr => hs r (List.mem_cons_of_mem _ (List.mem_append_right _ hr)))
      refine ⟨s3, ?_, grow_leaf e3 e4 a1 a2 k2, ?_⟩
      · unfold makeGroups
        rw [e1]
        exact k1
      · unfold RepList
        obtain ⟨new, w1, w2⟩ := k2.own
        refine ⟨⟨⟨name, b, M mode, inv, tr, .val d.layer.image⟩, ?_, rfl, rfl, rfl, rfl, rfl, ?_⟩, RepList.keep (keepsTree_refl s3 _) (by rw [a1]) rest gi (n + 1)
          (fun _ _ => rfl) (fun j k hj h => by have := parentOf_lt h; omega) k3⟩
        · rw [w1, e3, if_pos rfl, List.append_assoc,
            List.getElem?_append_right (by rw [hp.len]), hp.len, Nat.sub_self]
          rfl
        · have hr : RepLeaf P s3 ⟨name, b, mode, inv, tr, im⟩
              ⟨name, b, M mode, inv, tr, .val d.layer.image⟩ gi n := by
            refine ⟨?_, _, rfl, hd1.image hgl⟩
            intro c hc
            rcases Nat.lt_or_ge c s1.objs.length with hlt | hge
            · rw [parentOf_prefix k2.objs hlt] at hc
              unfold GState.parentOf at hc
              rw [a1] at hc
              exact hno c hc
            · have := k2.parents c gi n hge hc
              rw [a1] at this
              omega
          unfold isGroupLayer at hgl
          cases im with
          | group g' => cases hgl
          | leaf => unfold RepImg; exact hr
          | nil => unfold RepImg; exact hr
          | text => unfold RepImg; exact hr
          | masked => unfold RepImg; exact hr
termination_by structural g
end

end Limage
