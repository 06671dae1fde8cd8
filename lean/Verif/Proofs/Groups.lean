import Verif.Model.XcfDecode
/-! Building the tree of groups. -/
namespace Limage

/-- the parent slot of a group object -/
def GState.parentOf (s : GState) (i : Nat) : Option (Nat × Nat) := (s.objs[i]?).bind (·.parent)

/-- the layers of a group -/
def GState.items (s : GState) (i : Nat) : List HLayer := s.arrays.getD i []

/-- What `makeGroups` establishes. -/
structure GInv (s : GState) : Prop where
  len : s.arrays.length = s.objs.length
  cur : ∀ (i : Nat) (g : GroupObj), s.objs[i]? = some g → g.cur = i
  root : ∃ g, s.objs[0]? = some g ∧ g.parent = none
  parent : ∀ (i : Nat) (g : GroupObj), s.objs[i]? = some g → 0 < i → ∃ p k, g.parent = some (p, k) ∧ p < i ∧ k < (s.items p).length
  uniq : ∀ (i j : Nat) (x : Nat × Nat), s.parentOf i = some x → s.parentOf j = some x → i = j
  nodup : (s.map.map (·.2)).Nodup
  lt : ∀ (e : Key × Nat), e ∈ s.map → e.2 < s.objs.length
  rootKey : lookupKey s.map [] = some 0
  vals : ∀ (a : List HLayer), a ∈ s.arrays → ∀ (l : HLayer), l ∈ a → ∃ i, l.image = .val i

theorem GInv.pos {s : GState} (h : GInv s) : 0 < s.objs.length := by
  obtain ⟨g, h1, _⟩ := h.root
  exact (List.getElem?_eq_some_iff.1 h1).1

theorem ginv_start : GInv GState.start where
  len := rfl
  cur := by
    intro i g h
    cases i with
    | zero => cases h; rfl
    | succ i => simp [GState.start] at h
  root := ⟨_, rfl, rfl⟩
  parent := by
    intro i g h hi
    cases i with
    | zero => omega
    | succ i => simp [GState.start] at h
  uniq := by
    intro i j x h
    cases i with
    | zero => cases h
    | succ i => simp [GState.start, GState.parentOf] at h
  nodup := by simp [GState.start]
  lt := by simp [GState.start]
  rootKey := rfl
  vals := by simp [GState.start]

theorem lookupKey_mem {m : List (Key × Nat)} {k : Key} {v : Nat} (h : lookupKey m k = some v) : (k, v) ∈ m := by
  unfold lookupKey at h
  cases hf : m.find? fun e => e.1 = k with
  | none => rw [hf] at h; cases h
  | some e =>
    rw [hf] at h; cases h
    have h1 := List.mem_of_find?_eq_some hf
    have h2 := List.find?_some hf
    simp at h2
    rw [← h2]; exact h1

theorem lookupKey_assign_ne {m : List (Key × Nat)} {k k' : Key} {v : Nat} (h : k' ≠ k) :
    lookupKey (assignKey m k v) k' = lookupKey m k' := by
  unfold lookupKey assignKey
  rw [List.find?_append, List.find?_filter]
  have h2 : (List.find? (fun e : Key × Nat => decide (e.1 = k')) [(k, v)]) = none := by
    simp [Ne.symm h]
  rw [h2, Option.or_none]
  congr 2
  funext e
  by_cases he : e.1 = k'
  · simp [he, h]
  · simp [he]

theorem lookupKey_assign_eq {m : List (Key × Nat)} {k : Key} {v : Nat} :
    lookupKey (assignKey m k v) k = some v := by
  unfold lookupKey assignKey
  rw [List.find?_append]
  have : List.find? (fun e : Key × Nat => decide (e.1 = k)) (m.filter fun e => decide (e.1 ≠ k)) = none := by
    rw [List.find?_eq_none]
    intro x hx
    have := (List.mem_filter.1 hx).2
    simpa using this
  rw [this]
  simp

theorem groupStep_inv {bounds : Rect} {l : DLayer} {s s' : GState} (hi : GInv s) (h : groupStep bounds l s = .ok s') :
    GInv s' := by
  unfold groupStep at h
  by_cases ha : s.alpha = false
  · rw [if_pos ha] at h; cases h
  rw [if_neg ha] at h
  dsimp only at h
  generalize hpath : (if l.itemPath = [] then [s.n] else l.itemPath) = path at h
  generalize hn : (if l.itemPath = [] then s.n + 1 else s.n) = n' at h
  have hpne : path ≠ [] := by
    rw [← hpath]; split
    · simp
    · assumption
  cases hl : lookupKey s.map (pathKey path.dropLast) with
  | none => rw [hl] at h; cases h
  | some gi =>
    rw [hl] at h
    dsimp only at h
    cases hg : s.objs[gi]? with
    | none => rw [hg] at h; cases h
    | some g =>
      rw [hg] at h
      dsimp only at h
      have hgi : gi < s.objs.length := (List.getElem?_eq_some_iff.1 hg).1
      have hcur : g.cur = gi := hi.cur gi g hg
      generalize hhl : (⟨l.layer.name, (l.layer.bounds.inter bounds).sub ⟨g.ox, g.oy⟩, l.layer.mode, l.layer.invisible,
        l.layer.transparency, .val l.layer.image⟩ : HLayer) = hl' at h
      have hval : ∃ i, hl'.image = .val i := by rw [← hhl]; exact ⟨_, rfl⟩
      -- the lists of layers only grow
      have hitem : ∀ p, (((s.arrays.set g.cur (s.arrays.getD g.cur [] ++ [hl'])).getD p []).length ≥ (s.items p).length) := by
        intro p
        unfold GState.items
        rw [List.getD_eq_getElem?_getD, List.getD_eq_getElem?_getD, List.getElem?_set]
        by_cases hp : g.cur = p
        · rw [if_pos hp, if_pos (by rw [hcur, hi.len]; exact hgi), hp]
          simp
        · rw [if_neg hp]; exact Nat.le_refl _
      have hvals : ∀ a ∈ s.arrays.set g.cur (s.arrays.getD g.cur [] ++ [hl']), ∀ l ∈ a, ∃ i, l.image = .val i := by
        intro a ha l hl
        rcases List.mem_or_eq_of_mem_set ha with h1 | h1
        · exact hi.vals a h1 l hl
        · rw [h1] at hl
          rcases List.mem_append.1 hl with h2 | h2
          · rw [List.getD_eq_getElem?_getD] at h2
            cases hx : s.arrays[g.cur]? with
            | none => rw [hx] at h2; simp at h2
            | some x =>
              rw [hx] at h2
              exact hi.vals x (List.mem_of_getElem? hx) l h2
          · rw [List.mem_singleton.1 h2]; exact hval
      by_cases hgrp : l.group = true
      · rw [if_pos hgrp] at h
        cases h
        refine ⟨?_, ?_, ?_, ?_, ?_, ?_, ?_, ?_, ?_⟩
        · simp [hi.len]
        · intro i o ho
          rcases Nat.lt_or_ge i s.objs.length with h1 | h1
          · rw [List.getElem?_append_left h1] at ho
            exact hi.cur i o ho
          · rw [List.getElem?_append_right h1] at ho
            have : i - s.objs.length = 0 := by
              rcases Nat.eq_zero_or_pos (i - s.objs.length) with h2 | h2
              · exact h2
              · rw [List.getElem?_eq_none (by simp; omega)] at ho; cases ho
            rw [this] at ho; cases ho
            simp only [hi.len]; omega
        · obtain ⟨g0, h1, h2⟩ := hi.root
          exact ⟨g0, by rw [List.getElem?_append_left hi.pos]; exact h1, h2⟩
        · intro i o ho hpos
          have hlen' : ∀ p k, k < (s.items p).length → p < s.arrays.length →
              k < ((s.arrays.set g.cur (s.arrays.getD g.cur [] ++ [hl']) ++ [[]]).getD p []).length := by
            intro p k hk hp
            have := hitem p
            rw [List.getD_eq_getElem?_getD, List.getElem?_append_left (by simpa using hp), ← List.getD_eq_getElem?_getD]
            omega
          rcases Nat.lt_or_ge i s.objs.length with h1 | h1
          · rw [List.getElem?_append_left h1] at ho
            obtain ⟨p, k, e, hp, hk⟩ := hi.parent i o ho hpos
            exact ⟨p, k, e, hp, hlen' p k hk (by rw [hi.len]; omega)⟩
          · rw [List.getElem?_append_right h1] at ho
            have : i - s.objs.length = 0 := by
              rcases Nat.eq_zero_or_pos (i - s.objs.length) with h2 | h2
              · exact h2
              · rw [List.getElem?_eq_none (by simp; omega)] at ho; cases ho
            rw [this] at ho; cases ho
            refine ⟨gi, _, rfl, by omega, ?_⟩
            show _ < ((s.arrays.set g.cur (s.arrays.getD g.cur [] ++ [hl']) ++ [[]]).getD gi []).length
            have : (s.arrays.set g.cur (s.arrays.getD g.cur [] ++ [hl']) ++ [[]]).getD gi [] = s.arrays.getD g.cur [] ++ [hl'] := by
              rw [List.getD_eq_getElem?_getD (l := _ ++ _), List.getElem?_append_left (by rw [List.length_set, hi.len]; exact hgi), hcur,
                List.getElem?_set_self (by rw [hi.len]; exact hgi)]
              rfl
            rw [this]
            simp
        · intro i j x hx hy
          have key : ∀ i x, (s.objs ++ [⟨s.arrays.length, l.layer.bounds.x0, l.layer.bounds.y0,
              some (gi, (s.arrays.getD g.cur []).length)⟩])[i]?.bind (·.parent) = some x →
              (i < s.objs.length ∧ s.parentOf i = some x) ∨ (i = s.objs.length ∧ x = (gi, (s.arrays.getD g.cur []).length)) := by
            intro i x h
            rcases Nat.lt_or_ge i s.objs.length with h1 | h1
            · rw [List.getElem?_append_left h1] at h
              exact Or.inl ⟨h1, h⟩
            · rw [List.getElem?_append_right h1] at h
              have : i - s.objs.length = 0 := by
                rcases Nat.eq_zero_or_pos (i - s.objs.length) with h2 | h2
                · exact h2
                · rw [List.getElem?_eq_none (by simp; omega)] at h; cases h
              rw [this] at h
              simp at h
              exact Or.inr ⟨by omega, h.symm⟩
          -- a parent slot in use is below the length of the list
          have old : ∀ i, s.parentOf i ≠ some (gi, (s.arrays.getD g.cur []).length) := by
            intro i h
            unfold GState.parentOf at h
            cases ho : s.objs[i]? with
            | none => rw [ho] at h; cases h
            | some o =>
              rw [ho] at h
              rcases Nat.eq_zero_or_pos i with h0 | h0
              · obtain ⟨g0, h1, h2⟩ := hi.root
                rw [h0, h1] at ho; cases ho
                simp [h2] at h
              · obtain ⟨p, k, e, hp, hk⟩ := hi.parent i o ho h0
                simp [e] at h
                obtain ⟨rfl, rfl⟩ := h
                rw [hcur] at hk
                exact absurd hk (Nat.lt_irrefl _)
          rcases key i x hx with ⟨h1, h2⟩ | ⟨h1, h2⟩ <;> rcases key j x hy with ⟨h3, h4⟩ | ⟨h3, h4⟩
          · exact hi.uniq i j x h2 h4
          · rw [h4] at h2; exact absurd h2 (old i)
          · rw [h2] at h4; exact absurd h4 (old j)
          · omega
        · unfold assignKey
          rw [List.map_append, List.nodup_append]
          refine ⟨?_, by simp, ?_⟩
          · exact hi.nodup.sublist ((List.filter_sublist).map _)
          · intro a ha b hb
            simp at hb
            subst hb
            obtain ⟨e, he, rfl⟩ := List.mem_map.1 ha
            have := hi.lt e (List.mem_filter.1 he).1
            omega
        · intro e he
          unfold assignKey at he
          rcases List.mem_append.1 he with h1 | h1
          · have := hi.lt e (List.mem_filter.1 h1).1
            simp only [List.length_append, List.length_singleton]; omega
          · rw [List.mem_singleton.1 h1]; simp
        · show lookupKey (assignKey s.map (pathKey path) s.objs.length) [] = some 0
          rw [lookupKey_assign_ne (by unfold pathKey; simpa using hpne.symm)]
          exact hi.rootKey
        · intro a ha
          rcases List.mem_append.1 ha with h1 | h1
          · exact hvals a h1
          · rw [List.mem_singleton.1 h1]; simp
      · rw [if_neg hgrp] at h
        cases h
        refine ⟨by simp [hi.len], hi.cur, hi.root, ?_, hi.uniq, hi.nodup, hi.lt, hi.rootKey, hvals⟩
        intro i o ho hpos
        obtain ⟨p, k, e, hp, hk⟩ := hi.parent i o ho hpos
        exact ⟨p, k, e, hp, Nat.lt_of_lt_of_le hk (hitem p)⟩

theorem makeGroups_inv {bounds : Rect} : ∀ {ls : List DLayer} {s s' : GState}, GInv s →
    makeGroups bounds ls s = .ok s' → GInv s' := by
  intro ls
  induction ls with
  | nil => intro s s' hi h; cases h; exact hi
  | cons l ls ih =>
    intro s s' hi h
    unfold makeGroups at h
    cases h1 : groupStep bounds l s with
    | error e => rw [h1] at h; cases h
    | ok s1 => rw [h1] at h; exact ih (groupStep_inv hi h1) h

/-! ### the loop over the map -/

/-- the child group in slot `k` of group `i`, among the groups `P` -/
def childAt (s : GState) (P : List Nat) (i k : Nat) : Option Nat := P.find? fun c => s.parentOf c = some (i, k)

/-- layers of `i` with the references to the children among `P` filled in -/
def linked (s : GState) (cur : Nat → Nat) (P : List Nat) (i : Nat) : List HLayer :=
  (s.items i).mapIdx fun k l =>
    match childAt s P i k with
    | some c => { l with image := .slice (cur c) }
    | none => l

structure MInv (s : GState) (cur : Nat → Nat) (P : List Nat) (m : MState) : Prop where
  objs : ∀ (i : Nat), m.objs[i]? = (s.objs[i]?).map fun (g : GroupObj) => { g with cur := cur i }
  lt : ∀ i, i < s.objs.length → cur i < m.arrays.length
  inj : ∀ i j, i < s.objs.length → j < s.objs.length → cur i = cur j → i = j
  arr : ∀ i, i < s.objs.length → m.arrays[cur i]? = some (linked s cur P i)
  im : m.im = if 0 ∈ P then some (cur 0) else none
  len : m.arrays.length = s.arrays.length + P.length

theorem minv_start {s : GState} (hi : GInv s) : MInv s id [] ⟨s.arrays, s.objs, none⟩ where
  objs := by
    intro i
    cases h : s.objs[i]? with
    | none => rfl
    | some g =>
      have := hi.cur i g h
      simp [← this]
  lt := by intro i h; rw [id, hi.len]; exact h
  inj := fun _ _ _ _ h => h
  arr := by
    intro i h
    unfold linked childAt GState.items
    simp only [List.find?_nil, id]
    have : i < s.arrays.length := by rw [hi.len]; exact h
    rw [List.getElem?_eq_getElem this]
    simp only [List.getD_eq_getElem?_getD, List.getElem?_eq_getElem this, Option.getD_some, Option.some.injEq]
    apply List.ext_getElem?
    intro k
    rw [List.getElem?_mapIdx]
    cases s.arrays[i][k]? <;> rfl
  im := rfl
  len := rfl

theorem childAt_cons_ne {s : GState} {P : List Nat} {gi i k : Nat} (h : s.parentOf gi ≠ some (i, k)) :
    childAt s (gi :: P) i k = childAt s P i k := by
  unfold childAt
  rw [List.find?_cons]
  simp [h]

theorem imageStep_inv {s : GState} (hi : GInv s) {cur : Nat → Nat} {P : List Nat} {m : MState}
    (hm : MInv s cur P m) {gi : Nat} (hgi : gi < s.objs.length) (hnew : gi ∉ P) (hP : ∀ c ∈ P, c < s.objs.length) :
    ∃ m' cur', imageStep gi m = some m' ∧ MInv s cur' (gi :: P) m' := by
  obtain ⟨g, hg⟩ : ∃ g, s.objs[gi]? = some g := ⟨_, List.getElem?_eq_getElem hgi⟩
  let na := m.arrays.length
  let cur' : Nat → Nat := fun i => if i = gi then na else cur i
  have hne : ∀ i, i < s.objs.length → cur i ≠ na := fun i h => Nat.ne_of_lt (hm.lt i h)
  have hcur_other : ∀ c, c ∈ P → cur' c = cur c := by
    intro c hc
    have : c ≠ gi := fun h => hnew (h ▸ hc)
    simp [cur', this]
  have hobj : ∀ (i : Nat), (m.objs.set gi { g with cur := na })[i]? =
      (s.objs[i]?).map fun (g : GroupObj) => { g with cur := cur' i } := by
    intro i
    rw [List.getElem?_set]
    by_cases h : gi = i
    · subst h
      have hlen : gi < m.objs.length := by
        have := hm.objs gi
        rw [hg] at this
        exact (List.getElem?_eq_some_iff.1 this).1
      rw [if_pos rfl, if_pos hlen, hg]
      simp [cur']
    · rw [if_neg h, hm.objs]
      simp [cur', Ne.symm h]
  have hinj : ∀ i j, i < s.objs.length → j < s.objs.length → cur' i = cur' j → i = j := by
    intro i j h1 h2 h
    simp only [cur'] at h
    by_cases hi' : i = gi <;> by_cases hj : j = gi
    · omega
    · rw [if_pos hi', if_neg hj] at h; exact absurd h.symm (hne j h2)
    · rw [if_neg hi', if_pos hj] at h; exact absurd h (hne i h1)
    · rw [if_neg hi', if_neg hj] at h; exact hm.inj i j h1 h2 h
  -- references among the old ones do not change
  have hlink : ∀ i, (∀ k, s.parentOf gi ≠ some (i, k)) → linked s cur' (gi :: P) i = linked s cur P i := by
    intro i h
    unfold linked
    congr 1
    funext k l
    rw [childAt_cons_ne (h k)]
    cases hc : childAt s P i k with
    | none => rfl
    | some c =>
      have : c ∈ P := List.mem_of_find?_eq_some hc
      simp only [hcur_other c this]
  have hcopy : ∀ i, i < s.objs.length → (m.arrays ++ [linked s cur P gi])[cur' i]? = some (linked s cur P i) := by
    intro i h
    by_cases h' : i = gi
    · subst h'
      simp [cur', na]
    · simp only [cur', if_neg h']
      rw [List.getElem?_append_left (hm.lt i h), hm.arr i h]
  unfold imageStep
  rw [hm.objs gi, hg]
  simp only [Option.map_some, Option.bind_eq_bind, Option.bind_some, hm.arr gi hgi]
  cases hp : g.parent with
  | none =>
    have h0 : gi = 0 := by
      rcases Nat.eq_zero_or_pos gi with h | h
      · exact h
      · obtain ⟨p, k, e, _⟩ := hi.parent gi g hg h
        rw [hp] at e; cases e
    have hpo : s.parentOf gi = none := by unfold GState.parentOf; rw [hg]; exact hp
    simp only [hp] at hobj
    refine ⟨_, cur', rfl, hobj, ?_, hinj, ?_, ?_, ?_⟩
    · intro i h
      simp only [List.length_append, List.length_singleton, cur']
      split
      · simp [na]
      · have := hm.lt i h; omega
    · intro i h
      rw [hlink i (by rw [hpo]; simp)]
      exact hcopy i h
    · rw [if_pos (by simp [h0])]
      simp [cur', h0, na]
    · simp [hm.len]; omega
  | some pk =>
    obtain ⟨p, k⟩ := pk
    have hpos : 0 < gi := by
      rcases Nat.eq_zero_or_pos gi with h | h
      · obtain ⟨g0, h1, h2⟩ := hi.root
        rw [h, h1] at hg; cases hg
        rw [h2] at hp; cases hp
      · exact h
    obtain ⟨p', k', e, hplt, hk⟩ := hi.parent gi g hg hpos
    rw [hp] at e; cases e
    have hp1 : p < s.objs.length := by omega
    have hpgi : p ≠ gi := by omega
    obtain ⟨pg, hpg⟩ : ∃ pg, s.objs[p]? = some pg := ⟨_, List.getElem?_eq_getElem hp1⟩
    have hpo : s.parentOf gi = some (p, k) := by unfold GState.parentOf; rw [hg]; exact hp
    have e1 := hobj p
    rw [hpg] at e1
    simp only [Option.map_some] at e1
    have e2 := hcopy p hp1
    have e3 : ∃ l, (linked s cur P p)[k]? = some l := by
      have : k < (linked s cur P p).length := by unfold linked; simpa using hk
      exact ⟨_, List.getElem?_eq_getElem this⟩
    obtain ⟨lk, e3⟩ := e3
    dsimp only
    simp only [hp] at e1
    rw [e1]
    dsimp only [Option.bind_some]
    rw [e2]
    dsimp only [Option.bind_some]
    unfold setImage
    rw [e3]
    simp only [hp] at hobj
    refine ⟨_, cur', rfl, hobj, ?_, hinj, ?_, ?_, ?_⟩
    · intro i h
      simp only [List.length_set, List.length_append, List.length_singleton, cur']
      split
      · simp [na]
      · have := hm.lt i h; omega
    · intro i h
      by_cases hip : i = p
      · subst hip
        rw [List.getElem?_set_self (by
          have := (List.getElem?_eq_some_iff.1 e2).1
          exact this)]
        congr 1
        apply List.ext_getElem?
        intro j
        rw [List.getElem?_set]
        unfold linked
        rw [List.getElem?_mapIdx]
        by_cases hjk : k = j
        · subst hjk
          rw [if_pos rfl, if_pos (by unfold linked at e3; exact (List.getElem?_eq_some_iff.1 e3).1)]
          have hch : childAt s (gi :: P) i k = some gi := by
            unfold childAt; rw [List.find?_cons]; simp [hpo]
          rw [List.getElem?_mapIdx, hch]
          unfold linked at e3
          rw [List.getElem?_mapIdx] at e3
          cases hit : (s.items i)[k]? with
          | none => rw [hit] at e3; cases e3
          | some it =>
            rw [hit] at e3
            simp only [Option.map_some, Option.some.injEq] at e3 ⊢
            subst e3
            cases childAt s P i k <;> simp [cur', na]
        · rw [if_neg hjk, List.getElem?_mapIdx]
          congr 1
          funext l
          rw [childAt_cons_ne (by rw [hpo]; simp; exact fun h => hjk h)]
          cases hc : childAt s P i j with
          | none => rfl
          | some c =>
            have : c ∈ P := List.mem_of_find?_eq_some hc
            simp only [hcur_other c this]
      · rw [List.getElem?_set_ne (fun h' => hip (hinj p i hp1 h h').symm)]
        rw [hlink i (by rw [hpo]; simp; intro h; exact absurd h.symm hip)]
        exact hcopy i h
    · rw [hm.im]
      have h0 : (0 ∈ gi :: P) ↔ 0 ∈ P := by simp; omega
      simp only [h0]
      by_cases h0P : 0 ∈ P
      · rw [if_pos h0P, if_pos h0P, hcur_other 0 h0P]
      · rw [if_neg h0P, if_neg h0P]
    · simp [hm.len]; omega

theorem imageSteps_inv {s : GState} (hi : GInv s) : ∀ (ks : List Nat) {cur : Nat → Nat} {P : List Nat} {m : MState},
    MInv s cur P m → (∀ k ∈ ks, k < s.objs.length) → (∀ c ∈ P, c < s.objs.length) → (ks.reverse ++ P).Nodup →
    ∃ m' cur', imageSteps ks m = some m' ∧ MInv s cur' (ks.reverse ++ P) m' := by
  intro ks
  induction ks with
  | nil => intro cur P m hm _ _ _; exact ⟨m, cur, rfl, hm⟩
  | cons k ks ih =>
    intro cur P m hm h1 h2 h3
    have h3' : (ks.reverse ++ (k :: P)).Nodup := by simpa using h3
    have hk : k ∉ P := by
      have := (List.nodup_append.1 h3').2.1
      exact (List.nodup_cons.1 this).1
    obtain ⟨m1, cur1, e1, hm1⟩ := imageStep_inv hi hm (h1 k (by simp)) hk h2
    obtain ⟨m2, cur2, e2, hm2⟩ := ih hm1 (fun x hx => h1 x (by simp [hx])) (by
      intro c hc
      rcases List.mem_cons.1 hc with rfl | hc
      · exact h1 _ (by simp)
      · exact h2 c hc) h3'
    refine ⟨m2, cur2, ?_, ?_⟩
    · unfold imageSteps
      rw [e1]; exact e2
    · simpa using hm2

/-! ### the tree -/

/-- The tree of layers: group `i` holds its layers, in which the image of a layer is the child group
stored in that place, if there is one among `P`, and the image as read otherwise. -/
def groupTree (s : GState) (P : List Nat) : Nat → Nat → List Layer
  | 0, _ => []
  | f + 1, i => (s.items i).mapIdx fun k l =>
    ⟨l.name, l.bounds, l.mode, l.invisible, l.transparency,
      match childAt s P i k with
      | some c => .group (groupTree s P f c)
      | none =>
        match l.image with
        | .val i => i
        | .slice _ => .nil⟩

theorem resolve_tree {s : GState} (hi : GInv s) {cur : Nat → Nat} {P : List Nat} {m : MState}
    (hm : MInv s cur P m) (hP : ∀ c ∈ P, c < s.objs.length) : ∀ (f i : Nat), i < s.objs.length →
    resolve m.arrays f (cur i) = groupTree s P f i := by
  intro f
  induction f with
  | zero => intro i _; rfl
  | succ f ih =>
    intro i h
    unfold resolve groupTree
    rw [List.getD_eq_getElem?_getD, hm.arr i h]
    simp only [Option.getD_some]
    unfold linked
    apply List.ext_getElem?
    intro k
    rw [List.getElem?_map, List.getElem?_mapIdx, List.getElem?_mapIdx]
    cases hit : (s.items i)[k]? with
    | none => rfl
    | some l =>
      simp only [Option.map_some, Option.some.injEq]
      cases hc : childAt s P i k with
      | some c =>
        simp only
        rw [ih c (hP c (List.mem_of_find?_eq_some hc))]
      | none =>
        obtain ⟨x, hx⟩ := hi.vals _ (List.mem_of_getElem? (by
          show s.arrays[i]? = some (s.items i)
          unfold GState.items
          have : i < s.arrays.length := by rw [hi.len]; exact h
          rw [List.getD_eq_getElem?_getD, List.getElem?_eq_getElem this]; rfl)) l (List.mem_of_getElem? hit)
        simp only [hx]

/-- children among `P` are found by membership -/
theorem childAt_perm {s : GState} (hi : GInv s) {P Q : List Nat} (h : ∀ c, c ∈ P ↔ c ∈ Q) (i k : Nat) :
    childAt s P i k = childAt s Q i k := by
  have one : ∀ (P Q : List Nat), (∀ c, c ∈ P → c ∈ Q) → ∀ c, childAt s P i k = some c → childAt s Q i k = some c := by
    intro P Q h c hc
    have h1 := List.mem_of_find?_eq_some hc
    have h2 := List.find?_some hc
    cases hq : childAt s Q i k with
    | none =>
      unfold childAt at hq
      rw [List.find?_eq_none] at hq
      exact absurd h2 (hq c (h c h1))
    | some d =>
      have h3 := List.find?_some hq
      simp at h2 h3
      rw [hi.uniq c d (i, k) h2 h3]
  cases hp : childAt s P i k with
  | some c => exact (one P Q (fun c => (h c).1) c hp).symm
  | none =>
    cases hq : childAt s Q i k with
    | none => rfl
    | some c => rw [one Q P (fun c => (h c).2) c hq] at hp; cases hp

theorem groupTree_perm {s : GState} (hi : GInv s) {P Q : List Nat} (h : ∀ c, c ∈ P ↔ c ∈ Q) : ∀ (f i : Nat),
    groupTree s P f i = groupTree s Q f i := by
  intro f
  induction f with
  | zero => intro i; rfl
  | succ f ih =>
    intro i
    unfold groupTree
    congr 1
    funext k l
    rw [childAt_perm hi h]
    cases childAt s Q i k with
    | none => rfl
    | some c => simp only [ih]

/-- a child comes after its parent -/
theorem childAt_lt {s : GState} (hi : GInv s) {P : List Nat} {i k c : Nat} (h : childAt s P i k = some c) :
    i < c ∧ c < s.objs.length := by
  have h2 := List.find?_some h
  simp at h2
  unfold GState.parentOf at h2
  cases ho : s.objs[c]? with
  | none => rw [ho] at h2; cases h2
  | some o =>
    rw [ho] at h2
    have hc := (List.getElem?_eq_some_iff.1 ho).1
    rcases Nat.eq_zero_or_pos c with h0 | h0
    · obtain ⟨g0, h1, h3⟩ := hi.root
      rw [h0, h1] at ho; cases ho
      simp [h3] at h2
    · obtain ⟨p, k', e, hp, _⟩ := hi.parent c o ho h0
      simp [e] at h2
      omega

/-- enough fuel is enough -/
theorem groupTree_fuel {s : GState} (hi : GInv s) {P : List Nat} : ∀ (f g i : Nat), s.objs.length ≤ f + i →
    s.objs.length ≤ g + i → i < s.objs.length → groupTree s P f i = groupTree s P g i := by
  intro f
  induction f with
  | zero => intro g i h1 _ h3; omega
  | succ f ih =>
    intro g i h1 h2 h3
    cases g with
    | zero => omega
    | succ g =>
      unfold groupTree
      congr 1
      funext k l
      cases hc : childAt s P i k with
      | none => rfl
      | some c =>
        obtain ⟨hc1, hc2⟩ := childAt_lt hi hc
        simp only
        rw [ih g c (by omega) (by omega) hc2]

/-- **The image built from the groups**, for every iteration order of the map. -/
theorem makeImage_tree {s : GState} (hi : GInv s) (order : List Nat) (ho : order.Perm (List.range s.map.length)) :
    makeImage order s = some (fixBottom (groupTree s (s.map.map (·.2)) s.objs.length 0)) := by
  have hks : (order.filterMap fun i => (s.map[i]?).map (·.2)).Perm (s.map.map (·.2)) := by
    have h1 := ho.filterMap fun i => (s.map[i]?).map (·.2)
    refine h1.trans ?_
    have : (List.range s.map.length).filterMap (fun i => (s.map[i]?).map (·.2)) = s.map.map (·.2) := by
      apply List.ext_getElem?
      intro k
      have hall : ∀ (l : List (Key × Nat)) (n : Nat), (List.range' n l.length).filterMap
          (fun i => (l[i - n]?).map (·.2)) = l.map (·.2) := by
        intro l
        induction l with
        | nil => intro n; rfl
        | cons e l ih =>
          intro n
          rw [List.length_cons, List.range'_succ, List.filterMap_cons]
          simp only [Nat.sub_self, List.getElem?_cons_zero, Option.map_some, List.map_cons, List.cons.injEq, true_and]
          rw [← ih (n + 1)]
          have cong : ∀ (l : List Nat) (f g : Nat → Option Nat), (∀ x ∈ l, f x = g x) → l.filterMap f = l.filterMap g := by
            intro l f g h
            induction l with
            | nil => rfl
            | cons a l ih =>
              rw [List.filterMap_cons, List.filterMap_cons, h a (by simp), ih (fun x hx => h x (by simp [hx]))]
          apply cong
          intro x hx
          have := (List.mem_range'_1.1 hx).1
          have : x - n = (x - (n + 1)) + 1 := by omega
          rw [this, List.getElem?_cons_succ]
      rw [← hall s.map 0, List.range_eq_range']
      rfl
    rw [this]
  have hmem : ∀ c, c ∈ (order.filterMap fun i => (s.map[i]?).map (·.2)) ↔ c ∈ s.map.map (·.2) := fun c => hks.mem_iff
  unfold makeImage
  generalize (order.filterMap fun i => (s.map[i]?).map (·.2)) = ks at hks hmem
  have hlt : ∀ k ∈ ks, k < s.objs.length := by
    intro k hk
    obtain ⟨e, he, rfl⟩ := List.mem_map.1 ((hmem k).1 hk)
    exact hi.lt e he
  have hnd : (ks.reverse ++ []).Nodup := by
    rw [List.append_nil, (List.reverse_perm ks).nodup_iff]
    exact hks.nodup_iff.2 hi.nodup
  obtain ⟨m, cur, e, hm⟩ := imageSteps_inv hi ks (minv_start hi) hlt (by simp) hnd
  rw [List.append_nil] at hm
  have h0 : 0 ∈ ks.reverse := by
    rw [List.mem_reverse, hmem]
    exact List.mem_map.2 ⟨_, lookupKey_mem hi.rootKey, rfl⟩
  dsimp only
  rw [e]
  simp only [Option.bind_eq_bind, Option.bind_some, hm.im, if_pos h0]
  rw [resolve_tree hi hm (by intro c hc; exact hlt c (List.mem_reverse.1 hc)) _ 0 hi.pos]
  rw [groupTree_perm hi (Q := s.map.map (·.2)) (by intro c; rw [List.mem_reverse]; exact hmem c)]
  rw [groupTree_fuel hi _ s.objs.length 0 (by rw [hm.len, hi.len]; omega) (by omega) hi.pos]

end Limage
