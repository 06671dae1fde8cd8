import Verif.Model.Schedule
import Verif.Props.Truncate
/-!
# C51: parallel layer decoding is deterministic
-/
namespace Limage

theorem upd_same {α : Type} (f : Nat → α) (i : Nat) (x : α) : upd f i x i = x := if_pos rfl
theorem upd_other {α : Type} (f : Nat → α) {i j : Nat} (x : α) (h : j ≠ i) : upd f i x j = f j := if_neg h

/-- steps the goroutine still has to make -/
def Phase.left : Phase → Nat
  | .reading k => k + 6
  | .locking => 4
  | .holding => 3
  | .unlocking => 2
  | .finishing => 1
  | .finished => 0

/-- the goroutine has stored its layer -/
def Phase.stored : Phase → Bool
  | .reading _ => false
  | _ => true

/-- a goroutine with an error has reported it -/
def Phase.reported : Phase → Bool
  | .unlocking => true
  | .finishing => true
  | .finished => true
  | _ => false

/-- What holds in every state: who stored, who has the lock, the counter, and which errors were
reported in what order. -/
structure PInv (n : Nat) (res : Nat → DLayer × Option Err) (s : PState) : Prop where
  slot : ∀ i, i < n → (s.phase i).stored = true → s.slot i = some (res i).1
  lock : ∀ i, s.lock = some i → i < n ∧ (s.phase i = .holding ∨ s.phase i = .unlocking)
  held : ∀ i, i < n → s.phase i = .holding ∨ s.phase i = .unlocking → s.lock = some i
  errs : ∀ i, i < n → s.phase i = .locking ∨ s.phase i = .holding → (res i).2.isSome
  wg : s.wg = ((List.range n).filter fun i => s.phase i ≠ .finished).length
  order : ∃ ord : List Nat, ord.Nodup ∧ (∀ i ∈ ord, i < n) ∧
    (∀ i, i < n → (s.phase i).reported = true → (res i).2.isSome → i ∈ ord) ∧
    (∀ i ∈ ord, (s.phase i).reported = true) ∧
    s.err = firstErr ((List.range n).map fun i => (res i).2) ord

theorem filter_upd {n i : Nat} (hi : i < n) (f : Nat → Phase) (p : Phase) (h : f i ≠ .finished) (hp : p ≠ .finished) :
    ((List.range n).filter fun j => upd f i p j ≠ .finished).length =
      ((List.range n).filter fun j => f j ≠ .finished).length := by
  congr 1
  apply List.filter_congr
  intro j _
  by_cases hj : j = i
  · subst hj; rw [upd_same]; simp [h, hp]
  · rw [upd_other _ _ hj]

theorem filter_done {n i : Nat} (hi : i < n) (f : Nat → Phase) (h : f i ≠ .finished) :
    ((List.range n).filter fun j => upd f i .finished j ≠ .finished).length =
      ((List.range n).filter fun j => f j ≠ .finished).length - 1 := by
  have key : ∀ l : List Nat, l.Nodup → i ∈ l →
      (l.filter fun j => upd f i .finished j ≠ .finished).length + 1 = (l.filter fun j => f j ≠ .finished).length := by
    intro l
    induction l with
    | nil => intro _ h; cases h
    | cons a l ih =>
      intro hn hm
      rw [List.nodup_cons] at hn
      by_cases ha : a = i
      · subst ha
        rw [List.filter_cons_of_neg (by rw [upd_same]; simp), List.filter_cons_of_pos (by simpa using h),
          List.length_cons]
        congr 2
        apply List.filter_congr
        intro j hj
        rw [upd_other]
        rintro rfl
        exact hn.1 hj
      · have hm' : i ∈ l := by
          rcases List.mem_cons.1 hm with h | h
          · exact absurd h.symm ha
          · exact h
        have ih := ih hn.2 hm'
        by_cases hf : f a = .finished
        · rw [List.filter_cons_of_neg (by rw [upd_other _ _ ha, hf]; simp), List.filter_cons_of_neg (by rw [hf]; simp)]
          exact ih
        · rw [List.filter_cons_of_pos (by rw [upd_other _ _ ha]; simpa using hf),
            List.filter_cons_of_pos (by simpa using hf), List.length_cons, List.length_cons, ih]
  have := key _ List.nodup_range (List.mem_range.2 hi)
  omega

theorem firstErr_snoc (errs : List (Option Err)) (ord : List Nat) (i : Nat) :
    firstErr errs (ord ++ [i]) = (firstErr errs ord).or (errs.getD i none) := by
  induction ord with
  | nil =>
    rw [List.nil_append]
    unfold firstErr
    cases h : errs.getD i none with
    | none => rfl
    | some e => rfl
  | cons k ord ih =>
    rw [List.cons_append]
    unfold firstErr
    cases h : errs.getD k none with
    | none => exact ih
    | some e => rfl

theorem getD_range {n i : Nat} (hi : i < n) (res : Nat → DLayer × Option Err) :
    ((List.range n).map fun i => (res i).2).getD i none = (res i).2 := by
  rw [List.getD_eq_getElem?_getD, List.getElem?_map, List.getElem?_range hi]
  rfl

theorem pinv_start (n : Nat) (res : Nat → DLayer × Option Err) (work : Nat → Nat) :
    PInv n res (PState.start n work) where
  slot := by intro i _ h; cases h
  lock := by intro i h; cases h
  held := by intro i _ h; rcases h with h | h <;> cases h
  errs := by intro i _ h; rcases h with h | h <;> cases h
  wg := by
    show n = _
    rw [List.filter_eq_self.2, List.length_range]
    intro i _
    rfl
  order := ⟨[], List.nodup_nil, by simp, (by intro i _ h; cases h), by simp, rfl⟩

theorem pinv_step {n : Nat} {res : Nat → DLayer × Option Err} {s t : PState} (h : PInv n res s) (hs : PStep n res s t) :
    PInv n res t := by
  obtain ⟨hslot, hlock, hheld, herrs, hwg, ord, ho1, ho2, ho3, ho4, ho5⟩ := h
  cases hs with
  | read i k hi hp =>
    refine ⟨?_, ?_, ?_, ?_, ?_, ord, ho1, ho2, ?_, ?_, ho5⟩
    · intro j hj hst
      by_cases hji : j = i
      · subst hji; dsimp only at hst; rw [upd_same] at hst; cases hst
      · dsimp only at hst ⊢; rw [upd_other _ _ hji] at hst; exact hslot j hj hst
    · intro j hj
      have := hlock j hj
      refine ⟨this.1, ?_⟩
      dsimp only
      by_cases hji : j = i
      · subst hji; rw [hp] at this; simp at this
      · rw [upd_other _ _ hji]; exact this.2
    · intro j hj hp'
      dsimp only at hp' ⊢
      by_cases hji : j = i
      · subst hji; rw [upd_same] at hp'; simp at hp'
      · rw [upd_other _ _ hji] at hp'; exact hheld j hj hp'
    · intro j hj hp'
      dsimp only at hp' ⊢
      by_cases hji : j = i
      · subst hji; rw [upd_same] at hp'; simp at hp'
      · rw [upd_other _ _ hji] at hp'; exact herrs j hj hp'
    · dsimp only
      rw [filter_upd hi _ _ (by rw [hp]; simp) (by simp)]
      exact hwg
    · intro j hj hr he
      dsimp only at hr
      by_cases hji : j = i
      · subst hji; rw [upd_same] at hr; cases hr
      · rw [upd_other _ _ hji] at hr; exact ho3 j hj hr he
    · intro j hj
      have := ho4 j hj
      dsimp only
      by_cases hji : j = i
      · subst hji; rw [hp] at this; cases this
      · rw [upd_other _ _ hji]; exact this
  | store i hi hp =>
    refine ⟨?_, ?_, ?_, ?_, ?_, ord, ho1, ho2, ?_, ?_, ho5⟩
    · intro j hj hst
      dsimp only at hst ⊢
      by_cases hji : j = i
      · subst hji; rw [upd_same]
      · rw [upd_other _ _ hji] at hst; rw [upd_other _ _ hji]; exact hslot j hj hst
    · intro j hj
      have := hlock j hj
      refine ⟨this.1, ?_⟩
      dsimp only
      by_cases hji : j = i
      · subst hji; rw [hp] at this; simp at this
      · rw [upd_other _ _ hji]; exact this.2
    · intro j hj hp'
      dsimp only at hp' ⊢
      by_cases hji : j = i
      · subst hji; rw [upd_same] at hp'; split at hp' <;> simp at hp'
      · rw [upd_other _ _ hji] at hp'; exact hheld j hj hp'
    · intro j hj hp'
      dsimp only at hp' ⊢
      by_cases hji : j = i
      · subst hji
        rw [upd_same] at hp'
        split at hp'
        · assumption
        · simp at hp'
      · rw [upd_other _ _ hji] at hp'; exact herrs j hj hp'
    · dsimp only
      rw [filter_upd hi _ _ (by rw [hp]; simp) (by split <;> simp)]
      exact hwg
    · intro j hj hr he
      dsimp only at hr
      by_cases hji : j = i
      · subst hji; rw [upd_same, if_pos he] at hr; cases hr
      · rw [upd_other _ _ hji] at hr; exact ho3 j hj hr he
    · intro j hj
      have := ho4 j hj
      dsimp only
      by_cases hji : j = i
      · subst hji; rw [hp] at this; cases this
      · rw [upd_other _ _ hji]; exact this
  | lock i hi hp hn =>
    refine ⟨?_, ?_, ?_, ?_, ?_, ord, ho1, ho2, ?_, ?_, ho5⟩
    · intro j hj hst
      dsimp only at hst ⊢
      by_cases hji : j = i
      · subst hji; exact hslot j hj (by rw [hp]; rfl)
      · rw [upd_other _ _ hji] at hst; exact hslot j hj hst
    · intro j hj
      have : j = i := (Option.some.inj hj).symm
      subst this
      refine ⟨hi, Or.inl ?_⟩
      dsimp only; rw [upd_same]
    · intro j hj hp'
      dsimp only at hp' ⊢
      by_cases hji : j = i
      · rw [hji]
      · rw [upd_other _ _ hji] at hp'
        have := hheld j hj hp'
        rw [hn] at this; cases this
    · intro j hj hp'
      dsimp only at hp' ⊢
      by_cases hji : j = i
      · subst hji; exact herrs j hj (Or.inl hp)
      · rw [upd_other _ _ hji] at hp'; exact herrs j hj hp'
    · dsimp only
      rw [filter_upd hi _ _ (by rw [hp]; simp) (by simp)]
      exact hwg
    · intro j hj hr he
      dsimp only at hr
      by_cases hji : j = i
      · subst hji; rw [upd_same] at hr; cases hr
      · rw [upd_other _ _ hji] at hr; exact ho3 j hj hr he
    · intro j hj
      have := ho4 j hj
      dsimp only
      by_cases hji : j = i
      · subst hji; rw [hp] at this; cases this
      · rw [upd_other _ _ hji]; exact this
  | setError i hi hp =>
    have hio : i ∉ ord := fun hc => by have := ho4 i hc; rw [hp] at this; cases this
    refine ⟨?_, ?_, ?_, ?_, ?_, ord ++ [i], ?_, ?_, ?_, ?_, ?_⟩
    · intro j hj hst
      dsimp only at hst ⊢
      by_cases hji : j = i
      · subst hji; exact hslot j hj (by rw [hp]; rfl)
      · rw [upd_other _ _ hji] at hst; exact hslot j hj hst
    · intro j hj
      have := hlock j hj
      refine ⟨this.1, ?_⟩
      dsimp only
      by_cases hji : j = i
      · subst hji; rw [upd_same]; exact Or.inr rfl
      · rw [upd_other _ _ hji]; exact this.2
    · intro j hj hp'
      dsimp only at hp' ⊢
      by_cases hji : j = i
      · subst hji; exact hheld j hj (Or.inl hp)
      · rw [upd_other _ _ hji] at hp'; exact hheld j hj hp'
    · intro j hj hp'
      dsimp only at hp' ⊢
      by_cases hji : j = i
      · subst hji; rw [upd_same] at hp'; simp at hp'
      · rw [upd_other _ _ hji] at hp'; exact herrs j hj hp'
    · dsimp only
      rw [filter_upd hi _ _ (by rw [hp]; simp) (by simp)]
      exact hwg
    · rw [List.nodup_append]
      exact ⟨ho1, by simp, by
        intro a ha b hb
        rw [List.mem_singleton.1 hb]
        rintro rfl
        exact hio ha⟩
    · intro j hj
      rcases List.mem_append.1 hj with h | h
      · exact ho2 j h
      · rw [List.mem_singleton.1 h]; exact hi
    · intro j hj hr he
      dsimp only at hr
      by_cases hji : j = i
      · subst hji; simp
      · rw [upd_other _ _ hji] at hr; exact List.mem_append_left _ (ho3 j hj hr he)
    · intro j hj
      dsimp only
      by_cases hji : j = i
      · subst hji; rw [upd_same]; rfl
      · rw [upd_other _ _ hji]
        rcases List.mem_append.1 hj with h | h
        · exact ho4 j h
        · exact absurd (List.mem_singleton.1 h) hji
    · dsimp only
      rw [firstErr_snoc, getD_range hi, ho5]
  | unlock i hi hp =>
    refine ⟨?_, ?_, ?_, ?_, ?_, ord, ho1, ho2, ?_, ?_, ho5⟩
    · intro j hj hst
      dsimp only at hst ⊢
      by_cases hji : j = i
      · subst hji; exact hslot j hj (by rw [hp]; rfl)
      · rw [upd_other _ _ hji] at hst; exact hslot j hj hst
    · intro j hj; cases hj
    · intro j hj hp'
      dsimp only at hp' ⊢
      by_cases hji : j = i
      · subst hji; rw [upd_same] at hp'; simp at hp'
      · rw [upd_other _ _ hji] at hp'
        have h1 := hheld j hj hp'
        rw [hheld i hi (Or.inr hp)] at h1
        exact absurd (Option.some.inj h1).symm hji
    · intro j hj hp'
      dsimp only at hp' ⊢
      by_cases hji : j = i
      · subst hji; rw [upd_same] at hp'; simp at hp'
      · rw [upd_other _ _ hji] at hp'; exact herrs j hj hp'
    · dsimp only
      rw [filter_upd hi _ _ (by rw [hp]; simp) (by simp)]
      exact hwg
    · intro j hj hr he
      dsimp only at hr
      by_cases hji : j = i
      · subst hji; exact ho3 j hj (by rw [hp]; rfl) he
      · rw [upd_other _ _ hji] at hr; exact ho3 j hj hr he
    · intro j hj
      have := ho4 j hj
      dsimp only
      by_cases hji : j = i
      · subst hji; rw [upd_same]; rfl
      · rw [upd_other _ _ hji]; exact this
  | done i hi hp =>
    refine ⟨?_, ?_, ?_, ?_, ?_, ord, ho1, ho2, ?_, ?_, ho5⟩
    · intro j hj hst
      dsimp only at hst ⊢
      by_cases hji : j = i
      · subst hji; exact hslot j hj (by rw [hp]; rfl)
      · rw [upd_other _ _ hji] at hst; exact hslot j hj hst
    · intro j hj
      have := hlock j hj
      refine ⟨this.1, ?_⟩
      dsimp only
      by_cases hji : j = i
      · subst hji; rw [hp] at this; simp at this
      · rw [upd_other _ _ hji]; exact this.2
    · intro j hj hp'
      dsimp only at hp' ⊢
      by_cases hji : j = i
      · subst hji; rw [upd_same] at hp'; simp at hp'
      · rw [upd_other _ _ hji] at hp'; exact hheld j hj hp'
    · intro j hj hp'
      dsimp only at hp' ⊢
      by_cases hji : j = i
      · subst hji; rw [upd_same] at hp'; simp at hp'
      · rw [upd_other _ _ hji] at hp'; exact herrs j hj hp'
    · dsimp only
      rw [filter_done hi _ (by rw [hp]; simp), hwg]
    · intro j hj hr he
      dsimp only at hr
      by_cases hji : j = i
      · subst hji; exact ho3 j hj (by rw [hp]; rfl) he
      · rw [upd_other _ _ hji] at hr; exact ho3 j hj hr he
    · intro j hj
      have := ho4 j hj
      dsimp only
      by_cases hji : j = i
      · subst hji; rw [upd_same]; rfl
      · rw [upd_other _ _ hji]; exact this

theorem pinv_steps {n : Nat} {res : Nat → DLayer × Option Err} {work : Nat → Nat} {s : PState}
    (h : PSteps n res (PState.start n work) s) : PInv n res s := by
  generalize hs : PState.start n work = s0 at h
  induction h with
  | refl => rw [← hs]; exact pinv_start n res work
  | tail _ hst ih => exact pinv_step ih hst

theorem pinv_finished {n : Nat} {res : Nat → DLayer × Option Err} {s : PState} (h : PInv n res s) (hw : s.wg = 0) :
    ∀ i, i < n → s.phase i = .finished := by
  intro i hi
  have h1 := h.wg
  rw [hw] at h1
  have h2 := List.eq_nil_of_length_eq_zero h1.symm
  rw [List.filter_eq_nil_iff] at h2
  simpa using h2 i (List.mem_range.2 hi)

/-- Whenever `wg.Wait` returns, whatever the interleaving, every slot holds its layer; there is an error
exactly when some layer has one, and it is the error of a layer. -/
theorem C51_result (n : Nat) (res : Nat → DLayer × Option Err) (work : Nat → Nat) (s : PState)
    (h : PSteps n res (PState.start n work) s) (hw : s.wg = 0) :
    (∀ i, i < n → s.slot i = some (res i).1) ∧
    (s.err = none ↔ ∀ i, i < n → (res i).2 = none) ∧
    (∀ e, s.err = some e → ∃ i, i < n ∧ (res i).2 = some e) := by
  have hv := pinv_steps h
  have hf := pinv_finished hv hw
  obtain ⟨ord, h1, h2, h3, h4, h5⟩ := hv.order
  have hnone : s.err = none → ∀ i, i < n → (res i).2 = none := by
    intro he i hi
    cases hr : (res i).2 with
    | none => rfl
    | some e =>
      have hm := h3 i hi (by rw [hf i hi]; rfl) (by rw [hr]; rfl)
      rw [h5] at he
      have := firstErr_none he i hm
      rw [getD_range hi, hr] at this
      cases this
  have hsome : ∀ e, s.err = some e → ∃ i, i < n ∧ (res i).2 = some e := by
    intro e he
    rw [h5] at he
    clear h5 h3 h1 h4 hnone
    induction ord with
    | nil => cases he
    | cons k ord ih =>
      unfold firstErr at he
      have hk := h2 k (List.mem_cons_self ..)
      rw [getD_range hk] at he
      cases hr : (res k).2 with
      | some e' => rw [hr] at he; cases he; exact ⟨k, hk, hr⟩
      | none => rw [hr] at he; exact ih (fun i hi => h2 i (List.mem_cons_of_mem _ hi)) he
  refine ⟨fun i hi => hv.slot i hi (by rw [hf i hi]; rfl), ⟨hnone, ?_⟩, hsome⟩
  intro hall
  cases he : s.err with
  | none => rfl
  | some e =>
    obtain ⟨i, hi, hr⟩ := hsome e he
    rw [hall i hi] at hr
    cases hr

/-- two layers, the second with an error: a complete execution -/
def exRes (i : Nat) : DLayer × Option Err := (recLayer false [UInt32.ofNat i], if i = 1 then some .eof else none)

example : ∃ s, PSteps 2 exRes (PState.start 2 fun _ => 0) s ∧ s.wg = 0 ∧ s.err = some .eof := by
  have s1 := PSteps.tail (PSteps.refl (n := 2) (res := exRes) (PState.start 2 fun _ => 0)) (.store _ 1 (by decide) rfl)
  have s2 := s1.tail (.store _ 0 (by decide) rfl)
  have s3 := s2.tail (.lock _ 1 (by decide) rfl rfl)
  have s4 := s3.tail (.done _ 0 (by decide) rfl)
  have s5 := s4.tail (.setError _ 1 (by decide) rfl)
  have s6 := s5.tail (.unlock _ 1 (by decide) rfl)
  have s7 := s6.tail (.done _ 1 (by decide) rfl)
  exact ⟨_, s7, rfl, rfl⟩

/-- It does return: while the counter is not zero some goroutine can go on, and every step brings the
end closer. -/
theorem C51_returns (n : Nat) (res : Nat → DLayer × Option Err) (work : Nat → Nat) (s : PState)
    (h : PSteps n res (PState.start n work) s) :
    (s.wg ≠ 0 → ∃ t, PStep n res s t) ∧
    ∀ t, PStep n res s t →
      ((List.range n).map fun i => (t.phase i).left).sum < ((List.range n).map fun i => (s.phase i).left).sum := by
  have hv := pinv_steps h
  constructor
  · intro hw
    rw [hv.wg] at hw
    obtain ⟨i, hi⟩ := List.exists_mem_of_length_pos (Nat.pos_of_ne_zero hw)
    rw [List.mem_filter, List.mem_range] at hi
    obtain ⟨hi, hp⟩ := hi
    have hp : s.phase i ≠ .finished := by simpa using hp
    cases hph : s.phase i with
    | reading k =>
      cases k with
      | zero => exact ⟨_, .store s i hi hph⟩
      | succ k => exact ⟨_, .read s i k hi hph⟩
    | locking =>
      cases hl : s.lock with
      | none => exact ⟨_, .lock s i hi hph hl⟩
      | some j =>
        obtain ⟨hj, hpj⟩ := hv.lock j hl
        rcases hpj with hpj | hpj
        · exact ⟨_, .setError s j hj hpj⟩
        · exact ⟨_, .unlock s j hj hpj⟩
    | holding => exact ⟨_, .setError s i hi hph⟩
    | unlocking => exact ⟨_, .unlock s i hi hph⟩
    | finishing => exact ⟨_, .done s i hi hph⟩
    | finished => exact absurd hph hp
  · intro t ht
    have key : ∀ (i : Nat) (p : Phase), i < n → p.left < (s.phase i).left →
        ((List.range n).map fun j => (upd s.phase i p j).left).sum < ((List.range n).map fun i => (s.phase i).left).sum := by
      intro i p hi hlt
      have : ∀ l : List Nat, (l.map fun j => (upd s.phase i p j).left).sum ≤ (l.map fun j => (s.phase j).left).sum ∧
          (i ∈ l → (l.map fun j => (upd s.phase i p j).left).sum < (l.map fun j => (s.phase j).left).sum) := by
        intro l
        induction l with
        | nil => exact ⟨Nat.le_refl _, fun h => by cases h⟩
        | cons a l ih =>
          simp only [List.map_cons, List.sum_cons]
          by_cases ha : a = i
          · subst ha
            rw [upd_same]
            exact ⟨by omega, fun _ => by omega⟩
          · rw [upd_other _ _ ha]
            refine ⟨by omega, fun hm => ?_⟩
            rcases List.mem_cons.1 hm with h | h
            · exact absurd h.symm ha
            · have := ih.2 h; omega
      exact (this _).2 (List.mem_range.2 hi)
    cases ht with
    | read i k hi hp => exact key i _ hi (by rw [hp]; show k + 6 < k + 1 + 6; omega)
    | store i hi hp => exact key i _ hi (by rw [hp]; split <;> decide)
    | lock i hi hp hl => exact key i _ hi (by rw [hp]; decide)
    | setError i hi hp => exact key i _ hi (by rw [hp]; decide)
    | unlock i hi hp => exact key i _ hi (by rw [hp]; decide)
    | done i hi hp => exact key i _ hi (by rw [hp]; decide)

example : PSteps 2 exRes (PState.start 2 fun _ => 3) (PState.start 2 fun _ => 3) := PSteps.refl _

theorem firstErr_append_none (errs : List (Option Err)) (a b : List Nat) (h : ∀ i ∈ b, errs.getD i none = none) :
    firstErr errs (a ++ b) = firstErr errs a := by
  induction a with
  | nil =>
    rw [List.nil_append]
    induction b with
    | nil => rfl
    | cons k b ih =>
      unfold firstErr
      rw [h k (List.mem_cons_self ..)]
      exact ih fun i hi => h i (List.mem_cons_of_mem _ hi)
  | cons k a ih =>
    rw [List.cons_append]
    unfold firstErr
    rw [ih]

/-- Every execution gives the result `readLayers` of the sequential model gives for some order of the
goroutines; so what is proved of `readLayers` for all orders holds of all interleavings. -/
theorem C51_sequential (c : Ctx) (D : Bytes) (ps : List UInt64) (res : Nat → DLayer × Option Err)
    (hres : ∀ i (hi : i < ps.length), layerAtPtr c D ps[i] = .ok (res i)) (work : Nat → Nat) (s : PState)
    (h : PSteps ps.length res (PState.start ps.length work) s) (hw : s.wg = 0) :
    ∃ (sch : Sched) (ls : List DLayer), sch.Valid ∧ ls.length = ps.length ∧ (∀ i, i < ps.length → s.slot i = ls[i]?) ∧
      readLayers sch c D ps = .ok (ls, s.err) := by
  have hv := pinv_steps h
  have hf := pinv_finished hv hw
  obtain ⟨ord, h1, h2, h3, h4, h5⟩ := hv.order
  let full := ord ++ (List.range ps.length).filter fun i => i ∉ ord
  have hperm : full.Perm (List.range ps.length) := by
    rw [List.perm_ext_iff_of_nodup _ List.nodup_range]
    · intro i
      simp only [full, List.mem_append, List.mem_filter, List.mem_range, decide_eq_true_eq]
      constructor
      · rintro (h | h)
        · exact h2 i h
        · exact h.1
      · intro h
        by_cases hi : i ∈ ord
        · exact Or.inl hi
        · exact Or.inr ⟨h, hi⟩
    · simp only [full]
      rw [List.nodup_append]
      refine ⟨h1, List.nodup_range.filter _, ?_⟩
      rintro a ha b hb rfl
      rw [List.mem_filter] at hb
      simp only [decide_eq_true_eq] at hb
      exact hb.2 ha
  refine ⟨⟨fun m => if m = ps.length then full else List.range m, List.range⟩,
    (List.range ps.length).map fun i => (res i).1, ⟨?_, fun _ => List.Perm.refl _⟩, ?_, ?_, ?_⟩
  · intro m
    dsimp only
    split
    · rename_i hm; rw [hm]; exact hperm
    · exact List.Perm.refl _
  · rw [List.length_map, List.length_range]
  · intro i hi
    rw [hv.slot i hi (by rw [hf i hi]; rfl), List.getElem?_map, List.getElem?_range hi]
    rfl
  · have hg : ps.map (layerAtPtr c D) = ((List.range ps.length).map res).map .ok := by
      apply List.ext_getElem
      · simp
      · intro i hi hi'
        rw [List.length_map] at hi
        rw [List.getElem_map, List.getElem_map, List.getElem_map, List.getElem_range]
        exact hres i hi
    unfold readLayers
    rw [hg, gather_map_ok]
    dsimp only
    rw [List.map_map, List.map_map, if_pos rfl, h5]
    rw [show firstErr ((List.range ps.length).map ((fun x : DLayer × Option Err => x.2) ∘ res)) full =
      firstErr ((List.range ps.length).map fun i => (res i).2) ord from ?_]
    · rfl
    · apply firstErr_append_none
      intro i hi
      rw [List.mem_filter, List.mem_range] at hi
      simp only [decide_eq_true_eq] at hi
      show ((List.range ps.length).map fun i => (res i).2).getD i none = none
      rw [getD_range hi.1]
      cases hr : (res i).2 with
      | none => rfl
      | some e => exact absurd (h3 i hi.1 (by rw [hf i hi.1]; rfl) (by rw [hr]; rfl)) hi.2

example : ∃ r, layerAtPtr ⟨exEnv, 1, true, 1, [], 0⟩ maskedLayer 51 = .ok r := by
  have : (match layerAtPtr ⟨exEnv, 1, true, 1, [], 0⟩ maskedLayer 51 with | .ok _ => true | _ => false) = true := by
    decide +kernel
  generalize layerAtPtr ⟨exEnv, 1, true, 1, [], 0⟩ maskedLayer 51 = x at this
  match x, this with
  | .ok r, _ => exact ⟨r, rfl⟩

end Limage
