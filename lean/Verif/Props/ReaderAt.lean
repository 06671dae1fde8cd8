import Verif.Spec.ReaderAt
/-!
# C57, C58, C78: concurrent `ReadAt` over a seeker
-/
namespace Limage
open Spec

theorem AtState.set_same (s : AtState) (i : Nat) (c : CallState) : (s.set i c).call i = c := by simp [AtState.set]

theorem AtState.set_ne (s : AtState) {i j : Nat} (c : CallState) (h : j ≠ i) : (s.set i c).call j = s.call j := by simp [AtState.set, h]

/-- what holds of a call that has not the mutex -/
def Outside (data : Bytes) (args : Nat → Int × Nat) (i : Nat) (c : CallState) : Prop :=
  c = .idle ∨ ∃ bs e, c = .done bs e ∧ BytesAt data (args i).1 bs ∧ bs.length ≤ (args i).2

/-- what holds of the call that has the mutex -/
def Inside (data : Bytes) (args : Nat → Int × Nat) (i : Nat) (s : AtState) : Prop :=
  match s.call i with
  | .idle => False
  | .locked => s.pos = s.real
  | .placed => s.pos = s.real ∧ (args i).1 = s.pos
  | .got bs _ => s.pos + bs.length = s.real ∧ BytesAt data (args i).1 bs ∧ bs.length ≤ (args i).2
  | .moved bs _ => s.pos = s.real ∧ BytesAt data (args i).1 bs ∧ bs.length ≤ (args i).2
  | .done bs _ => bs = []

/-- the invariant -/
def RInv (data : Bytes) (args : Nat → Int × Nat) (s : AtState) : Prop :=
  match s.mutex with
  | none => s.pos = s.real ∧ ∀ i, Outside data args i (s.call i)
  | some i => Inside data args i s ∧ ∀ j, j ≠ i → Outside data args j (s.call j)

theorem Outside.of_running {data : Bytes} {args : Nat → Int × Nat} {i : Nat} {c : CallState} (h : Outside data args i c)
    (h1 : c ≠ .idle) (h2 : ∀ bs e, c ≠ .done bs e) : False := by
  rcases h with h | ⟨bs, e, h, _⟩
  · exact h1 h
  · exact h2 bs e h

/-- only the call that has the mutex is running -/
theorem RInv.holder {data : Bytes} {args : Nat → Int × Nat} {s : AtState} (h : RInv data args s) {i : Nat}
    (h1 : s.call i ≠ .idle) (h2 : ∀ bs e, s.call i ≠ .done bs e) :
    s.mutex = some i ∧ Inside data args i s ∧ ∀ j, j ≠ i → Outside data args j (s.call j) := by
  unfold RInv at h
  cases hm : s.mutex with
  | none =>
    rw [hm] at h
    exact ((h.2 i).of_running h1 h2).elim
  | some k =>
    rw [hm] at h
    by_cases hk : i = k
    · subst hk; exact ⟨rfl, h⟩
    · exact ((h.2 i hk).of_running h1 h2).elim

theorem RInv.inside {data : Bytes} {args : Nat → Int × Nat} {s : AtState} {i : Nat} {c : CallState} (hm : s.mutex = some i)
    (hc : Inside data args i (s.set i c)) (ho : ∀ j, j ≠ i → Outside data args j (s.call j)) : RInv data args (s.set i c) := by
  unfold RInv
  rw [show (s.set i c).mutex = some i from hm]
  exact ⟨hc, fun j hj => by rw [AtState.set_ne _ _ hj]; exact ho j hj⟩

theorem rInv_step {k : Seeker} {args : Nat → Int × Nat} {s t : AtState} (h : RInv k.data args s) (hs : RStep k args s t) : RInv k.data args t := by
  cases hs with
  | @lock i h1 h2 =>
    unfold RInv at h
    rw [h2] at h
    refine RInv.inside rfl ?_ fun j _ => h.2 j
    unfold Inside
    rw [AtState.set_same]
    exact h.1
  | @same i h1 h2 =>
    obtain ⟨hm, hi, ho⟩ := h.holder (i := i) (by rw [h1]; nofun) (by rw [h1]; nofun)
    refine RInv.inside hm ?_ ho
    unfold Inside at hi ⊢
    rw [h1] at hi
    rw [AtState.set_same]
    exact ⟨hi, h2⟩
  | @seek i h1 h2 h3 =>
    obtain ⟨hm, hi, ho⟩ := h.holder (i := i) (by rw [h1]; nofun) (by rw [h1]; nofun)
    refine RInv.inside hm ?_ ho
    unfold Inside
    rw [AtState.set_same]
    exact ⟨rfl, rfl⟩
  | @seekFails i v p h1 h2 h3 =>
    obtain ⟨hm, hi, ho⟩ := h.holder (i := i) (by rw [h1]; nofun) (by rw [h1]; nofun)
    refine RInv.inside hm ?_ ho
    unfold Inside
    rw [AtState.set_same]
  | @read i n err h1 h2 h3 h4 =>
    obtain ⟨hm, hi, ho⟩ := h.holder (i := i) (by rw [h1]; nofun) (by rw [h1]; nofun)
    refine RInv.inside hm ?_ ho
    unfold Inside at hi ⊢
    rw [h1] at hi
    rw [AtState.set_same]
    obtain ⟨hp, ha⟩ := hi
    refine ⟨?_, ?_, ?_⟩
    · show s.pos + _ = s.real + _
      rw [List.length_take, Nat.min_eq_left h3, hp]
    · unfold BytesAt
      rw [ha, hp]
      exact List.take_prefix _ _
    · rw [List.length_take]
      omega
  | @move i bs err h1 =>
    obtain ⟨hm, hi, ho⟩ := h.holder (i := i) (by rw [h1]; nofun) (by rw [h1]; nofun)
    refine RInv.inside hm ?_ ho
    unfold Inside at hi ⊢
    rw [h1] at hi
    rw [AtState.set_same]
    exact hi
  | @unlock i bs err h1 =>
    obtain ⟨hm, hi, ho⟩ := h.holder (i := i) (by rw [h1]; nofun) (by rw [h1]; nofun)
    unfold Inside at hi
    rw [h1] at hi
    unfold RInv
    rw [show (AtState.set { s with mutex := none } i (.done bs err)).mutex = none from rfl]
    refine ⟨hi.1, fun j => ?_⟩
    by_cases hj : j = i
    · subst hj
      rw [AtState.set_same]
      exact .inr ⟨bs, err, rfl, hi.2⟩
    · rw [AtState.set_ne _ _ hj]
      exact ho j hj

theorem rInv_run {k : Seeker} {args : Nat → Int × Nat} {s : AtState} (h : RRun k args (AtState.start 0) s) : RInv k.data args s := by
  induction h with
  | refl => exact ⟨rfl, fun _ => .inl rfl⟩
  | tail _ h ih => exact rInv_step ih h

/-! ## C57 -/

/-- C57: however the calls are interleaved, whatever the seeker does, a call returns bytes at its offset, and not more than it was asked for.
Full statement: for a seeker at any position; what is missing is one that is not at its start when it is given to `GetReaderAt`, for which the claim is
false (`C57_refuted`). -/
theorem C57_reads_partial (k : Seeker) (args : Nat → Int × Nat) (s : AtState) (h : RRun k args (AtState.start 0) s) (i : Nat) (bs : Bytes) (e : Bool)
    (hd : s.call i = .done bs e) : BytesAt k.data (args i).1 bs ∧ bs.length ≤ (args i).2 := by
  have hi := rInv_run h
  unfold RInv at hi
  have hn : ∀ j, Outside k.data args j (s.call j) → j = i → BytesAt k.data (args i).1 bs ∧ bs.length ≤ (args i).2 := by
    rintro j h rfl
    rcases h with h | ⟨bs', e', h1, h2, h3⟩
    · rw [hd] at h; cases h
    · rw [hd] at h1
      cases h1
      exact ⟨h2, h3⟩
  cases hm : s.mutex with
  | none => rw [hm] at hi; exact hn i (hi.2 i) rfl
  | some k =>
    rw [hm] at hi
    by_cases hk : i = k
    · subst hk
      have h1 := hi.1
      unfold Inside at h1
      rw [hd] at h1
      dsimp only at h1
      rw [h1]
      exact ⟨List.nil_prefix, Nat.zero_le _⟩
    · exact hn i (hi.2 i hk) rfl

/-- two calls: the second, at offset 0, starts while the first reads at offset 1 -/
example : ∃ s, RRun ⟨[1, 2], fun _ => True, fun _ => False, fun _ _ _ _ => True⟩ (fun i => if i = 0 then (1, 1) else (0, 2)) (AtState.start 0) s ∧
    s.call 0 = .done [2] false ∧ s.call 1 = .done [1, 2] true :=
  ⟨_, .tail (.tail (.tail (.tail (.tail
      (.tail (.tail (.tail (.tail (.tail .refl (.lock (i := 0) rfl rfl)) (.seek (i := 0) rfl (by decide) trivial))
        (.read (i := 0) 1 false rfl (by decide) (by decide) trivial)) (.move (i := 0) rfl)) (.unlock (i := 0) rfl))
      (.lock (i := 1) rfl rfl)) (.seek (i := 1) rfl (by decide) trivial)) (.read (i := 1) 2 true rfl (by decide) (by decide) trivial))
      (.move (i := 1) rfl)) (.unlock (i := 1) rfl), rfl, rfl⟩

/-- C57: two calls are never both between `Lock` and `Unlock`, so that nothing of `readerAt` is used by two goroutines at a time. -/
theorem C57_exclusive (k : Seeker) (args : Nat → Int × Nat) (s : AtState) (h : RRun k args (AtState.start 0) s) (i j : Nat) (hi : Running s i)
    (hj : Running s j) : i = j := by
  have := rInv_run h
  have h1 := (this.holder hi.1 hi.2).1
  have h2 := (this.holder hj.1 hj.2).1
  rw [h1] at h2
  cases h2
  rfl

/-- a call that has the mutex, while the other one waits -/
example : ∃ s, RRun ⟨[1, 2], fun _ => True, fun _ => False, fun _ _ _ _ => True⟩ (fun _ => (1, 1)) (AtState.start 0) s ∧ Running s 0 ∧ ¬Running s 1 := by
  refine ⟨_, .tail .refl (.lock (i := 0) rfl rfl), ?_, ?_⟩ <;> unfold Running <;> simp [AtState.set, AtState.start]

/-- C57: which readers can be used, and which are read from the start: a seeker in a `bufio.Reader` is rewound, a seeker is not. -/
theorem C57_sources (p0 : Int) :
    getReaderAt p0 .readerAt = .direct ∧ getReaderAt p0 (.bufio .readerAt) = .direct ∧ (∀ p, getReaderAt p0 (.seeker p) = .seeks p) ∧
    (∀ p, getReaderAt p0 (.bufio (.seeker p)) = .seeks p0) ∧ getReaderAt p0 .other = .none ∧ ∀ r, getReaderAt p0 (.bufio (.bufio r)) = .none :=
  ⟨rfl, rfl, fun _ => rfl, fun _ => rfl, rfl, fun _ => rfl⟩

/-- a buffered reader of a file is read from where it was made, one of a buffered reader not at all -/
example : getReaderAt 3 (.bufio (.seeker 7)) = .seeks 3 ∧ getReaderAt 3 (.bufio (.bufio .readerAt)) = .none := ⟨rfl, rfl⟩

/-- C57 is false: a seeker at position 1 is taken to be at 0, and the first call gets other bytes than those at its offset. -/
theorem C57_refuted : ∃ (k : Seeker) (args : Nat → Int × Nat) (p : Int) (s : AtState), getReaderAt 0 (.seeker p) = .seeks p ∧
    RRun k args (AtState.start p) s ∧ ∃ bs, s.call 0 = .done bs false ∧ ¬BytesAt k.data (args 0).1 bs := by
  refine ⟨⟨[1, 2], fun _ => True, fun _ => False, fun _ _ _ _ => True⟩, fun _ => (0, 1), 1, _, rfl,
    .tail (.tail (.tail (.tail (.tail .refl (.lock (i := 0) rfl rfl)) (.same (i := 0) rfl rfl)) (.read (i := 0) 1 false rfl (by decide) (by decide) trivial))
      (.move (i := 0) rfl)) (.unlock (i := 0) rfl), [2], rfl, ?_⟩
  unfold BytesAt
  decide

/-! ## C58 -/

/-- a call that fails to seek keeps the mutex: nothing happens any more -/
theorem blocked_step {k : Seeker} {args : Nat → Int × Nat} {s t : AtState} {i : Nat} (hm : s.mutex = some i)
    (ho : ∀ j, s.call j = .idle ∨ Returned s j) (hs : RStep k args s t) : False := by
  have hr : ∀ j c, s.call j = c → c ≠ .idle → (∀ bs e, c ≠ .done bs e) → False := by
    intro j c h h1 h2
    rcases ho j with h' | ⟨bs, e, h'⟩
    · exact h1 (h ▸ h')
    · exact h2 bs e (h ▸ h')
  cases hs with
  | lock _ h => rw [hm] at h; cases h
  | same h => exact hr _ _ h nofun nofun
  | seek h => exact hr _ _ h nofun nofun
  | seekFails _ _ h => exact hr _ _ h nofun nofun
  | read _ _ h => exact hr _ _ h nofun nofun
  | move h => exact hr _ _ h nofun nofun
  | unlock h => exact hr _ _ h nofun nofun

/-- C58 is false: after a call whose `Seek` has failed, no call that has not returned ever does. -/
theorem C58_refuted (k : Seeker) (args : Nat → Int × Nat) (s t u : AtState) (i : Nat) (h : RRun k args (AtState.start 0) s)
    (hl : s.call i = .locked) (hs : RStep k args s t) (ht : Returned t i) (hu : RRun k args t u) : u = t := by
  have hi := rInv_run h
  obtain ⟨hm, -, ho⟩ := hi.holder (i := i) (by rw [hl]; nofun) (by rw [hl]; nofun)
  have htm : t.mutex = some i ∧ ∀ j, j ≠ i → t.call j = s.call j := by
    obtain ⟨bs, e, ht⟩ := ht
    have hj : ∀ {j c}, s.call j = c → c ≠ .idle → (∀ bs e, c ≠ .done bs e) → j = i := by
      intro j c h1 h2 h3
      subst h1
      exact Classical.byContradiction fun hji => (ho j hji).of_running h2 h3
    have hc : ∀ {s' : AtState} {c : CallState}, (s'.set i c).call i = .done bs e → c = .done bs e := by
      intro s' c h
      rw [AtState.set_same] at h
      exact h
    cases hs with
    | lock _ h => rw [hm] at h; cases h
    | same h => cases hj h nofun nofun; cases hc ht
    | seek h => cases hj h nofun nofun; cases hc ht
    | seekFails v p h => cases hj h nofun nofun; exact ⟨hm, fun j hj => AtState.set_ne _ _ hj⟩
    | read _ _ h => cases hj h nofun nofun; cases hc ht
    | move h => cases hj h nofun nofun; cases hc ht
    | unlock h => cases hj h nofun nofun; rw [hl] at h; cases h
  have hb : ∀ j, t.call j = .idle ∨ Returned t j := by
    intro j
    by_cases hj : j = i
    · subst hj; exact .inr ht
    · rcases ho j hj with h | ⟨bs, e, h, _⟩
      · left; rw [htm.2 j hj]; exact h
      · right; exact ⟨bs, e, by rw [htm.2 j hj]; exact h⟩
  induction hu with
  | refl => rfl
  | tail _ h ih =>
    rw [ih] at h
    exact (blocked_step htm.1 hb h).elim

/-- a call with offset 5 fails to seek -/
example : ∃ s t, RRun ⟨[1, 2], fun _ => True, fun p => 2 < p, fun _ _ _ _ => True⟩ (fun _ => (5, 1)) (AtState.start 0) s ∧ s.call 0 = .locked ∧
    RStep ⟨[1, 2], fun _ => True, fun p => 2 < p, fun _ _ _ _ => True⟩ (fun _ => (5, 1)) s t ∧
    Returned t 0 ∧ t.call 1 = .idle :=
  ⟨_, _, .tail .refl (.lock (i := 0) rfl rfl), rfl, .seekFails (i := 0) 0 0 rfl (by decide) (by decide), ⟨_, _, rfl⟩, rfl⟩

/-- how many steps a call can still do -/
def CallState.left : CallState → Nat
  | .idle => 5
  | .locked => 4
  | .placed => 3
  | .got _ _ => 2
  | .moved _ _ => 1
  | .done _ _ => 0

/-- no call that has returned has the mutex -/
def Unblocked (s : AtState) : Prop := ∀ i, s.mutex = some i → ¬Returned s i

/-- a seeker that does not fail to seek, and whose `Read` returns -/
structure Works (k : Seeker) (args : Nat → Int × Nat) : Prop where
  succeeds : ∀ i, k.succeeds (args i).1
  fails : ∀ i, ¬k.fails (args i).1
  reads : ∀ asked left, ∃ n e, n ≤ asked ∧ n ≤ left ∧ k.reads asked left n e

/-- every step of a call brings it nearer to its end -/
theorem C58_step_left (k : Seeker) (args : Nat → Int × Nat) (s t : AtState) (h : RStep k args s t) :
    ∃ j, (t.call j).left < (s.call j).left ∧ ∀ k, k ≠ j → t.call k = s.call k := by
  have hset : ∀ (s' : AtState) (j : Nat) (c : CallState), s'.call = s.call → c.left < (s.call j).left →
      ∃ j', ((s'.set j c).call j').left < (s.call j').left ∧ ∀ k, k ≠ j' → (s'.set j c).call k = s.call k := by
    intro s' j c h1 h2
    exact ⟨j, by rw [AtState.set_same]; exact h2, fun k hk => by rw [AtState.set_ne _ _ hk, h1]⟩
  cases h with
  | lock h => exact hset { s with mutex := _ } _ _ rfl (by rw [h]; decide)
  | same h => exact hset _ _ _ rfl (by rw [h]; decide)
  | seek h => exact hset { s with pos := _, real := _ } _ _ rfl (by rw [h]; decide)
  | seekFails v p h => exact hset { s with pos := v, real := p } _ _ rfl (by rw [h]; decide)
  | read k _ h => exact hset { s with real := s.real + k } _ _ rfl (by rw [h]; exact Nat.lt_succ_self 2)
  | move h => exact hset { s with pos := _ } _ _ rfl (by rw [h]; exact Nat.lt_succ_self 1)
  | unlock h => exact hset { s with mutex := none } _ _ rfl (by rw [h]; exact Nat.lt_succ_self 0)

theorem unblocked_run {k : Seeker} {args : Nat → Int × Nat} (hk : Works k args) {s : AtState} (h : RRun k args (AtState.start 0) s) : Unblocked s := by
  induction h with
  | refl => intro i hi; cases hi
  | @tail t u hr hst ih =>
    have keep : ∀ (s' : AtState) (j : Nat) (c : CallState), s'.mutex = some j → (∀ bs e, c ≠ .done bs e) → Unblocked (s'.set j c) := by
      intro s' j c hm hc i hi
      rw [show (s'.set j c).mutex = s'.mutex from rfl, hm] at hi
      cases hi
      rintro ⟨bs, e, h⟩
      rw [AtState.set_same] at h
      exact hc bs e h
    have hm : ∀ {j c}, t.call j = c → c ≠ .idle → (∀ bs e, c ≠ .done bs e) → t.mutex = some j := by
      intro j c h h1 h2
      subst h
      exact ((rInv_run hr).holder h1 h2).1
    cases hst with
    | @lock i h => exact keep { t with mutex := some i } i _ rfl nofun
    | @same i h => exact keep t i _ (hm h nofun nofun) nofun
    | @seek i h => exact keep { t with pos := _, real := _ } i _ (hm h nofun nofun) nofun
    | @seekFails i _ _ _ _ h => exact absurd h (hk.fails i)
    | @read i n _ h => exact keep { t with real := t.real + n } i _ (hm h nofun nofun) nofun
    | @move i bs _ h => exact keep { t with pos := t.pos + bs.length } i _ (hm h nofun nofun) nofun
    | unlock h => intro i hi; cases hi

/-- C58 for a seeker that does not fail to seek: as long as a call has not returned, it or the one that has the mutex can go on.
Full statement: the same for every seeker; false by `C58_refuted`. -/
theorem C58_goes_on_partial (k : Seeker) (args : Nat → Int × Nat) (hk : Works k args) (s : AtState) (h : RRun k args (AtState.start 0) s)
    (i : Nat) (hi : ¬Returned s i) :
    ∃ t j, RStep k args s t ∧ (j = i ∨ s.mutex = some j) ∧ (t.mutex = none ∨ t.mutex = some j) ∧ (t.call j).left < (s.call j).left ∧
      ∀ k, k ≠ j → t.call k = s.call k := by
  have hinv := rInv_run h
  have hu := unblocked_run hk h
  unfold RInv at hinv
  -- a step of the one that has the mutex, after which it has it still
  have keep : ∀ (s' : AtState) (j : Nat) (c : CallState), RStep k args s (s'.set j c) → s'.call = s.call → s'.mutex = some j →
      c.left < (s.call j).left → (j = i ∨ s.mutex = some j) →
      ∃ t j, RStep k args s t ∧ (j = i ∨ s.mutex = some j) ∧ (t.mutex = none ∨ t.mutex = some j) ∧ (t.call j).left < (s.call j).left ∧
        ∀ k, k ≠ j → t.call k = s.call k := by
    intro s' j c hst hs' hm hl hji
    refine ⟨_, j, hst, hji, .inr hm, ?_, fun k hk => by rw [AtState.set_ne _ _ hk, hs']⟩
    rw [AtState.set_same]; exact hl
  obtain ⟨mu, hm⟩ : ∃ m, s.mutex = m := ⟨_, rfl⟩
  rw [hm] at hinv
  cases mu with
  | none =>
    have hc : s.call i = .idle := by
      rcases hinv.2 i with h | ⟨bs, e, h, _⟩
      · exact h
      · exact absurd ⟨bs, e, h⟩ hi
    exact keep { s with mutex := some i } i _ (.lock hc hm) rfl rfl (by rw [hc]; decide) (.inl rfl)
  | some j =>
    have hj := hu j hm
    cases hc : s.call j with
    | idle => exact absurd hinv.1 (by unfold Inside; rw [hc]; exact id)
    | locked =>
      by_cases hp : (args j).1 = s.pos
      · exact keep s j _ (.same hc hp) rfl hm (by rw [hc]; decide) (.inr hm)
      · exact keep { s with pos := (args j).1, real := (args j).1 } j _ (.seek hc hp (hk.succeeds j)) rfl hm (by rw [hc]; decide) (.inr hm)
    | placed =>
      obtain ⟨n, e, h1, h2, h3⟩ := hk.reads (args j).2 (k.data.drop s.real.toNat).length
      exact keep { s with real := s.real + n } j _ (.read n e hc h1 h2 h3) rfl hm (by rw [hc]; exact Nat.lt_succ_self 2) (.inr hm)
    | got bs e => exact keep { s with pos := s.pos + bs.length } j _ (.move hc) rfl hm (by rw [hc]; exact Nat.lt_succ_self 1) (.inr hm)
    | moved bs e =>
      exact ⟨_, j, .unlock hc, .inr hm, .inl rfl, by rw [AtState.set_same, hc]; exact Nat.lt_succ_self 0, fun k hk => by rw [AtState.set_ne _ _ hk]⟩
    | done bs e => exact absurd ⟨bs, e, hc⟩ hj

/-- a seeker that returns as much as it can, with an error if that is less than asked for -/
def fullSeeker : Seeker := ⟨[1, 2], fun _ => True, fun _ => False, fun asked left n e => n = min asked left ∧ e = decide (left < asked)⟩

/-- the first call has the mutex, the second waits -/
example : Works fullSeeker (fun i => ((i : Int), 1)) ∧
    ∃ s, RRun fullSeeker (fun i => ((i : Int), 1)) (AtState.start 0) s ∧ ¬Returned s 0 ∧ ¬Returned s 1 := by
  refine ⟨⟨fun _ => trivial, fun _ => id, fun asked left => ⟨min asked left, decide (left < asked), by omega, by omega, rfl, rfl⟩⟩,
    _, .tail .refl (.lock (i := 0) rfl rfl), ?_, ?_⟩
  · rintro ⟨bs, e, h⟩; cases h
  · rintro ⟨bs, e, h⟩; cases h

/-- steps left to the first `n` calls -/
def leftAll (s : AtState) : Nat → Nat
  | 0 => 0
  | n + 1 => leftAll s n + (s.call n).left

theorem leftAll_le {s t : AtState} (h : ∀ k, (t.call k).left ≤ (s.call k).left) : ∀ n, leftAll t n ≤ leftAll s n
  | 0 => Nat.le_refl _
  | n + 1 => Nat.add_le_add (leftAll_le h n) (h n)

theorem leftAll_lt {s t : AtState} {j : Nat} (hj : (t.call j).left < (s.call j).left) (h : ∀ k, k ≠ j → t.call k = s.call k) :
    ∀ n, j < n → leftAll t n < leftAll s n
  | 0, hn => absurd hn (Nat.not_lt_zero _)
  | n + 1, hn => by
    have hle : ∀ k, (t.call k).left ≤ (s.call k).left := by
      intro k
      by_cases hk : k = j
      · rw [hk]; omega
      · rw [h k hk]; exact Nat.le_refl _
    unfold leftAll
    by_cases hjn : j = n
    · subst hjn
      have := leftAll_le hle j
      omega
    · have := leftAll_lt hj h n (by omega)
      have := hle n
      omega

/-- C58 for a seeker that does not fail to seek: at any time, any number of calls can be brought to their ends; and none can go on forever, by
`C58_step_left`.
Full statement: the same for every seeker; false by `C58_refuted`. -/
theorem C58_all_return_partial (k : Seeker) (args : Nat → Int × Nat) (hk : Works k args) (s : AtState) (h : RRun k args (AtState.start 0) s)
    (n : Nat) : ∃ t, RRun k args (AtState.start 0) t ∧ RRun k args s t ∧ ∀ i, i < n → Returned t i := by
  obtain ⟨N, hN, hmN⟩ : ∃ N, n ≤ N ∧ ∀ j, s.mutex = some j → j < N := by
    cases hm : s.mutex with
    | none => exact ⟨n, Nat.le_refl _, nofun⟩
    | some j => exact ⟨max n (j + 1), by omega, fun k hk => by cases hk; omega⟩
  generalize hl : leftAll s N = m
  induction m using Nat.strongRecOn generalizing s with
  | _ m ih =>
    by_cases hall : ∀ i, i < n → Returned s i
    · exact ⟨s, h, .refl, hall⟩
    · obtain ⟨i, hi⟩ := Classical.not_forall.1 hall
      obtain ⟨hin, hi⟩ := Classical.not_imp.1 hi
      obtain ⟨t, j, h1, h3, h4, h5, h6⟩ := C58_goes_on_partial k args hk s h i hi
      have hj : j < N := by
        rcases h3 with rfl | h3
        · omega
        · exact hmN j h3
      have hlt := leftAll_lt h5 h6 N hj
      obtain ⟨u, k1, k2, k3⟩ := ih _ (by omega) t (.tail h h1) (fun k hk => by
        rcases h4 with h4 | h4
        · rw [h4] at hk; cases hk
        · rw [h4] at hk; cases hk; exact hj) rfl
      refine ⟨u, k1, ?_, k3⟩
      clear k1 k3 ih
      induction k2 with
      | refl => exact .tail .refl h1
      | tail _ hb ih => exact .tail ih hb

/-! ## C78: the contract of `io.ReaderAt` -/

/-- C78 for a seeker whose `Read` fills the buffer or returns an error: a call that has returned fewer bytes than it was asked for has returned an error.
Full statement: the same for every seeker; false by `C78_refuted`, since `Read` is called once. -/
theorem C78_short_partial (k : Seeker) (args : Nat → Int × Nat) (p : Int) (s : AtState) (h : RRun k args (AtState.start p) s)
    (hfull : ∀ asked left n, k.reads asked left n false → n = asked) (i : Nat) (bs : Bytes) (e : Bool)
    (hd : s.call i = .done bs e) (hlen : bs.length < (args i).2) : e = true := by
  have key : ∀ s, RRun k args (AtState.start p) s → ∀ i bs, s.call i = .got bs false ∨ s.call i = .moved bs false ∨ s.call i = .done bs false →
      bs.length = (args i).2 := by
    intro s h
    induction h with
    | refl =>
      intro i bs h
      rcases h with h | h | h <;> cases h
    | @tail t u hr hst ih =>
      intro i bs hc
      have old : ∀ {s' : AtState} {j : Nat} {c : CallState}, s'.call = t.call → (c = .got bs false ∨ c = .moved bs false ∨ c = .done bs false → i = j → bs.length = (args i).2) →
          ((s'.set j c).call i = .got bs false ∨ (s'.set j c).call i = .moved bs false ∨ (s'.set j c).call i = .done bs false) → bs.length = (args i).2 := by
        intro s' j c h1 h2 h3
        by_cases hij : i = j
        · subst hij
          rw [AtState.set_same] at h3
          exact h2 h3 rfl
        · rw [AtState.set_ne _ _ hij, h1] at h3
          exact ih i bs h3
      cases hst with
      | lock h => exact old (s' := { t with mutex := _ }) rfl (fun h => by rcases h with h | h | h <;> cases h) hc
      | same h => exact old rfl (fun h => by rcases h with h | h | h <;> cases h) hc
      | seek h => exact old (s' := { t with pos := _, real := _ }) rfl (fun h => by rcases h with h | h | h <;> cases h) hc
      | seekFails v p h => exact old (s' := { t with pos := v, real := p }) rfl (fun h => by rcases h with h | h | h <;> cases h) hc
      | @read j n err h h1 h2 h3 =>
        refine old (s' := { t with real := t.real + n }) (j := j) rfl (fun h' hij => ?_) hc
        rcases h' with h' | h' | h' <;> cases h'
        subst hij
        rw [List.length_take, Nat.min_eq_left h2]
        exact hfull _ _ _ h3
      | move h => exact old (s' := { t with pos := _ }) rfl (fun h' hij => by
          rcases h' with h' | h' | h' <;> cases h'
          subst hij
          exact ih i bs (.inl h)) hc
      | unlock h => exact old (s' := { t with mutex := none }) rfl (fun h' hij => by
          rcases h' with h' | h' | h' <;> cases h'
          subst hij
          exact ih i bs (.inr (.inl h))) hc
  cases e with
  | true => rfl
  | false => have := key s h i bs (.inr (.inr hd)); omega

/-- the seeker, asked for three bytes -/
example : (∀ asked left n, fullSeeker.reads asked left n false → n = asked) ∧
    ∃ s, RRun fullSeeker (fun _ => (0, 3)) (AtState.start 0) s ∧ s.call 0 = .done [1, 2] true := by
  refine ⟨?_, _, .tail (.tail (.tail (.tail (.tail .refl (.lock (i := 0) rfl rfl)) (.same (i := 0) rfl rfl))
    (.read (i := 0) 2 true rfl (by decide) (by decide) ⟨by decide, by decide⟩)) (.move (i := 0) rfl)) (.unlock (i := 0) rfl), rfl⟩
  rintro asked left n ⟨h1, h2⟩
  have := of_decide_eq_false h2.symm
  omega

/-- C78 is false: a call may return fewer bytes than it was asked for without an error. -/
theorem C78_refuted : ∃ (k : Seeker) (args : Nat → Int × Nat) (s : AtState), RRun k args (AtState.start 0) s ∧
    ∃ bs, s.call 0 = .done bs false ∧ bs.length < (args 0).2 ∧ (args 0).1.toNat + (args 0).2 ≤ k.data.length :=
  ⟨⟨[1, 2], fun _ => True, fun _ => False, fun _ _ _ _ => True⟩, fun _ => (0, 2), _,
    .tail (.tail (.tail (.tail (.tail .refl (.lock (i := 0) rfl rfl)) (.same (i := 0) rfl rfl)) (.read (i := 0) 1 false rfl (by decide) (by decide) trivial))
      (.move (i := 0) rfl)) (.unlock (i := 0) rfl), [1], rfl, by decide, by decide⟩

end Limage
