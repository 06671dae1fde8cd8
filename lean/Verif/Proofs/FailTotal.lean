import Verif.Proofs.Failing
import Verif.Proofs.Runs
/-!
# The decoder over failing sources returns

The proofs of `Verif.Proofs.Total` and `Verif.Proofs.Runs` over the sources of `Verif.Model.Failing`.
-/
namespace Limage.Failing

theorem M.bind_ok {α β : Type} {m : M α} {f : α → M β} {r r' : R} {a : α} (h : m r = .ok (a, r')) :
    (m >>= f) r = f a r' := by
  show M.bind m f r = _
  unfold M.bind
  rw [h]

theorem M.bind_inv {α β : Type} {m : M α} {f : α → M β} {r r'' : R} {b : β} (h : (m >>= f) r = .ok (b, r'')) :
    ∃ a r', m r = .ok (a, r') ∧ f a r' = .ok (b, r'') := by
  change M.bind m f r = _ at h
  unfold M.bind at h
  cases hm : m r with
  | ok x => rw [hm] at h; exact ⟨x.1, x.2, rfl, h⟩
  | panic => rw [hm] at h; cases h
  | hang => rw [hm] at h; cases h

/-- the source stays, and an error is not lost -/
def Keep (r r' : R) : Prop := r'.data = r.data ∧ r'.limit = r.limit ∧ (r'.err = none → r.err = none)

theorem Keep.refl (r : R) : Keep r r := ⟨rfl, rfl, id⟩
theorem Keep.trans {a b c : R} (h1 : Keep a b) (h2 : Keep b c) : Keep a c :=
  ⟨h2.1.trans h1.1, h2.2.1.trans h1.2.1, fun h => h1.2.2 (h2.2.2 h)⟩
theorem Keep.none {r r' : R} (k : Keep r r') (h : r'.err = none) : r.err = none := k.2.2 h

/-- all runs do -/
def Keeps {α : Type} (m : M α) : Prop := ∀ r a r', m r = .ok (a, r') → Keep r r'

theorem setError_keeps (e : Err) : Keeps (setError e) := by
  intro r a r' h
  cases h
  refine ⟨rfl, rfl, fun h => ?_⟩
  change r.err.or (some e) = none at h
  cases hr : r.err with
  | none => rfl
  | some x => rw [hr] at h; cases h
theorem skip_keeps (n : UInt32) : Keeps (skip n) := by
  intro r a r' h
  cases h
  exact ⟨rfl, rfl, id⟩
theorem goto_keeps (n : UInt64) : Keeps (goto n) := by
  intro r a r' h
  unfold goto at h
  by_cases hn : n.toNat < 2 ^ 63
  · rw [if_pos hn] at h; cases h; exact ⟨rfl, rfl, id⟩
  · rw [if_neg hn] at h; cases h; exact ⟨rfl, rfl, id⟩

/-- always returns, keeps the source and errors, and does not move backwards -/
def Total {α : Type} (m : M α) : Prop := ∀ r, ∃ a r', m r = .ok (a, r') ∧ Keep r r' ∧ r.pos ≤ r'.pos

theorem Total.keeps {α : Type} {m : M α} (h : Total m) : Keeps m := by
  intro r a r' e
  obtain ⟨a1, r1, e1, k, _⟩ := h r
  rw [e] at e1; cases e1; exact k
theorem Total.fwd {α : Type} {m : M α} (h : Total m) {r r' : R} {a : α} (e : m r = .ok (a, r')) :
    r.pos ≤ r'.pos := by
  obtain ⟨a1, r1, e1, _, k⟩ := h r
  rw [e] at e1; cases e1; exact k

theorem Total.pure {α : Type} (a : α) : Total (pure a : M α) :=
  fun r => ⟨a, r, rfl, Keep.refl r, Nat.le_refl _⟩
theorem Total.bind {α β : Type} {m : M α} {f : α → M β} (h1 : Total m) (h2 : ∀ a, Total (f a)) :
    Total (m >>= f) := by
  intro r
  obtain ⟨a, r1, e1, k1, p1⟩ := h1 r
  obtain ⟨b, r2, e2, k2, p2⟩ := h2 a r1
  exact ⟨b, r2, by rw [M.bind_ok e1, e2], k1.trans k2, Nat.le_trans p1 p2⟩
theorem Total.ite {α : Type} {p : Prop} [Decidable p] {m n : M α} (h1 : Total m) (h2 : Total n) :
    Total (if p then m else n) := by
  by_cases h : p
  · rw [if_pos h]; exact h1
  · rw [if_neg h]; exact h2

theorem getErr_total : Total getErr := fun r => ⟨_, r, rfl, Keep.refl r, Nat.le_refl _⟩
theorem setError_total (e : Err) : Total (setError e) :=
  fun r => ⟨(), _, rfl, setError_keeps e _ _ _ rfl, Nat.le_refl _⟩
theorem setErr?_total (e : Option Err) : Total (setErr? e) := by
  cases e with
  | none => exact Total.pure ()
  | some e => exact setError_total e
theorem skip_total (n : UInt32) : Total (skip n) :=
  fun r => ⟨(), _, rfl, skip_keeps n _ _ _ rfl, Nat.le_add_right _ _⟩

/-- what the three operations on the source do -/
theorem source_step {r : R} {m : M Bytes} (h : ∀ s a, m r = .ok (a, s) → s.err = none → r.err = none)
    (h1 : ∃ a s, m r = .ok (a, s) ∧ s.data = r.data ∧ s.limit = r.limit ∧ r.pos ≤ s.pos) :
    ∃ a s, m r = .ok (a, s) ∧ Keep r s ∧ r.pos ≤ s.pos := by
  obtain ⟨a, s, e, h2, h3, h4⟩ := h1
  exact ⟨a, s, e, ⟨h2, h3, h s a e⟩, h4⟩

theorem readFull_total (n : Nat) : Total (readFull n) := by
  intro r
  refine source_step (fun s a e he => ((Agrees.readFull n).good r a s e he).1) ?_
  unfold readFull
  split
  · exact ⟨_, _, rfl, rfl, rfl, Nat.le_refl _⟩
  · split
    · dsimp only
      split
      · exact ⟨_, _, rfl, rfl, rfl, Nat.le_add_right _ _⟩
      · exact ⟨_, _, rfl, rfl, rfl, Nat.le_add_right _ _⟩
    · dsimp only
      split
      · exact ⟨_, _, rfl, rfl, rfl, Nat.le_add_right _ _⟩
      · exact ⟨_, _, rfl, rfl, rfl, Nat.le_add_right _ _⟩
theorem readInto_total (p : Bytes) : Total (readInto p) := by
  intro r
  refine source_step (fun s a e he => ((Agrees.readInto p).good r a s e he).1) ?_
  unfold readInto
  split
  · exact ⟨_, _, rfl, rfl, rfl, Nat.le_refl _⟩
  · dsimp only
    split
    · exact ⟨_, _, rfl, rfl, rfl, Nat.le_refl _⟩
    · split
      · exact ⟨_, _, rfl, rfl, rfl, Nat.le_add_right _ _⟩
      · exact ⟨_, _, rfl, rfl, rfl, Nat.le_add_right _ _⟩
theorem copyN_total (n : Nat) : Total (copyN n) := by
  intro r
  refine source_step (fun s a e he => ((Agrees.copyN n).good r a s e he).1) ?_
  unfold copyN
  split
  · exact ⟨_, _, rfl, rfl, rfl, Nat.le_refl _⟩
  · split
    · exact ⟨_, _, rfl, rfl, rfl, Nat.le_add_right _ _⟩
    · exact ⟨_, _, rfl, rfl, rfl, Nat.le_add_right _ _⟩

theorem readUint16_total : Total readUint16 := (readFull_total _).bind fun _ => Total.pure _
theorem readUint8_total : Total readUint8 := (readFull_total _).bind fun _ => Total.pure _
theorem readUint32_total : Total readUint32 := (readFull_total _).bind fun _ => Total.pure _
theorem readUint64_total : Total readUint64 := (readFull_total _).bind fun _ => Total.pure _
theorem readPtr_total (mode : UInt32) : Total (readPtr mode) := by
  unfold readPtr
  exact Total.ite (readUint32_total.bind fun _ => Total.pure _) readUint64_total

theorem readString_total : Total readString := by
  unfold readString
  refine readUint32_total.bind fun n => Total.ite (Total.pure _) (Total.ite ?_ ?_)
  · exact (setError_total _).bind fun _ => Total.pure _
  refine (readFull_total _).bind fun b => getErr_total.bind fun e => Total.ite (Total.pure _) (Total.ite ?_ ?_)
  · exact (setError_total _).bind fun _ => Total.pure _
  · exact Total.pure _

theorem skipString_total : Total skipString := readUint32_total.bind fun n => skip_total n
theorem skipParasite_total : Total skipParasite :=
  skipString_total.bind fun _ => (skip_total _).bind fun _ => readUint32_total.bind fun n => skip_total n

theorem forN_total {m : M Bool} (h : Total m) : ∀ n, Total (forN n m) := by
  intro n
  induction n with
  | zero => exact Total.pure _
  | succ n ih =>
    unfold forN
    refine h.bind fun b => ?_
    exact Total.ite ih (Total.pure _)
theorem forN'_total {m : M Bool} (h : Total m) : ∀ n, Total (forN' n m) := by
  intro n
  induction n with
  | zero => exact Total.pure _
  | succ n ih =>
    unfold forN'
    refine h.bind fun b => ?_
    exact Total.ite ih (Total.pure _)

theorem skipPaths_total : Total skipPaths := by
  unfold skipPaths
  refine (skip_total _).bind fun _ => readUint32_total.bind fun n => forN_total ?_ _
  refine skipString_total.bind fun _ => (skip_total _).bind fun _ => (skip_total _).bind fun _ =>
    (skip_total _).bind fun _ => readUint32_total.bind fun np => readUint32_total.bind fun v =>
    Total.ite ?_ (Total.ite ?_ (Total.ite ?_ ?_))
  · exact (skip_total _).bind fun _ => Total.pure _
  · exact (skip_total _).bind fun _ => (skip_total _).bind fun _ => Total.pure _
  · exact (skip_total _).bind fun _ => (skip_total _).bind fun _ => (skip_total _).bind fun _ => Total.pure _
  · exact (setError_total _).bind fun _ => Total.pure _

theorem skipVectors_total : Total skipVectors := by
  unfold skipVectors
  refine readUint32_total.bind fun v => Total.ite (setError_total _) ?_
  refine (skip_total _).bind fun _ => readUint32_total.bind fun n => forN_total ?_ _
  refine skipString_total.bind fun _ => (skip_total _).bind fun _ => (skip_total _).bind fun _ =>
    (skip_total _).bind fun _ => readUint32_total.bind fun m => readUint32_total.bind fun k =>
    Total.bind (forN_total (skipParasite_total.bind fun _ => Total.pure _) _) fun _ => forN'_total ?_ _
  refine readUint32_total.bind fun t => Total.ite ?_ ?_
  · exact (setError_total _).bind fun _ => Total.pure _
  refine (skip_total _).bind fun _ => readUint32_total.bind fun nf => readUint32_total.bind fun np => Total.ite ?_ ?_
  · exact (skip_total _).bind fun _ => Total.pure _
  · exact (setError_total _).bind fun _ => Total.pure _

theorem readBoolProperty_total : Total readBoolProperty := by
  unfold readBoolProperty
  refine readUint32_total.bind fun x => Total.ite (Total.pure _) (Total.ite (Total.pure _) ?_)
  exact (setError_total _).bind fun _ => Total.pure _

/-! ### loops -/

theorem readFull_err (n : Nat) (r : R) (he : r.err.isSome) : readFull n r = .ok ([], r) := by
  unfold readFull
  cases h : r.err with
  | some e => rfl
  | none => rw [h] at he; cases he
theorem readUint8_err (r : R) (he : r.err.isSome) : readUint8 r = .ok (0, r) := by
  unfold readUint8
  rw [M.bind_ok (readFull_err 1 r he)]
  rfl
theorem readUint32_err (r : R) (he : r.err.isSome) : readUint32 r = .ok (0, r) := by
  unfold readUint32
  rw [M.bind_ok (readFull_err 4 r he)]
  rfl
theorem readUint64_err (r : R) (he : r.err.isSome) : readUint64 r = .ok (0, r) := by
  unfold readUint64
  rw [M.bind_ok (readFull_err 8 r he)]
  rfl

theorem readString_err (r : R) (he : r.err.isSome) : readString r = .ok ([], r) := by
  unfold readString
  rw [M.bind_ok (readUint32_err r he)]
  rfl

/-- nothing is delivered in case of an error -/
theorem readFull_nil {n : Nat} {r r' : R} {b : Bytes} (h : readFull n r = .ok (b, r')) (he : r'.err.isSome) : b = [] := by
  unfold readFull at h
  cases hr : r.err with
  | some e => rw [hr] at h; cases h; rfl
  | none =>
    rw [hr] at h
    dsimp only at h
    split at h
    · split at h
      · cases h; cases he
      · cases h; rfl
    · split at h
      · cases h; cases he
      · cases h; rfl

theorem readUint32_keeps : Keeps readUint32 := readUint32_total.keeps
theorem readUint64_keeps : Keeps readUint64 := readUint64_total.keeps
theorem readPtr_keeps (mode : UInt32) : Keeps (readPtr mode) := (readPtr_total mode).keeps

/-- a number read without error lies in the source -/
theorem readUint32_inside (r r' : R) (x : UInt32) (h : readUint32 r = .ok (x, r')) (he : r'.err = none) :
    r.pos + 4 = r'.pos ∧ r'.pos ≤ r'.data.length ∧ r'.pos ≤ r'.limit :=
  Limage.readUint32_inside r.core r'.core x (Agrees.readUint32.good _ _ _ h he).2 he

/-- nothing but zero is read in case of an error -/
theorem readUint32_zero (r r' : R) (x : UInt32) (h : readUint32 r = .ok (x, r')) (he : r'.err.isSome) : x = 0 := by
  unfold readUint32 at h
  obtain ⟨b, r1, h1, h⟩ := M.bind_inv h
  cases h
  rw [readFull_nil h1 he]
  rfl

theorem readPtr_zero (mode : UInt32) (r r' : R) (x : UInt64) (h : readPtr mode r = .ok (x, r')) (he : r'.err.isSome) :
    x = 0 := by
  unfold readPtr at h
  split at h
  · obtain ⟨y, r1, h1, h⟩ := M.bind_inv h
    cases h
    rw [readUint32_zero _ _ _ h1 he]
    rfl
  · unfold readUint64 at h
    obtain ⟨b, r1, h1, h⟩ := M.bind_inv h
    cases h
    rw [readFull_nil h1 he]
    rfl

theorem readPtr_inside (mode : UInt32) (r r' : R) (x : UInt64) (h : readPtr mode r = .ok (x, r')) (he : r'.err = none) :
    r.pos + 4 ≤ r'.pos ∧ r'.pos ≤ r'.data.length :=
  Limage.readPtr_inside mode r.core r'.core x ((Agrees.readPtr mode).good _ _ _ h he).2 he

/-- what is left to read, as long as there is no error -/
def R.left (r : R) : Nat := match r.err with
  | some _ => 0
  | none => r.data.length - r.pos + 1

theorem left_lt {r r' : R} (k : Keep r r') (he : r.err = none)
    (h : r'.err = none → r.pos < r'.pos ∧ r.pos < r'.data.length) : r'.left < r.left := by
  unfold R.left
  rw [he]
  cases h' : r'.err with
  | some e => simp only; omega
  | none =>
    have := h h'
    simp only [k.1] at this ⊢
    omega

theorem left_le {r r' : R} (k : Keep r r') (hp : r.pos ≤ r'.pos) : r'.left ≤ r.left := by
  unfold R.left
  cases h' : r'.err with
  | some e => simp only; omega
  | none =>
    rw [k.none h']
    simp only [k.1]
    omega

theorem parasites_total : ∀ (f : Nat) (l : UInt32) (ps : List Parasite) (r : R), l.toNat + r.left < f →
    ∃ a r', readParasites f l ps r = .ok (a, r') ∧ Keep r r' ∧ r.pos ≤ r'.pos := by
  intro f
  induction f with
  | zero => intro l ps r h; omega
  | succ f ih =>
    intro l ps r h
    unfold readParasites
    by_cases hl : l = 0
    · rw [if_pos hl]; exact ⟨_, r, rfl, Keep.refl r, Nat.le_refl _⟩
    rw [if_neg hl]
    obtain ⟨name, r1, e1, k1, p1⟩ := readString_total r
    obtain ⟨flags, r2, e2, k2, p2⟩ := readUint32_total r1
    obtain ⟨pl, r3, e3, k3, p3⟩ := readUint32_total r2
    rw [M.bind_ok e1, M.bind_ok e2, M.bind_ok e3]
    have k13 := (k1.trans k2).trans k3
    by_cases hread : 4 + UInt32.ofNat name.length + 1 + 4 + 4 + pl > l
    · rw [if_pos hread]
      exact ⟨[], _, rfl, k13.trans (setError_keeps _ _ _ _ rfl), by
        show r.pos ≤ r3.pos
        omega⟩
    · rw [if_neg hread]
      obtain ⟨d, r4, e4, k4, p4⟩ := readInto_total (List.replicate pl.toNat 0) r3
      rw [M.bind_ok e4]
      have hle : (l - (4 + UInt32.ofNat name.length + 1 + 4 + 4 + pl)).toNat =
          l.toNat - (4 + UInt32.ofNat name.length + 1 + 4 + 4 + pl).toNat := by
        rw [UInt32.toNat_sub_of_le]
        exact UInt32.not_lt.1 hread
      have hdec : (l - (4 + UInt32.ofNat name.length + 1 + 4 + 4 + pl)).toNat + r4.left < l.toNat + r.left := by
        cases he : r.err with
        | none =>
          have : r4.left < r.left := by
            refine Nat.lt_of_le_of_lt (left_le k4 p4) (left_lt k13 he fun he3 => ?_)
            have := readUint32_inside _ _ _ e3 he3
            omega
          omega
        | some e =>
          have hs : r.err.isSome := by rw [he]; rfl
          rw [readString_err r hs] at e1; cases e1
          rw [readUint32_err r hs] at e2; cases e2
          rw [readUint32_err r hs] at e3; cases e3
          have hz : l.toNat ≠ 0 := fun h0 => hl (UInt32.toNat_inj.1 h0)
          have h13 : (4 + UInt32.ofNat ([] : Bytes).length + 1 + 4 + 4 + (0 : UInt32)).toNat = 13 := by decide
          have hr := UInt32.le_iff_toNat_le.1 (UInt32.not_lt.1 hread)
          rw [h13] at hle hr
          have := left_le k4 p4
          rw [hle]
          omega
      obtain ⟨a, r5, e5, k5, p5⟩ := ih (l - (4 + UInt32.ofNat name.length + 1 + 4 + 4 + pl))
        (ps ++ [⟨name, flags, d⟩]) r4 (by omega)
      exact ⟨a, r5, e5, (k13.trans k4).trans k5, by omega⟩

theorem readParasitesAll_total (l : UInt32) : Total (readParasitesAll l) := by
  intro r
  refine parasites_total _ l [] r ?_
  unfold R.left
  split <;> omega

theorem readPalette_total : ∀ n, Total (readPalette n) := by
  intro n
  induction n with
  | zero => exact Total.pure _
  | succ n ih =>
    exact readUint8_total.bind fun _ => readUint8_total.bind fun _ => readUint8_total.bind fun _ =>
      ih.bind fun _ => Total.pure _

theorem readUint32s_total : ∀ n, Total (readUint32s n) := by
  intro n
  induction n with
  | zero => exact Total.pure _
  | succ n ih => exact readUint32_total.bind fun _ => ih.bind fun _ => Total.pure _

theorem imageProp_total (b t l : UInt32) (s : IProps) : Total (imageProp b t l s) := by
  unfold imageProp
  refine Total.ite ?_ (Total.ite ?_ (Total.ite ?_ (Total.ite ?_ (Total.ite ?_ (Total.ite ?_ (Total.ite ?_
    (Total.ite ?_ (Total.ite ?_ (Total.ite ?_ (Total.ite ?_ (Total.ite ?_ (Total.ite ?_ ?_))))))))))))
  · exact readBoolProperty_total.bind fun _ => Total.pure _
  · exact readUint32_total.bind fun _ => Total.ite (Total.pure _) (Total.pure _)
  · exact (readParasitesAll_total _).bind fun _ => Total.pure _
  · exact readUint32_total.bind fun _ => Total.pure _
  · exact (skip_total _).bind fun _ => readUint32_total.bind fun n => (readPalette_total _).bind fun _ => Total.pure _
  · exact readUint8_total.bind fun _ => Total.ite (Total.pure _) (Total.pure _)
  · refine Total.ite (Total.pure _) (Total.bind (forN_total ?_ _) fun _ => Total.pure _)
    exact (skip_total _).bind fun _ => (skip_total _).bind fun _ => Total.pure _
  · exact skipPaths_total.bind fun _ => Total.pure _
  · exact (skip_total _).bind fun _ => (skip_total _).bind fun _ => Total.pure _
  · refine Total.ite (Total.pure _) (Total.bind (forN_total ?_ _) fun _ => Total.pure _)
    exact (skip_total _).bind fun _ => (skip_total _).bind fun _ => Total.pure _
  · exact readUint32_total.bind fun _ => Total.ite (Total.pure _) (Total.pure _)
  · exact (skip_total _).bind fun _ => (skip_total _).bind fun _ => skipString_total.bind fun _ =>
      skipString_total.bind fun _ => skipString_total.bind fun _ => skipString_total.bind fun _ =>
      skipString_total.bind fun _ => Total.pure _
  · exact skipVectors_total.bind fun _ => Total.pure _
  · exact (skip_total _).bind fun _ => Total.pure _

/-- a loop over properties: `body` sees a type that is not zero -/
theorem props_step {r r1 r2 : R} {t l : UInt32} (e1 : readUint32 r = .ok (t, r1))
    (e2 : readUint32 r1 = .ok (l, r2)) (ht : t ≠ 0) : r2.left < r.left := by
  have k1 := readUint32_keeps _ _ _ e1
  have k2 := readUint32_keeps _ _ _ e2
  have h1 : r1.err = none := by
    cases h : r1.err with
    | none => rfl
    | some e => exact absurd (readUint32_zero _ _ _ e1 (by rw [h]; rfl)) ht
  have i1 := readUint32_inside _ _ _ e1 h1
  have p2 := readUint32_total.fwd e2
  refine left_lt (k1.trans k2) (k1.none h1) fun _ => ?_
  rw [k2.1]
  omega

theorem imageProps_total (b : UInt32) : ∀ (f : Nat) (s : IProps) (r : R), r.left < f →
    ∃ a r', imageProps b f s r = .ok (a, r') ∧ Keep r r' ∧ r.pos ≤ r'.pos := by
  intro f
  induction f with
  | zero => intro s r h; omega
  | succ f ih =>
    intro s r h
    unfold imageProps
    obtain ⟨t, r1, e1, k1, p1⟩ := readUint32_total r
    obtain ⟨l, r2, e2, k2, p2⟩ := readUint32_total r1
    rw [M.bind_ok e1, M.bind_ok e2]
    by_cases ht : t = 0
    · rw [if_pos ht]
      by_cases hl : l ≠ 0
      · rw [if_pos hl]; exact ⟨_, r2, rfl, k1.trans k2, by omega⟩
      · rw [if_neg hl]; exact ⟨_, r2, rfl, k1.trans k2, by omega⟩
    · rw [if_neg ht]
      obtain ⟨x, r3, e3, k3, p3⟩ := imageProp_total b t l s r2
      rw [M.bind_ok e3]
      cases x with
      | error e => exact ⟨_, r3, rfl, (k1.trans k2).trans k3, by omega⟩
      | ok s' =>
        have := props_step e1 e2 ht
        have := left_le k3 p3
        obtain ⟨a, r4, e4, k4, p4⟩ := ih s' r3 (by omega)
        exact ⟨a, r4, e4, ((k1.trans k2).trans k3).trans k4, by omega⟩

theorem left_le_length (r : R) : r.left < r.data.length + 2 := by
  unfold R.left
  split <;> omega

theorem readImageProperties_total (b : UInt32) : Total (readImageProperties b) := fun r =>
  imageProps_total b _ _ r (left_le_length r)

theorem layerPointers_total (mode : UInt32) : ∀ (f : Nat) (ps : List UInt64) (r : R), r.left < f →
    ∃ a r', layerPointers mode f ps r = .ok (a, r') ∧ Keep r r' ∧ r.pos ≤ r'.pos := by
  intro f
  induction f with
  | zero => intro s r h; omega
  | succ f ih =>
    intro ps r h
    unfold layerPointers
    obtain ⟨p, r1, e1, k1, p1⟩ := readPtr_total mode r
    rw [M.bind_ok e1]
    by_cases hp : p = 0
    · rw [if_pos hp]; exact ⟨_, r1, rfl, k1, p1⟩
    · rw [if_neg hp]
      have h1 : r1.err = none := by
        cases h : r1.err with
        | none => rfl
        | some e => exact absurd (readPtr_zero _ _ _ _ e1 (by rw [h]; rfl)) hp
      have i1 := readPtr_inside _ _ _ _ e1 h1
      have : r1.left < r.left := left_lt k1 (k1.none h1) fun _ => by omega
      obtain ⟨a, r2, e2, k2, p2⟩ := ih (ps ++ [p]) r1 (by omega)
      exact ⟨a, r2, e2, k1.trans k2, by omega⟩

theorem readLayerPointers_total (mode : UInt32) : Total (readLayerPointers mode) := fun r =>
  layerPointers_total mode _ _ r (left_le_length r)

theorem layerProp_total (c : Ctx) (t l : UInt32) (s : LProps) : Total (layerProp c t l s) := by
  unfold layerProp
  refine Total.ite ?_ (Total.ite ?_ (Total.ite ?_ (Total.ite ?_ (Total.ite ?_ (Total.ite ?_ (Total.ite ?_
    (Total.ite ?_ (Total.ite ?_ (Total.ite ?_ (Total.ite ?_ ?_))))))))))
  · exact (skip_total _).bind fun _ => Total.pure _
  · exact readUint32_total.bind fun _ => (setErr?_total _).bind fun _ => Total.pure _
  · exact (readParasitesAll_total _).bind fun _ => Total.pure _
  · exact (skip_total _).bind fun _ => Total.pure _
  · exact readBoolProperty_total.bind fun _ => Total.pure _
  · exact Total.pure _
  · exact Total.pure _
  · exact Total.bind ((setErr?_total _).bind fun _ => readUint32s_total _) fun _ => Total.pure _
  · exact readUint32_total.bind fun _ => Total.pure _
  · exact readUint32_total.bind fun _ => readUint32_total.bind fun _ => Total.pure _
  · exact readUint32_total.bind fun _ => Total.pure _
  · exact (skip_total _).bind fun _ => Total.pure _

theorem layerProps_total (c : Ctx) : ∀ (f : Nat) (s : LProps) (r : R), r.left < f →
    ∃ a r', layerProps c f s r = .ok (a, r') ∧ Keep r r' ∧ r.pos ≤ r'.pos := by
  intro f
  induction f with
  | zero => intro s r h; omega
  | succ f ih =>
    intro s r h
    unfold layerProps
    obtain ⟨t, r1, e1, k1, p1⟩ := readUint32_total r
    obtain ⟨l, r2, e2, k2, p2⟩ := readUint32_total r1
    rw [M.bind_ok e1, M.bind_ok e2]
    by_cases ht : t = 0
    · rw [if_pos ht]
      obtain ⟨x, r3, e3, k3, p3⟩ := ((setErr?_total (if l ≠ 0 then some .invalidProperties else none)).bind
        fun _ => Total.pure s) r2
      exact ⟨x, r3, e3, (k1.trans k2).trans k3, by omega⟩
    · rw [if_neg ht]
      obtain ⟨s', r3, e3, k3, p3⟩ := layerProp_total c t l s r2
      rw [M.bind_ok e3]
      have := props_step e1 e2 ht
      have := left_le k3 p3
      obtain ⟨a, r4, e4, k4, p4⟩ := ih s' r3 (by omega)
      exact ⟨a, r4, e4, ((k1.trans k2).trans k3).trans k4, by omega⟩

theorem readLayerProperties_total (c : Ctx) : Total (readLayerProperties c) := fun r =>
  layerProps_total c _ _ r (left_le_length r)

theorem skipProperties_total : ∀ (f : Nat) (r : R), r.left < f →
    ∃ a r', skipProperties f r = .ok (a, r') ∧ Keep r r' ∧ r.pos ≤ r'.pos := by
  intro f
  induction f with
  | zero => intro r h; omega
  | succ f ih =>
    intro r h
    unfold skipProperties
    obtain ⟨t, r1, e1, k1, p1⟩ := readUint32_total r
    obtain ⟨l, r2, e2, k2, p2⟩ := readUint32_total r1
    rw [M.bind_ok e1, M.bind_ok e2]
    by_cases ht : t = 0
    · rw [if_pos ht]
      obtain ⟨x, r3, e3, k3, p3⟩ := (setErr?_total (if l ≠ 0 then some .invalidProperties else none)) r2
      exact ⟨x, r3, e3, (k1.trans k2).trans k3, by omega⟩
    · rw [if_neg ht]
      have hs := props_step e1 e2 ht
      by_cases h6 : t = 6
      · rw [if_pos h6]
        obtain ⟨o, r3, e3, k3, p3⟩ := readUint32_total r2
        rw [M.bind_ok e3]
        obtain ⟨x, r4, e4, k4, p4⟩ := (setErr?_total (if o > 255 then some .invalidOpacity else none)) r3
        rw [M.bind_ok e4]
        have := left_le (k3.trans k4) (Nat.le_trans p3 p4)
        obtain ⟨a, r5, e5, k5, p5⟩ := ih r4 (by omega)
        exact ⟨a, r5, e5, (((k1.trans k2).trans k3).trans k4).trans k5, by omega⟩
      · rw [if_neg h6]
        obtain ⟨_, r3, e3, k3, p3⟩ := skip_total l r2
        rw [M.bind_ok e3]
        have := left_le k3 p3
        obtain ⟨a, r4, e4, k4, p4⟩ := ih r3 (by omega)
        exact ⟨a, r4, e4, ((k1.trans k2).trans k3).trans k4, by omega⟩

theorem skipPropertiesAll_total : Total skipPropertiesAll := fun r => skipProperties_total _ r (left_le_length r)

theorem readHeader_total : Total readHeader := by
  unfold readHeader
  refine (readInto_total _).bind fun h => getErr_total.bind fun e => ?_
  split
  · exact Total.pure _
  · refine Total.ite (Total.pure _) ?_
    split
    · exact Total.pure _
    · exact Total.ite (Total.pure _) (Total.pure _)

theorem readPrecision_total (b : Bool) : Total (readPrecision b) := by
  unfold readPrecision
  exact Total.ite readUint32_total (Total.pure _)

/-- What is in front of the layers is read without panic or endless loop. -/
theorem readHead_total : Total readHead := by
  unfold readHead
  refine readHeader_total.bind fun x => ?_
  split
  · exact Total.pure _
  · refine readUint32_total.bind fun _ => readUint32_total.bind fun _ => readUint32_total.bind fun _ =>
      (readPrecision_total _).bind fun _ => (readImageProperties_total _).bind fun x => ?_
    split
    · exact Total.pure _
    · refine (readLayerPointers_total _).bind fun _ => getErr_total.bind fun e => ?_
      split <;> exact Total.pure _

theorem decodeConfigM_total : Total decodeConfigM := by
  unfold decodeConfigM
  refine readHeader_total.bind fun x => ?_
  split
  · exact Total.pure _
  · refine readUint32_total.bind fun _ => readUint32_total.bind fun _ => readUint32_total.bind fun _ =>
      (readPrecision_total _).bind fun _ => Total.ite ?_ (Total.ite ?_ (Total.ite ?_ ?_))
    · exact getErr_total.bind fun _ => Total.pure _
    · exact getErr_total.bind fun _ => Total.pure _
    · refine (readImageProperties_total _).bind fun x => ?_
      split
      · exact Total.pure _
      · exact getErr_total.bind fun _ => Total.pure _
    · exact getErr_total.bind fun _ => Total.pure _

/-! ### Run-length encoding -/

theorem readUint8_inside (r r' : R) (x : UInt8) (h : readUint8 r = .ok (x, r')) (he : r'.err = none) :
    r.pos + 1 = r'.pos ∧ r.pos < r.data.length := by
  have hg := (Agrees.readUint8.good _ _ _ h he).2
  have hr := (Agrees.readUint8.good _ _ _ h he).1
  unfold Limage.readUint8 at hg
  obtain ⟨b, r1, h1, hg⟩ := Limage.M.bind_inv hg
  have hc : r1 = r'.core := by cases hg; rfl
  subst hc
  unfold Limage.readFull R.core at h1
  rw [hr] at h1
  dsimp only at h1
  split at h1
  · rename_i hl
    rw [Outcome.ok.injEq, Prod.mk.injEq] at h1
    rw [List.length_take, List.length_drop] at hl
    have hp : r.pos + 1 = r'.pos := congrArg Limage.R.pos h1.2
    exact ⟨hp, by omega⟩
  · rw [Outcome.ok.injEq, Prod.mk.injEq] at h1
    have := congrArg Limage.R.err h1.2
    dsimp only at this
    rw [he] at this
    cases this

theorem rleHead_total (s : Rle) (m : UInt8) : Total (rleHead s m) := by
  unfold rleHead
  refine Total.ite ?_ (Total.ite ?_ (Total.ite ?_ ?_))
  · exact readUint8_total.bind fun _ => Total.pure _
  · exact readUint16_total.bind fun _ => readUint8_total.bind fun _ => Total.pure _
  · exact readUint16_total.bind fun _ => Total.pure _
  · exact Total.pure _

/-- an opcode is an error or takes a byte -/
theorem rleOp_step (s : Rle) (r : R) (he : r.err = none) : ∃ s' e r', rleOp s r = .ok ((s', e), r') ∧ Keep r r' ∧
    r.pos ≤ r'.pos ∧ (e = none → r'.left < r.left) := by
  unfold rleOp
  obtain ⟨m, r1, e1, k1, p1⟩ := readUint8_total r
  rw [M.bind_ok e1]
  cases h1 : r1.err with
  | some x =>
    have : getErr r1 = .ok (some x, r1) := by unfold getErr; rw [h1]
    rw [M.bind_ok this]
    exact ⟨_, _, r1, rfl, k1, p1, fun h => by cases h⟩
  | none =>
    have : getErr r1 = .ok (none, r1) := by unfold getErr; rw [h1]
    rw [M.bind_ok this]
    dsimp only
    obtain ⟨s', r2, e2, k2, p2⟩ := rleHead_total s m r1
    rw [M.bind_ok e2]
    cases h2 : r2.err with
    | some x =>
      have : getErr r2 = .ok (some x, r2) := by unfold getErr; rw [h2]
      rw [M.bind_ok this]
      refine ⟨_, _, _, rfl, ⟨(k1.trans k2).1, (k1.trans k2).2.1, fun _ => he⟩, Nat.le_trans p1 p2, fun h => by cases h⟩
    | none =>
      have : getErr r2 = .ok (none, r2) := by unfold getErr; rw [h2]
      rw [M.bind_ok this]
      refine ⟨_, _, r2, rfl, k1.trans k2, Nat.le_trans p1 p2, fun _ => ?_⟩
      have := readUint8_inside _ _ _ e1 h1
      refine left_lt (k1.trans k2) he fun _ => ⟨by omega, ?_⟩
      rw [(k1.trans k2).1]
      exact this.2

theorem rleCopy_total (s : Rle) (c : Nat) (p : Bytes) : Total (rleCopy s c p) := by
  unfold rleCopy
  exact Total.ite (Total.pure _) (readInto_total _)

theorem rleRead_total : ∀ (f : Nat) (s : Rle) (p : Bytes) (r : R), p.length + r.left < f →
    ∃ a r', rleRead f s p r = .ok (a, r') ∧ Keep r r' ∧ r.pos ≤ r'.pos := by
  intro f
  induction f with
  | zero => intro s p r h; omega
  | succ f ih =>
    intro s p r h
    unfold rleRead
    have hg : getErr r = .ok (r.err, r) := rfl
    rw [M.bind_ok hg]
    by_cases hp : (p.isEmpty || r.err.isSome) = true
    · rw [if_pos hp]
      split
      · exact ⟨_, r, rfl, Keep.refl r, Nat.le_refl _⟩
      · exact ⟨_, r, rfl, Keep.refl r, Nat.le_refl _⟩
    rw [if_neg hp]
    have he : r.err = none := by
      cases h : r.err with
      | none => rfl
      | some e => rw [h] at hp; simp at hp
    have hne : 0 < p.length := by
      cases p with
      | nil => simp at hp
      | cons x p => simp
    -- the rest of an iteration
    have rest : ∀ (s : Rle) (r1 : R), Keep r r1 → r.pos ≤ r1.pos → (s.count ≠ 0 ∨ r1.left < r.left) → r1.left ≤ r.left →
        ∃ a r', (do
          let w ← rleCopy s (min s.count.toNat p.length) p
          let (rest, s, e) ← rleRead f { s with count := s.count - UInt16.ofNat (min s.count.toNat p.length) }
            (p.drop (min s.count.toNat p.length))
          return (w ++ rest, s, e) : M (Bytes × Rle × Option Err)) r1 = .ok (a, r') ∧ Keep r r' ∧ r.pos ≤ r'.pos := by
      intro s r1 k1 p1 hs hl
      obtain ⟨w, r2, e2, k2, p2⟩ := rleCopy_total s (min s.count.toNat p.length) p r1
      rw [M.bind_ok e2]
      have hc : s.count ≠ 0 → 0 < s.count.toNat := fun h => by
        rcases Nat.eq_zero_or_pos s.count.toNat with h0 | h0
        · exact absurd (UInt16.toNat_inj.1 h0) h
        · exact h0
      have := left_le k2 p2
      obtain ⟨⟨w2, s2, x2⟩, r3, e3, k3, p3⟩ := ih { s with count := s.count - UInt16.ofNat (min s.count.toNat p.length) }
        (p.drop (min s.count.toNat p.length)) r2 (by
          rw [List.length_drop]
          rcases hs with hs | hs
          · have := hc hs; omega
          · omega)
      rw [M.bind_ok e3]
      exact ⟨_, r3, rfl, (k1.trans k2).trans k3, by omega⟩
    by_cases hc : s.count = 0
    · simp only [hc, if_true]
      obtain ⟨s', e, r1, e1, k1, p1, hl⟩ := rleOp_step s r he
      rw [M.bind_ok e1]
      cases e with
      | some e => exact ⟨_, r1, rfl, k1, p1⟩
      | none => exact rest s' r1 k1 p1 (Or.inr (hl rfl)) (Nat.le_of_lt (hl rfl))
    · simp only [hc, if_false]
      rw [M.bind_ok (show (Pure.pure (s, none) : M (Rle × Option Err)) r = .ok ((s, none), r) from rfl)]
      exact rest s r (Keep.refl r) (Nat.le_refl _) (Or.inl hc) (Nat.le_refl _)

theorem rleReadAll_total (s : Rle) (p : Bytes) : Total (rleReadAll s p) := fun r =>
  rleRead_total _ s p r (by have := left_le_length r; unfold rleFuel; omega)

theorem copyOp_total (c : UInt8) : Total (copyOp c) := by
  unfold copyOp
  refine Total.ite ?_ (Total.ite ?_ (Total.ite ?_ ?_))
  · exact readUint8_total.bind fun _ => Total.pure _
  · exact readUint16_total.bind fun _ => readUint8_total.bind fun _ => Total.pure _
  · exact readUint16_total.bind fun _ => (copyN_total _).bind fun _ => Total.pure _
  · exact (copyN_total _).bind fun _ => Total.pure _

theorem readRLE_total : ∀ (f : Nat) (c : Int) (r : R), c.toNat + r.left < f →
    ∃ a r', readRLE f c r = .ok (a, r') ∧ Keep r r' ∧ r.pos ≤ r'.pos := by
  intro f
  induction f with
  | zero => intro c r h; omega
  | succ f ih =>
    intro c r h
    unfold readRLE
    by_cases hc : c ≤ 0
    · rw [if_pos hc]; exact ⟨_, r, rfl, Keep.refl r, Nat.le_refl _⟩
    rw [if_neg hc]
    obtain ⟨d, r1, e1, k1, p1⟩ := readUint8_total r
    rw [M.bind_ok e1]
    obtain ⟨⟨o, n⟩, r2, e2, k2, p2⟩ := copyOp_total d r1
    rw [M.bind_ok e2]
    have hdec : (c - n).toNat + r2.left < c.toNat + r.left := by
      have hl := left_le k2 p2
      cases he : r.err with
      | none =>
        have : r1.left < r.left := left_lt k1 he fun h1 => by
          have := readUint8_inside _ _ _ e1 h1
          rw [k1.1]
          omega
        omega
      | some e =>
        have hs : r.err.isSome := by rw [he]; rfl
        rw [readUint8_err r hs] at e1
        cases e1
        have hn : n = 1 := by
          unfold copyOp at e2
          rw [if_pos (by decide), M.bind_ok (readUint8_err r hs)] at e2
          cases e2
          rfl
        omega
    obtain ⟨⟨b, x⟩, r3, e3, k3, p3⟩ := ih (c - n) r2 (by omega)
    dsimp only
    rw [M.bind_ok e3]
    exact ⟨_, r3, rfl, (k1.trans k2).trans k3, by omega⟩

theorem readRLEAll_total (n : Nat) : Total (readRLEAll n) := fun r =>
  readRLE_total _ n r (by have := left_le_length r; omega)

/-! ### Layers -/

/-- On the source `D` it returns, or panics if `pan` holds. -/
def Runs {α : Type} (pan : Prop) (D : Bytes) (m : M α) : Prop :=
  ∀ r, r.data = D → match m r with
    | .ok (_, r') => r'.data = D
    | .panic => pan
    | .hang => False

variable {pan : Prop} {D : Bytes}

theorem Runs.pure {α : Type} (a : α) : Runs pan D (pure a : M α) := fun _ h => h
theorem Runs.bind {α β : Type} {m : M α} {f : α → M β} (h1 : Runs pan D m) (h2 : ∀ a, Runs pan D (f a)) :
    Runs pan D (m >>= f) := by
  intro r hr
  have := h1 r hr
  show match M.bind m f r with
    | .ok (_, r') => r'.data = D
    | .panic => pan
    | .hang => False
  unfold M.bind
  cases hm : m r with
  | ok x => rw [hm] at this; exact h2 x.1 x.2 this
  | panic => rw [hm] at this; exact this
  | hang => rw [hm] at this; exact this
theorem Runs.ite {α : Type} {p : Prop} [Decidable p] {m n : M α} (h1 : Runs pan D m) (h2 : Runs pan D n) :
    Runs pan D (if p then m else n) := by
  by_cases h : p
  · rw [if_pos h]; exact h1
  · rw [if_neg h]; exact h2
theorem Runs.panic {α : Type} (h : pan) : Runs pan D (M.panic : M α) := fun _ _ => h
theorem Total.runs {α : Type} {m : M α} (h : Total m) : Runs pan D m := by
  intro r hr
  obtain ⟨a, r', e, k, _⟩ := h r
  rw [e]
  exact k.1.trans hr
theorem runs_of {α : Type} {m : M α} (h : ∀ r, r.data = D → ∃ a r', m r = .ok (a, r')) (k : Keeps m) :
    Runs pan D m := by
  intro r hr
  obtain ⟨a, r', e⟩ := h r hr
  rw [e]
  exact (k _ _ _ e).1.trans hr

theorem M.bind_panic {α β : Type} {m : M α} {f : α → M β} {r : R} (h : m r = .panic) : (m >>= f) r = .panic := by
  show M.bind m f r = .panic
  unfold M.bind
  rw [h]
theorem M.bind_hang {α β : Type} {m : M α} {f : α → M β} {r : R} (h : m r = .hang) : (m >>= f) r = .hang := by
  show M.bind m f r = .hang
  unfold M.bind
  rw [h]

theorem goto_runs (n : UInt64) : Runs pan D (goto n) :=
  runs_of (fun r _ => ⟨(), _, rfl⟩) (goto_keeps n)

theorem rleReadAll_runs (s : Rle) (p : Bytes) : Runs pan D (rleReadAll s p) := (rleReadAll_total s p).runs

theorem readRLEAll_runs (n : Nat) : Runs pan D (readRLEAll n) := (readRLEAll_total n).runs

theorem readChannels_runs (n : Nat) : ∀ k, Runs pan D (readChannels n k) := by
  intro k
  induction k with
  | zero => exact Runs.pure _
  | succ k ih =>
    unfold readChannels
    exact (readRLEAll_runs n).bind fun x => (setErr?_total _).runs.bind fun _ => ih.bind fun _ => Runs.pure _

theorem eagerTile_runs (c : Ctx) (bpp : Nat) (t : Tile) (s : EagerState) : Runs pan D (eagerTile c bpp t s) := by
  unfold eagerTile
  refine Runs.ite ((readInto_total _).runs.bind fun _ => Runs.pure _) ((rleReadAll_runs _ _).bind fun x => ?_)
  exact (setErr?_total _).runs.bind fun _ => Runs.pure _

theorem tileGo_runs {σ : Type} (body : Tile → σ → M σ) (hb : ∀ t s, Runs pan D (body t s)) :
    ∀ (ts : List Tile) (ps : List UInt64) (s : σ), pan ∨ ts.length ≤ ps.length → Runs pan D (tileLoop.go body ts ps s) := by
  intro ts
  induction ts with
  | nil => intro ps s _; unfold tileLoop.go; exact Runs.pure _
  | cons t ts ih =>
    intro ps s h
    cases ps with
    | nil =>
      unfold tileLoop.go
      rcases h with h | h
      · exact Runs.panic h
      · simp at h
    | cons p ps =>
      unfold tileLoop.go
      refine (goto_runs p).bind fun _ => (hb t s).bind fun s => ih ps s ?_
      rcases h with h | h
      · exact Or.inl h
      · exact Or.inr (by simpa using h)

/-- the tile loops end: unless a zero width comes with a wrapping height -/
theorem tileLoop_runs {σ : Type} (body : Tile → σ → M σ) (hb : ∀ t s, Runs pan D (body t s)) (w h : Nat)
    (ps : List UInt64) (s : σ) (hh : w = 0 → h ≤ 0xffffffc0)
    (hp : pan ∨ ((w ≠ 0 → h ≠ 0 → w ≤ 0xffffffc0 ∧ h ≤ 0xffffffc0) ∧ ps.length = tileCount w * tileCount h)) :
    Runs pan D (tileLoop w h ps s body) := by
  unfold tileLoop
  by_cases h0 : w = 0
  · rw [if_pos h0, if_neg (by have := hh h0; omega)]; exact Runs.pure _
  rw [if_neg h0]
  by_cases hh0 : h = 0
  · rw [if_pos hh0]; exact Runs.pure _
  rw [if_neg hh0]
  by_cases hw : w > 0xffffffc0 ∨ h > 0xffffffc0
  · rw [if_pos hw]
    rcases hp with hp | hp
    · exact Runs.panic hp
    · have := hp.1 h0 hh0; omega
  · rw [if_neg hw]
    refine tileGo_runs body hb _ _ _ ?_
    rcases hp with hp | hp
    · exact Or.inl hp
    · right; rw [tileGrid_length, hp.2, Nat.mul_comm]; exact Nat.le_refl _

theorem allocate_runs (n s : Nat) (h : pan ∨ n * s ≤ maxAlloc) : Runs pan D (allocate n s) := by
  unfold allocate
  by_cases hc : n * s > maxAlloc
  · rw [if_pos hc]
    rcases h with h | h
    · exact Runs.panic h
    · omega
  · rw [if_neg hc]; exact Runs.pure _

theorem readPtrs_total (mode : UInt32) : ∀ n, Total (readPtrs mode n) := by
  intro n
  induction n with
  | zero => exact Total.pure _
  | succ n ih => exact (readPtr_total mode).bind fun _ => ih.bind fun _ => Total.pure _

theorem readTiles_runs (c : Ctx) (w h : Nat) (hf : pan ∨ Fine w h) : Runs pan D (readTiles c w h) := by
  unfold readTiles
  refine (allocate_runs _ _ ?_).bind fun _ => (readPtrs_total _ _).runs
  rcases hf with hf | hf
  · exact Or.inl hf
  · right; have := tiles_fine hf; omega

theorem no_err_of_ne_zero {r r' : R} {x : UInt32} (h : readUint32 r = .ok (x, r')) (hx : x ≠ 0) : r'.err = none := by
  cases he : r'.err with
  | none => rfl
  | some e => exact absurd (readUint32_zero _ _ _ h (by rw [he]; rfl)) hx

theorem level_seen {mode : UInt32} {w h b : UInt32} {q : UInt64} {r r1 r2 r3 r4 r5 r6 r7 : R}
    (e1 : readUint32 r = .ok (w, r1)) (e2 : readUint32 r1 = .ok (h, r2)) (e3 : readUint32 r2 = .ok (b, r3))
    (e4 : readPtr mode r3 = .ok (q, r4)) (e5 : goto q r4 = .ok ((), r5)) (e6 : readUint32 r5 = .ok (w, r6))
    (e7 : readUint32 r6 = .ok (h, r7)) (he : r7.err = none) : HasImage r.data w h b := by
  obtain ⟨h6, g7⟩ := Agrees.readUint32.good _ _ _ e7 he
  obtain ⟨h5, g6⟩ := Agrees.readUint32.good _ _ _ e6 h6
  obtain ⟨h4, g5⟩ := (Agrees.goto q).good _ _ _ e5 h5
  obtain ⟨h3, g4⟩ := (Agrees.readPtr mode).good _ _ _ e4 h4
  obtain ⟨h2, g3⟩ := Agrees.readUint32.good _ _ _ e3 h3
  obtain ⟨h1, g2⟩ := Agrees.readUint32.good _ _ _ e2 h2
  obtain ⟨h0, g1⟩ := Agrees.readUint32.good _ _ _ e1 h1
  exact Limage.level_seen g1 g2 g3 g4 g5 g6 g7 he

theorem readPtrs_length (mode : UInt32) : ∀ (n : Nat) (r r' : R) (ps : List UInt64),
    readPtrs mode n r = .ok (ps, r') → ps.length = n := by
  intro n
  induction n with
  | zero => intro r r' ps h; cases h; rfl
  | succ n ih =>
    intro r r' ps h
    unfold readPtrs at h
    obtain ⟨p, r1, _, h⟩ := M.bind_inv h
    obtain ⟨qs, r2, h2, h⟩ := M.bind_inv h
    cases h
    rw [List.length_cons, ih _ _ _ h2]

theorem readLevel_runs (c : Ctx) (w h k : UInt32) (hf : pan ∨ (k.toNat < 6 ∧ FineSizes D)) :
    Runs pan D (readLevel c w h k) := by
  intro r hr
  unfold readLevel
  obtain ⟨tw, r1, e1, k1, _⟩ := readUint32_total r
  obtain ⟨th, r2, e2, k2, _⟩ := readUint32_total r1
  rw [M.bind_ok e1, M.bind_ok e2]
  by_cases hne : tw ≠ w ∨ th ≠ h
  · rw [if_pos hne]; exact ((k1.trans k2).1.trans hr)
  rw [if_neg hne]
  obtain ⟨bpp, r3, e3, k3, _⟩ := readUint32_total r2
  rw [M.bind_ok e3]
  have hd3 : r3.data = D := ((k1.trans k2).trans k3).1.trans hr
  by_cases hb : ¬ bppOk k bpp = true
  · rw [if_pos hb]; exact hd3
  rw [if_neg hb]
  have hw : tw = w := Classical.byContradiction fun h' => hne (Or.inl h')
  have hh : th = h := Classical.byContradiction fun h' => hne (Or.inr h')
  subst hw hh
  obtain ⟨lptr, r4, e4, k4, _⟩ := readPtr_total c.mode r3
  rw [M.bind_ok e4]
  obtain ⟨_, r5, e5⟩ : ∃ u r5, goto lptr r4 = .ok (u, r5) := ⟨(), _, rfl⟩
  rw [M.bind_ok e5]
  obtain ⟨w1, r6, e6, k6, _⟩ := readUint32_total r5
  obtain ⟨h1, r7, e7, k7, _⟩ := readUint32_total r6
  rw [M.bind_ok e6, M.bind_ok e7]
  have hd7 : r7.data = D := by rw [k7.1, k6.1, (goto_keeps _ _ _ _ e5).1, k4.1, hd3]
  by_cases hne2 : w1 ≠ tw ∨ h1 ≠ th
  · rw [if_pos hne2]; exact hd7
  rw [if_neg hne2]
  have hw : w1 = tw := Classical.byContradiction fun h' => hne2 (Or.inl h')
  have hh : h1 = th := Classical.byContradiction fun h' => hne2 (Or.inr h')
  subst hw hh
  have hfine : pan ∨ Fine w1.toNat h1.toNat := by
    rcases hf with hf | ⟨hk, hf⟩
    · exact Or.inl hf
    · right
      have hb' : bppOk k bpp = true := by simpa using hb
      have hr' := bppOk_range hk hb'
      by_cases hz : h1 = 0
      · rw [hz]; exact fine_zero _
      · have := level_seen e1 e2 e3 e4 e5 e6 e7 (no_err_of_ne_zero e7 hz)
        rw [hr] at this
        exact hf _ _ _ hr'.1 hr'.2 this
  have key : Runs pan D (do
        let tiles ← readTiles c w1.toNat h1.toNat
        let z ← readUint32
        if z ≠ 0 then
          setError .inconsistentData
          return none
        else return some (bpp, tiles) : M (Option (UInt32 × List UInt64))) := by
    refine (readTiles_runs _ _ _ hfine).bind fun _ => readUint32_total.runs.bind fun _ => Runs.ite ?_ (Runs.pure _)
    exact (setError_total _).runs.bind fun _ => Runs.pure _
  exact key r7 hd7

/-- the sizes were in the source -/
theorem readLevel_seen (c : Ctx) (w h k : UInt32) (r r' : R) (bpp : UInt32) (ts : List UInt64)
    (e : readLevel c w h k r = .ok (some (bpp, ts), r')) :
    h ≠ 0 → HasImage r.data w h bpp := by
  unfold readLevel at e
  obtain ⟨tw, r1, e1, e⟩ := M.bind_inv e
  obtain ⟨th, r2, e2, e⟩ := M.bind_inv e
  by_cases hne : tw ≠ w ∨ th ≠ h
  · rw [if_pos hne] at e
    obtain ⟨_, _, _, e⟩ := M.bind_inv e; cases e
  rw [if_neg hne] at e
  have hw : tw = w := Classical.byContradiction fun h' => hne (Or.inl h')
  have hh : th = h := Classical.byContradiction fun h' => hne (Or.inr h')
  subst hw hh
  obtain ⟨b, r3, e3, e⟩ := M.bind_inv e
  split at e
  · obtain ⟨_, _, _, e⟩ := M.bind_inv e; cases e
  obtain ⟨lp, r4, e4, e⟩ := M.bind_inv e
  obtain ⟨_, r5, e5, e⟩ := M.bind_inv e
  obtain ⟨w', r6, e6, e⟩ := M.bind_inv e
  obtain ⟨h', r7, e7, e⟩ := M.bind_inv e
  by_cases hne2 : w' ≠ tw ∨ h' ≠ th
  · rw [if_pos hne2] at e; obtain ⟨_, _, _, e⟩ := M.bind_inv e; cases e
  rw [if_neg hne2] at e
  have hw : w' = tw := Classical.byContradiction fun h' => hne2 (Or.inl h')
  have hh : h' = th := Classical.byContradiction fun h' => hne2 (Or.inr h')
  subst hw hh
  obtain ⟨tiles, r8, h8, e⟩ := M.bind_inv e
  obtain ⟨z, r9, h9, e⟩ := M.bind_inv e
  split at e
  · obtain ⟨_, _, _, e⟩ := M.bind_inv e; cases e
  cases e
  intro hz
  exact level_seen e1 e2 e3 e4 e5 e6 e7 (no_err_of_ne_zero e7 hz)

theorem readLevel_spec (c : Ctx) (w h k : UInt32) (r r' : R) (bpp : UInt32) (ts : List UInt64)
    (e : readLevel c w h k r = .ok (some (bpp, ts), r')) :
    bppOk k bpp = true ∧ ts.length = tileCount w.toNat * tileCount h.toNat ∧ True := by
  unfold readLevel at e
  obtain ⟨tw, r1, _, e⟩ := M.bind_inv e
  obtain ⟨th, r2, _, e⟩ := M.bind_inv e
  split at e
  · obtain ⟨_, _, _, e⟩ := M.bind_inv e; cases e
  obtain ⟨b, r3, _, e⟩ := M.bind_inv e
  split at e
  · obtain ⟨_, _, _, e⟩ := M.bind_inv e; cases e
  rename_i hb
  obtain ⟨lp, r4, _, e⟩ := M.bind_inv e
  obtain ⟨_, r5, _, e⟩ := M.bind_inv e
  obtain ⟨w', r6, _, e⟩ := M.bind_inv e
  obtain ⟨h', r7, _, e⟩ := M.bind_inv e
  split at e
  · obtain ⟨_, _, _, e⟩ := M.bind_inv e; cases e
  obtain ⟨tiles, r8, h8, e⟩ := M.bind_inv e
  obtain ⟨z, r9, h9, e⟩ := M.bind_inv e
  split at e
  · obtain ⟨_, _, _, e⟩ := M.bind_inv e; cases e
  cases e
  unfold readTiles at h8
  obtain ⟨_, r10, _, h8⟩ := M.bind_inv h8
  exact ⟨by simpa using hb, readPtrs_length _ _ _ _ _ h8, trivial⟩

theorem readImage_runs (c : Ctx) (w h k : UInt32) (hn : NoWrap D) (hf : pan ∨ (k.toNat < 6 ∧ FineSizes D)) :
    Runs pan D (readImage c w h k) := by
  intro r hr
  have h1 := readLevel_runs c w h k hf r hr
  unfold readImage
  cases hl : readLevel c w h k r with
  | panic =>
    rw [hl] at h1
    rw [M.bind_panic hl]
    exact h1
  | hang => rw [hl] at h1; exact h1.elim
  | ok x =>
    obtain ⟨x, r1⟩ := x
    rw [hl] at h1
    rw [M.bind_ok hl]
    cases x with
    | none => exact h1
    | some x =>
      obtain ⟨bpp, ts⟩ := x
      have hs := readLevel_seen _ _ _ _ _ _ _ _ hl
      have hsp := readLevel_spec _ _ _ _ _ _ _ _ hl
      rw [hr] at hs
      have hwrap : w.toNat = 0 → h.toNat ≤ 0xffffffc0 := by
        intro h0
        by_cases hz : h = 0
        · rw [hz]; decide
        · have := hs hz
          rw [show w = 0 from UInt32.toNat_inj.1 h0] at this
          exact hn _ _ this
      have hfine : pan ∨ (k.toNat < 6 ∧ Fine w.toNat h.toNat) := by
        rcases hf with hf | ⟨hk, hf⟩
        · exact Or.inl hf
        · right
          have hb := bppOk_range hk hsp.1
          refine ⟨hk, ?_⟩
          by_cases hz : h = 0
          · rw [hz]; exact fine_zero _
          · exact hf _ _ _ hb.1 hb.2 (hs hz)
      have hloop : pan ∨ ((w.toNat ≠ 0 → h.toNat ≠ 0 → w.toNat ≤ 0xffffffc0 ∧ h.toNat ≤ 0xffffffc0) ∧
          ts.length = tileCount w.toNat * tileCount h.toNat) := by
        rcases hfine with hf | hf
        · exact Or.inl hf
        · exact Or.inr ⟨hf.2.2, hsp.2.1⟩
      have hE : Runs pan D (readEager c k.toNat bpp.toNat w.toNat h.toNat ts) := by
        unfold readEager
        by_cases hk : k.toNat < 6
        · rw [if_pos hk]
          refine (allocate_runs _ _ ?_).bind fun _ =>
            (tileLoop_runs _ (eagerTile_runs c _) _ _ _ _ hwrap hloop).bind fun _ => Runs.pure _
          rcases hfine with hf | hf
          · exact Or.inl hf
          · right
            have a := hf.2.1
            have b := pixelSize_le4 k.toNat
            have := Nat.mul_le_mul a b
            have : maxAlloc = 281474976710656 := rfl
            omega
        · rw [if_neg hk]
          rcases hfine with hf | hf
          · exact (tileLoop_runs _ (fun _ _ => Runs.panic hf) _ _ _ _ hwrap hloop).bind fun _ => Runs.pure _
          · exact absurd hf.1 hk
      have hL : Runs pan D (readLazy c k.toNat bpp.toNat w.toNat h.toNat ts) := by
        unfold readLazy
        refine (allocate_runs _ _ ?_).bind fun _ => (tileLoop_runs _ (fun t s => ?_) _ _ _ _ hwrap hloop).bind fun _ =>
          Runs.ite (Runs.pure _) (Runs.pure _)
        · rcases hfine with hf | hf
          · exact Or.inl hf
          · right; rw [hsp.2.1]; exact tiles_fine hf.2
        · exact (readChannels_runs _ _).bind fun _ => Runs.pure _
      have key : Runs pan D (if (c.decompress || decide (c.compression = 0)) = true then do
          let im ← readEager c k.toNat bpp.toNat w.toNat h.toNat ts
          return im.map DecImg.eager
        else do
          let im ← readLazy c k.toNat bpp.toNat w.toNat h.toNat ts
          return im.map DecImg.lazy) :=
        Runs.ite (hE.bind fun _ => Runs.pure _) (hL.bind fun _ => Runs.pure _)
      exact key r1 h1

theorem readChannel_runs (c : Ctx) (hn : NoWrap D)
    (hf : pan ∨ (FineSizes D ∧ (c.decompress = true ∨ c.compression = 0))) : Runs pan D (readChannel c) := by
  unfold readChannel
  refine readUint32_total.runs.bind fun w => readUint32_total.runs.bind fun h => skipString_total.runs.bind fun _ =>
    skipPropertiesAll_total.runs.bind fun _ => (readPtr_total _).runs.bind fun _ => (goto_runs _).bind fun _ => ?_
  have hi : Runs pan D (readImage c w h 2) := readImage_runs c w h 2 hn (by
    rcases hf with hf | hf
    · exact Or.inl hf
    · exact Or.inr ⟨by decide, hf.1⟩)
  intro r hr
  have h1 := hi r hr
  cases hx : readImage c w h 2 r with
  | panic =>
    rw [hx] at h1
    rw [M.bind_panic hx]
    exact h1
  | hang => rw [hx] at h1; exact h1.elim
  | ok x =>
    obtain ⟨x, r1⟩ := x
    rw [hx] at h1
    rw [M.bind_ok hx]
    cases x with
    | none => exact h1
    | some d =>
      cases d with
      | eager im => exact h1
      | lazy im =>
        rcases hf with hf | hf
        · exact hf
        · -- a lazy image is not read then
          exfalso
          unfold readImage at hx
          obtain ⟨o, r2, _, hx2⟩ := M.bind_inv hx
          cases o with
          | none => cases hx2
          | some o =>
            obtain ⟨b, ts⟩ := o
            dsimp only at hx2
            rw [if_pos (by rcases hf.2 with h | h <;> simp [h])] at hx2
            obtain ⟨o, r3, _, hx3⟩ := M.bind_inv hx2
            cases o <;> cases hx3

theorem readMask_runs (c : Ctx) (b : Rect) (im : Img) (hn : NoWrap D)
    (hf : pan ∨ (FineSizes D ∧ (c.decompress = true ∨ c.compression = 0))) : Runs pan D (readMask c b im) := by
  unfold readMask
  refine (readChannel_runs c hn hf).bind fun o => ?_
  split
  · exact Runs.pure _
  · refine Runs.ite (Runs.pure _) ?_
    exact (setError_total _).runs.bind fun _ => Runs.pure _

/-- what one `Read` call fills in: bytes of the source in front of zeros -/
theorem readInto_seen {r r' : R} {n : Nat} {p : Bytes} (h : readInto (List.replicate n 0) r = .ok (p, r')) :
    p.length = n ∧ ∃ x k, p = x ++ List.replicate k 0 ∧ x <+: r.data.drop r.pos := by
  unfold readInto at h
  have key : ∀ m, m ≤ n → ((r.data.drop r.pos).take m ++ (List.replicate n (0 : UInt8)).drop ((r.data.drop r.pos).take m).length).length = n ∧
      ∃ x k, (r.data.drop r.pos).take m ++ (List.replicate n (0 : UInt8)).drop ((r.data.drop r.pos).take m).length =
        x ++ List.replicate k 0 ∧ x <+: r.data.drop r.pos := by
    intro m hm
    refine ⟨?_, _, _, by rw [List.drop_replicate], List.take_prefix _ _⟩
    rw [List.length_append, List.length_drop, List.length_replicate]
    have : ((r.data.drop r.pos).take m).length ≤ m := List.length_take_le _ _
    omega
  have none : (List.replicate n (0 : UInt8)).length = n ∧ ∃ x k, List.replicate n 0 = x ++ List.replicate k 0 ∧ x <+: r.data.drop r.pos :=
    ⟨List.length_replicate, [], n, rfl, List.nil_prefix⟩
  split at h
  · cases h; exact none
  · dsimp only at h
    split at h
    · cases h; exact none
    · split at h
      · cases h; exact key _ (by rw [List.length_replicate]; omega)
      · cases h; exact key _ (by rw [List.length_replicate]; omega)

theorem readParasites_in : ∀ (f : Nat) (l : UInt32) (ps : List Parasite) (r r' : R) (qs : List Parasite), r.data = D → TextsIn D ps →
    readParasites f l ps r = .ok (qs, r') → TextsIn D qs := by
  intro f
  induction f with
  | zero => intro l ps r r' qs _ _ h; cases h
  | succ f ih =>
    intro l ps r r' qs hD hps h
    unfold readParasites at h
    by_cases hl : l = 0
    · rw [if_pos hl] at h; cases h; exact hps
    rw [if_neg hl] at h
    obtain ⟨name, r1, h1, h⟩ := M.bind_inv h
    obtain ⟨fl, r2, h2, h⟩ := M.bind_inv h
    obtain ⟨n, r3, h3, h⟩ := M.bind_inv h
    dsimp only at h
    split at h
    · obtain ⟨_, _, -, h⟩ := M.bind_inv h
      cases h
      exact fun p hp => absurd hp List.not_mem_nil
    obtain ⟨d, r4, h4, h⟩ := M.bind_inv h
    have hD4 : r4.data = D := by
      rw [((readInto_total _).keeps _ _ _ h4).1, (readUint32_total.keeps _ _ _ h3).1, (readUint32_total.keeps _ _ _ h2).1,
        (readString_total.keeps _ _ _ h1).1, hD]
    refine ih _ _ _ _ _ hD4 ?_ h
    intro p hp hn
    rcases List.mem_append.1 hp with hp | hp
    · exact hps p hp hn
    rw [List.mem_singleton] at hp
    subst hp
    have hn : name = textParasiteName := hn
    subst hn
    by_cases hn0 : n = 0
    · left
      subst hn0
      exact List.eq_nil_of_length_eq_zero (readInto_seen h4).1
    have g3' := no_err_of_ne_zero h3 hn0
    obtain ⟨g2', g3⟩ := Agrees.readUint32.good _ _ _ h3 g3'
    obtain ⟨g1', g2⟩ := Agrees.readUint32.good _ _ _ h2 g2'
    obtain ⟨g0', g1⟩ := Agrees.readString.good _ _ _ h1 g1'
    obtain ⟨a3, f3⟩ := readUint32_seen g3 g3'
    obtain ⟨a2, f2⟩ := readUint32_seen g2 a3.1
    obtain ⟨a1, f1⟩ := readString_seen g1 (by decide)
    obtain ⟨b1, x, k, b2, b3⟩ := readInto_seen h4
    have hp3 : r3.data = r.data ∧ r3.pos = ((((r.core).adv (Spec.str textParasiteName).length).adv 4).adv 4).pos := by
      have : r3.core = (((r.core).adv (Spec.str textParasiteName).length).adv 4).adv 4 := by rw [f3, f2, f1]
      exact ⟨congrArg Limage.R.data this, congrArg Limage.R.pos this⟩
    rw [hp3.1, hp3.2] at b3
    rw [f2, f1] at a3
    rw [f1] at a2
    have hrd : r.core.data = D := hD
    generalize r.core = rc at a1 a2 a3 b3 hrd
    rw [hD, ← hrd] at b3
    have a12 := a1.append a2
    have a := a12.append (b := be 4 n.toNat) (by rw [List.length_append, be_length, ← R.adv_adv]; exact a3)
    right
    refine ⟨fl.toNat, x, k, fl.toNat_lt, by rw [b1]; exact n.toNat_lt, b2, ?_⟩
    rw [b1, ← textName_eq]
    obtain ⟨⟨t, ht⟩, -⟩ := a.2
    have hpos : rc.data.drop ((((rc.adv (Spec.str textParasiteName).length).adv 4).adv 4).pos) = t := by
      rw [R.adv_adv, R.adv_adv, R.adv_pos, ← List.drop_drop, ht, List.drop_left' (by simp only [List.length_append, be_length])]
    rw [hpos] at b3
    obtain ⟨t', rfl⟩ := b3
    rw [← hrd]
    refine ⟨rc.data.take rc.pos, t', ?_⟩
    conv => rhs; rw [← List.take_append_drop rc.pos rc.data, ht]
    simp only [List.append_assoc]

/-- a property that is read leaves descriptions that are in the source -/
def PropIn (D : Bytes) (m : M LProps) : Prop := ∀ r s' r', r.data = D → m r = .ok (s', r') → TextsIn D s'.parasites

theorem PropIn.pure {s : LProps} (h : TextsIn D s.parasites) : PropIn D (pure s) := by
  intro r s' r' _ e; cases e; exact h
theorem PropIn.bind {α : Type} {m : M α} {f : α → M LProps} (hm : Keeps m) (h : ∀ a, PropIn D (f a)) : PropIn D (m >>= f) := by
  intro r s' r' hr e
  obtain ⟨a, r1, e1, e2⟩ := M.bind_inv e
  exact h a r1 s' r' ((hm _ _ _ e1).1.trans hr) e2
theorem PropIn.ite {p : Prop} [Decidable p] {m n : M LProps} (h1 : PropIn D m) (h2 : PropIn D n) : PropIn D (if p then m else n) := by
  by_cases h : p
  · rw [if_pos h]; exact h1
  · rw [if_neg h]; exact h2

theorem layerProp_in (c : Ctx) (t l : UInt32) (s : LProps) (hs : TextsIn D s.parasites) : PropIn D (layerProp c t l s) := by
  unfold layerProp
  refine PropIn.ite ?_ (PropIn.ite ?_ (PropIn.ite ?_ (PropIn.ite ?_ (PropIn.ite ?_ (PropIn.ite ?_ (PropIn.ite ?_
    (PropIn.ite ?_ (PropIn.ite ?_ (PropIn.ite ?_ (PropIn.ite ?_ ?_))))))))))
  · exact PropIn.bind (skip_total _).keeps fun _ => PropIn.pure hs
  · exact PropIn.bind readUint32_total.keeps fun _ => PropIn.bind (setErr?_total _).keeps fun _ => PropIn.pure hs
  · intro r s' r' hr e
    obtain ⟨ps, _, h1, h⟩ := M.bind_inv e
    cases h
    exact readParasites_in _ _ _ _ _ _ hr (fun p hp => absurd hp List.not_mem_nil) h1
  · exact PropIn.bind (skip_total _).keeps fun _ => PropIn.pure hs
  · exact PropIn.bind readBoolProperty_total.keeps fun _ => PropIn.pure hs
  · exact PropIn.pure hs
  · exact PropIn.pure hs
  · exact PropIn.bind ((setErr?_total _).bind fun _ => readUint32s_total _).keeps fun _ => PropIn.pure hs
  · exact PropIn.bind readUint32_total.keeps fun _ => PropIn.pure hs
  · exact PropIn.bind readUint32_total.keeps fun _ => PropIn.bind readUint32_total.keeps fun _ => PropIn.pure hs
  · exact PropIn.bind readUint32_total.keeps fun _ => PropIn.pure hs
  · exact PropIn.bind (skip_total _).keeps fun _ => PropIn.pure hs

theorem layerProps_in (c : Ctx) : ∀ (f : Nat) (s s' : LProps) (r r' : R), r.data = D → TextsIn D s.parasites →
    layerProps c f s r = .ok (s', r') → TextsIn D s'.parasites := by
  intro f
  induction f with
  | zero => intro s s' r r' _ _ h; cases h
  | succ f ih =>
    intro s s' r r' hD hs h
    unfold layerProps at h
    obtain ⟨t, r1, h1, h⟩ := M.bind_inv h
    obtain ⟨l, r2, h2, h⟩ := M.bind_inv h
    have hD2 : r2.data = D := by rw [(readUint32_total.keeps _ _ _ h2).1, (readUint32_total.keeps _ _ _ h1).1, hD]
    split at h
    · obtain ⟨_, _, -, h⟩ := M.bind_inv h; cases h; exact hs
    · obtain ⟨s1, r3, h3, h⟩ := M.bind_inv h
      exact ih s1 s' r3 r' (((layerProp_total _ _ _ _).keeps _ _ _ h3).1.trans hD2) (layerProp_in c _ _ _ hs _ _ _ hD2 h3) h

theorem Runs.bind_in {α β : Type} {m : M α} {f : α → M β} {P : α → Prop} (h1 : Runs pan D m)
    (hP : ∀ r a r', r.data = D → m r = .ok (a, r') → P a) (h2 : ∀ a, P a → Runs pan D (f a)) : Runs pan D (m >>= f) := by
  intro r hr
  have := h1 r hr
  show match M.bind m f r with
    | .ok (_, r') => r'.data = D
    | .panic => pan
    | .hang => False
  unfold M.bind
  cases hm : m r with
  | ok x => rw [hm] at this; exact h2 x.1 (hP _ _ _ hr hm) x.2 this
  | panic => rw [hm] at this; exact this
  | hang => rw [hm] at this; exact this

theorem layerText_runs (c : Ctx) (ps : List Parasite) (im : Img) (hps : TextsIn D ps) (hh : ∀ b, Spec.TextIn D b → c.env.parseText b ≠ .hang)
    (hp : pan ∨ ∀ b, Spec.TextIn D b → c.env.parseText b ≠ .panic) : Runs pan D (layerText c ps im) := by
  unfold layerText
  split
  · exact Runs.pure _
  · rename_i t ht
    have hin : Spec.TextIn D t.data := hps t (List.mem_of_find?_eq_some ht) (by simpa using List.find?_some ht)
    cases h : c.env.parseText t.data with
    | panic =>
      rcases hp with hp | hp
      · exact Runs.panic hp
      · exact absurd h (hp _ hin)
    | hang => exact absurd h (hh _ hin)
    | ok x =>
      cases x with
      | none => exact (setError_total _).runs.bind fun _ => Runs.pure _
      | some x => exact Runs.pure _

/-- One layer is read, or panics if `pan` holds. -/
theorem readLayer_runs (c : Ctx) (hn : NoWrap D) (hh : ∀ b, Spec.TextIn D b → c.env.parseText b ≠ .hang)
    (hf : pan ∨ ((∀ b, Spec.TextIn D b → c.env.parseText b ≠ .panic) ∧ FineSizes D ∧ (c.decompress = true ∨ c.compression = 0) ∧
      c.baseType.toNat ≤ 2)) : Runs pan D (readLayer c) := by
  unfold readLayer
  refine readUint32_total.runs.bind fun w => readUint32_total.runs.bind fun h => readUint32_total.runs.bind fun typ => ?_
  by_cases ht : typ >>> 1 ≠ c.baseType
  · rw [if_pos ht]; exact (setError_total _).runs.bind fun _ => Runs.pure _
  rw [if_neg ht]
  have ht : typ >>> 1 = c.baseType := Classical.byContradiction ht
  refine readString_total.runs.bind fun name => (readLayerProperties_total c).runs.bind_in (P := fun s => TextsIn D s.parasites)
    (fun r a r' hr h => layerProps_in c _ _ _ _ _ hr (fun p hp => absurd hp List.not_mem_nil) h) fun s hps =>
    (readPtr_total _).runs.bind fun hptr => (readPtr_total _).runs.bind fun mptr => (goto_runs _).bind fun _ => ?_
  refine Runs.bind ?_ fun o => ?_
  · unfold layerImage
    refine Runs.ite (Runs.pure _) ((readImage_runs c w h typ hn ?_).bind fun o => ?_)
    · rcases hf with hf | hf
      · exact Or.inl hf
      · exact Or.inr ⟨typ_lt ht hf.2.2.2, hf.2.1⟩
    · split <;> exact Runs.pure _
  · split
    · exact Runs.pure _
    · refine Runs.bind (layerText_runs c _ _ hps hh ?_) fun o => ?_
      · rcases hf with hf | hf
        · exact Or.inl hf
        · exact Or.inr hf.1
      · split
        · exact Runs.pure _
        · refine Runs.ite ?_ (Runs.pure _)
          refine (goto_runs _).bind fun _ => (readMask_runs c _ _ hn ?_).bind fun _ => Runs.pure _
          rcases hf with hf | hf
          · exact Or.inl hf
          · exact Or.inr ⟨hf.2.1, hf.2.2.1⟩

end Limage.Failing
