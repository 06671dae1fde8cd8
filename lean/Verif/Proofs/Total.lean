import Verif.Proofs.Keeps
import Verif.Model.XcfDecode
/-! The parts of the decoder that only move forward end without a panic, whatever they read. -/
namespace Limage

/-- always returns, keeps the source and errors, and does not move backwards -/
def Total {α : Type} (m : M α) : Prop := ∀ r, ∃ a r', m r = .ok (a, r') ∧ Keep r r' ∧ r.pos ≤ r'.pos

theorem Total.keeps {α : Type} {m : M α} (h : Total m) : Keeps m := by
  intro r a r' e
  obtain ⟨a1, r1, e1, k, _⟩ := h r
  rw [e] at e1; cases e1; exact k
theorem Total.fwd {α : Type} {m : M α} (h : Total m) {r r' : R} {a : α} (e : m r = .ok (a, r')) :
    r.pos ≤ r'.pos := by
  obtain ⟨a1, r1, e1, _, k⟩ := h r
  rw [e] at e1; cases e1; exact k

theorem Total.pure {α : Type} (a : α) : Total (pure a : M α) :=
  fun r => ⟨a, r, rfl, Keep.refl r, Nat.le_refl _⟩
theorem Total.bind {α β : Type} {m : M α} {f : α → M β} (h1 : Total m) (h2 : ∀ a, Total (f a)) :
    Total (m >>= f) := by
  intro r
  obtain ⟨a, r1, e1, k1, p1⟩ := h1 r
  obtain ⟨b, r2, e2, k2, p2⟩ := h2 a r1
  exact ⟨b, r2, by rw [M.bind_ok e1, e2], k1.trans k2, Nat.le_trans p1 p2⟩
theorem Total.ite {α : Type} {p : Prop} [Decidable p] {m n : M α} (h1 : Total m) (h2 : Total n) :
    Total (if p then m else n) := by
  by_cases h : p
  · rw [if_pos h]; exact h1
  · rw [if_neg h]; exact h2

theorem getErr_total : Total getErr := fun r => ⟨_, r, rfl, Keep.refl r, Nat.le_refl _⟩
theorem setError_total (e : Err) : Total (setError e) :=
  fun r => ⟨(), _, rfl, setError_keeps e _ _ _ rfl, Nat.le_refl _⟩
theorem setErr?_total (e : Option Err) : Total (setErr? e) := by
  cases e with
  | none => exact Total.pure ()
  | some e => exact setError_total e
theorem skip_total (n : UInt32) : Total (skip n) :=
  fun r => ⟨(), _, rfl, skip_keeps n _ _ _ rfl, Nat.le_add_right _ _⟩

theorem readFull_total (n : Nat) : Total (readFull n) := by
  intro r
  have h : ∃ a r', readFull n r = .ok (a, r') ∧ r.pos ≤ r'.pos := by
    unfold readFull
    split
    · exact ⟨_, _, rfl, Nat.le_refl _⟩
    · dsimp only
      split
      · exact ⟨_, _, rfl, Nat.le_add_right _ _⟩
      · exact ⟨_, _, rfl, Nat.le_add_right _ _⟩
  obtain ⟨a, r', e, p⟩ := h
  exact ⟨a, r', e, readFull_keeps n _ _ _ e, p⟩
theorem readInto_total (p : Bytes) : Total (readInto p) := by
  intro r
  have h : ∃ a r', readInto p r = .ok (a, r') ∧ r.pos ≤ r'.pos := by
    unfold readInto
    split
    · exact ⟨_, _, rfl, Nat.le_refl _⟩
    · dsimp only
      split
      · exact ⟨_, _, rfl, Nat.le_refl _⟩
      · exact ⟨_, _, rfl, Nat.le_add_right _ _⟩
  obtain ⟨a, r', e, q⟩ := h
  exact ⟨a, r', e, readInto_keeps p _ _ _ e, q⟩

theorem readUint8_total : Total readUint8 := (readFull_total _).bind fun _ => Total.pure _
theorem readUint32_total : Total readUint32 := (readFull_total _).bind fun _ => Total.pure _
theorem readUint64_total : Total readUint64 := (readFull_total _).bind fun _ => Total.pure _
theorem readPtr_total (mode : UInt32) : Total (readPtr mode) := by
  unfold readPtr
  exact Total.ite (readUint32_total.bind fun _ => Total.pure _) readUint64_total

theorem readString_total : Total readString := by
  unfold readString
  refine readUint32_total.bind fun n => Total.ite (Total.pure _) (Total.ite ?_ ?_)
  · exact (setError_total _).bind fun _ => Total.pure _
  refine (readFull_total _).bind fun b => getErr_total.bind fun e => Total.ite (Total.pure _) (Total.ite ?_ ?_)
  · exact (setError_total _).bind fun _ => Total.pure _
  · exact Total.pure _

theorem skipString_total : Total skipString := readUint32_total.bind fun n => skip_total n
theorem skipParasite_total : Total skipParasite :=
  skipString_total.bind fun _ => (skip_total _).bind fun _ => readUint32_total.bind fun n => skip_total n

theorem forN_total {m : M Bool} (h : Total m) : ∀ n, Total (forN n m) := by
  intro n
  induction n with
  | zero => exact Total.pure _
  | succ n ih =>
    unfold forN
    refine h.bind fun b => ?_
    exact Total.ite ih (Total.pure _)
theorem forN'_total {m : M Bool} (h : Total m) : ∀ n, Total (forN' n m) := by
  intro n
  induction n with
  | zero => exact Total.pure _
  | succ n ih =>
    unfold forN'
    refine h.bind fun b => ?_
    exact Total.ite ih (Total.pure _)

theorem skipPaths_total : Total skipPaths := by
  unfold skipPaths
  refine (skip_total _).bind fun _ => readUint32_total.bind fun n => forN_total ?_ _
  refine skipString_total.bind fun _ => (skip_total _).bind fun _ => (skip_total _).bind fun _ =>
    (skip_total _).bind fun _ => readUint32_total.bind fun np => readUint32_total.bind fun v =>
    Total.ite ?_ (Total.ite ?_ (Total.ite ?_ ?_))
  · exact (skip_total _).bind fun _ => Total.pure _
  · exact (skip_total _).bind fun _ => (skip_total _).bind fun _ => Total.pure _
  · exact (skip_total _).bind fun _ => (skip_total _).bind fun _ => (skip_total _).bind fun _ => Total.pure _
  · exact (setError_total _).bind fun _ => Total.pure _

theorem skipVectors_total : Total skipVectors := by
  unfold skipVectors
  refine readUint32_total.bind fun v => Total.ite (setError_total _) ?_
  refine (skip_total _).bind fun _ => readUint32_total.bind fun n => forN_total ?_ _
  refine skipString_total.bind fun _ => (skip_total _).bind fun _ => (skip_total _).bind fun _ =>
    (skip_total _).bind fun _ => readUint32_total.bind fun m => readUint32_total.bind fun k =>
    Total.bind (forN_total (skipParasite_total.bind fun _ => Total.pure _) _) fun _ => forN'_total ?_ _
  refine readUint32_total.bind fun t => Total.ite ?_ ?_
  · exact (setError_total _).bind fun _ => Total.pure _
  refine (skip_total _).bind fun _ => readUint32_total.bind fun nf => readUint32_total.bind fun np => Total.ite ?_ ?_
  · exact (skip_total _).bind fun _ => Total.pure _
  · exact (setError_total _).bind fun _ => Total.pure _

theorem readBoolProperty_total : Total readBoolProperty := by
  unfold readBoolProperty
  refine readUint32_total.bind fun x => Total.ite (Total.pure _) (Total.ite (Total.pure _) ?_)
  exact (setError_total _).bind fun _ => Total.pure _

/-! ### loops -/

theorem readString_err (r : R) (he : r.err.isSome) : readString r = .ok ([], r) := by
  unfold readString
  rw [M.bind_ok (readUint32_err r he)]
  rfl

/-- a number read without error lies in the source -/
theorem readUint32_inside (r r' : R) (x : UInt32) (h : readUint32 r = .ok (x, r')) (he : r'.err = none) :
    r.pos + 4 = r'.pos ∧ r'.pos ≤ r'.data.length ∧ r'.pos ≤ r'.limit := by
  have hr := (readUint32_keeps _ _ _ h).none he
  rcases readUint32_cases r hr with ⟨y, hs, e⟩ | ⟨r1, e, h1, _⟩
  · rw [e] at h; cases h
    obtain ⟨_, ⟨t, ht⟩, hl⟩ := hs
    have := congrArg List.length ht
    rw [List.length_append, List.length_drop, be_length] at this
    rw [be_length] at hl
    exact ⟨rfl, by simp only [R.adv_data, R.adv_pos]; omega, hl⟩
  · rw [e] at h; cases h
    rw [he] at h1; cases h1

/-- nothing but zero is read in case of an error -/
theorem readUint32_zero (r r' : R) (x : UInt32) (h : readUint32 r = .ok (x, r')) (he : r'.err.isSome) : x = 0 := by
  cases hr : r.err with
  | some e =>
    rw [readUint32_err r (by rw [hr]; rfl)] at h
    cases h; rfl
  | none =>
    rcases readUint32_cases r hr with ⟨y, hs, e⟩ | ⟨r1, e, h1, _⟩
    · rw [e] at h; cases h
      rw [R.adv_err, hr] at he; cases he
    · rw [e] at h; cases h; rfl

theorem readPtr_zero (mode : UInt32) (r r' : R) (x : UInt64) (h : readPtr mode r = .ok (x, r')) (he : r'.err.isSome) :
    x = 0 := by
  unfold readPtr at h
  split at h
  · obtain ⟨y, r1, h1, h⟩ := M.bind_inv h
    cases h
    rw [readUint32_zero _ _ _ h1 he]
    rfl
  · cases hr : r.err with
    | some e =>
      unfold readUint64 at h
      rw [M.bind_ok (readFull_err 8 r (by rw [hr]; rfl))] at h
      cases h; rfl
    | none =>
      rcases readUint64_cases r hr with ⟨y, hs, e⟩ | ⟨r1, e, h1, _⟩
      · rw [e] at h; cases h
        rw [R.adv_err, hr] at he; cases he
      · rw [e] at h; cases h; rfl

theorem readUint64_inside (r r' : R) (x : UInt64) (h : readUint64 r = .ok (x, r')) (he : r'.err = none) :
    r.pos + 8 = r'.pos ∧ r'.pos ≤ r'.data.length ∧ r'.pos ≤ r'.limit := by
  have hr := (readUint64_keeps _ _ _ h).none he
  rcases readUint64_cases r hr with ⟨y, hs, e⟩ | ⟨r1, e, h1, _⟩
  · rw [e] at h; cases h
    obtain ⟨_, ⟨t, ht⟩, hl⟩ := hs
    have := congrArg List.length ht
    rw [List.length_append, List.length_drop, be_length] at this
    rw [be_length] at hl
    exact ⟨rfl, by simp only [R.adv_data, R.adv_pos]; omega, hl⟩
  · rw [e] at h; cases h
    rw [he] at h1; cases h1

theorem readPtr_inside (mode : UInt32) (r r' : R) (x : UInt64) (h : readPtr mode r = .ok (x, r')) (he : r'.err = none) :
    r.pos + 4 ≤ r'.pos ∧ r'.pos ≤ r'.data.length := by
  unfold readPtr at h
  split at h
  · obtain ⟨y, r1, h1, h⟩ := M.bind_inv h
    cases h
    have := readUint32_inside _ _ _ h1 he
    omega
  · have := readUint64_inside _ _ _ h he
    omega

/-- what is left to read, as long as there is no error -/
def R.left (r : R) : Nat := match r.err with
  | some _ => 0
  | none => r.data.length - r.pos + 1

theorem left_lt {r r' : R} (k : Keep r r') (he : r.err = none)
    (h : r'.err = none → r.pos < r'.pos ∧ r.pos < r'.data.length) : r'.left < r.left := by
  unfold R.left
  rw [he]
  cases h' : r'.err with
  | some e => simp only; omega
  | none =>
    have := h h'
    simp only [k.1] at this ⊢
    omega

theorem left_le {r r' : R} (k : Keep r r') (hp : r.pos ≤ r'.pos) : r'.left ≤ r.left := by
  unfold R.left
  cases h' : r'.err with
  | some e => simp only; omega
  | none =>
    rw [k.none h']
    simp only [k.1]
    omega

theorem parasites_total : ∀ (f : Nat) (l : UInt32) (ps : List Parasite) (r : R), l.toNat + r.left < f →
    ∃ a r', readParasites f l ps r = .ok (a, r') ∧ Keep r r' ∧ r.pos ≤ r'.pos := by
  intro f
  induction f with
  | zero => intro l ps r h; omega
  | succ f ih =>
    intro l ps r h
    unfold readParasites
    by_cases hl : l = 0
    · rw [if_pos hl]; exact ⟨_, r, rfl, Keep.refl r, Nat.le_refl _⟩
    rw [if_neg hl]
    obtain ⟨name, r1, e1, k1, p1⟩ := readString_total r
    obtain ⟨flags, r2, e2, k2, p2⟩ := readUint32_total r1
    obtain ⟨pl, r3, e3, k3, p3⟩ := readUint32_total r2
    rw [M.bind_ok e1, M.bind_ok e2, M.bind_ok e3]
    have k13 := (k1.trans k2).trans k3
    by_cases hread : 4 + UInt32.ofNat name.length + 1 + 4 + 4 + pl > l
    · rw [if_pos hread]
      exact ⟨[], _, rfl, k13.trans (setError_keeps _ _ _ _ rfl), by
        show r.pos ≤ r3.pos
        omega⟩
    · rw [if_neg hread]
      obtain ⟨d, r4, e4, k4, p4⟩ := readInto_total (List.replicate pl.toNat 0) r3
      rw [M.bind_ok e4]
      have hle : (l - (4 + UInt32.ofNat name.length + 1 + 4 + 4 + pl)).toNat =
          l.toNat - (4 + UInt32.ofNat name.length + 1 + 4 + 4 + pl).toNat := by
        rw [UInt32.toNat_sub_of_le]
        exact UInt32.not_lt.1 hread
      have hdec : (l - (4 + UInt32.ofNat name.length + 1 + 4 + 4 + pl)).toNat + r4.left < l.toNat + r.left := by
        cases he : r.err with
        | none =>
          have : r4.left < r.left := by
            refine Nat.lt_of_le_of_lt (left_le k4 p4) (left_lt k13 he fun he3 => ?_)
            have := readUint32_inside _ _ _ e3 he3
            omega
          omega
        | some e =>
          have hs : r.err.isSome := by rw [he]; rfl
          rw [readString_err r hs] at e1; cases e1
          rw [readUint32_err r hs] at e2; cases e2
          rw [readUint32_err r hs] at e3; cases e3
          have hz : l.toNat ≠ 0 := fun h0 => hl (UInt32.toNat_inj.1 h0)
          have h13 : (4 + UInt32.ofNat ([] : Bytes).length + 1 + 4 + 4 + (0 : UInt32)).toNat = 13 := by decide
          have hr := UInt32.le_iff_toNat_le.1 (UInt32.not_lt.1 hread)
          rw [h13] at hle hr
          have := left_le k4 p4
          rw [hle]
          omega
      obtain ⟨a, r5, e5, k5, p5⟩ := ih (l - (4 + UInt32.ofNat name.length + 1 + 4 + 4 + pl))
        (ps ++ [⟨name, flags, d⟩]) r4 (by omega)
      exact ⟨a, r5, e5, (k13.trans k4).trans k5, by omega⟩

theorem readParasitesAll_total (l : UInt32) : Total (readParasitesAll l) := by
  intro r
  refine parasites_total _ l [] r ?_
  unfold R.left
  split <;> omega

theorem readPalette_total : ∀ n, Total (readPalette n) := by
  intro n
  induction n with
  | zero => exact Total.pure _
  | succ n ih =>
    exact readUint8_total.bind fun _ => readUint8_total.bind fun _ => readUint8_total.bind fun _ =>
      ih.bind fun _ => Total.pure _

theorem readUint32s_total : ∀ n, Total (readUint32s n) := by
  intro n
  induction n with
  | zero => exact Total.pure _
  | succ n ih => exact readUint32_total.bind fun _ => ih.bind fun _ => Total.pure _

theorem imageProp_total (b t l : UInt32) (s : IProps) : Total (imageProp b t l s) := by
  unfold imageProp
  refine Total.ite ?_ (Total.ite ?_ (Total.ite ?_ (Total.ite ?_ (Total.ite ?_ (Total.ite ?_ (Total.ite ?_
    (Total.ite ?_ (Total.ite ?_ (Total.ite ?_ (Total.ite ?_ (Total.ite ?_ (Total.ite ?_ ?_))))))))))))
  · exact readBoolProperty_total.bind fun _ => Total.pure _
  · exact readUint32_total.bind fun _ => Total.ite (Total.pure _) (Total.pure _)
  · exact (readParasitesAll_total _).bind fun _ => Total.pure _
  · exact readUint32_total.bind fun _ => Total.pure _
  · exact (skip_total _).bind fun _ => readUint32_total.bind fun n => (readPalette_total _).bind fun _ => Total.pure _
  · exact readUint8_total.bind fun _ => Total.ite (Total.pure _) (Total.pure _)
  · refine Total.ite (Total.pure _) (Total.bind (forN_total ?_ _) fun _ => Total.pure _)
    exact (skip_total _).bind fun _ => (skip_total _).bind fun _ => Total.pure _
  · exact skipPaths_total.bind fun _ => Total.pure _
  · exact (skip_total _).bind fun _ => (skip_total _).bind fun _ => Total.pure _
  · refine Total.ite (Total.pure _) (Total.bind (forN_total ?_ _) fun _ => Total.pure _)
    exact (skip_total _).bind fun _ => (skip_total _).bind fun _ => Total.pure _
  · exact readUint32_total.bind fun _ => Total.ite (Total.pure _) (Total.pure _)
  · exact (skip_total _).bind fun _ => (skip_total _).bind fun _ => skipString_total.bind fun _ =>
      skipString_total.bind fun _ => skipString_total.bind fun _ => skipString_total.bind fun _ =>
      skipString_total.bind fun _ => Total.pure _
  · exact skipVectors_total.bind fun _ => Total.pure _
  · exact (skip_total _).bind fun _ => Total.pure _

/-- a loop over properties: `body` sees a type that is not zero -/
theorem props_step {r r1 r2 : R} {t l : UInt32} (e1 : readUint32 r = .ok (t, r1))
    (e2 : readUint32 r1 = .ok (l, r2)) (ht : t ≠ 0) : r2.left < r.left := by
  have k1 := readUint32_keeps _ _ _ e1
  have k2 := readUint32_keeps _ _ _ e2
  have h1 : r1.err = none := by
    cases h : r1.err with
    | none => rfl
    | some e => exact absurd (readUint32_zero _ _ _ e1 (by rw [h]; rfl)) ht
  have i1 := readUint32_inside _ _ _ e1 h1
  have p2 := readUint32_total.fwd e2
  refine left_lt (k1.trans k2) (k1.none h1) fun _ => ?_
  rw [k2.1]
  omega

theorem imageProps_total (b : UInt32) : ∀ (f : Nat) (s : IProps) (r : R), r.left < f →
    ∃ a r', imageProps b f s r = .ok (a, r') ∧ Keep r r' ∧ r.pos ≤ r'.pos := by
  intro f
  induction f with
  | zero => intro s r h; omega
  | succ f ih =>
    intro s r h
    unfold imageProps
    obtain ⟨t, r1, e1, k1, p1⟩ := readUint32_total r
    obtain ⟨l, r2, e2, k2, p2⟩ := readUint32_total r1
    rw [M.bind_ok e1, M.bind_ok e2]
    by_cases ht : t = 0
    · rw [if_pos ht]
      by_cases hl : l ≠ 0
      · rw [if_pos hl]; exact ⟨_, r2, rfl, k1.trans k2, by omega⟩
      · rw [if_neg hl]; exact ⟨_, r2, rfl, k1.trans k2, by omega⟩
    · rw [if_neg ht]
      obtain ⟨x, r3, e3, k3, p3⟩ := imageProp_total b t l s r2
      rw [M.bind_ok e3]
      cases x with
      | error e => exact ⟨_, r3, rfl, (k1.trans k2).trans k3, by omega⟩
      | ok s' =>
        have := props_step e1 e2 ht
        have := left_le k3 p3
        obtain ⟨a, r4, e4, k4, p4⟩ := ih s' r3 (by omega)
        exact ⟨a, r4, e4, ((k1.trans k2).trans k3).trans k4, by omega⟩

theorem left_le_length (r : R) : r.left < r.data.length + 2 := by
  unfold R.left
  split <;> omega

theorem readImageProperties_total (b : UInt32) : Total (readImageProperties b) := fun r =>
  imageProps_total b _ _ r (left_le_length r)

theorem layerPointers_total (mode : UInt32) : ∀ (f : Nat) (ps : List UInt64) (r : R), r.left < f →
    ∃ a r', layerPointers mode f ps r = .ok (a, r') ∧ Keep r r' ∧ r.pos ≤ r'.pos := by
  intro f
  induction f with
  | zero => intro s r h; omega
  | succ f ih =>
    intro ps r h
    unfold layerPointers
    obtain ⟨p, r1, e1, k1, p1⟩ := readPtr_total mode r
    rw [M.bind_ok e1]
    by_cases hp : p = 0
    · rw [if_pos hp]; exact ⟨_, r1, rfl, k1, p1⟩
    · rw [if_neg hp]
      have h1 : r1.err = none := by
        cases h : r1.err with
        | none => rfl
        | some e => exact absurd (readPtr_zero _ _ _ _ e1 (by rw [h]; rfl)) hp
      have i1 := readPtr_inside _ _ _ _ e1 h1
      have : r1.left < r.left := left_lt k1 (k1.none h1) fun _ => by omega
      obtain ⟨a, r2, e2, k2, p2⟩ := ih (ps ++ [p]) r1 (by omega)
      exact ⟨a, r2, e2, k1.trans k2, by omega⟩

theorem readLayerPointers_total (mode : UInt32) : Total (readLayerPointers mode) := fun r =>
  layerPointers_total mode _ _ r (left_le_length r)

theorem layerProp_total (c : Ctx) (t l : UInt32) (s : LProps) : Total (layerProp c t l s) := by
  unfold layerProp
  refine Total.ite ?_ (Total.ite ?_ (Total.ite ?_ (Total.ite ?_ (Total.ite ?_ (Total.ite ?_ (Total.ite ?_
    (Total.ite ?_ (Total.ite ?_ (Total.ite ?_ (Total.ite ?_ ?_))))))))))
  · exact (skip_total _).bind fun _ => Total.pure _
  · exact readUint32_total.bind fun _ => (setErr?_total _).bind fun _ => Total.pure _
  · exact (readParasitesAll_total _).bind fun _ => Total.pure _
  · exact (skip_total _).bind fun _ => Total.pure _
  · exact readBoolProperty_total.bind fun _ => Total.pure _
  · exact Total.pure _
  · exact Total.pure _
  · exact Total.bind ((setErr?_total _).bind fun _ => readUint32s_total _) fun _ => Total.pure _
  · exact readUint32_total.bind fun _ => Total.pure _
  · exact readUint32_total.bind fun _ => readUint32_total.bind fun _ => Total.pure _
  · exact readUint32_total.bind fun _ => Total.pure _
  · exact (skip_total _).bind fun _ => Total.pure _

theorem layerProps_total (c : Ctx) : ∀ (f : Nat) (s : LProps) (r : R), r.left < f →
    ∃ a r', layerProps c f s r = .ok (a, r') ∧ Keep r r' ∧ r.pos ≤ r'.pos := by
  intro f
  induction f with
  | zero => intro s r h; omega
  | succ f ih =>
    intro s r h
    unfold layerProps
    obtain ⟨t, r1, e1, k1, p1⟩ := readUint32_total r
    obtain ⟨l, r2, e2, k2, p2⟩ := readUint32_total r1
    rw [M.bind_ok e1, M.bind_ok e2]
    by_cases ht : t = 0
    · rw [if_pos ht]
      obtain ⟨x, r3, e3, k3, p3⟩ := ((setErr?_total (if l ≠ 0 then some .invalidProperties else none)).bind
        fun _ => Total.pure s) r2
      exact ⟨x, r3, e3, (k1.trans k2).trans k3, by omega⟩
    · rw [if_neg ht]
      obtain ⟨s', r3, e3, k3, p3⟩ := layerProp_total c t l s r2
      rw [M.bind_ok e3]
      have := props_step e1 e2 ht
      have := left_le k3 p3
      obtain ⟨a, r4, e4, k4, p4⟩ := ih s' r3 (by omega)
      exact ⟨a, r4, e4, ((k1.trans k2).trans k3).trans k4, by omega⟩

theorem readLayerProperties_total (c : Ctx) : Total (readLayerProperties c) := fun r =>
  layerProps_total c _ _ r (left_le_length r)

theorem skipProperties_total : ∀ (f : Nat) (r : R), r.left < f →
    ∃ a r', skipProperties f r = .ok (a, r') ∧ Keep r r' ∧ r.pos ≤ r'.pos := by
  intro f
  induction f with
  | zero => intro r h; omega
  | succ f ih =>
    intro r h
    unfold skipProperties
    obtain ⟨t, r1, e1, k1, p1⟩ := readUint32_total r
    obtain ⟨l, r2, e2, k2, p2⟩ := readUint32_total r1
    rw [M.bind_ok e1, M.bind_ok e2]
    by_cases ht : t = 0
    · rw [if_pos ht]
      obtain ⟨x, r3, e3, k3, p3⟩ := (setErr?_total (if l ≠ 0 then some .invalidProperties else none)) r2
      exact ⟨x, r3, e3, (k1.trans k2).trans k3, by omega⟩
    · rw [if_neg ht]
      have hs := props_step e1 e2 ht
      by_cases h6 : t = 6
      · rw [if_pos h6]
        obtain ⟨o, r3, e3, k3, p3⟩ := readUint32_total r2
        rw [M.bind_ok e3]
        obtain ⟨x, r4, e4, k4, p4⟩ := (setErr?_total (if o > 255 then some .invalidOpacity else none)) r3
        rw [M.bind_ok e4]
        have := left_le (k3.trans k4) (Nat.le_trans p3 p4)
        obtain ⟨a, r5, e5, k5, p5⟩ := ih r4 (by omega)
        exact ⟨a, r5, e5, (((k1.trans k2).trans k3).trans k4).trans k5, by omega⟩
      · rw [if_neg h6]
        obtain ⟨_, r3, e3, k3, p3⟩ := skip_total l r2
        rw [M.bind_ok e3]
        have := left_le k3 p3
        obtain ⟨a, r4, e4, k4, p4⟩ := ih r3 (by omega)
        exact ⟨a, r4, e4, ((k1.trans k2).trans k3).trans k4, by omega⟩

theorem skipPropertiesAll_total : Total skipPropertiesAll := fun r => skipProperties_total _ r (left_le_length r)

theorem readHeader_total : Total readHeader := by
  unfold readHeader
  refine (readInto_total _).bind fun h => getErr_total.bind fun e => ?_
  split
  · exact Total.pure _
  · refine Total.ite (Total.pure _) ?_
    split
    · exact Total.pure _
    · exact Total.ite (Total.pure _) (Total.pure _)

theorem readPrecision_total (b : Bool) : Total (readPrecision b) := by
  unfold readPrecision
  exact Total.ite readUint32_total (Total.pure _)

/-- What is in front of the layers is read without panic or endless loop. -/
theorem readHead_total : Total readHead := by
  unfold readHead
  refine readHeader_total.bind fun x => ?_
  split
  · exact Total.pure _
  · refine readUint32_total.bind fun _ => readUint32_total.bind fun _ => readUint32_total.bind fun _ =>
      (readPrecision_total _).bind fun _ => (readImageProperties_total _).bind fun x => ?_
    split
    · exact Total.pure _
    · refine (readLayerPointers_total _).bind fun _ => getErr_total.bind fun e => ?_
      split <;> exact Total.pure _

theorem decodeConfigM_total : Total decodeConfigM := by
  unfold decodeConfigM
  refine readHeader_total.bind fun x => ?_
  split
  · exact Total.pure _
  · refine readUint32_total.bind fun _ => readUint32_total.bind fun _ => readUint32_total.bind fun _ =>
      (readPrecision_total _).bind fun _ => Total.ite ?_ (Total.ite ?_ (Total.ite ?_ ?_))
    · exact getErr_total.bind fun _ => Total.pure _
    · exact getErr_total.bind fun _ => Total.pure _
    · refine (readImageProperties_total _).bind fun x => ?_
      split
      · exact Total.pure _
      · exact getErr_total.bind fun _ => Total.pure _
    · exact getErr_total.bind fun _ => Total.pure _

end Limage
