import Verif.Model.Rle
/-! Lemmas about the reader: what happens when the expected bytes are there. -/
namespace Limage

/-- the reader moved forward -/
def R.adv (r : R) (n : Nat) : R := { r with pos := r.pos + n }

/-- no error, and the next bytes are `bs`, all before the limit -/
def Sees (r : R) (bs : Bytes) : Prop :=
  r.err = none ∧ (∃ t, r.data.drop r.pos = bs ++ t) ∧ r.pos + bs.length ≤ r.limit

theorem R.adv_zero (r : R) : r.adv 0 = r := rfl
theorem R.adv_adv (r : R) (a b : Nat) : (r.adv a).adv b = r.adv (a + b) := by
  simp [R.adv, Nat.add_assoc]
@[simp] theorem R.adv_err (r : R) (n : Nat) : (r.adv n).err = r.err := rfl
@[simp] theorem R.adv_data (r : R) (n : Nat) : (r.adv n).data = r.data := rfl
@[simp] theorem R.adv_limit (r : R) (n : Nat) : (r.adv n).limit = r.limit := rfl
@[simp] theorem R.adv_pos (r : R) (n : Nat) : (r.adv n).pos = r.pos + n := rfl

theorem Sees.left {r : R} {a b : Bytes} (h : Sees r (a ++ b)) : Sees r a := by
  obtain ⟨h1, ⟨t, h2⟩, h3⟩ := h
  refine ⟨h1, ⟨b ++ t, by rw [h2, List.append_assoc]⟩, ?_⟩
  rw [List.length_append] at h3; omega

theorem Sees.right {r : R} {a b : Bytes} (h : Sees r (a ++ b)) : Sees (r.adv a.length) b := by
  obtain ⟨h1, ⟨t, h2⟩, h3⟩ := h
  refine ⟨h1, ⟨t, ?_⟩, ?_⟩
  · show r.data.drop (r.pos + a.length) = _
    rw [← List.drop_drop, h2, List.append_assoc, List.drop_left]
  · rw [List.length_append] at h3
    simp only [R.adv_pos, R.adv_limit]; omega

/-- run on exactly these bytes, `m` consumes them and returns `v` -/
def Consumes {α : Type} (m : M α) (bs : Bytes) (v : α) : Prop :=
  ∀ r, Sees r bs → m r = .ok (v, r.adv bs.length)

theorem Consumes.pure {α : Type} (v : α) : Consumes (pure v : M α) [] v := fun _ _ => rfl

theorem M.bind_ok {α β : Type} {m : M α} {f : α → M β} {r r' : R} {a : α} (h : m r = .ok (a, r')) :
    (m >>= f) r = f a r' := by
  show M.bind m f r = _
  simp only [M.bind, h]

theorem Consumes.bind {α β : Type} {m : M α} {f : α → M β} {a b : Bytes} {x : α} {y : β}
    (h1 : Consumes m a x) (h2 : Consumes (f x) b y) : Consumes (m >>= f) (a ++ b) y := by
  intro r hr
  rw [M.bind_ok (h1 r hr.left), h2 _ hr.right, R.adv_adv, List.length_append]

/-- a step that consumes nothing -/
theorem Consumes.bind_nil {α β : Type} {m : M α} {f : α → M β} {b : Bytes} {x : α} {y : β}
    (h1 : ∀ r, Sees r b → m r = .ok (x, r)) (h2 : Consumes (f x) b y) : Consumes (m >>= f) b y := by
  intro r hr
  rw [M.bind_ok (h1 r hr), h2 _ hr]

theorem getErr_sees {r : R} {b : Bytes} (h : Sees r b) : getErr r = .ok (none, r) := by
  simp only [getErr, h.1]

theorem take_append_of_sees {r : R} {bs : Bytes} (h : Sees r bs) :
    (r.data.drop r.pos).take (min bs.length (r.limit - r.pos)) = bs := by
  obtain ⟨h1, ⟨t, h2⟩, h3⟩ := h
  rw [h2, Nat.min_eq_left (by omega), List.take_left]

theorem readFull_consumes (bs : Bytes) : Consumes (readFull bs.length) bs bs := by
  intro r hr
  simp only [readFull, hr.1]
  rw [take_append_of_sees hr, if_pos rfl]
  simp only [R.adv, hr.1]

/-! ### big-endian numbers -/

theorem be_length (k x : Nat) : (be k x).length = k := by
  induction k with
  | zero => rfl
  | succ k ih => simp [be, ih]

theorem fromBE_foldl (b : Bytes) (a : Nat) :
    b.foldl (fun a x => a * 256 + x.toNat) a = a * 256 ^ b.length + fromBE b := by
  induction b generalizing a with
  | nil => simp [fromBE]
  | cons x b ih =>
    simp only [List.foldl_cons, List.length_cons, fromBE]
    rw [ih, ih (0 * 256 + x.toNat), Nat.pow_succ]
    rw [Nat.add_mul, Nat.zero_mul, Nat.zero_add, Nat.mul_comm (256 ^ b.length) 256, ← Nat.mul_assoc]
    omega

theorem fromBE_cons (x : UInt8) (b : Bytes) : fromBE (x :: b) = x.toNat * 256 ^ b.length + fromBE b := by
  rw [fromBE, List.foldl_cons, fromBE_foldl]; simp

theorem fromBE_be (k x : Nat) : fromBE (be k x) = x % 256 ^ k := by
  induction k with
  | zero => simp [be, fromBE, Nat.mod_one]
  | succ k ih =>
    rw [be, fromBE_cons, be_length, ih, UInt8.toNat_ofNat']
    have hp : 256 ^ (k + 1) = 256 ^ k * 256 := Nat.pow_succ ..
    rw [hp]
    have e : x % (256 ^ k * 256) = x % 256 ^ k + 256 ^ k * (x / 256 ^ k % 256) := Nat.mod_mul
    rw [e, Nat.mul_comm (256 ^ k) (x / 256 ^ k % 256)]
    show x / 256 ^ k % 256 * 256 ^ k + x % 256 ^ k = _
    omega

theorem fromBE_lt (b : Bytes) : fromBE b < 256 ^ b.length := by
  induction b with
  | nil => simp [fromBE]
  | cons x b ih =>
    rw [fromBE_cons, List.length_cons, Nat.pow_succ]
    have := x.toNat_lt
    have h2 : x.toNat * 256 ^ b.length ≤ 255 * 256 ^ b.length := Nat.mul_le_mul_right _ (by omega)
    omega

theorem be_fromBE (b : Bytes) : be b.length (fromBE b) = b := by
  induction b with
  | nil => rfl
  | cons x b ih =>
    have hl := fromBE_lt b
    have e : be b.length (x.toNat * 256 ^ b.length + fromBE b) = be b.length (fromBE b) := by
      have : ∀ k m y, k ≤ m → be k (y * 256 ^ m + fromBE b) = be k (fromBE b) := by
        intro k
        induction k with
        | zero => intros; rfl
        | succ k ihk =>
          intro m y hk
          rw [be, be, ihk m y (by omega)]
          congr 1
          apply UInt8.toNat_inj.1
          rw [UInt8.toNat_ofNat', UInt8.toNat_ofNat']
          obtain ⟨j, rfl⟩ : ∃ j, m = k + 1 + j := ⟨m - (k + 1), by omega⟩
          have h0 : 0 < 256 ^ k := Nat.pow_pos (by omega)
          rw [show y * 256 ^ (k + 1 + j) = 256 ^ k * (256 * (y * 256 ^ j)) by
            rw [Nat.pow_add, Nat.pow_succ]
            simp only [Nat.mul_comm, Nat.mul_assoc, Nat.mul_left_comm]]
          rw [Nat.mul_add_div h0]
          omega
      exact this _ _ _ (Nat.le_refl _)
    rw [List.length_cons, be, fromBE_cons, e, ih]
    congr 1
    apply UInt8.toNat_inj.1
    rw [UInt8.toNat_ofNat']
    have h0 : 0 < 256 ^ b.length := Nat.pow_pos (by omega)
    rw [Nat.mul_comm, Nat.mul_add_div h0, Nat.div_eq_of_lt hl]
    have := x.toNat_lt
    omega

theorem readUint8_consumes (x : UInt8) : Consumes readUint8 [x] x := by
  have h := readFull_consumes [x]
  have h2 := Consumes.bind (f := fun b => (pure (UInt8.ofNat (fromBE b)) : M UInt8)) h (Consumes.pure _)
  have e : UInt8.ofNat (fromBE [x]) = x := by simp [fromBE]
  rw [e] at h2
  exact h2

theorem readUint16_consumes (x : UInt16) : Consumes readUint16 (be 2 x.toNat) x := by
  have h := readFull_consumes (be 2 x.toNat)
  have h2 := Consumes.bind (f := fun b => (pure (UInt16.ofNat (fromBE b)) : M UInt16)) h (Consumes.pure _)
  have e : UInt16.ofNat (fromBE (be 2 x.toNat)) = x := by
    rw [fromBE_be, Nat.mod_eq_of_lt (by have := x.toNat_lt; omega)]; simp
  rw [e, List.append_nil, be_length] at h2
  exact h2

theorem readUint32_consumes (x : UInt32) : Consumes readUint32 (be 4 x.toNat) x := by
  have h := readFull_consumes (be 4 x.toNat)
  have h2 := Consumes.bind (f := fun b => (pure (UInt32.ofNat (fromBE b)) : M UInt32)) h (Consumes.pure _)
  have e : UInt32.ofNat (fromBE (be 4 x.toNat)) = x := by
    rw [fromBE_be, Nat.mod_eq_of_lt (by have := x.toNat_lt; omega)]; simp
  rw [e, List.append_nil, be_length] at h2
  exact h2

theorem readUint64_consumes (x : UInt64) : Consumes readUint64 (be 8 x.toNat) x := by
  have h := readFull_consumes (be 8 x.toNat)
  have h2 := Consumes.bind (f := fun b => (pure (UInt64.ofNat (fromBE b)) : M UInt64)) h (Consumes.pure _)
  have e : UInt64.ofNat (fromBE (be 8 x.toNat)) = x := by
    rw [fromBE_be, Nat.mod_eq_of_lt (by have := x.toNat_lt; omega)]; simp
  rw [e, List.append_nil, be_length] at h2
  exact h2

/-- reading into a buffer of the right size -/
theorem readInto_consumes (p bs : Bytes) (hl : p.length = bs.length) (r : R) (h : Sees r bs)
    (hlt : r.pos < r.limit) : readInto p r = .ok (bs, r.adv bs.length) := by
  have e := take_append_of_sees h
  rw [← hl] at e
  have hle : ¬ r.limit ≤ r.pos := by omega
  simp only [readInto, h.1, if_neg hle, e]
  have h3 := h.2.2
  rw [← hl, List.drop_length, List.append_nil, if_neg (by omega)]
  simp [R.adv, h.1]

end Limage

namespace Limage

/-! ### every outcome of a read -/

/-- the source is the same, the position did not go back -/
def Frame (r r' : R) : Prop := r'.data = r.data ∧ r'.limit = r.limit ∧ r.pos ≤ r'.pos

theorem Frame.refl (r : R) : Frame r r := ⟨rfl, rfl, Nat.le_refl _⟩
theorem Frame.trans {a b c : R} (h1 : Frame a b) (h2 : Frame b c) : Frame a c :=
  ⟨h2.1.trans h1.1, h2.2.1.trans h1.2.1, Nat.le_trans h1.2.2 h2.2.2⟩
theorem Frame.adv (r : R) (n : Nat) : Frame r (r.adv n) := ⟨rfl, rfl, Nat.le_add_right _ _⟩
theorem Frame.err (r : R) (e : Option Err) : Frame r { r with err := e } := ⟨rfl, rfl, Nat.le_refl _⟩

theorem Sees.pos_le {r : R} {bs : Bytes} (h : Sees r bs) (hn : bs ≠ []) :
    r.pos + bs.length ≤ r.data.length := by
  obtain ⟨_, ⟨t, h2⟩, _⟩ := h
  have := congrArg List.length h2
  rw [List.length_drop, List.length_append] at this
  have : 1 ≤ bs.length := by
    cases bs with
    | nil => exact absurd rfl hn
    | cons a b => simp
  omega

theorem sees_nil {r : R} (he : r.err = none) (hl : r.pos ≤ r.limit) : Sees r [] :=
  ⟨he, ⟨_, rfl⟩, by simpa using hl⟩

theorem Sees.append {r : R} {a b : Bytes} (h1 : Sees r a) (h2 : Sees (r.adv a.length) b) :
    Sees r (a ++ b) := by
  obtain ⟨e, ⟨t, h⟩, hl⟩ := h1
  obtain ⟨_, ⟨t', h'⟩, hl'⟩ := h2
  refine ⟨e, ⟨t', ?_⟩, ?_⟩
  · have h' : r.data.drop (r.pos + a.length) = b ++ t' := h'
    rw [← List.drop_drop, h, List.drop_left] at h'
    rw [h, h', List.append_assoc]
  · simp only [R.adv_pos, R.adv_limit] at hl'
    rw [List.length_append]; omega

theorem readFull_cases (n : Nat) (r : R) (hn : 1 ≤ n) (he : r.err = none) :
    (∃ bs, bs.length = n ∧ Sees r bs ∧ readFull n r = .ok (bs, r.adv n)) ∨
    (∃ r', readFull n r = .ok ([], r') ∧ r'.err.isSome ∧ Frame r r') := by
  by_cases h : ((r.data.drop r.pos).take (min n (r.limit - r.pos))).length = n
  · refine Or.inl ⟨_, h, ⟨he, ⟨_, (List.take_append_drop _ _).symm⟩, ?_⟩, ?_⟩
    · rw [h]; rw [List.length_take, List.length_drop] at h; omega
    · simp only [readFull, he, if_pos h, R.adv]
  · have e := show readFull n r = _ by simp only [readFull, he, if_neg h]; rfl
    exact Or.inr ⟨_, e, rfl, rfl, rfl, Nat.le_add_right _ _⟩

theorem readFull_err (n : Nat) (r : R) (he : r.err.isSome) : readFull n r = .ok ([], r) := by
  obtain ⟨e, he⟩ := Option.isSome_iff_exists.1 he
  simp only [readFull, he]

theorem M.pure_apply {α : Type} (a : α) (r : R) : (pure a : M α) r = .ok (a, r) := rfl

theorem readUint8_cases (r : R) (he : r.err = none) :
    (∃ x, Sees r [x] ∧ readUint8 r = .ok (x, r.adv 1)) ∨
    (∃ r', readUint8 r = .ok (0, r') ∧ r'.err.isSome ∧ Frame r r') := by
  rcases readFull_cases 1 r (by omega) he with ⟨bs, hl, hs, e⟩ | ⟨r', e, h1, h2⟩
  · obtain ⟨x, rfl⟩ := List.length_eq_one_iff.1 hl
    exact Or.inl ⟨x, hs, readUint8_consumes x r hs⟩
  · exact Or.inr ⟨r', by unfold readUint8; rw [M.bind_ok e]; rfl, h1, h2⟩

theorem readUint8_err (r : R) (he : r.err.isSome) : readUint8 r = .ok (0, r) := by
  unfold readUint8; rw [M.bind_ok (readFull_err _ r he)]; rfl

theorem readUint16_cases (r : R) (he : r.err = none) :
    (∃ x : UInt16, Sees r (be 2 x.toNat) ∧ readUint16 r = .ok (x, r.adv 2)) ∨
    (∃ r', readUint16 r = .ok (0, r') ∧ r'.err.isSome ∧ Frame r r') := by
  rcases readFull_cases 2 r (by omega) he with ⟨bs, hl, hs, e⟩ | ⟨r', e, h1, h2⟩
  · have hb := be_fromBE bs
    have hlt := fromBE_lt bs
    rw [hl] at hb hlt
    have e2 : (UInt16.ofNat (fromBE bs)).toNat = fromBE bs := by
      rw [UInt16.toNat_ofNat', Nat.mod_eq_of_lt (by omega)]
    have hs2 : Sees r (be 2 (UInt16.ofNat (fromBE bs)).toNat) := by rw [e2, hb]; exact hs
    refine Or.inl ⟨_, hs2, ?_⟩
    have := readUint16_consumes _ r hs2
    rwa [be_length] at this
  · exact Or.inr ⟨r', by unfold readUint16; rw [M.bind_ok e]; rfl, h1, h2⟩

theorem readUint16_err (r : R) (he : r.err.isSome) : readUint16 r = .ok (0, r) := by
  unfold readUint16; rw [M.bind_ok (readFull_err _ r he)]; rfl

theorem readUint32_cases (r : R) (he : r.err = none) :
    (∃ x : UInt32, Sees r (be 4 x.toNat) ∧ readUint32 r = .ok (x, r.adv 4)) ∨
    (∃ r', readUint32 r = .ok (0, r') ∧ r'.err.isSome ∧ Frame r r') := by
  rcases readFull_cases 4 r (by omega) he with ⟨bs, hl, hs, e⟩ | ⟨r', e, h1, h2⟩
  · have hb := be_fromBE bs
    have hlt := fromBE_lt bs
    rw [hl] at hb hlt
    have e2 : (UInt32.ofNat (fromBE bs)).toNat = fromBE bs := by
      rw [UInt32.toNat_ofNat', Nat.mod_eq_of_lt (by omega)]
    have hs2 : Sees r (be 4 (UInt32.ofNat (fromBE bs)).toNat) := by rw [e2, hb]; exact hs
    refine Or.inl ⟨_, hs2, ?_⟩
    have := readUint32_consumes _ r hs2
    rwa [be_length] at this
  · exact Or.inr ⟨r', by unfold readUint32; rw [M.bind_ok e]; rfl, h1, h2⟩

theorem readUint32_err (r : R) (he : r.err.isSome) : readUint32 r = .ok (0, r) := by
  unfold readUint32; rw [M.bind_ok (readFull_err _ r he)]; rfl

/-- One `Read` call: the buffer keeps its length; with no error before and after, and data ending
before the limit, it was filled. -/
theorem readInto_cases (p : Bytes) (r : R) : ∃ p' r', readInto p r = .ok (p', r') ∧
    p'.length = p.length ∧ Frame r r' ∧
    (r.err = none → r'.err = none → r.data.length < r.limit → Sees r p' ∧ r' = r.adv p.length) := by
  cases he : r.err with
  | some e => exact ⟨p, r, by simp only [readInto, he], rfl, Frame.refl r, by simp⟩
  | none =>
    by_cases hle : r.limit ≤ r.pos
    · have e := show readInto p r = _ by simp only [readInto, he, if_pos hle]; rfl
      refine ⟨p, _, e, rfl, ⟨rfl, rfl, Nat.le_refl _⟩, ?_⟩
      intro _ h; simp at h
    · have e := show readInto p r = _ by simp only [readInto, he, if_neg hle]; rfl
      refine ⟨_, _, e, ?_, ⟨rfl, rfl, Nat.le_add_right _ _⟩, ?_⟩
      · rw [List.length_append, List.length_drop, List.length_take, List.length_drop]; omega
      · intro _ h hlt
        simp only [ite_eq_right_iff, reduceCtorEq, imp_false, Nat.not_lt] at h
        have hl : ((r.data.drop r.pos).take (min p.length (r.limit - r.pos))).length = p.length := by
          rw [List.length_take, List.length_drop] at h ⊢
          omega
        rw [hl, List.drop_length, List.append_nil]
        refine ⟨⟨he, ⟨_, (List.take_append_drop _ _).symm⟩, ?_⟩, ?_⟩
        · rw [hl]; rw [List.length_take] at hl; omega
        · rw [if_neg]
          · simp only [R.adv, he]
          · rw [List.length_take] at hl; omega

end Limage
