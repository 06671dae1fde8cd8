import Verif.Proofs.RleWrite
/-! The reader decodes encodings, and nothing else. -/
namespace Limage
open Spec

theorem getErr_apply (r : R) : getErr r = .ok (r.err, r) := rfl

/-- state after the opcode of an operation -/
def opState (s : Rle) : Op → Rle
  | .shortRun n v => ⟨true, v, UInt16.ofNat n⟩
  | .longRun n v => ⟨true, v, UInt16.ofNat n⟩
  | .shortLit bs => ⟨false, s.data, UInt16.ofNat bs.length⟩
  | .longLit bs => ⟨false, s.data, UInt16.ofNat bs.length⟩

/-- the part of the code in front of a literal -/
def opHead : Op → Bytes
  | .shortRun n v => (Op.shortRun n v).code
  | .longRun n v => (Op.longRun n v).code
  | .shortLit bs => [UInt8.ofNat (256 - bs.length)]
  | .longLit bs => [128, UInt8.ofNat (bs.length / 256), UInt8.ofNat bs.length]

/-- the literal -/
def opTail : Op → Bytes
  | .shortRun _ _ => []
  | .longRun _ _ => []
  | .shortLit bs => bs
  | .longLit bs => bs

theorem op_code (o : Op) : o.code = opHead o ++ opTail o := by
  cases o <;> simp [opHead, opTail, Op.code]

theorem be1 (x : UInt8) : be 1 x.toNat = [x] := by simp [be]

theorem be2 (n : Nat) (h : n < 65536) : be 2 (UInt16.ofNat n).toNat = [UInt8.ofNat (n / 256), UInt8.ofNat n] := by
  simp [be, Nat.mod_eq_of_lt h]

theorem u16_ofNat (n : Nat) (h : n < 65536) : (UInt16.ofNat n).toNat = n := by
  rw [UInt16.toNat_ofNat', Nat.mod_eq_of_lt (by omega)]
theorem u8_ofNat (n : Nat) (h : n < 256) : (UInt8.ofNat n).toNat = n := by
  rw [UInt8.toNat_ofNat', Nat.mod_eq_of_lt (by omega)]

/-- the bytes behind the first of the head -/
theorem rleHead_code (o : Op) (hv : o.valid) (s : Rle) : ∃ m h, opHead o = m :: h ∧
    Consumes (rleHead s m) h (opState s o) := by
  cases o with
  | shortRun n v =>
    obtain ⟨h1, h2⟩ := hv
    refine ⟨UInt8.ofNat (n - 1), [v], rfl, ?_⟩
    unfold rleHead
    have hm : (UInt8.ofNat (n - 1)).toNat = n - 1 := u8_ofNat _ (by omega)
    rw [if_pos (by rw [UInt8.lt_iff_toNat_lt, hm]; simp; omega)]
    refine Consumes.bind (readUint8_consumes v) ?_
    have e : (UInt8.ofNat (n - 1)).toUInt16 + 1 = UInt16.ofNat n := by
      apply UInt16.toNat_inj.1
      rw [UInt16.toNat_add, u16_ofNat n (by omega), UInt8.toNat_toUInt16, hm]
      simp; omega
    rw [e]
    exact Consumes.pure _
  | longRun n v =>
    have hv : n < 65536 := hv
    refine ⟨127, _, rfl, ?_⟩
    unfold rleHead
    rw [if_neg (by decide), if_pos rfl]
    have := Consumes.bind (f := fun c => do let d ← readUint8; return (⟨true, d, c⟩ : Rle))
      (readUint16_consumes (UInt16.ofNat n)) (Consumes.bind (f := fun d => pure (⟨true, d, UInt16.ofNat n⟩ : Rle))
        (readUint8_consumes v) (Consumes.pure _))
    rw [be2 n hv] at this
    exact this
  | shortLit bs =>
    obtain ⟨h1, h2⟩ := hv
    refine ⟨_, [], rfl, ?_⟩
    have hm : (UInt8.ofNat (256 - bs.length)).toNat = 256 - bs.length := u8_ofNat _ (by omega)
    unfold rleHead
    rw [if_neg (by rw [UInt8.lt_iff_toNat_lt, hm]; simp; omega),
      if_neg (by intro h; have := congrArg UInt8.toNat h; rw [hm] at this; simp at this; omega),
      if_neg (by intro h; have := congrArg UInt8.toNat h; rw [hm] at this; simp at this; omega)]
    have e : (256 : UInt16) - (UInt8.ofNat (256 - bs.length)).toUInt16 = UInt16.ofNat bs.length := by
      apply UInt16.toNat_inj.1
      rw [UInt16.toNat_sub_of_le _ _ (by rw [UInt16.le_iff_toNat_le, UInt8.toNat_toUInt16, hm]; simp),
        u16_ofNat _ (by omega), UInt8.toNat_toUInt16, hm]
      simp; omega
    rw [e]
    exact Consumes.pure _
  | longLit bs =>
    have hv : bs.length < 65536 := hv
    refine ⟨128, _, rfl, ?_⟩
    unfold rleHead
    rw [if_neg (by decide), if_neg (by decide), if_pos rfl]
    have := Consumes.bind (f := fun c => pure (⟨false, s.data, c⟩ : Rle))
      (readUint16_consumes (UInt16.ofNat bs.length)) (Consumes.pure _)
    rw [be2 _ hv] at this
    exact this

theorem rleOp_code (o : Op) (hv : o.valid) (s : Rle) :
    Consumes (rleOp s) (opHead o) (opState s o, none) := by
  obtain ⟨m, h, e, hc⟩ := rleHead_code o hv s
  rw [e, show m :: h = [m] ++ h from rfl]
  unfold rleOp
  refine Consumes.bind (readUint8_consumes m) (Consumes.bind_nil (x := none) (fun r hr => getErr_sees hr) ?_)
  rw [show h = h ++ [] by simp]
  refine Consumes.bind hc (Consumes.bind_nil (x := none) (fun r hr => getErr_sees hr) (Consumes.pure _))

theorem opState_count (s : Rle) (o : Op) (hv : o.valid) : (opState s o).count.toNat = o.plain.length := by
  cases o with
  | shortRun n v => simp only [opState, Op.plain, List.length_replicate]; exact u16_ofNat _ (by have := hv.2; omega)
  | longRun n v => simp only [opState, Op.plain, List.length_replicate]; exact u16_ofNat _ hv
  | shortLit bs => simp only [opState, Op.plain]; exact u16_ofNat _ (by have := hv.2; omega)
  | longLit bs => simp only [opState, Op.plain]; exact u16_ofNat _ hv

/-- copying the output of one operation into a buffer with room for it -/
theorem rleCopy_code (o : Op) (s : Rle) (p : Bytes) (r : R) (hp : o.plain.length ≤ p.length)
    (h : Sees r (opTail o)) (hlt : r.pos < r.limit ∨ (opState s o).repeatByte = true) :
    rleCopy (opState s o) o.plain.length p r = .ok (o.plain, r.adv (opTail o).length) := by
  have lit : ∀ bs : Bytes, bs.length ≤ p.length → Sees r bs → r.pos < r.limit →
      readInto (p.take bs.length) r = .ok (bs, r.adv bs.length) := by
    intro bs hb hs hl
    exact readInto_consumes _ _ (by rw [List.length_take]; omega) r hs hl
  cases o with
  | shortRun n v => simp [rleCopy, opState, Op.plain, M.pure_apply, opTail, R.adv_zero]
  | longRun n v => simp [rleCopy, opState, Op.plain, M.pure_apply, opTail, R.adv_zero]
  | shortLit bs => exact lit bs hp h (by simpa [opState] using hlt)
  | longLit bs => exact lit bs hp h (by simpa [opState] using hlt)

theorem rleRead_nil (fuel : Nat) (s : Rle) (r : R) (he : r.err = none) :
    rleRead (fuel + 1) s [] r = .ok (([], s, if s.count = 0 then none else some .invalidRLE), r) := by
  unfold rleRead
  rw [M.bind_ok (getErr_apply r), he]
  by_cases h : s.count = 0
  · simp [h, M.pure_apply]
  · simp [h, M.pure_apply]

theorem rleRead_err (fuel : Nat) (s : Rle) (p : Bytes) (r : R) (he : r.err.isSome) :
    rleRead (fuel + 1) s p r = .ok ((p, s, r.err), r) := by
  unfold rleRead
  rw [M.bind_ok (getErr_apply r)]
  obtain ⟨e, he⟩ := Option.isSome_iff_exists.1 he
  simp [he, M.pure_apply]

/-- one iteration on an empty state -/
theorem rleRead_step (fuel : Nat) (s s1 s2 : Rle) (p : Bytes) (r r1 r2 r3 : R) (w rest : Bytes) (e : Option Err)
    (he : r.err = none) (hp : p ≠ []) (hc : s.count = 0) (h1 : rleOp s r = .ok ((s1, none), r1))
    (h2 : rleCopy s1 (min s1.count.toNat p.length) p r1 = .ok (w, r2))
    (h3 : rleRead fuel { s1 with count := s1.count - UInt16.ofNat (min s1.count.toNat p.length) }
      (p.drop (min s1.count.toNat p.length)) r2 = .ok ((rest, s2, e), r3)) :
    rleRead (fuel + 1) s p r = .ok ((w ++ rest, s2, e), r3) := by
  conv => lhs; unfold rleRead
  rw [M.bind_ok (getErr_apply r), he, if_neg (by simp [hp]), if_pos hc, M.bind_ok h1]
  simp only
  rw [M.bind_ok h2, M.bind_ok h3]
  rfl

/-- one iteration with something pending -/
theorem rleRead_step' (fuel : Nat) (s s2 : Rle) (p : Bytes) (r r2 r3 : R) (w rest : Bytes) (e : Option Err)
    (he : r.err = none) (hp : p ≠ []) (hc : s.count ≠ 0)
    (h2 : rleCopy s (min s.count.toNat p.length) p r = .ok (w, r2))
    (h3 : rleRead fuel { s with count := s.count - UInt16.ofNat (min s.count.toNat p.length) }
      (p.drop (min s.count.toNat p.length)) r2 = .ok ((rest, s2, e), r3)) :
    rleRead (fuel + 1) s p r = .ok ((w ++ rest, s2, e), r3) := by
  conv => lhs; unfold rleRead
  rw [M.bind_ok (getErr_apply r), he, if_neg (by simp [hp]), if_neg hc, M.bind_ok (M.pure_apply _ r)]
  simp only
  rw [M.bind_ok h2, M.bind_ok h3]
  rfl

/-- one iteration with a failing opcode -/
theorem rleRead_fail (fuel : Nat) (s s1 : Rle) (p : Bytes) (r r1 : R) (e : Err)
    (he : r.err = none) (hp : p ≠ []) (hc : s.count = 0) (h1 : rleOp s r = .ok ((s1, some e), r1)) :
    rleRead (fuel + 1) s p r = .ok ((p, s1, some e), r1) := by
  conv => lhs; unfold rleRead
  rw [M.bind_ok (getErr_apply r), he, if_neg (by simp [hp]), if_pos hc, M.bind_ok h1]
  rfl

theorem op_code_pos (o : Op) : 1 ≤ o.code.length := by
  cases o <;> simp [Op.code]

/-- Reading operations that exactly fill the buffer.  Operations without output at the end need not
be consumed. -/
theorem rleRead_ops : ∀ (ops : List Op) (fuel : Nat) (s : Rle) (p : Bytes) (r : R),
    (∀ o ∈ ops, o.valid) → s.count = 0 → Sees r (ops.flatMap Op.code) →
    p.length = (ops.flatMap Op.plain).length → ops.length < fuel →
    ∃ s' k, rleRead fuel s p r = .ok ((ops.flatMap Op.plain, s', none), r.adv k) ∧ s'.count = 0 ∧
      k ≤ (ops.flatMap Op.code).length ∧
      ((∀ o ∈ ops, o.plain ≠ []) → k = (ops.flatMap Op.code).length) := by
  intro ops
  induction ops with
  | nil =>
    intro fuel s p r hv hc hs hp hf
    obtain ⟨fuel, rfl⟩ : ∃ f, fuel = f + 1 := ⟨fuel - 1, by simp at hf; omega⟩
    have : p = [] := by simpa using hp
    subst this
    refine ⟨s, 0, ?_, hc, by simp, by simp⟩
    rw [rleRead_nil _ _ _ hs.1, if_pos hc]; rfl
  | cons o ops ih =>
    intro fuel s p r hv hc hs hp hf
    obtain ⟨fuel, rfl⟩ : ∃ f, fuel = f + 1 := ⟨fuel - 1, by simp at hf; omega⟩
    by_cases hpe : p = []
    · subst hpe
      have hpl : (o :: ops).flatMap Op.plain = [] := by
        rw [← List.length_eq_zero_iff, ← hp]; rfl
      refine ⟨s, 0, ?_, hc, by simp, ?_⟩
      · rw [rleRead_nil _ _ _ hs.1, if_pos hc, hpl]; rfl
      · intro h
        have h1 := h o (by simp)
        rw [List.flatMap_cons, List.append_eq_nil_iff] at hpl
        exact absurd hpl.1 h1
    · rw [List.flatMap_cons, op_code, List.append_assoc] at hs
      rw [List.flatMap_cons, List.length_append] at hp
      have hvo := hv o (by simp)
      have h1 := rleOp_code o hvo s r hs.left
      have hs2 := hs.right
      have hcnt := opState_count s o hvo
      have hmin : min (opState s o).count.toNat p.length = o.plain.length := by rw [hcnt]; omega
      have hs3 := hs2.right
      rw [R.adv_adv] at hs3
      have hlt : (r.adv (opHead o).length).pos < (r.adv (opHead o).length).limit ∨
          (opState s o).repeatByte = true := by
        by_cases hrep : (opState s o).repeatByte = true
        · exact Or.inr hrep
        · refine Or.inl ?_
          have hl := hs2.2.2
          rw [List.length_append] at hl
          by_cases ht : opTail o = []
          · -- an empty literal, and more output to come
            have hpl : o.plain = [] := by
              cases o with
              | shortRun n v => simp [opState] at hrep
              | longRun n v => simp [opState] at hrep
              | shortLit bs => exact ht
              | longLit bs => exact ht
            cases ops with
            | nil =>
              rw [hpl] at hp
              simp only [List.flatMap_nil, List.length_nil] at hp
              exact absurd (List.length_eq_zero_iff.1 hp) hpe
            | cons o2 ops =>
              have := op_code_pos o2
              rw [List.flatMap_cons, List.length_append] at hl
              omega
          · have : 1 ≤ (opTail o).length := by
              rcases hh : opTail o with _ | ⟨a, b⟩
              · exact absurd hh ht
              · simp
            omega
      have h2 := rleCopy_code o s p _ (by omega) hs2.left hlt
      rw [R.adv_adv] at h2
      have hz : (opState s o).count - UInt16.ofNat (min (opState s o).count.toNat p.length) = 0 := by
        rw [hmin, ← hcnt]; simp
      obtain ⟨s', k, e, hs', hk, hk'⟩ := ih fuel { opState s o with
          count := (opState s o).count - UInt16.ofNat (min (opState s o).count.toNat p.length) } (p.drop o.plain.length) _
        (fun o ho => hv o (List.mem_cons_of_mem _ ho)) hz hs3 (by rw [List.length_drop]; omega)
        (by simp at hf; omega)
      refine ⟨s', (opHead o).length + (opTail o).length + k, ?_, hs', ?_, ?_⟩
      · rw [rleRead_step fuel s (opState s o) s' p r _ _ _ _ _ _ hs.1 hpe hc h1 (by rw [hmin]; exact h2)
          (by rw [hmin] at e ⊢; exact e), R.adv_adv, List.flatMap_cons]
      · rw [List.flatMap_cons, List.length_append, op_code, List.length_append]; omega
      · intro h
        have := hk' (fun o ho => h o (List.mem_cons_of_mem _ ho))
        rw [List.flatMap_cons, List.length_append, op_code, List.length_append]; omega

/-! ### every outcome -/

/-- a successful opcode, in terms of operations -/
def OpRead (s1 : Rle) (h : Bytes) : Prop :=
  if s1.repeatByte then ∃ o : Op, o.valid ∧ o.code = h ∧ o.plain = List.replicate s1.count.toNat s1.data
  else ∀ bs : Bytes, bs.length = s1.count.toNat → ∃ o : Op, o.valid ∧ o.code = h ++ bs ∧ o.plain = bs

theorem be2' (c : UInt16) : be 2 c.toNat = [UInt8.ofNat (c.toNat / 256), UInt8.ofNat c.toNat] := by
  simp [be]

theorem rleHead_cases (s : Rle) (m : UInt8) (r : R) (he : r.err = none) (hpos : r.pos ≤ r.limit) :
    (∃ s1 h, rleHead s m r = .ok (s1, r.adv h.length) ∧ Sees r h ∧ OpRead s1 (m :: h)) ∨
    (∃ s1 r1, rleHead s m r = .ok (s1, r1) ∧ r1.err.isSome ∧ Frame r r1) := by
  unfold rleHead
  by_cases h1 : m < 127
  · rw [if_pos h1]
    have hm : m.toNat < 127 := by rw [UInt8.lt_iff_toNat_lt] at h1; simpa using h1
    rcases readUint8_cases r he with ⟨d, hs, e⟩ | ⟨r', e, e1, e2⟩
    · refine Or.inl ⟨⟨true, d, m.toUInt16 + 1⟩, [d], ?_, hs, ?_⟩
      · rw [M.bind_ok e]; rfl
      · refine ⟨.shortRun (m.toNat + 1) d, ⟨by omega, by omega⟩, ?_, ?_⟩
        · simp [Op.code]
        · simp only [Op.plain]
          congr 1
          rw [UInt16.toNat_add, UInt8.toNat_toUInt16]; simp; omega
    · exact Or.inr ⟨_, r', by rw [M.bind_ok e]; rfl, e1, e2⟩
  · rw [if_neg h1]
    by_cases h2 : m = 127
    · rw [if_pos h2]
      rcases readUint16_cases r he with ⟨c, hs, e⟩ | ⟨r', e, e1, e2⟩
      · rcases readUint8_cases (r.adv 2) he with ⟨d, hs', e'⟩ | ⟨r', e', e1, e2⟩
        · refine Or.inl ⟨⟨true, d, c⟩, be 2 c.toNat ++ [d], ?_, hs.append (by rwa [be_length]), ?_⟩
          · rw [M.bind_ok e, M.bind_ok e', R.adv_adv, List.length_append, be_length]; rfl
          · refine ⟨.longRun c.toNat d, c.toNat_lt, ?_, rfl⟩
            rw [be2', h2]; rfl
        · exact Or.inr ⟨_, r', by rw [M.bind_ok e, M.bind_ok e']; rfl, e1, (Frame.adv r 2).trans e2⟩
      · exact Or.inr ⟨_, r', by rw [M.bind_ok e, M.bind_ok (readUint8_err r' e1)]; rfl, e1, e2⟩
    · rw [if_neg h2]
      by_cases h3 : m = 128
      · rw [if_pos h3]
        rcases readUint16_cases r he with ⟨c, hs, e⟩ | ⟨r', e, e1, e2⟩
        · refine Or.inl ⟨⟨false, s.data, c⟩, be 2 c.toNat, ?_, hs, ?_⟩
          · rw [M.bind_ok e, be_length]; rfl
          · intro bs hb
            refine ⟨.longLit bs, by show bs.length < 65536; rw [hb]; exact c.toNat_lt, ?_, rfl⟩
            rw [be2', h3, ← hb]; rfl
        · exact Or.inr ⟨_, r', by rw [M.bind_ok e]; rfl, e1, e2⟩
      · rw [if_neg h3]
        have hlt := m.toNat_lt
        have hm : 128 < m.toNat := by
          have e1 : ¬ m.toNat < 127 := by rw [UInt8.lt_iff_toNat_lt] at h1; simpa using h1
          have e2 : m.toNat ≠ 127 := fun h => h2 (UInt8.toNat_inj.1 (by simpa using h))
          have e3 : m.toNat ≠ 128 := fun h => h3 (UInt8.toNat_inj.1 (by simpa using h))
          omega
        refine Or.inl ⟨⟨false, s.data, 256 - m.toUInt16⟩, [], rfl, sees_nil he hpos, ?_⟩
        intro bs hb
        have hc : ((256 : UInt16) - m.toUInt16).toNat = 256 - m.toNat := by
          rw [UInt16.toNat_sub_of_le _ _ (by rw [UInt16.le_iff_toNat_le, UInt8.toNat_toUInt16]; simp; omega),
            UInt8.toNat_toUInt16]
          simp
        rw [hc] at hb
        refine ⟨.shortLit bs, ⟨by omega, by omega⟩, ?_, rfl⟩
        have : 256 - bs.length = m.toNat := by omega
        simp [Op.code, this]

theorem rleOp_cases (s : Rle) (r : R) (he : r.err = none) :
    (∃ s1 h, rleOp s r = .ok ((s1, none), r.adv h.length) ∧ Sees r h ∧ h ≠ [] ∧ OpRead s1 h) ∨
    (∃ s1 e r1, rleOp s r = .ok ((s1, some e), r1) ∧ r1.err = some e ∧ Frame r r1) := by
  unfold rleOp
  rcases readUint8_cases r he with ⟨m, hs, e⟩ | ⟨r', e, e1, e2⟩
  · rcases rleHead_cases s m (r.adv 1) he hs.2.2 with ⟨s1, h, e', hs', ho⟩ | ⟨s1, r1, e', e1, e2⟩
    · refine Or.inl ⟨s1, m :: h, ?_, ?_, by simp, ho⟩
      · rw [M.bind_ok e, M.bind_ok (getErr_apply _), R.adv_err, he]
        simp only
        rw [M.bind_ok e', M.bind_ok (getErr_apply _), R.adv_err, R.adv_err, he, R.adv_adv, List.length_cons,
          Nat.add_comm]
        rfl
      · exact hs.append hs'
    · obtain ⟨x, hx⟩ := Option.isSome_iff_exists.1 e1
      refine Or.inr ⟨s1, _, { r1 with err := some (if x = .eof then .unexpectedEOF else x) }, ?_, rfl,
        ((Frame.adv r 1).trans e2).trans (Frame.err _ _)⟩
      rw [M.bind_ok e, M.bind_ok (getErr_apply _), R.adv_err, he]
      simp only
      rw [M.bind_ok e', M.bind_ok (getErr_apply _), hx]
      rfl
  · obtain ⟨x, hx⟩ := Option.isSome_iff_exists.1 e1
    refine Or.inr ⟨s, x, r', ?_, hx, e2⟩
    rw [M.bind_ok e, M.bind_ok (getErr_apply _), hx]
    rfl

theorem rleCopy_cases (s : Rle) (c : Nat) (p : Bytes) (r : R) (hc : c ≤ p.length) :
    ∃ w r', rleCopy s c p r = .ok (w, r') ∧ w.length = c ∧ Frame r r' ∧
      (s.repeatByte = true → w = List.replicate c s.data ∧ r' = r) ∧
      (s.repeatByte = false → r.err = none → r'.err = none → r.data.length < r.limit →
        Sees r w ∧ r' = r.adv c) := by
  unfold rleCopy
  by_cases h : s.repeatByte = true
  · rw [if_pos h]
    refine ⟨_, r, rfl, by simp, Frame.refl r, fun _ => ⟨rfl, rfl⟩, fun h' => by rw [h] at h'; cases h'⟩
  · rw [if_neg h]
    obtain ⟨w, r', e, e1, e2, e3⟩ := readInto_cases (p.take c) r
    have hl : (p.take c).length = c := by rw [List.length_take]; omega
    refine ⟨w, r', e, by omega, e2, fun h' => absurd h' h, fun _ a b d => ?_⟩
    rw [← hl]
    exact e3 a b d

/-- Every run of the reader, with enough fuel. -/
theorem rleRead_cases : ∀ (fuel : Nat) (s : Rle) (p : Bytes) (r : R),
    p.length + (r.data.length - r.pos) < fuel →
    ∃ p' s' e r', rleRead fuel s p r = .ok ((p', s', e), r') ∧ p'.length = p.length ∧ Frame r r' ∧
      (e = none → r.err = none ∧ r'.err = none ∧ s'.count = 0) ∧
      (r.data.length < r.limit → e = none → s.count = 0 → r.pos ≤ r.limit →
        ∃ ops : List Op, (∀ o ∈ ops, o.valid) ∧ Sees r (ops.flatMap Op.code) ∧
          p' = ops.flatMap Op.plain ∧ r' = r.adv (ops.flatMap Op.code).length) := by
  intro fuel
  induction fuel with
  | zero => intro s p r h; omega
  | succ fuel ih =>
    intro s p r hf
    cases he : r.err with
    | some x =>
      refine ⟨p, s, some x, r, ?_, rfl, Frame.refl r, by simp, by simp⟩
      rw [rleRead_err _ _ _ _ (by rw [he]; rfl), he]
    | none =>
      by_cases hp : p = []
      · subst hp
        refine ⟨[], s, _, r, rleRead_nil _ _ _ he, rfl, Frame.refl r, ?_, ?_⟩
        · intro h
          refine ⟨rfl, he, ?_⟩
          by_cases hc : s.count = 0
          · exact hc
          · rw [if_neg hc] at h; cases h
        · intro _ _ _ hl
          exact ⟨[], by simp, sees_nil he hl, rfl, rfl⟩
      · have hpl : 1 ≤ p.length := by
          cases p with
          | nil => exact absurd rfl hp
          | cons a b => simp
        by_cases hc : s.count = 0
        · rcases rleOp_cases s r he with ⟨s1, h, e1, hs, hn, ho⟩ | ⟨s1, e, r1, e1, e2, e3⟩
          · have hle := hs.pos_le hn
            have hh : 1 ≤ h.length := by
              cases h with
              | nil => exact absurd rfl hn
              | cons a b => simp
            obtain ⟨w, r2, e2, hw, hfr, hrep, hlit⟩ :=
              rleCopy_cases s1 (min s1.count.toNat p.length) p (r.adv h.length) (Nat.min_le_right _ _)
            have hfr2 := hfr
            obtain ⟨f1, f2, f3⟩ := hfr2
            simp only [R.adv_data, R.adv_limit, R.adv_pos] at f1 f2 f3
            obtain ⟨p', s', e, r', e3, hl', hfr', hnone, hops⟩ :=
              ih { s1 with count := s1.count - UInt16.ofNat (min s1.count.toNat p.length) }
                (p.drop (min s1.count.toNat p.length)) r2 (by
                  rw [List.length_drop, f1]; omega)
            refine ⟨w ++ p', s', e, r', rleRead_step fuel s s1 s' p r _ _ _ _ _ _ he hp hc e1 e2 e3, ?_,
              ((Frame.adv r _).trans hfr).trans hfr', ?_, ?_⟩
            · rw [List.length_append, hl', hw, List.length_drop]; omega
            · intro h
              exact ⟨rfl, (hnone h).2⟩
            · intro hd hen _ hpos
              obtain ⟨hr2, _, _⟩ := hnone hen
              have hz : s1.count - UInt16.ofNat (min s1.count.toNat p.length) = 0 := by
                by_cases hcl : s1.count.toNat ≤ p.length
                · rw [Nat.min_eq_left hcl]; simp
                · -- otherwise the buffer is full and the count pending
                  exfalso
                  have hdn : p.drop (min s1.count.toNat p.length) = [] := by
                    rw [Nat.min_eq_right (by omega), List.drop_length]
                  have hfu : ∃ f, fuel = f + 1 := by
                    refine ⟨fuel - 1, ?_⟩
                    omega
                  obtain ⟨f, rfl⟩ := hfu
                  rw [hdn, rleRead_nil _ _ _ hr2] at e3
                  simp only [Outcome.ok.injEq, Prod.mk.injEq] at e3
                  have hzz := e3.1.2.2
                  rw [hen] at hzz
                  by_cases hz : s1.count - UInt16.ofNat (min s1.count.toNat p.length) = 0
                  · have := congrArg UInt16.toNat hz
                    rw [Nat.min_eq_right (by omega), UInt16.toNat_sub_of_le _ _ (by
                      rw [UInt16.le_iff_toNat_le, u16_ofNat _ (by have := s1.count.toNat_lt; omega)]; omega),
                      u16_ofNat _ (by have := s1.count.toNat_lt; omega)] at this
                    simp at this; omega
                  · rw [if_neg hz] at hzz; cases hzz
              have hcl : s1.count.toNat ≤ p.length := by
                by_cases hcl : s1.count.toNat ≤ p.length
                · exact hcl
                · exfalso
                  have := congrArg UInt16.toNat hz
                  rw [Nat.min_eq_right (by omega), UInt16.toNat_sub_of_le _ _ (by
                      rw [UInt16.le_iff_toNat_le, u16_ofNat _ (by have := s1.count.toNat_lt; omega)]; omega),
                      u16_ofNat _ (by have := s1.count.toNat_lt; omega)] at this
                  simp at this; omega
              rw [Nat.min_eq_left hcl] at hw hrep hlit
              have hfirst : ∃ o : Op, o.valid ∧ Sees r o.code ∧ w = o.plain ∧ r2 = r.adv o.code.length := by
                by_cases hb : s1.repeatByte = true
                · rw [OpRead, if_pos hb] at ho
                  obtain ⟨o, v, c1, c2⟩ := ho
                  obtain ⟨g1, g2⟩ := hrep hb
                  refine ⟨o, v, by rw [c1]; exact hs, by rw [g1, c2], by rw [g2, c1]⟩
                · have hb' : s1.repeatByte = false := by simpa using hb
                  rw [OpRead, if_neg hb] at ho
                  obtain ⟨o, v, c1, c2⟩ := ho w hw
                  obtain ⟨g1, g2⟩ := hlit hb' he hr2 hd
                  refine ⟨o, v, by rw [c1]; exact hs.append g1, c2.symm, ?_⟩
                  rw [g2, R.adv_adv, c1, List.length_append, hw]
              obtain ⟨o, v, c1, c2, c3⟩ := hfirst
              have hr2p : r2.pos ≤ r2.limit := by
                rw [c3]; exact c1.2.2
              obtain ⟨ops, v', d1, d2, d3⟩ := hops (by rw [f1, f2]; exact hd) hen hz hr2p
              refine ⟨o :: ops, ?_, ?_, ?_, ?_⟩
              · intro x hx
                rcases List.mem_cons.1 hx with rfl | hx
                · exact v
                · exact v' x hx
              · rw [List.flatMap_cons]
                rw [c3] at d1
                exact c1.append d1
              · rw [List.flatMap_cons, c2, d2]
              · rw [d3, c3, R.adv_adv, List.flatMap_cons, List.length_append]
          · refine ⟨p, s1, some e, r1, rleRead_fail fuel s s1 p r r1 e he hp hc e1, rfl, e3, by simp, by simp⟩
        · obtain ⟨w, r2, e2, hw, hfr, _, _⟩ :=
              rleCopy_cases s (min s.count.toNat p.length) p r (Nat.min_le_right _ _)
          obtain ⟨f1, f2, f3⟩ := hfr
          have hc1 : 1 ≤ s.count.toNat := by
            have : s.count.toNat ≠ 0 := fun h => hc (UInt16.toNat_inj.1 (by simpa using h))
            omega
          obtain ⟨p', s', e, r', e3, hl', hfr', hnone, _⟩ :=
            ih { s with count := s.count - UInt16.ofNat (min s.count.toNat p.length) }
              (p.drop (min s.count.toNat p.length)) r2 (by
                rw [List.length_drop, f1]; omega)
          refine ⟨w ++ p', s', e, r', rleRead_step' fuel s s' p r _ _ _ _ _ he hp hc e2 e3, ?_,
            Frame.trans ⟨f1, f2, f3⟩ hfr', ?_, ?_⟩
          · rw [List.length_append, hl', hw, List.length_drop]; omega
          · intro h
            exact ⟨rfl, (hnone h).2⟩
          · intro _ _ h; exact absurd h hc

end Limage
