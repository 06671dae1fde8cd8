import Verif.Props.Rle
import Verif.Model.XcfImage
/-! Copying a channel, and reading the copy. -/
namespace Limage
open Spec

/-- the last operation produces something -/
def LastReal (ops : List Op) : Prop := ∃ os o, ops = os ++ [o] ∧ o.plain ≠ []

theorem LastReal.plain_pos {ops : List Op} (h : LastReal ops) : 1 ≤ (ops.flatMap Op.plain).length := by
  obtain ⟨os, o, rfl, hne⟩ := h
  rw [List.flatMap_append, List.length_append, List.flatMap_singleton]
  have : 1 ≤ o.plain.length := List.length_pos_iff.2 hne
  omega

theorem LastReal.tail {o : Op} {ops : List Op} (h : LastReal (o :: ops)) : ops = [] ∨ LastReal ops := by
  obtain ⟨os, o', e, hne⟩ := h
  cases os with
  | nil => simp at e; exact Or.inl e.2
  | cons a os =>
    simp at e
    exact Or.inr ⟨os, o', e.2, hne⟩

theorem LastReal.append {a b : List Op} (h : LastReal b) : LastReal (a ++ b) := by
  obtain ⟨os, o, rfl, hne⟩ := h
  exact ⟨a ++ os, o, by simp, hne⟩

/-- Reading operations in front of something else. -/
theorem rleRead_ops_then : ∀ (ops : List Op) (fuel : Nat) (s : Rle) (p : Bytes) (r : R),
    (∀ o ∈ ops, o.valid) → (ops = [] ∨ LastReal ops) → s.count = 0 → Sees r (ops.flatMap Op.code) →
    (ops.flatMap Op.plain).length ≤ p.length →
    ∃ s', s'.count = 0 ∧ ∀ q s'' e r',
      rleRead fuel s' (p.drop (ops.flatMap Op.plain).length) (r.adv (ops.flatMap Op.code).length) =
        .ok ((q, s'', e), r') →
      rleRead (fuel + ops.length) s p r = .ok ((ops.flatMap Op.plain ++ q, s'', e), r') := by
  intro ops
  induction ops with
  | nil =>
    intro fuel s p r hv _ hc hs hp
    refine ⟨s, hc, fun q s'' e r' h => ?_⟩
    exact h
  | cons o ops ih =>
    intro fuel s p r hv hl hc hs hp
    have hl : LastReal (o :: ops) := by rcases hl with h | h; · exact absurd h (by simp)
                                        · exact h
    have hpos := hl.plain_pos
    have hpe : p ≠ [] := by rintro rfl; rw [List.length_nil] at hp; omega
    rw [List.flatMap_cons, op_code, List.append_assoc] at hs
    rw [List.flatMap_cons, List.length_append] at hp
    have hvo := hv o (by simp)
    have h1 := rleOp_code o hvo s r hs.left
    have hs2 := hs.right
    have hcnt := opState_count s o hvo
    have hmin : min (opState s o).count.toNat p.length = o.plain.length := by rw [hcnt]; omega
    have hs3 := hs2.right
    rw [R.adv_adv] at hs3
    have hlt : (r.adv (opHead o).length).pos < (r.adv (opHead o).length).limit ∨
        (opState s o).repeatByte = true := by
      by_cases hrep : (opState s o).repeatByte = true
      · exact Or.inr hrep
      · refine Or.inl ?_
        have hb := hs2.2.2
        rw [List.length_append] at hb
        by_cases ht : opTail o = []
        · have hpl : o.plain = [] := by
            cases o with
            | shortRun n v => simp [opState] at hrep
            | longRun n v => simp [opState] at hrep
            | shortLit bs => exact ht
            | longLit bs => exact ht
          rcases hl.tail with rfl | hl'
          · rw [List.flatMap_cons, hpl] at hpos; simp at hpos
          · obtain ⟨os, o', rfl, _⟩ := hl'
            have := op_code_pos o'
            rw [List.flatMap_append, List.length_append, List.flatMap_singleton] at hb
            omega
        · have : 1 ≤ (opTail o).length := List.length_pos_iff.2 ht
          omega
    have h2 := rleCopy_code o s p _ (by omega) hs2.left hlt
    rw [R.adv_adv] at h2
    have hz : (opState s o).count - UInt16.ofNat (min (opState s o).count.toNat p.length) = 0 := by
      rw [hmin, ← hcnt]; simp
    obtain ⟨s', hs', hk⟩ := ih fuel { opState s o with
        count := (opState s o).count - UInt16.ofNat (min (opState s o).count.toNat p.length) } (p.drop o.plain.length) _
      (fun o ho => hv o (List.mem_cons_of_mem _ ho)) hl.tail hz hs3 (by rw [List.length_drop]; omega)
    refine ⟨s', hs', fun q s'' e r' h => ?_⟩
    rw [List.flatMap_cons, List.length_append, List.flatMap_cons, List.length_append, op_code,
      List.length_append] at h
    have h3 := hk q s'' e r' (by rw [List.drop_drop, R.adv_adv]; exact h)
    rw [List.length_cons, ← Nat.add_assoc]
    rw [rleRead_step (fuel + ops.length) s (opState s o) s'' p r _ _ _ _ _ _ hs.1 hpe hc h1 (by rw [hmin]; exact h2)
          (by rw [hmin] at h3 ⊢; exact h3), List.flatMap_cons, List.append_assoc]

/-! ### readRLE -/

theorem copyN_cases (n : Nat) (r : R) (he : r.err = none) (hl : r.pos ≤ r.limit) :
    (∃ bs, bs.length = n ∧ Sees r bs ∧ copyN n r = .ok (bs, r.adv n)) ∨
    (∃ bs r', copyN n r = .ok (bs, r') ∧ r'.err.isSome ∧ Frame r r') := by
  by_cases h : ((r.data.drop r.pos).take (min n (r.limit - r.pos))).length < n
  · have e := show copyN n r = _ by simp only [copyN, he, if_pos h]; rfl
    exact Or.inr ⟨_, _, e, rfl, rfl, rfl, Nat.le_add_right _ _⟩
  · have hlen : ((r.data.drop r.pos).take (min n (r.limit - r.pos))).length = n := by
      have := List.length_take_le (min n (r.limit - r.pos)) (r.data.drop r.pos)
      omega
    refine Or.inl ⟨_, hlen, ⟨he, ⟨_, (List.take_append_drop _ _).symm⟩, ?_⟩, ?_⟩
    · rw [hlen]; rw [List.length_take, List.length_drop] at hlen; omega
    · simp only [copyN, he, hlen, R.adv, Nat.lt_irrefl, if_false]

theorem copyN_err (n : Nat) (r : R) (he : r.err.isSome) : copyN n r = .ok ([], r) := by
  obtain ⟨e, he⟩ := Option.isSome_iff_exists.1 he
  simp only [copyN, he]

/-- an operation starting with the byte `c`, or an error -/
theorem copyOp_cases (c : UInt8) (r : R) (he : r.err = none) (hl : r.pos ≤ r.limit) :
    (∃ o : Op, ∃ out n, o.valid ∧ o.code = c :: out ∧ o.plain.length = n ∧ Sees r out ∧
      copyOp c r = .ok ((out, n), r.adv out.length)) ∨
    (∃ x r', copyOp c r = .ok (x, r') ∧ r'.err.isSome ∧ Frame r r') := by
  unfold copyOp
  by_cases h1 : c < 127
  · rw [if_pos h1]
    have hm : c.toNat < 127 := by rw [UInt8.lt_iff_toNat_lt] at h1; simpa using h1
    rcases readUint8_cases r he with ⟨d, hs, e⟩ | ⟨r', e, e1, e2⟩
    · refine Or.inl ⟨.shortRun (c.toNat + 1) d, [d], c.toNat + 1, ⟨by omega, by omega⟩, ?_, by simp [Op.plain], hs, ?_⟩
      · simp [Op.code]
      · rw [M.bind_ok e]; rfl
    · exact Or.inr ⟨_, r', by rw [M.bind_ok e]; rfl, e1, e2⟩
  rw [if_neg h1]
  by_cases h2 : c = 127
  · subst h2
    rw [if_pos rfl]
    rcases readUint16_cases r he with ⟨p, hs, e⟩ | ⟨r', e, e1, e2⟩
    · rcases readUint8_cases (r.adv 2) he with ⟨d, hs2, e'⟩ | ⟨r', e', e1, e2⟩
      · refine Or.inl ⟨.longRun p.toNat d, be 2 p.toNat ++ [d], p.toNat, p.toNat_lt, ?_, by simp [Op.plain],
          hs.append (by rw [be_length]; exact hs2), ?_⟩
        · rw [be2']; rfl
        · rw [M.bind_ok e, M.bind_ok e', M.pure_apply, R.adv_adv, List.length_append, be_length]; rfl
      · exact Or.inr ⟨_, r', by rw [M.bind_ok e, M.bind_ok e']; rfl, e1, (Frame.adv r 2).trans e2⟩
    · refine Or.inr ⟨_, r', by rw [M.bind_ok e, M.bind_ok (readUint8_err r' e1)]; rfl, e1, e2⟩
  rw [if_neg h2]
  by_cases h3 : c = 128
  · subst h3
    rw [if_pos rfl]
    rcases readUint16_cases r he with ⟨p, hs, e⟩ | ⟨r', e, e1, e2⟩
    · have hp2 : (r.adv 2).pos ≤ (r.adv 2).limit := by
        have := hs.2.2; rw [be_length] at this; exact this
      rcases copyN_cases p.toNat (r.adv 2) he hp2 with ⟨d, hd, hs2, e'⟩ | ⟨d, r', e', e1, e2⟩
      · refine Or.inl ⟨.longLit d, be 2 p.toNat ++ d, p.toNat, ?_, ?_, hd,
          hs.append (by rw [be_length]; exact hs2), ?_⟩
        · show d.length < 65536; rw [hd]; exact p.toNat_lt
        · rw [be2', ← hd]; rfl
        · rw [M.bind_ok e, M.bind_ok e', M.pure_apply, R.adv_adv, List.length_append, be_length, hd]
      · exact Or.inr ⟨_, r', by rw [M.bind_ok e, M.bind_ok e']; rfl, e1, (Frame.adv r 2).trans e2⟩
    · refine Or.inr ⟨_, r', by rw [M.bind_ok e, M.bind_ok (copyN_err _ r' e1)]; rfl, e1, e2⟩
  · rw [if_neg h3]
    have hc : 128 < c.toNat := by
      have a : ¬ c.toNat < 127 := by rw [UInt8.lt_iff_toNat_lt] at h1; simpa using h1
      have b : c.toNat ≠ 127 := fun h => h2 (UInt8.toNat_inj.1 (by simpa using h))
      have d : c.toNat ≠ 128 := fun h => h3 (UInt8.toNat_inj.1 (by simpa using h))
      omega
    have hc' := c.toNat_lt
    rcases copyN_cases (256 - c.toNat) r he hl with ⟨d, hd, hs2, e'⟩ | ⟨d, r', e', e1, e2⟩
    · refine Or.inl ⟨.shortLit d, d, 256 - c.toNat, ⟨by omega, by omega⟩, ?_, hd, hs2, ?_⟩
      · simp only [Op.code, hd]
        congr 1
        apply UInt8.toNat_inj.1
        rw [UInt8.toNat_ofNat', Nat.mod_eq_of_lt (by omega)]; omega
      · rw [M.bind_ok e', M.pure_apply, hd]
    · exact Or.inr ⟨_, r', by rw [M.bind_ok e']; rfl, e1, e2⟩

/-- with an error recorded, a zero opcode -/
theorem copyOp_err (r : R) (he : r.err.isSome) : copyOp 0 r = .ok (([0], 1), r) := by
  unfold copyOp
  rw [if_pos (by decide), M.bind_ok (readUint8_err r he)]; rfl

theorem readRLE_step {fuel n : Nat} {count : Int} {r r1 r2 r3 : R} {c : UInt8} {out rest : Bytes}
    {e : Option Err} (hc : ¬ count ≤ 0) (h1 : readUint8 r = .ok (c, r1))
    (h2 : copyOp c r1 = .ok ((out, n), r2)) (h3 : readRLE fuel (count - n) r2 = .ok ((rest, e), r3)) :
    readRLE (fuel + 1) count r = .ok ((c :: out ++ rest, e), r3) := by
  conv => lhs; unfold readRLE
  rw [if_neg hc, M.bind_ok h1, M.bind_ok h2]
  dsimp only
  rw [M.bind_ok h3]
  rfl

theorem readRLE_err : ∀ (fuel : Nat) (count : Int) (r : R), r.err.isSome → count < fuel →
    ∃ x, readRLE (fuel + 1) count r = .ok (x, r) := by
  intro fuel
  induction fuel with
  | zero =>
    intro count r he hf
    unfold readRLE
    rw [if_pos (by omega)]
    exact ⟨_, rfl⟩
  | succ fuel ih =>
    intro count r he hf
    by_cases h : count ≤ 0
    · unfold readRLE; rw [if_pos h]; exact ⟨_, rfl⟩
    · obtain ⟨⟨a, b⟩, e⟩ := ih (count - ((1 : Nat) : Int)) r he (by omega)
      exact ⟨_, readRLE_step h (readUint8_err r he) (copyOp_err r he) e⟩

/-- every outcome of `readRLE` -/
theorem readRLE_cases : ∀ (fuel : Nat) (count : Int) (r : R), r.err = none →
    count.toNat + (r.data.length - r.pos) + 1 < fuel →
    ∃ b e r', readRLE fuel count r = .ok ((b, e), r') ∧ Frame r r' ∧
      (e = none → r'.err = none → 0 ≤ count ∧ ∃ ops : List Op, (∀ o ∈ ops, o.valid) ∧ b = ops.flatMap Op.code ∧
        (ops = [] ∨ LastReal ops) ∧
        (ops.flatMap Op.plain).length = count.toNat ∧ (0 < count → Sees r b) ∧ r' = r.adv b.length) := by
  intro fuel
  induction fuel with
  | zero => intro count r he hf; omega
  | succ fuel ih =>
    intro count r he hf
    by_cases h : count ≤ 0
    · refine ⟨[], _, r, by unfold readRLE; rw [if_pos h]; rfl, Frame.refl r, fun h1 _ => ?_⟩
      have hc : count = 0 := by
        by_cases hh : count < 0
        · rw [if_pos hh] at h1; cases h1
        · omega
      subst hc
      exact ⟨Int.le_refl _, [], by simp, rfl, Or.inl rfl, rfl, fun h => absurd h (by omega), rfl⟩
    · rcases readUint8_cases r he with ⟨c, hs, e⟩ | ⟨r', e, e1, e2⟩
      · have hp : (r.adv 1).pos ≤ (r.adv 1).limit := hs.2.2
        have hpd : r.pos + 1 ≤ r.data.length := hs.pos_le (by simp)
        rcases copyOp_cases c (r.adv 1) he hp with ⟨o, out, n, hv, hcode, hn, hs2, e'⟩ | ⟨⟨x, n⟩, r', e', e1, e2⟩
        · have hne : 1 + out.length = o.code.length := by rw [hcode, List.length_cons]; omega
          obtain ⟨b, er, r', h1, h2, h3⟩ := ih (count - n) ((r.adv 1).adv out.length) he (by
            simp only [R.adv_data, R.adv_pos]; omega)
          refine ⟨c :: out ++ b, er, r', readRLE_step h e e' h1, ((Frame.adv r 1).trans (Frame.adv _ _)).trans h2, fun g1 g2 => ?_⟩
          obtain ⟨k0, ops, k1, k2, k3, k4, k5, k6⟩ := h3 g1 g2
          have hsee : Sees r (c :: out) := Sees.append (a := [c]) hs hs2
          refine ⟨by omega, o :: ops, ?_, ?_, ?_, ?_, fun _ => ?_, ?_⟩
          · intro o' ho'
            rcases List.mem_cons.1 ho' with rfl | ho'
            · exact hv
            · exact k1 _ ho'
          · rw [List.flatMap_cons, hcode, k2]
          · right
            rcases k3 with rfl | k3
            · refine ⟨[], o, rfl, ?_⟩
              intro hp0
              rw [hp0] at hn
              simp at k4 hn
              omega
            · exact LastReal.append (a := [o]) k3
          · rw [List.flatMap_cons, List.length_append, k4]; omega
          · refine hsee.append ?_
            rw [R.adv_adv, Nat.add_comm] at k5
            by_cases hz : 0 < count - n
            · exact k5 hz
            · have hb : b = [] := by
                rcases k3 with rfl | k3
                · exact k2
                · have := k3.plain_pos; omega
              subst hb
              exact sees_nil he hsee.2.2
          · rw [k6, R.adv_adv, R.adv_adv, List.length_append, List.length_cons]; congr 1; omega
        · obtain ⟨f', rfl⟩ : ∃ f', fuel = f' + 1 := ⟨fuel - 1, by omega⟩
          obtain ⟨⟨a, b⟩, e3⟩ := readRLE_err f' (count - n) r' e1 (by omega)
          refine ⟨_, _, r', readRLE_step h e e' e3, (Frame.adv r 1).trans e2, fun _ g => ?_⟩
          rw [g] at e1; cases e1
      · obtain ⟨f', rfl⟩ : ∃ f', fuel = f' + 1 := ⟨fuel - 1, by omega⟩
        obtain ⟨⟨a, b⟩, e3⟩ := readRLE_err f' (count - ((1 : Nat) : Int)) r' e1 (by omega)
        refine ⟨_, _, r', readRLE_step h e (copyOp_err r' e1) e3, e2, fun _ g => ?_⟩
        rw [g] at e1; cases e1

end Limage
