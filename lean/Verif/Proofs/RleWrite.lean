import Verif.Proofs.Reader
import Verif.Spec.Rle
/-! The writer produces encodings. -/
namespace Limage
open Spec

theorem rleRun_code (n : Nat) (v : UInt8) (h1 : 1 ≤ n) (h2 : n < 65536) :
    ∃ o : Op, o.valid ∧ o.plain ≠ [] ∧ (rleRun n v).flatten = o.code ∧ o.plain = List.replicate n v := by
  by_cases h : n < 128
  · refine ⟨.shortRun n v, ⟨h1, by omega⟩, ?_, ?_, rfl⟩
    · simp only [Op.plain, ne_eq, List.replicate_eq_nil_iff]; omega
    · simp [rleRun, h, Op.code, be]
  · refine ⟨.longRun n v, h2, ?_, ?_, rfl⟩
    · simp only [Op.plain, ne_eq, List.replicate_eq_nil_iff]; omega
    · have : n % 65536 = n := Nat.mod_eq_of_lt h2
      simp [rleRun, h, Op.code, be, this]

theorem rleLit_code (bs : Bytes) (h1 : bs ≠ []) (h2 : bs.length < 65536) :
    ∃ o : Op, o.valid ∧ o.plain ≠ [] ∧ (rleLit bs).flatten = o.code ∧ o.plain = bs := by
  have hp : 1 ≤ bs.length := by
    cases bs with
    | nil => exact absurd rfl h1
    | cons a b => simp
  by_cases h : bs.length < 128
  · refine ⟨.shortLit bs, ⟨hp, by omega⟩, h1, ?_, rfl⟩
    have e : (255 - UInt8.ofNat (bs.length - 1)).toNat = 256 - bs.length := by
      rw [UInt8.toNat_sub_of_le _ _ (by
        rw [UInt8.le_iff_toNat_le, UInt8.toNat_ofNat']; simp; omega), UInt8.toNat_ofNat']
      simp; omega
    simp only [rleLit, if_pos h, e, Op.code, be]
    simp
  · refine ⟨.longLit bs, h2, h1, ?_, rfl⟩
    have : bs.length % 65536 = bs.length := Nat.mod_eq_of_lt h2
    simp [rleLit, h, Op.code, be, this]

/-- runs and literals, appended -/
theorem Encodes.nil : Encodes [] [] := ⟨[], by simp, rfl, rfl⟩

theorem Encodes.append {a b x y : Bytes} (h1 : Encodes a x) (h2 : Encodes b y) :
    Encodes (a ++ b) (x ++ y) := by
  obtain ⟨o1, v1, rfl, rfl⟩ := h1
  obtain ⟨o2, v2, rfl, rfl⟩ := h2
  refine ⟨o1 ++ o2, ?_, by simp, by simp⟩
  intro o ho
  rcases List.mem_append.1 ho with h | h
  · exact v1 o h
  · exact v2 o h

theorem encodes_op {o : Op} (h : o.valid) (hn : o.plain ≠ []) : Encodes o.code o.plain :=
  ⟨[o], by simp [h, hn], by simp, by simp⟩

theorem rleRun_encodes (n : Nat) (v : UInt8) (h1 : 1 ≤ n) (h2 : n < 65536) :
    Encodes (rleRun n v).flatten (List.replicate n v) := by
  obtain ⟨o, a, b, c, d⟩ := rleRun_code n v h1 h2
  rw [c, ← d]
  exact encodes_op a b

theorem rleLit_encodes (bs : Bytes) (h1 : bs ≠ []) (h2 : bs.length < 65536) :
    Encodes (rleLit bs).flatten bs := by
  obtain ⟨o, a, b, c, d⟩ := rleLit_code bs h1 h2
  rw [c]
  conv => rhs; rw [← d]
  exact encodes_op a b

theorem all_eq_replicate (bs : Bytes) (b0 : UInt8) (h : bs.all (· = b0) = true) :
    bs = List.replicate bs.length b0 := by
  rw [List.eq_replicate_iff]
  refine ⟨rfl, fun b hb => ?_⟩
  have := List.all_eq_true.1 h b hb
  exact of_decide_eq_true this

theorem writeRLEData_encodes (lit : Bytes) (run : Nat) (last : UInt8) (h1 : lit.length < 65536)
    (h2 : run < 65536) :
    Encodes (writeRLEData lit run last).flatten (lit ++ List.replicate run last) := by
  unfold writeRLEData
  rw [List.flatten_append]
  refine Encodes.append ?_ ?_
  · cases lit with
    | nil => exact Encodes.nil
    | cons b0 t =>
      simp only
      by_cases h : (decide ((b0 :: t).length ≤ minRunLength) && (b0 :: t).all (· = b0)) = true
      · rw [if_pos h]
        rw [Bool.and_eq_true] at h
        have e := all_eq_replicate (b0 :: t) b0 h.2
        conv => rhs; rw [e]
        exact rleRun_encodes _ _ (by simp) h1
      · rw [if_neg h]
        exact rleLit_encodes _ (by simp) h1
  · by_cases h : run > 0
    · rw [if_pos h]
      exact rleRun_encodes _ _ h h2
    · rw [if_neg h]
      have : run = 0 := by omega
      subst this
      exact Encodes.nil

/-! ### sizes -/

theorem rleRun_size (n : Nat) (v : UInt8) : (rleRun n v).flatten.length = if n < 128 then 2 else 4 := by
  unfold rleRun
  split <;> simp [be]

theorem rleLit_size (bs : Bytes) : (rleLit bs).flatten.length = bs.length + if bs.length < 128 then 1 else 3 := by
  unfold rleLit
  split <;> simp [be] <;> omega

/-- the literal part costs at most its length and one byte, or three from 128 bytes on -/
theorem writeRLEData_size (lit : Bytes) (run : Nat) (last : UInt8) :
    (writeRLEData lit run last).flatten.length ≤
      lit.length + (if lit.length = 0 then 0 else if lit.length < 128 then 1 else 3) +
        (if run = 0 then 0 else if run < 128 then 2 else 4) := by
  unfold writeRLEData
  rw [List.flatten_append, List.length_append]
  have hr : (if run > 0 then rleRun run last else []).flatten.length =
      (if run = 0 then 0 else if run < 128 then 2 else 4) := by
    by_cases h : run = 0
    · subst h; rfl
    · rw [if_pos (by omega), if_neg h, rleRun_size]
  rw [hr]
  refine Nat.add_le_add_right ?_ _
  cases lit with
  | nil => simp
  | cons b0 t =>
    simp only
    rw [if_neg (by simp : ¬ (b0 :: t).length = 0)]
    by_cases h : (decide ((b0 :: t).length ≤ minRunLength) && (b0 :: t).all (· = b0)) = true
    · rw [if_pos h, rleRun_size]
      rw [Bool.and_eq_true, decide_eq_true_eq] at h
      have h1 := h.1
      simp only [minRunLength, List.length_cons] at h1 ⊢
      split <;> omega
    · rw [if_neg h, rleLit_size]
      exact Nat.le_refl _

theorem writeRLEData_pos (lit : Bytes) (run : Nat) (last : UInt8) (h : 1 ≤ lit.length ∨ 1 ≤ run) :
    1 ≤ (writeRLEData lit run last).flatten.length := by
  unfold writeRLEData
  rw [List.flatten_append, List.length_append]
  rcases h with h | h
  · cases lit with
    | nil => simp at h
    | cons b0 t =>
      simp only
      by_cases hc : (decide ((b0 :: t).length ≤ minRunLength) && (b0 :: t).all (· = b0)) = true
      · rw [if_pos hc, rleRun_size]; split <;> omega
      · rw [if_neg hc, rleLit_size]; simp only [List.length_cons]; omega
  · rw [if_pos (by omega : run > 0), rleRun_size]
    have : 1 ≤ if run < 128 then 2 else 4 := by split <;> omega
    omega

/-! ### the scan -/

/-- the last `run` of the first `n` bytes are `last` -/
def Tail (data : Bytes) (n run : Nat) (last : UInt8) : Prop :=
  run ≤ n ∧ (data.take n).drop (n - run) = List.replicate run last

theorem Tail.step {data : Bytes} {n run : Nat} {last b : UInt8} {rest : Bytes} (h : Tail data n run last)
    (hd : data.drop n = b :: rest) (hb : b = last) : Tail data (n + 1) (run + 1) b := by
  subst hb
  obtain ⟨h1, h2⟩ := h
  refine ⟨by omega, ?_⟩
  have hn : n < data.length := by
    have := congrArg List.length hd; rw [List.length_drop, List.length_cons] at this; omega
  have hg : data[n]? = some b := by
    have := congrArg List.head? hd; rwa [List.head?_drop] at this
  rw [List.take_add_one, hg, show n + 1 - (run + 1) = n - run by omega, List.drop_append_of_le_length
    (by rw [List.length_take]; omega), h2]
  exact List.replicate_succ'.symm

theorem Tail.fresh {data : Bytes} {n : Nat} {b : UInt8} {rest : Bytes} (hd : data.drop n = b :: rest) :
    Tail data (n + 1) 1 b := by
  have hn : n < data.length := by
    have := congrArg List.length hd; rw [List.length_drop, List.length_cons] at this; omega
  have hg : data[n]? = some b := by
    have := congrArg List.head? hd; rwa [List.head?_drop] at this
  refine ⟨by omega, ?_⟩
  rw [List.take_add_one, hg, show n + 1 - 1 = n by omega, List.drop_append_of_le_length
    (by rw [List.length_take]; omega), List.drop_take, Nat.sub_self]
  rfl

theorem drop_succ_of {data : Bytes} {n : Nat} {b : UInt8} {rest : Bytes} (hd : data.drop n = b :: rest) :
    data.drop (n + 1) = rest := by
  rw [← List.drop_drop, hd]; rfl

theorem slice_some {data : Bytes} {a b : Nat} (h : a ≤ b) (h' : b ≤ data.length) :
    slice data a b = some ((data.take b).drop a) := if_pos ⟨h, h'⟩

theorem take_drop_split (data : Bytes) (a b c : Nat) (h1 : a ≤ b) (h2 : b ≤ c) :
    (data.take b).drop a ++ (data.take c).drop b = (data.take c).drop a := by
  have e : data.take c = data.take b ++ (data.take c).drop b := by
    have := (List.take_append_drop b (data.take c)).symm
    rwa [List.take_take, Nat.min_eq_left h2] at this
  by_cases hb : b ≤ data.length
  · conv => rhs; rw [e]
    rw [List.drop_append_of_le_length (by rw [List.length_take]; omega)]
  · rw [List.take_of_length_le (by omega : data.length ≤ b), List.take_of_length_le (by omega : data.length ≤ c),
      List.drop_eq_nil_of_le (by omega : data.length ≤ b), List.append_nil]

/-- What the scan guarantees. -/
theorem rleScan_spec (data : Bytes) : ∀ (rest : Bytes) (n run written : Nat) (last : UInt8),
    data.drop n = rest → n ≤ data.length → Tail data n run last → written + run ≤ n →
    ∃ ws run' written' last', rleScan data rest n run written last = some (ws, run', written', last') ∧
      Tail data data.length run' last' ∧ written ≤ written' ∧ written' + run' ≤ data.length ∧
      (rest ≠ [] → 1 ≤ run') ∧
      (data.length < 65536 → Encodes ws.flatten ((data.take written').drop written)) ∧
      132 * ws.flatten.length ≤ 133 * (written' - written) ∧
      (data.length < 128 → ws.flatten.length ≤ written' - written) := by
  intro rest
  induction rest with
  | nil =>
    intro n run written last hd hn ht hw
    have hnl : n = data.length := by
      have := List.drop_eq_nil_iff.1 hd; omega
    subst hnl
    refine ⟨[], run, written, last, rfl, ht, Nat.le_refl _, hw, by simp, ?_, by simp, by simp⟩
    intro _
    rw [List.drop_take, Nat.sub_self]
    exact Encodes.nil
  | cons b rest ih =>
    intro n run written last hd hn ht hw
    have hn1 : n + 1 ≤ data.length := by
      have := congrArg List.length hd; rw [List.length_drop, List.length_cons] at this; omega
    unfold rleScan
    by_cases hb : b = last
    · rw [if_pos hb]
      obtain ⟨ws, run', written', last', e, h1, h2, h3, h4, h5⟩ :=
        ih (n + 1) (run + 1) written b (drop_succ_of hd) hn1 (ht.step hd hb) (by omega)
      refine ⟨ws, run', written', last', e, h1, h2, h3, ?_, h5⟩
      intro _
      by_cases hr : rest = []
      · subst hr
        simp only [rleScan, Option.some.injEq, Prod.mk.injEq] at e
        omega
      · exact h4 hr
    · rw [if_neg hb]
      by_cases hm : run > minRunLength
      · rw [if_pos hm]
        obtain ⟨ws, run', written', last', e, h1, h2, h3, h4, h5, h6, h7⟩ :=
          ih (n + 1) 1 n b (drop_succ_of hd) hn1 (Tail.fresh hd) (by omega)
        rw [slice_some (by omega) (by omega)]
        simp only [bind, Option.bind, e, pure]
        have hle : (List.drop written (List.take (n - run) data)).length = n - run - written := by
          rw [List.length_drop, List.length_take]; omega
        refine ⟨_, _, _, _, rfl, h1, by omega, h3, ?_, ?_, ?_, ?_⟩
        · intro _
          by_cases hr : rest = []
          · subst hr
            simp only [rleScan, Option.some.injEq, Prod.mk.injEq] at e
            omega
          · exact h4 hr
        · intro hl
          rw [List.flatten_append, ← take_drop_split data written n written' (by omega) h2]
          refine Encodes.append ?_ (h5 hl)
          rw [← take_drop_split data written (n - run) n (by omega) (by omega), ht.2]
          refine writeRLEData_encodes _ _ _ ?_ (by omega)
          omega
        · have hs := writeRLEData_size (List.drop written (List.take (n - run) data)) run last
          rw [hle] at hs
          rw [List.flatten_append, List.length_append]
          simp only [minRunLength] at hm
          split at hs <;> split at hs <;> (try split at hs) <;> (try split at hs) <;> omega
        · intro hl
          have h7 := h7 hl
          have hs := writeRLEData_size (List.drop written (List.take (n - run) data)) run last
          rw [hle] at hs
          rw [List.flatten_append, List.length_append]
          simp only [minRunLength] at hm
          split at hs <;> split at hs <;> (try split at hs) <;> (try split at hs) <;> omega
      · rw [if_neg hm]
        obtain ⟨ws, run', written', last', e, h1, h2, h3, h4, h5⟩ :=
          ih (n + 1) 1 written b (drop_succ_of hd) hn1 (Tail.fresh hd) (by omega)
        refine ⟨ws, run', written', last', e, h1, h2, h3, ?_, h5⟩
        intro _
        by_cases hr : rest = []
        · subst hr
          simp only [rleScan, Option.some.injEq, Prod.mk.injEq] at e
          omega
        · exact h4 hr

/-- the writer never panics; it writes an encoding, of bounded size -/
theorem writeRLE_spec (data : Bytes) : ∃ ws, writeRLE data = some ws ∧
    (data.length < 65536 → Encodes ws.flatten data) ∧
    132 * ws.flatten.length ≤ 133 * data.length + 396 ∧
    (data.length < 128 → ws.flatten.length ≤ data.length + 1) ∧
    (data ≠ [] → 1 ≤ ws.flatten.length) := by
  cases data with
  | nil => exact ⟨[], rfl, fun _ => Encodes.nil, by simp, by simp, by simp⟩
  | cons b0 t =>
    obtain ⟨ws, run, written, last, e, h1, h2, h3, h4, h5, h6, h7⟩ :=
      rleScan_spec (b0 :: t) (b0 :: t) 0 0 0 b0 rfl (by simp) ⟨by omega, by simp⟩ (by omega)
    unfold writeRLE
    simp only [bind, Option.bind, e, pure]
    generalize hdat : b0 :: t = data at *
    have hne : 1 ≤ data.length := by rw [← hdat]; simp
    generalize hrun : (if (decide (run ≤ minRunLength) && decide (run < data.length)) = true then 0 else run) = run2
    have hr2 : Tail data data.length run2 last ∧ written + run2 ≤ data.length ∧
        (run2 = 0 ∨ 4 ≤ run2 ∨ run2 = data.length) ∧ (run2 = 0 → written < data.length) := by
      have h4 : 1 ≤ run := h4 (by rw [← hdat]; simp)
      rw [← hrun]
      by_cases hc : (decide (run ≤ minRunLength) && decide (run < data.length)) = true
      · rw [if_pos hc]
        refine ⟨⟨by omega, ?_⟩, by omega, Or.inl rfl, by omega⟩
        rw [List.take_length, List.drop_eq_nil_of_le (by omega)]; rfl
      · rw [if_neg hc]
        refine ⟨h1, h3, ?_, by omega⟩
        simp only [Bool.and_eq_true, decide_eq_true_eq] at hc
        simp only [minRunLength] at hc
        omega
    obtain ⟨ht, hw, hcase, hlast⟩ := hr2
    rw [slice_some (by omega) (by omega)]
    have hle : (List.drop written (List.take (data.length - run2) data)).length = data.length - run2 - written := by
      rw [List.length_drop, List.length_take]; omega
    refine ⟨_, rfl, ?_, ?_, ?_, ?_⟩
    · intro hl
      rw [List.flatten_append]
      have hsplit : data = (data.take written).drop 0 ++ (data.take data.length).drop written := by
        rw [take_drop_split data 0 written data.length (by omega) (by omega)]; simp
      conv => rhs; rw [hsplit]
      refine Encodes.append (h5 hl) ?_
      rw [← take_drop_split data written (data.length - run2) data.length (by omega) (by omega), ht.2]
      exact writeRLEData_encodes _ _ _ (by omega) (by omega)
    · have hs := writeRLEData_size (List.drop written (List.take (data.length - run2) data)) run2 last
      rw [hle] at hs
      rw [List.flatten_append, List.length_append]
      split at hs <;> split at hs <;> (try split at hs) <;> (try split at hs) <;> omega
    · intro hl
      have h7 := h7 hl
      have hs := writeRLEData_size (List.drop written (List.take (data.length - run2) data)) run2 last
      rw [hle] at hs
      rw [List.flatten_append, List.length_append]
      split at hs <;> split at hs <;> (try split at hs) <;> (try split at hs) <;> omega
    · intro _
      rw [List.flatten_append, List.length_append]
      have := writeRLEData_pos (List.drop written (List.take (data.length - run2) data)) run2 last
        (by rw [hle]; omega)
      omega

end Limage
