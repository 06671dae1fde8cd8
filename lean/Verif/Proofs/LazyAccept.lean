import Verif.Proofs.Lazy
/-! When the lazy reader accepts. -/
namespace Limage
open Spec

/-- the lazy reader copies an operation -/
theorem copyOp_code (o : Op) (hv : o.valid) : ∃ c out, o.code = c :: out ∧
    Consumes (copyOp c) out (out, o.plain.length) := by
  have lit : ∀ (bs : Bytes) (r : R), Sees r bs → copyN bs.length r = .ok (bs, r.adv bs.length) := by
    intro bs r hs
    have e := take_append_of_sees hs
    simp only [copyN, hs.1, e, Nat.lt_irrefl, if_false, R.adv]
  cases o with
  | shortRun n v =>
    obtain ⟨h1, h2⟩ := hv
    refine ⟨UInt8.ofNat (n - 1), [v], rfl, fun r hr => ?_⟩
    have hm : (UInt8.ofNat (n - 1)).toNat = n - 1 := u8_ofNat _ (by omega)
    unfold copyOp
    rw [if_pos (by rw [UInt8.lt_iff_toNat_lt, hm]; show n - 1 < 127; omega), M.bind_ok (readUint8_consumes v r hr),
      hm, show n - 1 + 1 = n by omega]
    simp [Op.plain, M.pure_apply]
  | longRun n v =>
    have hv : n < 65536 := hv
    refine ⟨127, [UInt8.ofNat (n / 256), UInt8.ofNat n] ++ [v], rfl, fun r hr => ?_⟩
    unfold copyOp
    rw [if_neg (by decide), if_pos rfl]
    rw [← be2 n hv] at hr ⊢
    rw [M.bind_ok (readUint16_consumes _ r hr.left), M.bind_ok (readUint8_consumes v _ hr.right), M.pure_apply,
      R.adv_adv, List.length_append, u16_ofNat n hv]
    simp [Op.plain]
  | shortLit bs =>
    obtain ⟨h1, h2⟩ := hv
    refine ⟨UInt8.ofNat (256 - bs.length), bs, rfl, fun r hr => ?_⟩
    have hm : (UInt8.ofNat (256 - bs.length)).toNat = 256 - bs.length := u8_ofNat _ (by omega)
    unfold copyOp
    rw [if_neg (by rw [UInt8.lt_iff_toNat_lt, hm]; show ¬ (_ < 127); omega),
      if_neg (by intro h; have := congrArg UInt8.toNat h; rw [hm] at this; simp at this; omega),
      if_neg (by intro h; have := congrArg UInt8.toNat h; rw [hm] at this; simp at this; omega), hm,
      show 256 - (256 - bs.length) = bs.length by omega, M.bind_ok (lit bs r hr)]
    rfl
  | longLit bs =>
    have hv : bs.length < 65536 := hv
    refine ⟨128, [UInt8.ofNat (bs.length / 256), UInt8.ofNat bs.length] ++ bs, rfl, fun r hr => ?_⟩
    unfold copyOp
    rw [if_neg (by decide), if_neg (by decide), if_pos rfl]
    rw [← be2 _ hv] at hr ⊢
    have h2 := lit bs _ hr.right
    rw [M.bind_ok (readUint16_consumes _ r hr.left)]
    rw [u16_ofNat _ hv] at h2 ⊢
    rw [M.bind_ok h2, M.pure_apply, R.adv_adv, List.length_append]
    rfl

/-- operations that add up to the expected length are accepted -/
theorem readRLE_ops : ∀ (ops : List Op) (fuel : Nat) (count : Int) (r : R), (∀ o ∈ ops, o.valid) →
    Sees r (ops.flatMap Op.code) → count = ((ops.flatMap Op.plain).length : Nat) → ops.length < fuel →
    ∃ b k, readRLE fuel count r = .ok ((b, none), r.adv k) := by
  intro ops
  induction ops with
  | nil =>
    intro fuel count r _ _ hc hf
    obtain ⟨fuel, rfl⟩ : ∃ f, fuel = f + 1 := ⟨fuel - 1, by simp at hf; omega⟩
    have hc : count = 0 := by simpa using hc
    subst hc
    exact ⟨[], 0, rfl⟩
  | cons o ops ih =>
    intro fuel count r hv hs hc hf
    obtain ⟨fuel, rfl⟩ : ∃ f, fuel = f + 1 := ⟨fuel - 1, by simp at hf; omega⟩
    by_cases h0 : count ≤ 0
    · refine ⟨[], 0, ?_⟩
      unfold readRLE
      rw [if_pos h0, if_neg (by omega)]
      rfl
    · obtain ⟨c, out, e, hcons⟩ := copyOp_code o (hv o (by simp))
      rw [List.flatMap_cons, e, show (c :: out) ++ ops.flatMap Op.code = [c] ++ (out ++ ops.flatMap Op.code) from rfl] at hs
      have h1 := readUint8_consumes c r hs.left
      have h2 := hcons _ hs.right.left
      have h3 := hs.right.right
      obtain ⟨b, k, h4⟩ := ih fuel (count - (o.plain.length : Nat)) _ (fun o ho => hv o (List.mem_cons_of_mem _ ho)) h3
        (by rw [hc, List.flatMap_cons, List.length_append]; omega) (by simp at hf; omega)
      have h5 := readRLE_step h0 h1 h2 h4
      rw [R.adv_adv, R.adv_adv] at h5
      exact ⟨_, _, h5⟩

/-- ... and copied exactly, up to operations without output at the end -/
theorem readRLEAll_accepts (n : Nat) (hn : 1 ≤ n) (ops : List Op) (hv : ∀ o ∈ ops, o.valid) (r : R)
    (hs : Sees r (ops.flatMap Op.code)) (hl : (ops.flatMap Op.plain).length = n) :
    ∃ ops', GoodOps n ops' ∧ Sees r (codeOf ops') ∧
      readRLEAll n r = .ok ((codeOf ops', none), r.adv (codeOf ops').length) := by
  have hle : ops.length < n + r.data.length + 2 := by
    have h1 := ops_le_code ops
    obtain ⟨_, ⟨t, h2⟩, _⟩ := hs
    have := congrArg List.length h2
    rw [List.length_drop, List.length_append] at this
    omega
  obtain ⟨b, k, h1⟩ := readRLE_ops ops (n + r.data.length + 2) n r hv hs (by rw [hl]) hle
  obtain ⟨b', e', r', h2, _, h3⟩ := readRLE_cases (n + r.data.length + 2) n r hs.1 (by omega)
  rw [h1] at h2
  simp only [Outcome.ok.injEq, Prod.mk.injEq] at h2
  obtain ⟨⟨rfl, rfl⟩, rfl⟩ := h2
  obtain ⟨_, ops', k1, k2, k3, k4, k5, k6⟩ := h3 rfl hs.1
  have hlast : LastReal ops' := by
    rcases k3 with rfl | h
    · simp at k4; omega
    · exact h
  refine ⟨ops', ⟨k1, hlast, by simpa using k4⟩, ?_, ?_⟩
  · rw [codeOf, ← k2]; exact k5 (by omega)
  · unfold readRLEAll; rw [h1, k6, codeOf, ← k2]

/-- the channels of a tile are accepted if none of them crosses a channel boundary -/
theorem readChannels_accepts (n : Nat) (hn : 1 ≤ n) : ∀ (d : List (List Op)) (r : R), (∀ ops ∈ d, GoodOps n ops) →
    Sees r (d.map codeOf).flatten →
    readChannels n d.length r = .ok (d.map codeOf, r.adv (d.map codeOf).flatten.length) := by
  intro d
  induction d with
  | nil => intro r _ _; rfl
  | cons a d ih =>
    intro r h hs
    rw [List.map_cons, List.flatten_cons] at hs
    obtain ⟨ha1, ha2, ha3⟩ := h a (by simp)
    obtain ⟨ops', g1, g2, g3⟩ := readRLEAll_accepts n hn a ha1 r hs.left ha3
    -- the copy is the whole channel
    have heq : codeOf ops' = codeOf a := by
      have p1 : plainOf a = plainOf ops' ∧ codeOf a = codeOf ops' := by
        obtain ⟨s1, _, e1⟩ := rleReadAll_tile n [a] (by simp; exact ⟨ha1, ha2, ha3⟩) (by simp) Rle.start rfl
          (List.replicate n 0) (by simp) r (by simpa using hs.left)
        obtain ⟨s2, _, e2⟩ := rleReadAll_tile n [ops'] (by simp; exact g1) (by simp) Rle.start rfl
          (List.replicate n 0) (by simp) r (by simpa using g2)
        rw [e1] at e2
        simp only [Outcome.ok.injEq, Prod.mk.injEq, tilePlain, List.flatMap_cons, List.flatMap_nil,
          List.append_nil, List.map_cons, List.map_nil, List.flatten_cons, List.flatten_nil] at e2
        refine ⟨e2.1.1, ?_⟩
        have hlen : (codeOf a).length = (codeOf ops').length := by
          have := congrArg R.pos e2.2
          simp only [R.adv_pos] at this
          omega
        obtain ⟨_, ⟨t1, q1⟩, _⟩ := hs.left
        obtain ⟨_, ⟨t2, q2⟩, _⟩ := g2
        rw [q1] at q2
        exact (List.append_inj q2 hlen).1
      exact p1.2.symm
    rw [heq] at g3
    rw [List.length_cons]
    unfold readChannels
    rw [M.bind_ok g3]
    dsimp only
    rw [show (setErr? none >>= _) _ = _ from M.bind_ok rfl,
      M.bind_ok (ih _ (fun o ho => h o (List.mem_cons_of_mem _ ho)) hs.right), M.pure_apply, R.adv_adv,
      List.map_cons, List.flatten_cons, List.length_append]

end Limage
