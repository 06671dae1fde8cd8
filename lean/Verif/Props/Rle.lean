import Verif.Proofs.RleRead
/-!
# C29 - C31: run-length encoding
-/
namespace Limage
open Spec

theorem ops_le_code (ops : List Op) : ops.length ≤ (ops.flatMap Op.code).length := by
  induction ops with
  | nil => simp
  | cons o ops ih =>
    have := op_code_pos o
    rw [List.flatMap_cons, List.length_append, List.length_cons]; omega

/-- C29, reading half: wherever an encoding of `plain` stands in the source, reading into a buffer of
that size gives `plain`, no error, and leaves the reader right behind the encoding. -/
theorem C29_reader_decodes (code plain p : Bytes) (s : Rle) (r : R) (h : Encodes code plain)
    (hs : s.count = 0) (he : r.err = none) (hd : ∃ t, r.data.drop r.pos = code ++ t)
    (hl : r.pos + code.length ≤ r.limit) (hp : p.length = plain.length) :
    ∃ s', rleReadAll s p r = .ok ((plain, s', none), { r with pos := r.pos + code.length }) ∧
      s'.count = 0 := by
  obtain ⟨ops, hv, rfl, rfl⟩ := h
  have hsees : Sees r (ops.flatMap Op.code) := ⟨he, hd, hl⟩
  have hlen : ops.length < rleFuel r p := by
    obtain ⟨t, hd⟩ := hd
    have := congrArg List.length hd
    rw [List.length_drop, List.length_append] at this
    have := ops_le_code ops
    unfold rleFuel
    omega
  obtain ⟨s', k, e, h1, _, h3⟩ := rleRead_ops ops _ s p r (fun o ho => (hv o ho).1) hs hsees hp hlen
  refine ⟨s', ?_, h1⟩
  have hk := h3 (fun o ho => (hv o ho).2)
  subst hk
  exact e

example : Encodes [255, 7] [7] := ⟨[.shortLit [7]], by simp [Op.valid, Op.plain], by decide, by decide⟩
example : ∃ r : R, r.err = none ∧ (∃ t, r.data.drop r.pos = [255, 7] ++ t) ∧ r.pos + 2 ≤ r.limit ∧
    1 ≤ r.pos ∧ r.data.length = 6 :=
  ⟨⟨[9, 255, 7, 8, 8, 8], 100, 1, none⟩, rfl, ⟨[8, 8, 8], rfl⟩, by decide, by decide, rfl⟩

/-- C29, writing half: the writer does not panic, and what it writes is an encoding. -/
theorem C29_writer_encodes (data : Bytes) (h : data.length < 65536) :
    ∃ ws, writeRLE data = some ws ∧ Encodes ws.flatten data := by
  obtain ⟨ws, e, h1, _⟩ := writeRLE_spec data
  exact ⟨ws, e, h1 h⟩

/-- a run of four and two other bytes -/
example : writeRLE [7, 7, 7, 7, 1, 2] ≠ none ∧ ([7, 7, 7, 7, 1, 2] : Bytes).length < 65536 := by decide

/-- C29: reading back what was written returns the data and consumes exactly what was written,
whatever is in front of it and behind it, and whatever was in the buffer. -/
theorem C29_round_trip (data : Bytes) (h : data.length < 65536) :
    ∃ ws, writeRLE data = some ws ∧ ∀ (front back buf : Bytes) (limit : Nat),
      (front ++ ws.flatten).length ≤ limit → buf.length = data.length →
      ∃ s', rleReadAll Rle.start buf ⟨front ++ ws.flatten ++ back, limit, front.length, none⟩ =
        .ok ((data, s', none), ⟨front ++ ws.flatten ++ back, limit, (front ++ ws.flatten).length, none⟩) := by
  obtain ⟨ws, e, h1⟩ := C29_writer_encodes data h
  refine ⟨ws, e, fun front back buf limit hl hb => ?_⟩
  obtain ⟨s', e, _⟩ := C29_reader_decodes ws.flatten data buf Rle.start
    ⟨front ++ ws.flatten ++ back, limit, front.length, none⟩ h1 rfl rfl
    ⟨back, by simp⟩ (by simpa using hl) hb
  refine ⟨s', ?_⟩
  rw [e, List.length_append]

example : writeRLE [5, 5, 5, 5, 5, 1, 2, 3] = some [[4], [5], [253], [1, 2, 3]] := by decide
example : ([5, 5, 5, 5, 5, 1, 2, 3] : Bytes).length < 65536 := by decide

/-- C29, several channels one after the other are read by one `Read` of the total size. -/
theorem C29_channels (chans : List Bytes) (h : ∀ c ∈ chans, c.length < 65536) :
    ∃ ws, chans.mapM writeRLE = some ws ∧ Encodes (ws.map List.flatten).flatten chans.flatten := by
  induction chans with
  | nil => exact ⟨[], rfl, Encodes.nil⟩
  | cons c cs ih =>
    obtain ⟨ws, e, h1⟩ := ih (fun c hc => h c (List.mem_cons_of_mem _ hc))
    obtain ⟨w, e', h2⟩ := C29_writer_encodes c (h c (by simp))
    refine ⟨w :: ws, by simp [List.mapM_cons, e, e'], ?_⟩
    exact Encodes.append h2 h1

example : ∀ c ∈ ([[5, 5, 5, 5], [], [1, 2, 3]] : List Bytes), c.length < 65536 := by decide

/-- C30: the writer never panics, and its output is never larger than the input and three bytes,
plus one byte for every 132; below 128 bytes of input one extra byte is enough. -/
theorem C30_size (data : Bytes) : ∃ ws, writeRLE data = some ws ∧
    ws.flatten.length ≤ data.length + data.length / 132 + 3 ∧
    (data.length < 128 → ws.flatten.length ≤ data.length + 1) := by
  obtain ⟨ws, e, _, h1, h2⟩ := writeRLE_spec data
  exact ⟨ws, e, by omega, h2.1⟩

example : writeRLE [1, 2, 3, 4, 5, 5, 5, 5, 5, 5] = some [[252], [1, 2, 3, 4], [5], [5]] := by decide

/-- C30: at least one byte and at most twice the input, which is only empty if the input is. -/
theorem C30_bounds (data : Bytes) (h : data ≠ []) : ∃ ws, writeRLE data = some ws ∧
    1 ≤ ws.flatten.length ∧ ws.flatten.length ≤ 2 * data.length := by
  obtain ⟨ws, e, _, h1, h2, h3⟩ := writeRLE_spec data
  have hl : 1 ≤ data.length := by
    cases data with
    | nil => exact absurd rfl h
    | cons a b => simp
  refine ⟨ws, e, h3 h, ?_⟩
  by_cases hs : data.length < 128
  · have := h2 hs; omega
  · omega

example : ([1, 2] : Bytes) ≠ [] := by decide
/-- the additive constant is needed -/
example : writeRLE [1] = some [[0], [1]] := by decide

/-- C31: whatever the source, the buffer and the state left by earlier calls, `Read` returns; the
buffer keeps its size, the source is only read forward; and if no error is returned then nothing is
pending and no error is recorded in the reader. -/
theorem C31_total (s : Rle) (p : Bytes) (r : R) : ∃ p' s' e r',
    rleReadAll s p r = .ok ((p', s', e), r') ∧ p'.length = p.length ∧
    r'.data = r.data ∧ r'.limit = r.limit ∧ r.pos ≤ r'.pos ∧
    (e = none → s'.count = 0 ∧ r'.err = none) := by
  obtain ⟨p', s', e, r', h1, h2, h3, h4, _⟩ := rleRead_cases (rleFuel r p) s p r (by unfold rleFuel; omega)
  exact ⟨p', s', e, r', h1, h2, h3.1, h3.2.1, h3.2.2, fun h => ⟨(h4 h).2.2, (h4 h).2.1⟩⟩

/-- data that ends in the middle of a literal: the buffer is returned with an error -/
example : ∃ e r', rleReadAll Rle.start [0, 0, 0, 0] ⟨[253, 9, 8], 16, 0, none⟩ = .ok (([9, 8, 0, 0], ⟨false, 0, 0⟩, some e), r') := by
  exact ⟨_, _, rfl⟩

/-- C31, fills the buffer: if the source ends before the reader's limit and `Read` reports no error,
then the bytes it consumed are a sequence of legal operations whose output is exactly the buffer. -/
theorem C31_fills_buffer_partial (s : Rle) (p : Bytes) (r : R) (hs : s.count = 0) (hd : r.data.length < r.limit)
    (hl : r.pos ≤ r.limit) (p' : Bytes) (s' : Rle) (r' : R) (h : rleReadAll s p r = .ok ((p', s', none), r')) :
    ∃ ops : List Op, (∀ o ∈ ops, o.valid) ∧ (∃ t, r.data.drop r.pos = ops.flatMap Op.code ++ t) ∧
      p' = ops.flatMap Op.plain ∧ p'.length = p.length ∧
      r' = { r with pos := r.pos + (ops.flatMap Op.code).length } := by
  obtain ⟨q', t', e, q, h1, h2, _, _, h5⟩ := rleRead_cases (rleFuel r p) s p r (by unfold rleFuel; omega)
  have h1 : rleReadAll s p r = _ := h1
  rw [h] at h1
  simp only [Outcome.ok.injEq, Prod.mk.injEq] at h1
  obtain ⟨⟨rfl, rfl, rfl⟩, rfl⟩ := h1
  obtain ⟨ops, v, g1, g2, g3⟩ := h5 hd rfl hs hl
  exact ⟨ops, v, g1.2.1, g2, h2, g3⟩

example : rleReadAll Rle.start [0, 0, 0, 0] ⟨[1, 9, 254, 3, 4, 77], 16, 0, none⟩ =
    .ok (([9, 9, 3, 4], ⟨false, 9, 0⟩, none), ⟨[1, 9, 254, 3, 4, 77], 16, 5, none⟩) := by decide

/-- C31 is false at the limit of the reader, 16 MiB into the file: the literal there is cut short, no
error is reported, and the rest of the buffer keeps what it contained. -/
theorem C31_refuted (front : Bytes) (hf : front.length = maxString - 2) (stale : UInt8) :
    ∃ s' r', rleReadAll Rle.start [0, stale] { newReader (front ++ [254, 7]) with pos := maxString - 2 } =
      .ok (([7, stale], s', none), r') := by
  have hms : maxString = 16777216 := rfl
  have hd : (front ++ [254, 7]).drop (maxString - 2) = [254, 7] := by rw [← hf, List.drop_left]
  have hd1 : (front ++ [254, 7]).drop (maxString - 2 + 1) = [7] := by
    rw [← List.drop_drop, hd]; rfl
  generalize hr : ({ newReader (front ++ [254, 7]) with pos := maxString - 2 } : R) = r
  have hrl : r.limit = maxString := by rw [← hr]; rfl
  have hrp : r.pos = maxString - 2 := by rw [← hr]
  have hre : r.err = none := by rw [← hr]; rfl
  have hrd : r.data = front ++ [254, 7] := by rw [← hr]; rfl
  have h1 := rleOp_code (.shortLit [0, 0]) ⟨by decide, by decide⟩ Rle.start r
    ⟨hre, ⟨[7], by rw [hrd, hrp, hd]; rfl⟩, by rw [hrl, hrp]; decide⟩
  have h2 : rleCopy (opState Rle.start (.shortLit [0, 0])) (min (opState Rle.start (.shortLit [0, 0])).count.toNat
      [0, stale].length) [0, stale] (r.adv (opHead (.shortLit [0, 0])).length) = .ok ([7, stale], r.adv 2) := by
    show readInto [0, stale] (r.adv 1) = _
    have e1 : ¬ (r.adv 1).limit ≤ (r.adv 1).pos := by
      rw [R.adv_limit, R.adv_pos, hrl, hrp]; omega
    have e2 : min [0, stale].length ((r.adv 1).limit - (r.adv 1).pos) = 1 := by
      rw [R.adv_limit, R.adv_pos, hrl, hrp]; simp only [List.length_cons, List.length_nil]; omega
    have e3 : (r.adv 1).data.drop (r.adv 1).pos = [7] := by rw [R.adv_data, R.adv_pos, hrd, hrp, hd1]
    simp only [readInto, R.adv_err, hre, if_neg e1, e2, e3]
    simp [R.adv, hre]
  have h3 := rleRead_nil (rleFuel r [0, stale] - 2) { opState Rle.start (.shortLit [0, 0]) with count := 0 } (r.adv 2) hre
  rw [if_pos rfl] at h3
  have hfu : rleFuel r [0, stale] = (rleFuel r [0, stale] - 2) + 1 + 1 := by unfold rleFuel; omega
  refine ⟨{ opState Rle.start (.shortLit [0, 0]) with count := 0 }, r.adv 2, ?_⟩
  show rleRead (rleFuel r [0, stale]) Rle.start [0, stale] r = _
  rw [hfu]
  exact rleRead_step _ Rle.start _ _ _ r _ _ _ [7, stale] [] none hre (by simp) rfl h1 h2 (by
    have hm : min (opState Rle.start (.shortLit [0, 0])).count.toNat [0, stale].length = 2 := rfl
    have hc : (opState Rle.start (.shortLit [0, 0])).count - UInt16.ofNat 2 = 0 := by decide
    rw [hm, hc]
    exact h3)

example : ∃ front : Bytes, front.length = maxString - 2 := ⟨List.replicate (maxString - 2) 0, by simp⟩

/-- C31 with C29: for a source ending before the limit, `Read` on a fresh state succeeds exactly when
the source continues with operations that exactly fill the buffer. -/
theorem C31_accepts_iff (p : Bytes) (r : R) (he : r.err = none) (hd : r.data.length < r.limit)
    (hl : r.pos ≤ r.limit) :
    (∃ p' s' r', rleReadAll Rle.start p r = .ok ((p', s', none), r')) ↔
    ∃ ops : List Op, (∀ o ∈ ops, o.valid) ∧ (∃ t, r.data.drop r.pos = ops.flatMap Op.code ++ t) ∧
      (ops.flatMap Op.plain).length = p.length := by
  constructor
  · rintro ⟨p', s', r', h⟩
    obtain ⟨ops, v, g1, g2, g3, _⟩ := C31_fills_buffer_partial Rle.start p r rfl hd hl p' s' r' h
    exact ⟨ops, v, g1, by rw [← g2, g3]⟩
  · rintro ⟨ops, v, ⟨t, g1⟩, g2⟩
    have hlen := congrArg List.length g1
    rw [List.length_drop, List.length_append] at hlen
    have hsees : Sees r (ops.flatMap Op.code) := ⟨he, ⟨t, g1⟩, by omega⟩
    have := ops_le_code ops
    obtain ⟨s', k, e, _⟩ := rleRead_ops ops (rleFuel r p) Rle.start p r v rfl hsees g2.symm (by unfold rleFuel; omega)
    exact ⟨_, _, _, e⟩

example : ∃ r : R, r.err = none ∧ r.data.length < r.limit ∧ r.pos ≤ r.limit ∧
    ∃ t, r.data.drop r.pos = [Op.shortRun 2 9, Op.shortLit [3, 4]].flatMap Op.code ++ t :=
  ⟨⟨[1, 9, 254, 3, 4, 77], 16, 0, none⟩, rfl, by decide, by decide, [77], by decide⟩

end Limage
