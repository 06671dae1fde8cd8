import Verif.Spec.Xcf
import Verif.Proofs.Runs
import Verif.Proofs.Groups
/-!
# Decoding XCF files: C45, C46, C47, C50
-/
namespace Limage

/-! ## C45 -/

theorem supported_eq : Spec.supported = versions.map (·.1) := by decide

theorem headerFault_none (D : Bytes) : Spec.headerFault D = none ↔ Spec.HeaderOk D := by
  have hlen : ∀ v ∈ Spec.supported, v.length = 4 := by decide
  unfold Spec.headerFault
  constructor
  · intro h
    by_cases h1 : D.length < 14
    · rw [if_pos h1] at h; cases h
    rw [if_neg h1] at h
    by_cases h2 : D.take 9 ≠ Spec.magic
    · rw [if_pos h2] at h; cases h
    rw [if_neg h2] at h
    by_cases h3 : (D.drop 9).take 4 ∉ Spec.supported
    · rw [if_pos h3] at h; cases h
    rw [if_neg h3] at h
    by_cases h4 : D[13]? ≠ some 0
    · rw [if_pos h4] at h; cases h
    refine ⟨_, Classical.byContradiction h3, D.drop 14, ?_⟩
    rw [← Classical.byContradiction h2]
    have h5 : D.drop 13 = 0 :: D.drop 14 := by
      have hl : 13 < D.length := by omega
      rw [List.drop_eq_getElem_cons hl]
      have := Classical.byContradiction h4
      rw [List.getElem?_eq_getElem hl] at this
      rw [Option.some.inj this]
    calc D.take 9 ++ (D.drop 9).take 4 ++ [0] ++ D.drop 14 = D.take 9 ++ ((D.drop 9).take 4 ++ D.drop 13) := by
          rw [h5]; simp [List.append_assoc]
      _ = D := by
          rw [show D.drop 13 = (D.drop 9).drop 4 by rw [List.drop_drop], List.take_append_drop,
            List.take_append_drop]
  · rintro ⟨v, hv, t, rfl⟩
    obtain ⟨a, b, c, d, rfl⟩ : ∃ a b c d, v = [a, b, c, d] := by
      have := hlen v hv
      match v, this with
      | [a, b, c, d], _ => exact ⟨a, b, c, d, rfl⟩
    have h1 : ¬ (Spec.magic ++ [a, b, c, d] ++ [0] ++ t).length < 14 := by
      simp [Spec.magic]
    rw [if_neg h1, if_neg (by simp [Spec.magic]), if_neg (by simpa [Spec.magic] using hv), if_neg (by simp [Spec.magic])]

theorem readHeader_fault (D : Bytes) :
    ∃ m r, readHeader (newReader D) = .ok (match Spec.headerFault D with
      | some e => .error e
      | none => .ok m, r) ∧
      (Spec.headerFault D = none → r = (newReader D).adv 14 ∧
        ∃ v ∈ versions, v.1 = (D.drop 9).take 4 ∧ v.2 = m) := by
  unfold readHeader Spec.headerFault
  have e1 : readInto (List.replicate 14 0) (newReader D) = .ok (D.take 14 ++ (List.replicate 14 0).drop (D.take 14).length,
      { newReader D with pos := (D.take 14).length, err := if (D.take 14).length < 14 then some .eof else none }) := by
    simp [readInto, newReader, maxString]
  rw [M.bind_ok e1]
  show ∃ m r, (getErr >>= _) _ = _ ∧ _
  by_cases h1 : D.length < 14
  · have : (D.take 14).length < 14 := by rw [List.length_take]; omega
    rw [if_pos h1, if_pos this]
    exact ⟨0, _, rfl, fun h => by cases h⟩
  have hl : (D.take 14).length = 14 := by rw [List.length_take]; omega
  rw [if_neg h1, hl, if_neg (Nat.lt_irrefl 14)]
  have t1 : ((D.take 14 ++ (List.replicate 14 (0 : UInt8)).drop 14)).take 9 = D.take 9 := by
    rw [List.take_append_of_le_length (by omega), List.take_take]; rfl
  have t2 : (((D.take 14 ++ (List.replicate 14 (0 : UInt8)).drop 14)).drop 9).take 4 = (D.drop 9).take 4 := by
    rw [List.drop_append_of_le_length (by omega), List.take_append_of_le_length (by rw [List.length_drop]; omega),
      List.drop_take, List.take_take]; rfl
  have t3 : (D.take 14 ++ (List.replicate 14 (0 : UInt8)).drop 14).getD 13 0 ≠ 0 ↔ D[13]? ≠ some 0 := by
    rw [List.getD_eq_getElem?_getD, List.getElem?_append_left (by omega), List.getElem?_take_of_lt (by omega)]
    have hl : 13 < D.length := by omega
    rw [List.getElem?_eq_getElem hl]
    simp
  generalize (D.take 14 ++ (List.replicate 14 (0 : UInt8)).drop 14) = hdr at t1 t2 t3 ⊢
  have e2 : getErr { newReader D with pos := 14, err := none } = .ok (none, (newReader D).adv 14) := rfl
  rw [M.bind_ok e2]
  dsimp only
  rw [t1]
  by_cases h2 : D.take 9 ≠ Spec.magic
  · have h2' : D.take 9 ≠ fileTypeID := h2
    rw [if_pos h2, if_pos h2']
    exact ⟨0, _, rfl, fun h => by cases h⟩
  have h2' : ¬ D.take 9 ≠ fileTypeID := h2
  rw [if_neg h2, if_neg h2', t2]
  by_cases h3 : (D.drop 9).take 4 ∉ Spec.supported
  · rw [if_pos h3]
    have : versions.find? (fun v => v.1 = (D.drop 9).take 4) = none := by
      rw [List.find?_eq_none]
      intro v hv h
      rw [supported_eq] at h3
      exact h3 (List.mem_map.2 ⟨v, hv, by simpa using h⟩)
    rw [this]
    exact ⟨0, _, rfl, fun h => by cases h⟩
  rw [if_neg h3]
  cases hf : versions.find? (fun v => v.1 = (D.drop 9).take 4) with
  | none =>
    rw [List.find?_eq_none] at hf
    have h3 := Classical.byContradiction h3
    rw [supported_eq] at h3
    obtain ⟨v, hv, e⟩ := List.mem_map.1 h3
    exact absurd (by simpa using e) (hf v hv)
  | some v =>
    dsimp only
    by_cases h4 : D[13]? ≠ some 0
    · rw [if_pos h4, if_pos (t3.2 h4)]
      exact ⟨0, _, rfl, fun h => by cases h⟩
    · rw [if_neg h4, if_neg (fun h => h4 (t3.1 h))]
      refine ⟨v.2, _, rfl, fun _ => ⟨rfl, v, List.mem_of_find?_eq_some hf, ?_, rfl⟩⟩
      simpa using List.find?_some hf

/-- C45: a file whose header is wrong is rejected by `Decode`, `DecodeCompressed` and `DecodeConfig`,
with the error for what is wrong with it, whatever follows. -/
theorem C45_rejected (env : Env) (sch : Sched) (decompress : Bool) (D : Bytes) (h : ¬ Spec.HeaderOk D) :
    ∃ e, Spec.headerFault D = some e ∧ decodeImage env sch decompress D = .ok (.error e) ∧
      decodeConfig D = .ok (⟨0, 0, none⟩, some e) := by
  obtain ⟨m, r, hr, _⟩ := readHeader_fault D
  cases hf : Spec.headerFault D with
  | none => exact absurd ((headerFault_none D).1 hf) h
  | some e =>
    rw [hf] at hr
    dsimp only at hr
    refine ⟨e, rfl, ?_, ?_⟩
    · unfold decodeImage readHead
      rw [M.bind_ok hr]
      rfl
    · unfold decodeConfig decodeConfigM
      rw [M.bind_ok hr]
      rfl

example : ¬ Spec.HeaderOk (Spec.magic ++ [0x76, 0x30, 0x31, 0x34, 0, 1, 2, 3]) ∧
    Spec.headerFault (Spec.magic ++ [0x76, 0x30, 0x31, 0x34, 0, 1, 2, 3]) = some .unsupportedVersion := by
  have : Spec.headerFault (Spec.magic ++ [0x76, 0x30, 0x31, 0x34, 0, 1, 2, 3]) = some .unsupportedVersion := by decide
  refine ⟨fun h => ?_, this⟩
  rw [(headerFault_none _).2 h] at this
  cases this

/-- C45, the other direction: a correct header with sizes behind it is accepted by `DecodeConfig`, for
every supported version (the colour map of indexed images is C43). -/
theorem C45_accepted (D : Bytes) (h : Spec.HeaderOk D) (w ht b : UInt32) (hb : b ≠ 2)
    (hd : (be 4 w.toNat ++ be 4 ht.toNat ++ be 4 b.toNat ++ be 4 0) <+: D.drop 14) :
    ∃ m, decodeConfig D = .ok (⟨w.toNat, ht.toNat, m⟩, none) := by
  obtain ⟨m, r, hr, hm⟩ := readHeader_fault D
  have hf := (headerFault_none D).2 h
  rw [hf] at hr
  dsimp only at hr
  obtain ⟨rfl, _⟩ := hm hf
  have hs : Sees ((newReader D).adv 14) (be 4 w.toNat ++ be 4 ht.toNat ++ be 4 b.toNat ++ be 4 (0 : UInt32).toNat) := by
    obtain ⟨t, ht⟩ := hd
    refine ⟨rfl, ⟨t, ht.symm⟩, ?_⟩
    simp only [List.length_append, be_length]
    show 0 + 14 + (4 + 4 + 4 + 4) ≤ maxString
    decide
  have s1 := hs.left.left.left
  have s2 := hs.left.left.right
  have s3 := hs.left.right
  have s4 := hs.right
  unfold decodeConfig decodeConfigM
  rw [M.bind_ok hr]
  dsimp only
  rw [M.bind_ok (readUint32_consumes w _ s1), M.bind_ok (readUint32_consumes ht _ s2)]
  rw [List.length_append, ← R.adv_adv] at s3
  rw [M.bind_ok (readUint32_consumes b _ s3)]
  have hp : ∃ x r', readPrecision (m = 2) (((((newReader D).adv 14).adv (be 4 w.toNat).length).adv (be 4 ht.toNat).length).adv
      (be 4 b.toNat).length) = .ok (x, r') ∧ r'.err = none := by
    rw [List.length_append, List.length_append, ← R.adv_adv, ← R.adv_adv] at s4
    unfold readPrecision
    split
    · exact ⟨_, _, readUint32_consumes 0 _ s4, rfl⟩
    · exact ⟨0, _, rfl, rfl⟩
  obtain ⟨x, r', hx, he⟩ := hp
  rw [M.bind_ok hx]
  by_cases h0 : b = 0
  · rw [if_pos h0]
    have : getErr r' = .ok (none, r') := by unfold getErr; rw [he]
    rw [M.bind_ok this]
    exact ⟨_, rfl⟩
  rw [if_neg h0]
  by_cases h1 : b = 1
  · rw [if_pos h1]
    have : getErr r' = .ok (none, r') := by unfold getErr; rw [he]
    rw [M.bind_ok this]
    exact ⟨_, rfl⟩
  rw [if_neg h1, if_neg hb]
  have : getErr r' = .ok (none, r') := by unfold getErr; rw [he]
  rw [M.bind_ok this]
  exact ⟨_, rfl⟩

example : Spec.HeaderOk (Spec.magic ++ [0x76, 0x30, 0x31, 0x33, 0] ++ (be 4 640 ++ be 4 480 ++ be 4 0 ++ be 4 0)) ∧
    (be 4 (640 : UInt32).toNat ++ be 4 (480 : UInt32).toNat ++ be 4 (0 : UInt32).toNat ++ be 4 0) <+:
      (Spec.magic ++ [0x76, 0x30, 0x31, 0x33, 0] ++ (be 4 640 ++ be 4 480 ++ be 4 0 ++ be 4 0)).drop 14 :=
  ⟨⟨[0x76, 0x30, 0x31, 0x33], by decide, be 4 640 ++ be 4 480 ++ be 4 0 ++ be 4 0, rfl⟩, ⟨[], rfl⟩⟩

/-! ## C46 -/

/-- some environment and schedule, for examples -/
def exEnv : Env := ⟨fun _ => 0, fun _ => .ok none⟩
def exSched : Sched := ⟨List.range, List.range⟩

/-- An empty layer 0 pixels wide and 0xffffffff high: a file of 102 bytes. -/
def zeroWidth : Bytes :=
  fileTypeID ++ [118, 48, 48, 51, 0] ++ be 4 1 ++ be 4 1 ++ be 4 0 ++ be 4 0 ++ be 4 0 ++ be 4 42 ++ be 4 0 ++
  be 4 0 ++ be 4 0xffffffff ++ be 4 1 ++ be 4 0 ++ be 4 0 ++ be 4 0 ++ be 4 74 ++ be 4 0 ++
  be 4 0 ++ be 4 0xffffffff ++ be 4 4 ++ be 4 90 ++ be 4 0 ++ be 4 0xffffffff ++ be 4 0

/-- looping forever -/
def Outcome.isHang {α : Type} : Outcome α → Bool
  | .hang => true
  | _ => false

/-- a crash -/
def Outcome.isPanic {α : Type} : Outcome α → Bool
  | .panic => true
  | _ => false

theorem Outcome.isHang_iff {α : Type} (x : Outcome α) : x.isHang = true ↔ x = .hang := by
  cases x <;> simp [Outcome.isHang]
theorem Outcome.isPanic_iff {α : Type} (x : Outcome α) : x.isPanic = true ↔ x = .panic := by
  cases x <;> simp [Outcome.isPanic]

set_option maxRecDepth 100000 in
/-- C46 is false: there is a file on which both decoders loop forever, whatever the schedule. -/
theorem C46_refuted : ∃ D, ∀ env sch decompress, decodeImage env sch decompress D = .hang := by
  refine ⟨zeroWidth, fun env sch decompress => ?_⟩
  rw [← Outcome.isHang_iff]
  cases decompress
  · cbv
  · cbv

/-- C46, `DecodeConfig`: returns for every input, without panicking. -/
theorem C46_config (D : Bytes) : ∃ c e, decodeConfig D = .ok (c, e) := by
  obtain ⟨⟨c, e⟩, r, h, _⟩ := decodeConfigM_total (newReader D)
  unfold decodeConfig
  rw [h]
  exact ⟨c, e, rfl⟩

/-- a file that is no XCF file -/
example : ∃ c e, decodeConfig [1, 2, 3] = .ok (c, some e) := ⟨_, _, rfl⟩

theorem gather_runs {α : Type} (pan : Prop) : ∀ (xs : List (Outcome α)), (∀ x ∈ xs, x ≠ .hang ∧ (x = .panic → pan)) →
    gather xs ≠ .hang ∧ (gather xs = .panic → pan) := by
  intro xs
  induction xs with
  | nil => intro _; exact ⟨(by intro h; cases h), (by intro h; cases h)⟩
  | cons x xs ih =>
    intro h
    have h1 := h x (by simp)
    have h2 := ih fun y hy => h y (by simp [hy])
    unfold gather
    cases x with
    | hang => exact absurd rfl h1.1
    | panic => exact ⟨(by intro h; cases h), fun _ => h1.2 rfl⟩
    | ok a =>
      cases hg : gather xs with
      | hang => exact absurd hg h2.1
      | panic => exact ⟨(by intro h; cases h), fun _ => h2.2 hg⟩
      | ok as => exact ⟨(by intro h; cases h), (by intro h; cases h)⟩

theorem layerAtPtr_runs (pan : Prop) (c : Ctx) (D : Bytes) (p : UInt64) (hn : NoWrap D) (hh : ∀ b, Spec.TextIn D b → c.env.parseText b ≠ .hang)
    (hf : pan ∨ ((∀ b, Spec.TextIn D b → c.env.parseText b ≠ .panic) ∧ FineSizes D ∧ (c.decompress = true ∨ c.compression = 0) ∧
      c.baseType.toNat ≤ 2)) : layerAtPtr c D p ≠ .hang ∧ (layerAtPtr c D p = .panic → pan) := by
  have := ((goto_runs p).bind fun _ => readLayer_runs (pan := pan) c hn hh hf) (newReader D) rfl
  unfold layerAtPtr
  revert this
  cases (goto p >>= fun _ => readLayer c : M DLayer) (newReader D) with
  | ok x => intro _; exact ⟨(by intro h; cases h), (by intro h; cases h)⟩
  | panic => intro h; exact ⟨(by intro h; cases h), fun _ => h⟩
  | hang => intro h; exact absurd h id

theorem decodeLayers_runs (pan : Prop) (env : Env) (sch : Sched) (hs : sch.Valid) (decompress : Bool) (D : Bytes) (h : Head)
    (hn : NoWrap D) (hh : ∀ b, Spec.TextIn D b → env.parseText b ≠ .hang)
    (hf : pan ∨ ((∀ b, Spec.TextIn D b → env.parseText b ≠ .panic) ∧ FineSizes D ∧ (decompress = true ∨ h.props.compression = 0) ∧
      h.baseType.toNat ≤ 2)) :
    decodeLayers env sch decompress D h ≠ .hang ∧ (decodeLayers env sch decompress D h = .panic → pan) := by
  have hg := gather_runs pan (h.ptrs.map (layerAtPtr (h.ctx env decompress) D)) (by
    intro x hx
    obtain ⟨p, _, rfl⟩ := List.mem_map.1 hx
    exact layerAtPtr_runs pan _ D p hn hh hf)
  unfold decodeLayers readLayers
  revert hg
  cases gather (h.ptrs.map (layerAtPtr (h.ctx env decompress) D)) with
  | hang => intro hg; exact absurd rfl hg.1
  | panic => intro hg; exact ⟨(by intro h; cases h), fun _ => hg.2 rfl⟩
  | ok ls =>
    intro _
    dsimp only
    cases firstErr (ls.map (·.2)) (sch.layers h.ptrs.length) with
    | some e => exact ⟨(by intro h; cases h), (by intro h; cases h)⟩
    | none =>
      dsimp only
      cases hm : makeGroups (sizeRect h.width.toNat h.height.toNat) (ls.map (·.1)) GState.start with
      | error e => exact ⟨(by intro h; cases h), (by intro h; cases h)⟩
      | ok s =>
        dsimp only
        rw [makeImage_tree (makeGroups_inv ginv_start hm) _ (hs.2 _)]
        exact ⟨(by intro h; cases h), (by intro h; cases h)⟩

/-- A layer with sides of 0xffffffff. -/
def hugeLayer : Bytes :=
  fileTypeID ++ [118, 48, 48, 51, 0] ++ be 4 1 ++ be 4 1 ++ be 4 0 ++ be 4 0 ++ be 4 0 ++ be 4 42 ++ be 4 0 ++
  be 4 0xffffffff ++ be 4 0xffffffff ++ be 4 1 ++ be 4 0 ++ be 4 0 ++ be 4 0 ++ be 4 74 ++ be 4 0 ++
  be 4 0xffffffff ++ be 4 0xffffffff ++ be 4 4 ++ be 4 90 ++ be 4 0xffffffff ++ be 4 0xffffffff ++ be 4 0

/-- computable forms of `NoWrap` and `FineSizes`, for examples: all pairs of a hierarchy and a level -/
def sizesB (D : Bytes) (f : Nat → Nat → Nat → Bool) : Bool :=
  (List.range D.length).all fun p => [4, 8].all fun k =>
    let q := fromBE ((D.drop (p + 12)).take k)
    let w := fromBE ((D.drop p).take 4)
    let h := fromBE ((D.drop (p + 4)).take 4)
    let q' := if q < 2 ^ 63 then q else p + 12 + k
    fromBE ((D.drop q').take 4) != w || fromBE ((D.drop (q' + 4)).take 4) != h ||
      f w h (fromBE ((D.drop (p + 8)).take 4))

theorem fromBE_be32 (x : UInt32) : fromBE (be 4 x.toNat) = x.toNat := by
  rw [fromBE_be]
  have := x.toNat_lt
  exact Nat.mod_eq_of_lt (by omega)

theorem take_of_prefix {D x y z : Bytes} {p n : Nat} (h : (x ++ y ++ z) <+: D.drop p) (hx : x.length = n) :
    (D.drop (p + n)).take y.length = y := by
  obtain ⟨t, ht⟩ := h
  rw [← List.drop_drop, ← ht, List.append_assoc, List.append_assoc, List.drop_left' hx, List.take_left]

theorem sizesB_spec {D : Bytes} {f : Nat → Nat → Nat → Bool} (h : sizesB D f = true) {w ht b : UInt32}
    (hi : HasImage D w ht b) : f w.toNat ht.toNat b.toNat = true := by
  obtain ⟨p, k, q, hk, hq, h1, h2⟩ := hi
  have hlt : p < D.length := by
    rcases Nat.lt_or_ge p D.length with h3 | h3
    · exact h3
    · rw [List.drop_eq_nil_of_le h3] at h1
      have := congrArg List.length (List.prefix_nil.1 h1)
      simp [be_length] at this
  have e1 : (D.drop p).take 4 = be 4 w.toNat := by
    have := take_of_prefix (x := []) (y := be 4 w.toNat) (p := p) (n := 0)
      (z := be 4 ht.toNat ++ be 4 b.toNat ++ be k q) (by simpa [List.append_assoc] using h1) rfl
    rwa [be_length] at this
  have e2 : (D.drop (p + 4)).take 4 = be 4 ht.toNat := by
    have := take_of_prefix (x := be 4 w.toNat) (y := be 4 ht.toNat) (p := p) (n := 4)
      (z := be 4 b.toNat ++ be k q) (by simpa [List.append_assoc] using h1) (be_length _ _)
    rwa [be_length] at this
  have e3 : (D.drop (p + 8)).take 4 = be 4 b.toNat := by
    have := take_of_prefix (x := be 4 w.toNat ++ be 4 ht.toNat) (y := be 4 b.toNat) (p := p) (n := 8)
      (z := be k q) h1 (by simp [be_length])
    rwa [be_length] at this
  have e4 : (D.drop (p + 12)).take k = be k q := by
    have := take_of_prefix (x := be 4 w.toNat ++ be 4 ht.toNat ++ be 4 b.toNat) (y := be k q) (p := p) (n := 12)
      (z := []) (by rw [List.append_nil]; exact h1) (by simp [be_length])
    rwa [be_length] at this
  have := List.all_eq_true.1 (List.all_eq_true.1 h p (List.mem_range.2 hlt)) k
    (by rcases hk with rfl | rfl <;> simp)
  dsimp only at this
  rw [e1, e2, e3, e4, fromBE_be k q, Nat.mod_eq_of_lt hq] at this
  generalize (if q < 2 ^ 63 then q else p + 12 + k) = q' at h2 this
  have e5 : (D.drop q').take 4 = be 4 w.toNat := by
    have := take_of_prefix (x := []) (y := be 4 w.toNat) (p := q') (n := 0)
      (z := be 4 ht.toNat) (by simpa using h2) rfl
    rwa [be_length] at this
  have e6 : (D.drop (q' + 4)).take 4 = be 4 ht.toNat := by
    have := take_of_prefix (x := be 4 w.toNat) (y := be 4 ht.toNat) (p := q') (n := 4)
      (z := []) (by simpa using h2) (be_length _ _)
    rwa [be_length] at this
  rw [e5, e6, fromBE_be32, fromBE_be32, fromBE_be32] at this
  simpa using this

theorem noWrapB {D : Bytes} (h : sizesB D (fun w h _ => w != 0 || h ≤ 0xffffffc0) = true) : NoWrap D := by
  intro x b hi
  have := sizesB_spec h hi
  simpa using this

theorem fineSizesB {D : Bytes} (h : sizesB D (fun w h b => b = 0 || 4 < b ||
    (w * h ≤ 2 ^ 40 && w ≤ 0xffffffc0 && h ≤ 0xffffffc0)) = true) : FineSizes D := by
  intro w x b h1 h2 hi
  have := sizesB_spec h hi
  simp only [Bool.or_eq_true, decide_eq_true_eq, Bool.and_eq_true] at this
  rcases this with (h3 | h3) | h3
  · omega
  · omega
  · exact ⟨h3.1.1, fun _ _ => ⟨h3.1.2, h3.2⟩⟩

/-- C46, the true part: if the text parser returns for the descriptions of text in the file, and no image in the file of zero
width has a height above 0xffffffc0, decoding returns (with a result or an error) or panics; it does not loop forever.
Missing: the two causes of endless loops (false for them: `C46_refuted`, `C46_text_refuted`). -/
theorem C46_terminates_partial (env : Env) (sch : Sched) (hs : sch.Valid) (decompress : Bool) (D : Bytes)
    (hh : ∀ b, Spec.TextIn D b → env.parseText b ≠ .hang) (hn : NoWrap D) : decodeImage env sch decompress D ≠ .hang := by
  unfold decodeImage
  obtain ⟨x, r, e, _⟩ := readHead_total (newReader D)
  rw [e]
  cases x with
  | error e => intro h; cases h
  | ok h => exact (decodeLayers_runs True env sch hs decompress D h hn hh (Or.inl trivial)).1

example : NoWrap hugeLayer ∧
    exSched.Valid ∧ (∀ b, Spec.TextIn hugeLayer b → exEnv.parseText b ≠ .hang) :=
  ⟨noWrapB (by decide +kernel), ⟨fun _ => List.Perm.refl _, fun _ => List.Perm.refl _⟩, by intro b _ h; cases h⟩

/-! ## C47 -/

/-- A layer of one pixel in a file with base type 3. -/
def strangeType : Bytes :=
  fileTypeID ++ [118, 48, 48, 51, 0] ++ be 4 1 ++ be 4 1 ++ be 4 3 ++ be 4 0 ++ be 4 0 ++ be 4 42 ++ be 4 0 ++
  be 4 1 ++ be 4 1 ++ be 4 6 ++ be 4 0 ++ be 4 0 ++ be 4 0 ++ be 4 74 ++ be 4 0 ++
  be 4 1 ++ be 4 1 ++ be 4 4 ++ be 4 90 ++ be 4 1 ++ be 4 1 ++ be 4 42 ++ be 4 0

/-- A grey layer of one pixel with a mask, run-length encoded. -/
def maskedLayer : Bytes :=
  fileTypeID ++ [118, 48, 48, 51, 0] ++ be 4 1 ++ be 4 1 ++ be 4 1 ++ be 4 17 ++ be 4 1 ++ [1] ++
  be 4 0 ++ be 4 0 ++ be 4 51 ++ be 4 0 ++
  -- 51: layer
  be 4 1 ++ be 4 1 ++ be 4 3 ++ be 4 0 ++ be 4 0 ++ be 4 0 ++ be 4 83 ++ be 4 119 ++
  -- 83: hierarchy, 99: level, 115: tile
  be 4 1 ++ be 4 1 ++ be 4 2 ++ be 4 99 ++ be 4 1 ++ be 4 1 ++ be 4 115 ++ be 4 0 ++ [0, 7, 0, 255] ++
  -- 119: mask, 143: hierarchy, 159: level, 175: tile
  be 4 1 ++ be 4 1 ++ be 4 0 ++ be 4 0 ++ be 4 0 ++ be 4 143 ++
  be 4 1 ++ be 4 1 ++ be 4 1 ++ be 4 159 ++ be 4 1 ++ be 4 1 ++ be 4 175 ++ be 4 0 ++ [0, 9]

set_option maxRecDepth 100000 in
/-- C47 is false for `Decode`: sizes too large to allocate, and unknown base types, crash it. -/
theorem C47_refuted : ∀ env sch decompress,
    decodeImage env sch decompress hugeLayer = .panic ∧ decodeImage env sch true strangeType = .panic := by
  intro env sch decompress
  rw [← Outcome.isPanic_iff, ← Outcome.isPanic_iff]
  refine ⟨?_, ?_⟩
  · cases decompress <;> cbv
  · cbv

set_option maxRecDepth 100000 in
/-- C47 is false for `DecodeCompressed`: a layer mask in a compressed file crashes it (the same file is
decoded by `Decode`). -/
theorem C47_compressed_refuted : ∀ env sch, decodeImage env sch false maskedLayer = .panic := by
  intro env sch
  rw [← Outcome.isPanic_iff]
  cbv

/-- decoded without error -/
def Outcome.isImage {α β : Type} : Outcome (Except α β) → Bool
  | .ok (.ok _) => true
  | _ => false

example : (decodeImage exEnv exSched true maskedLayer).isImage = true := by decide +kernel

/-- the base type is read from bytes 22 to 25 -/
theorem readHead_baseType (D : Bytes) (h : Head) (r : R) (e : readHead (newReader D) = .ok (.ok h, r)) :
    fromBE ((D.drop 22).take 4) = h.baseType.toNat := by
  unfold readHead at e
  obtain ⟨x, r1, e1, e⟩ := M.bind_inv e
  cases x with
  | error er => cases e
  | ok mode =>
    dsimp only at e
    obtain ⟨m, r', hr, hm⟩ := readHeader_fault D
    have hf : Spec.headerFault D = none := by
      cases hf : Spec.headerFault D with
      | none => rfl
      | some er => rw [hf, e1] at hr; cases hr
    rw [hf, e1] at hr
    cases hr
    obtain ⟨rfl, _⟩ := hm hf
    obtain ⟨w, r2, e2, e⟩ := M.bind_inv e
    obtain ⟨ht, r3, e3, e⟩ := M.bind_inv e
    obtain ⟨b, r4, e4, e⟩ := M.bind_inv e
    obtain ⟨_, r5, e5, e⟩ := M.bind_inv e
    obtain ⟨y, r6, e6, e⟩ := M.bind_inv e
    cases y with
    | error er => cases e
    | ok props =>
      dsimp only at e
      obtain ⟨ptrs, r7, e7, e⟩ := M.bind_inv e
      obtain ⟨er, r8, e8, e⟩ := M.bind_inv e
      cases e8
      cases her : r7.err with
      | some er => rw [her] at e; cases e
      | none =>
        rw [her] at e
        cases e
        have k4 : r4.err = none :=
          ((readPrecision_total _).keeps _ _ _ e5).none
            (((readImageProperties_total _).keeps _ _ _ e6).none (((readLayerPointers_total _).keeps _ _ _ e7).none her))
        have s3 := three_seen e2 e3 e4 k4
        obtain ⟨_, ⟨t, ht'⟩, _⟩ := s3
        have hd : (D.drop 14).drop 8 = be 4 b.toNat ++ t := by
          have : D.drop 14 = be 4 w.toNat ++ be 4 ht.toNat ++ be 4 b.toNat ++ t := ht'
          rw [this, List.append_assoc (_ ++ _), List.drop_left' (by simp [be_length])]
        rw [List.drop_drop] at hd
        rw [show 14 + 8 = 22 from rfl] at hd
        rw [hd, List.take_left' (be_length _ _), fromBE_be]
        have := b.toNat_lt
        exact Nat.mod_eq_of_lt (by omega)

/-- C47, the true part: `Decode` returns, without panicking in any goroutine, when the base type is
known, sizes in the file are below the limits, and the text parser neither panics nor loops for the descriptions in the file.
Missing: the remaining files, for which it is false (`C47_refuted`, `C47_compressed_refuted`). -/
theorem C47_returns_partial (env : Env) (sch : Sched) (hs : sch.Valid) (D : Bytes)
    (hh : ∀ b, Spec.TextIn D b → ∃ t, env.parseText b = .ok t) (hn : NoWrap D) (hf : FineSizes D)
    (hb : fromBE ((D.drop 22).take 4) ≤ 2) :
    (∃ im, decodeImage env sch true D = .ok (.ok im)) ∨ (∃ e, decodeImage env sch true D = .ok (.error e)) := by
  have key : decodeImage env sch true D ≠ .hang ∧ decodeImage env sch true D ≠ .panic := by
    unfold decodeImage
    obtain ⟨x, r, e, _⟩ := readHead_total (newReader D)
    rw [e]
    cases x with
    | error e => exact ⟨(by intro h; cases h), (by intro h; cases h)⟩
    | ok h =>
      have := decodeLayers_runs False env sch hs true D h hn
        (by intro b hi hb; obtain ⟨t, ht⟩ := hh b hi; rw [ht] at hb; cases hb)
        (Or.inr ⟨(by intro b hi hb; obtain ⟨t, ht⟩ := hh b hi; rw [ht] at hb; cases hb), hf, Or.inl rfl,
          by rw [← readHead_baseType D h r e]; exact hb⟩)
      exact ⟨this.1, fun h => this.2 h⟩
  cases h : decodeImage env sch true D with
  | ok x =>
    cases x with
    | ok im => exact Or.inl ⟨im, rfl⟩
    | error e => exact Or.inr ⟨e, rfl⟩
  | panic => exact absurd h key.2
  | hang => exact absurd h key.1

example : NoWrap maskedLayer ∧ FineSizes maskedLayer ∧ fromBE ((maskedLayer.drop 22).take 4) ≤ 2 ∧
    (∀ b, Spec.TextIn maskedLayer b → ∃ t, exEnv.parseText b = .ok t) :=
  ⟨noWrapB (by decide +kernel), fineSizesB (by decide +kernel), by decide +kernel, fun _ _ => ⟨_, rfl⟩⟩

/-! ## C50 -/

/-- C50: for every list of layers and every two iteration orders of the map the tree is the same, and
building it does not panic. -/
theorem C50_order (bounds : Rect) (ls : List DLayer) (s : GState) (h : makeGroups bounds ls GState.start = .ok s)
    (o1 o2 : List Nat) (h1 : o1.Perm (List.range s.map.length)) (h2 : o2.Perm (List.range s.map.length)) :
    makeImage o1 s = makeImage o2 s ∧ ∃ im, makeImage o1 s = some im := by
  have hi := makeGroups_inv ginv_start h
  rw [makeImage_tree hi o1 h1, makeImage_tree hi o2 h2]
  exact ⟨rfl, _, rfl⟩

/-- a group at path 0 with a group at path 0,0 with a layer inside, and a second layer on top -/
def recLayer (group : Bool) (path : List UInt32) : DLayer :=
  ⟨⟨[], ⟨0, 0, 4, 4⟩, 0, false, 0, .nil⟩, true, group, path⟩
def recLayers : List DLayer := [recLayer true [0], recLayer true [0, 0], recLayer false [0, 0, 0], recLayer false [1]]

/-- shape of a tree: nesting of groups -/
def shape : List Layer → List Nat
  | [] => []
  | l :: ls => (match l.image with
    | .group g => [1, g.length]
    | _ => [0]) ++ shape ls

example : ∃ s, makeGroups ⟨0, 0, 4, 4⟩ recLayers GState.start = .ok s ∧ s.map.length = 3 ∧
    [2, 0, 1].Perm (List.range s.map.length) ∧ (makeImage [2, 0, 1] s).map shape = some [1, 1, 0] :=
  ⟨_, rfl, rfl, by decide, rfl⟩

end Limage
