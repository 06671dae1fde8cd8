import Verif.Props.Truncate
import Verif.Props.Limits
/-!
# C143: DecodeConfig looks at the beginning of a file only
-/
namespace Limage
open Spec

/-- two readers at the same place of sources that agree in the first `K` bytes -/
structure Alike (K : Nat) (r s : R) : Prop where
  pos : r.pos = s.pos
  limit : r.limit = s.limit
  err : r.err = s.err
  data : r.data.take K = s.data.take K

/-- `m` gives the same for both, and moves by at most `n` -/
def Near (K n : Nat) {α : Type} (m : M α) : Prop :=
  ∀ r s, Alike K r s → r.pos + n ≤ K → ∃ a r' s', m r = .ok (a, r') ∧ m s = .ok (a, s') ∧ Alike K r' s' ∧ r'.pos ≤ r.pos + n

theorem Near.pure {K : Nat} {α : Type} (a : α) : Near K 0 (pure a : M α) := fun r s h _ => ⟨a, r, s, rfl, rfl, h, Nat.le_refl _⟩

theorem Near.bind {K n k : Nat} {α β : Type} {m : M α} {f : α → M β} (h1 : Near K n m) (h2 : ∀ a, Near K k (f a)) : Near K (n + k) (m >>= f) := by
  intro r s h hp
  obtain ⟨a, r1, s1, e1, e2, h', hp'⟩ := h1 r s h (by omega)
  obtain ⟨b, r2, s2, e3, e4, h'', hp''⟩ := h2 a r1 s1 h' (by omega)
  refine ⟨b, r2, s2, ?_, ?_, h'', by omega⟩
  · rw [M.bind_ok e1]; exact e3
  · rw [M.bind_ok e2]; exact e4

theorem Near.more {K n k : Nat} {α : Type} {m : M α} (h : Near K n m) (hk : n ≤ k) : Near K k m := by
  intro r s ha hp
  obtain ⟨a, r1, s1, e1, e2, h', hp'⟩ := h r s ha (by omega)
  exact ⟨a, r1, s1, e1, e2, h', by omega⟩

theorem take_alike {K p m : Nat} {d e : Bytes} (h : d.take K = e.take K) (hm : p + m ≤ K) : (d.drop p).take m = (e.drop p).take m := by
  have : ∀ d : Bytes, (d.drop p).take m = ((d.take K).drop p).take m := fun d => by
    rw [List.drop_take, List.take_take, Nat.min_eq_left (by omega)]
  rw [this d, this e, h]

theorem readFull_near (K n : Nat) : Near K n (readFull n) := by
  intro r s h hp
  unfold readFull
  rw [← h.err]
  cases he : r.err with
  | some e => exact ⟨_, _, _, rfl, rfl, h, by omega⟩
  | none =>
    dsimp only
    rw [← h.limit, ← h.pos, ← take_alike h.data (show r.pos + min n (r.limit - r.pos) ≤ K by omega)]
    have hl : ((r.data.drop r.pos).take (min n (r.limit - r.pos))).length ≤ n := by rw [List.length_take]; omega
    split
    · refine ⟨_, _, _, rfl, rfl, ⟨rfl, rfl, rfl, h.data⟩, ?_⟩
      dsimp only; omega
    · refine ⟨_, _, _, rfl, rfl, ⟨rfl, rfl, rfl, h.data⟩, ?_⟩
      dsimp only; omega

theorem readInto_near (K : Nat) (p : Bytes) : Near K p.length (readInto p) := by
  intro r s h hp
  unfold readInto
  rw [← h.err]
  cases he : r.err with
  | some e => exact ⟨_, _, _, rfl, rfl, h, by omega⟩
  | none =>
    dsimp only
    rw [← h.limit, ← h.pos, ← take_alike h.data (show r.pos + min p.length (r.limit - r.pos) ≤ K by omega)]
    have hl : ((r.data.drop r.pos).take (min p.length (r.limit - r.pos))).length ≤ p.length := by rw [List.length_take]; omega
    split
    · refine ⟨_, _, _, rfl, rfl, ⟨rfl, rfl, rfl, h.data⟩, ?_⟩
      dsimp only; omega
    · refine ⟨_, _, _, rfl, rfl, ⟨rfl, rfl, rfl, h.data⟩, ?_⟩
      dsimp only; omega

theorem getErr_near (K : Nat) : Near K 0 getErr := fun r s h _ => ⟨r.err, r, s, rfl, by unfold getErr; rw [h.err], h, Nat.le_refl _⟩

theorem readUint32_near (K : Nat) : Near K 4 readUint32 := (readFull_near K 4).bind fun _ => Near.pure _

theorem readHeader_near (K : Nat) : Near K 14 readHeader := by
  unfold readHeader
  refine ((readInto_near K (List.replicate 14 0)).bind (k := 0) fun hd => (getErr_near K).bind (k := 0) fun e => ?_)
  cases e with
  | some e => exact Near.pure _
  | none =>
    dsimp only
    split
    · exact Near.pure _
    · split
      · exact Near.pure _
      · split <;> exact Near.pure _

theorem readPrecision_near (K : Nat) (b : Bool) : Near K 4 (readPrecision b) := by
  unfold readPrecision
  split
  · exact readUint32_near K
  · exact (Near.pure _).more (by omega)

/-- the reader reads the file, and is at `k` unless there was an error -/
structure AtByte (D : Bytes) (k : Nat) (r : R) : Prop where
  data : r.data = D
  limit : r.limit = maxString
  pos : r.err = none → r.pos = k

theorem readUint32_value {D : Bytes} {k : Nat} {r : R} (h : AtByte D k r) (hk : k + 4 ≤ maxString) :
    ∃ b r', readUint32 r = .ok (b, r') ∧ AtByte D (k + 4) r' ∧ (b = 0 ∨ b.toNat = fromBE ((D.drop k).take 4)) := by
  unfold readUint32
  cases he : r.err with
  | some e =>
    refine ⟨_, r, M.bind_ok (m := readFull 4) (a := []) (r' := r) ?_, ⟨h.data, h.limit, fun e0 => by rw [he] at e0; cases e0⟩, .inl rfl⟩
    unfold readFull
    rw [he]
  | none =>
    have hp := h.pos he
    by_cases hl : ((D.drop k).take 4).length = 4
    · refine ⟨_, { r with pos := k + 4 }, M.bind_ok (m := readFull 4) (a := (D.drop k).take 4) (r' := { r with pos := k + 4 }) ?_,
        ⟨h.data, h.limit, fun _ => rfl⟩, .inr ?_⟩
      · unfold readFull
        rw [he]
        dsimp only
        rw [h.data, h.limit, hp, Nat.min_eq_left (by omega), if_pos hl]
      · have := fromBE_lt ((D.drop k).take 4)
        rw [hl] at this
        rw [UInt32.toNat_ofNat']
        exact Nat.mod_eq_of_lt this
    · let r' : R := { r with pos := k + ((D.drop k).take 4).length, err := some (if ((D.drop k).take 4).length = 0 then .eof else .unexpectedEOF) }
      refine ⟨_, r', M.bind_ok (m := readFull 4) (a := []) (r' := r') ?_, ⟨h.data, h.limit, fun e0 => by cases e0⟩, .inl rfl⟩
      · unfold readFull
        rw [he]
        dsimp only
        rw [h.data, h.limit, hp, Nat.min_eq_left (by omega), if_neg hl]
        simp only [r', h.data, h.limit]

theorem readHeader_value (D : Bytes) : ∃ x r', readHeader (newReader D) = .ok (x, r') ∧ ∀ m, x = .ok m → AtByte D 14 r' := by
  obtain ⟨m, r, e, hr⟩ := readHeader_fault D
  refine ⟨_, r, e, fun m' hm => ?_⟩
  cases hf : headerFault D with
  | some y => rw [hf] at hm; cases hm
  | none =>
    obtain ⟨rfl, -⟩ := hr hf
    exact ⟨rfl, rfl, fun _ => rfl⟩

/-- **C143**: for a file that does not say that its picture is indexed, `DecodeConfig` returns the same whatever comes behind the first
30 bytes, be it a configuration or an error. -/
theorem C143_head (D E : Bytes) (h : D.take 30 = E.take 30) (hb : fromBE ((D.drop 22).take 4) ≠ 2) : decodeConfig D = decodeConfig E := by
  have h0 : Alike 30 (newReader D) (newReader E) := ⟨rfl, rfl, rfl, h⟩
  obtain ⟨x, r1, s1, e1, f1, h1, p1⟩ := readHeader_near 30 _ _ h0 (show 0 + 14 ≤ 30 by decide)
  obtain ⟨x', r1', e1', hx⟩ := readHeader_value D
  rw [e1] at e1'
  obtain ⟨rfl, rfl⟩ := Prod.mk.inj (Outcome.ok.inj e1')
  have p1 : r1.pos ≤ 14 := p1
  unfold decodeConfig decodeConfigM
  rw [M.bind_ok e1, M.bind_ok f1]
  cases x with
  | error e => rfl
  | ok mode =>
    dsimp only
    have a1 := hx mode rfl
    obtain ⟨w, r2, s2, e2, f2, h2, p2⟩ := readUint32_near 30 _ _ h1 (by omega)
    obtain ⟨w', r2', e2', a2, -⟩ := readUint32_value a1 (by decide)
    rw [e2] at e2'
    obtain ⟨rfl, rfl⟩ := Prod.mk.inj (Outcome.ok.inj e2')
    obtain ⟨ht, r3, s3, e3, f3, h3, p3⟩ := readUint32_near 30 _ _ h2 (by omega)
    obtain ⟨ht', r3', e3', a3, -⟩ := readUint32_value a2 (by decide)
    rw [e3] at e3'
    obtain ⟨rfl, rfl⟩ := Prod.mk.inj (Outcome.ok.inj e3')
    obtain ⟨b, r4, s4, e4, f4, h4, p4⟩ := readUint32_near 30 _ _ h3 (by omega)
    obtain ⟨b', r4', e4', a4, hv⟩ := readUint32_value a3 (by decide)
    rw [e4] at e4'
    obtain ⟨rfl, rfl⟩ := Prod.mk.inj (Outcome.ok.inj e4')
    have hb2 : b ≠ 2 := by
      rintro rfl
      rcases hv with hv | hv
      · cases hv
      · exact hb hv.symm
    obtain ⟨p, r5, s5, e5, f5, h5, -⟩ := readPrecision_near 30 (mode = 2) _ _ h4 (by omega)
    rw [M.bind_ok e2, M.bind_ok e3, M.bind_ok e4, M.bind_ok e5, M.bind_ok f2, M.bind_ok f3, M.bind_ok f4, M.bind_ok f5]
    by_cases h0 : b = 0
    · rw [if_pos h0]
      show Outcome.ok (_, r5.err) = Outcome.ok (_, s5.err)
      rw [h5.err]
    · rw [if_neg h0]
      by_cases h1 : b = 1
      · rw [if_pos h1]
        show Outcome.ok (_, r5.err) = Outcome.ok (_, s5.err)
        rw [h5.err]
      · rw [if_neg h1, if_neg hb2]
        show Outcome.ok (_, r5.err) = Outcome.ok (_, s5.err)
        rw [h5.err]

example : fromBE ((maskedLayer.drop 22).take 4) ≠ 2 ∧ maskedLayer.take 30 = (maskedLayer.take 30 ++ [1, 2, 3]).take 30 ∧
    decodeConfig maskedLayer = .ok (⟨1, 1, some .grayAlpha⟩, none) := ⟨by decide +kernel, by decide +kernel, by rfl⟩

/-- if the result is without an error, so is the reader -/
theorem decodeConfigM_ext (t : Bytes) (D : Bytes) (c : Config) (r : R) (h : decodeConfigM (newReader D) = .ok ((c, none), r)) :
    ∃ r', decodeConfigM (newReader (D ++ t)) = .ok ((c, none), r') := by
  unfold decodeConfigM at h ⊢
  obtain ⟨x, r1, e1, h⟩ := M.bind_inv h
  cases x with
  | error e => cases h
  | ok mode =>
    dsimp only at h
    obtain ⟨w, r2, e2, h⟩ := M.bind_inv h
    obtain ⟨ht, r3, e3, h⟩ := M.bind_inv h
    obtain ⟨b, r4, e4, h⟩ := M.bind_inv h
    obtain ⟨p, r5, e5, h⟩ := M.bind_inv h
    -- the readers are without error up to the precision
    have step : r5.err = none → readHeader (newReader (D ++ t)) = .ok (.ok mode, r1.ext t) ∧ readUint32 (r1.ext t) = .ok (w, r2.ext t) ∧
        readUint32 (r2.ext t) = .ok (ht, r3.ext t) ∧ readUint32 (r3.ext t) = .ok (b, r4.ext t) ∧
        readPrecision (mode = 2) (r4.ext t) = .ok (p, r5.ext t) := by
      intro k5
      have k4 := ((readPrecision_ext (t := t) _).keeps _ _ _ e5).none k5
      have k3 := ((readUint32_ext (t := t)).keeps _ _ _ e4).none k4
      have k2 := ((readUint32_ext (t := t)).keeps _ _ _ e3).none k3
      have k1 := ((readUint32_ext (t := t)).keeps _ _ _ e2).none k2
      exact ⟨readHeader_ext.run _ _ _ e1 k1, readUint32_ext.run _ _ _ e2 k2, readUint32_ext.run _ _ _ e3 k3, readUint32_ext.run _ _ _ e4 k4,
        (readPrecision_ext _).run _ _ _ e5 k5⟩
    have last : ∀ {m : M (Config × Option Err)} {c' : Config}, m = (do let e ← getErr; return (c', e)) → m r5 = .ok ((c, none), r) →
        r5.err = none ∧ m (r5.ext t) = .ok ((c, none), r5.ext t) := by
      intro m c' hm e
      subst hm
      obtain ⟨er, r6, e6, e⟩ := M.bind_inv e
      cases e6
      have hE : r5.err = none := congrArg (fun x => match x with | Outcome.ok ((_, e), _) => e | _ => none) e
      have hC : c' = c := by
        have := congrArg (fun x => match x with | Outcome.ok ((c, _), _) => c | _ => c) e
        exact this
      refine ⟨hE, ?_⟩
      rw [hC]
      show Outcome.ok ((c, (r5.ext t).err), r5.ext t) = _
      rw [show (r5.ext t).err = r5.err from rfl, hE]
    have fin : r5.err = none ∧ ∃ r', (if b = 0 then do
          let e ← getErr
          return ((⟨w.toNat, ht.toNat, some .other⟩ : Config), e)
        else if b = 1 then do
          let e ← getErr
          return (⟨w.toNat, ht.toNat, some .grayAlpha⟩, e)
        else if b = 2 then do
          match ← readImageProperties 2 with
          | .error e => return (⟨w.toNat, ht.toNat, none⟩, some e)
          | .ok p =>
            let e ← getErr
            return (⟨w.toNat, ht.toNat, some (.alphaPalette p.palette)⟩, e)
        else do
          let e ← getErr
          return (⟨w.toNat, ht.toNat, none⟩, e) : M (Config × Option Err)) (r5.ext t) = .ok ((c, none), r') := by
      by_cases h0 : b = 0
      · rw [if_pos h0] at h ⊢
        obtain ⟨k, e⟩ := last rfl h
        exact ⟨k, _, e⟩
      · rw [if_neg h0] at h ⊢
        by_cases h1 : b = 1
        · rw [if_pos h1] at h ⊢
          obtain ⟨k, e⟩ := last rfl h
          exact ⟨k, _, e⟩
        · rw [if_neg h1] at h ⊢
          by_cases h2 : b = 2
          · rw [if_pos h2] at h ⊢
            obtain ⟨y, r6, e6, h⟩ := M.bind_inv h
            cases y with
            | error e => cases h
            | ok pr =>
              dsimp only at h
              obtain ⟨er, r7, e7, h⟩ := M.bind_inv h
              cases e7
              have hE : r6.err = none := congrArg (fun x => match x with | Outcome.ok ((_, e), _) => e | _ => none) h
              have k5 := ((readImageProperties_ext (t := t) _).keeps _ _ _ e6).none hE
              refine ⟨k5, r6.ext t, ?_⟩
              rw [M.bind_ok ((readImageProperties_ext (t := t) _).run _ _ _ e6 hE)]
              have hC := congrArg (fun x => match x with | Outcome.ok ((c, _), _) => c | _ => c) h
              dsimp only at hC
              show Outcome.ok (((⟨w.toNat, ht.toNat, some (.alphaPalette pr.palette)⟩ : Config), (r6.ext t).err), r6.ext t) = _
              rw [show (r6.ext t).err = r6.err from rfl, hE]
              rw [show (⟨w.toNat, ht.toNat, some (.alphaPalette pr.palette)⟩ : Config) = c from hC]
          · rw [if_neg h2] at h ⊢
            obtain ⟨k, e⟩ := last rfl h
            exact ⟨k, _, e⟩
    obtain ⟨k5, r', e'⟩ := fin
    obtain ⟨f1, f2, f3, f4, f5⟩ := step k5
    refine ⟨r', ?_⟩
    rw [M.bind_ok f1]
    dsimp only
    rw [M.bind_ok f2, M.bind_ok f3, M.bind_ok f4, M.bind_ok f5]
    exact e'

/-- **C143**: what `DecodeConfig` returns without an error it returns for every file that begins the same. -/
theorem C143_longer (D t : Bytes) (c : Config) (h : decodeConfig D = .ok (c, none)) : decodeConfig (D ++ t) = .ok (c, none) := by
  unfold decodeConfig at h ⊢
  cases hh : decodeConfigM (newReader D) with
  | panic => rw [hh] at h; cases h
  | hang => rw [hh] at h; cases h
  | ok y =>
    obtain ⟨y, r⟩ := y
    rw [hh] at h
    have hy : y = (c, none) := Outcome.ok.inj h
    subst hy
    obtain ⟨r', e⟩ := decodeConfigM_ext t D c r hh
    rw [e]

example : ∃ c, decodeConfig maskedLayer = .ok (c, none) := ⟨_, rfl⟩

/-- the configuration in the head of a file -/
theorem decodeConfig_head {D : Bytes} {F : Fmt} (hF : FmtOk F) {b : Rect} (hat : HasAt (D.take maxString) 0 (fileHead F b)) :
    decodeConfig D = .ok (⟨(u32 b.dx).toNat, (u32 b.dy).toNat, configModel F.typ (paletteBack F)⟩, none) := by
  have hmax : maxString = 16777216 := rfl
  have hne : fileHead F b ≠ [] := by
    intro h0
    have := congrArg List.length h0
    unfold fileHead at this
    rw [List.length_append, num_length, List.length_nil] at this
    omega
  have s := sees_at hat hne
  have hlt := hasAt_lt hat hne
  have hle := HasAt.le hat hne
  unfold fileHead at s hlt hle
  simp only [List.append_assoc] at s hlt hle
  simp only [List.length_append, num_length, List.length_take] at hlt hle
  have hl : ∀ p, F.palette = some p → p.length < 2 ^ 32 := by
    intro p hp
    have h1 : p.length ≤ (colorMap F.palette).length := by
      rw [hp]
      unfold colorMap prop
      have : p.length ≤ (p.flatMap fun c => [c.1, c.2.1, c.2.2]).length := by
        generalize p = l
        induction l with
        | nil => simp
        | cons a l ih => rw [List.flatMap_cons, List.length_append, List.length_cons]; simp; omega
      simp only [List.length_append]
      omega
    omega
  unfold decodeConfig decodeConfigM
  rw [show newReader D = readerAt D 0 from rfl, M.bind_ok (readHeader_consumes _ s.left)]
  have s := s.right
  dsimp only
  rw [M.bind_ok (int_consumes _ _ s.left)]
  have s := s.right
  rw [M.bind_ok (int_consumes _ _ s.left)]
  have s := s.right
  rw [M.bind_ok (num_consumes _ _ s.left)]
  have s := s.right
  have hpr : ∀ r, readPrecision ((0 : UInt32) = 2) r = .ok (0, r) := fun r => rfl
  rw [M.bind_ok (hpr _)]
  have hg : ∀ r : R, r.err = none → getErr r = .ok (none, r) := by
    intro r hr; unfold getErr; rw [hr]
  rcases hF.kind with ⟨ht, -⟩ | ⟨ht, -⟩ | ⟨ht, -⟩ <;> rw [ht] at s
  · rw [ht, if_pos (by decide), M.bind_ok (hg _ s.1)]
    rfl
  · rw [ht, if_neg (by decide), if_pos (by decide), M.bind_ok (hg _ s.1)]
    rfl
  · have hprops : ∀ r : R, Sees r (colorMap F.palette ++ (prop 17 [1] ++ (num 0 ++ num 0))) → 1 ≤ r.data.length →
        readImageProperties (UInt32.ofNat F.typ) r = .ok (.ok ⟨paletteBack F, 1⟩, r.adv (colorMap F.palette ++ (prop 17 [1] ++ (num 0 ++ num 0))).length) := by
      intro r hr h1
      unfold readImageProperties
      have := imageProps_consumes hF hl (r.data.length - 1) r hr
      rwa [show r.data.length - 1 + 3 = r.data.length + 2 by omega] at this
    rw [ht, show UInt32.ofNat 2 = 2 from rfl] at hprops
    rw [ht, if_neg (by decide), if_neg (by decide), if_pos (by decide),
      M.bind_ok (hprops _ s (show 1 ≤ D.length by omega))]
    dsimp only
    have hg' : ∀ (r : R) (n : Nat), r.err = none → getErr (r.adv n) = .ok (none, r.adv n) := fun r n hr => hg _ hr
    rw [M.bind_ok (hg' _ _ s.1)]
    rfl

theorem fileHead_length (F : Fmt) (b : Rect) :
    (fileHead F b).length = 43 + (match F.palette with | some p => 12 + 3 * p.length | none => 0) := by
  have h3 : ∀ p : List (UInt8 × UInt8 × UInt8), (p.flatMap fun c => [c.1, c.2.1, c.2.2]).length = 3 * p.length := by
    intro p
    induction p with
    | nil => rfl
    | cons a l ih => rw [List.flatMap_cons, List.length_append, List.length_cons, ih]; simp; omega
  unfold fileHead colorMap prop
  cases F.palette with
  | none => simp [num_length, int, fileMagic]
  | some p => simp only [List.length_append, num_length, int, fileMagic, h3, List.length_cons, List.length_nil]; omega

/-- **C143**: of the file that `Encode` writes for a picture, 43 bytes, and 12 and 3 for every colour if it is indexed, are enough for
`DecodeConfig`: with any other bytes behind it returns the size and the colour model of the picture. -/
theorem C143_encoded (wenv : WEnv) (i : Img) (hi : Encodable i) (l : List WCall) (h : runEncode wenv i = some (l, none)) (D : Bytes)
    (size : Nat) (hsz : ExactlyOnce l size) (hmax : size ≤ maxString) (cm : ColorModel) (hcm : i.colorModel = some cm)
    (b : Rect) (hb : i.bounds = some b) (hx : 0 ≤ b.dx ∧ b.dx < 2 ^ 32) (hy : 0 ≤ b.dy ∧ b.dy < 2 ^ 32) (n : Nat)
    (hn : 43 + (match modelBack cm with | .alphaPalette p => 12 + 3 * p.length | _ => 0) ≤ n) (t : Bytes) :
    decodeConfig ((store D l).take n ++ t) = .ok (⟨b.dx.toNat, b.dy.toNat, some (modelBack cm)⟩, none) := by
  obtain ⟨b', h1, ptrs, h2, -⟩ := written wenv i hi l h D size hsz hmax cm hcm
  rw [hb] at h1
  cases h1
  have hF := fmtOk_fmtOf wenv cm
  have hhead : HasAt ((store D l).take maxString) 0 (fileHead (fmtOf wenv cm) b) := by
    simp only [List.append_assoc] at h2
    exact (hasAt_append.1 h2).1
  have hlen : (fileHead (fmtOf wenv cm) b).length ≤ n := by
    rw [fileHead_length]
    refine Nat.le_trans ?_ hn
    have : ∀ (p : List Color) (f : Color → Color) (g : Color → UInt8 × UInt8 × UInt8), 43 + (12 + 3 * (p.map g).length) ≤ 43 + (12 + 3 * (p.map f).length) := by
      intro p f g
      rw [List.length_map, List.length_map]
    cases cm with
    | palette p => exact this p _ _
    | alphaPalette p => exact this p _ _
    | _ => exact Nat.le_refl _
  have hat : HasAt (((store D l).take n ++ t).take maxString) 0 (fileHead (fmtOf wenv cm) b) := by
    have hle : (fileHead (fmtOf wenv cm) b).length ≤ ((store D l).take maxString).length := by
      have := congrArg List.length hhead
      rw [List.length_take, List.length_drop] at this
      omega
    rw [List.length_take] at hle
    unfold HasAt at hhead ⊢
    rw [List.drop_zero, List.take_take, Nat.min_eq_left (by omega)] at hhead ⊢
    rw [List.take_append_of_le_length (by rw [List.length_take]; omega), List.take_take, Nat.min_eq_left hlen]
    exact hhead
  rw [decodeConfig_head hF hat]
  have hc := C43_encoded wenv i hi l h D size hsz hmax cm hcm b hb hx hy
  rw [decodeConfig_head hF hhead] at hc
  exact hc

example : ∃ l size, Encodable (.group sampleLayers) ∧ runEncode goodSink (.group sampleLayers) = some (l, none) ∧ ExactlyOnce l size ∧
    size ≤ maxString ∧ (Img.group sampleLayers).colorModel = some .other ∧
    (∃ b, (Img.group sampleLayers).bounds = some b ∧ (0 ≤ b.dx ∧ b.dx < 2 ^ 32) ∧ 0 ≤ b.dy ∧ b.dy < 2 ^ 32) ∧
    43 + (match modelBack .other with | .alphaPalette p => 12 + 3 * p.length | _ => 0) ≤ 43 := by
  obtain ⟨l, size, h1, h2, h3⟩ := encodes_small (.group sampleLayers) samplePicture_whole samplePicture_encodable goodSink
    (fun _ _ _ _ _ _ => rfl) (fun _ => rfl) rfl (by decide +kernel)
  refine ⟨l, size, samplePicture_encodable, h1, h2, h3, rfl, ⟨groupBounds sampleLayers, ?_, by decide, by decide⟩, by decide⟩
  unfold Img.bounds; rfl

end Limage
