import Verif.Props.RoundTripLoss
/-!
# C43 (encoded images), C44, C52: headers, the size limit of the reader, and strings
-/
namespace Limage
open Spec

/-! ### C52: strings -/

theorem readString_sees {r r' : R} {s : Bytes} (h : readString r = .ok (s, r')) (he : r'.err = none) :
    Utf8 s ∧ s.length + 1 ≤ maxString ∧ (Sees r (Spec.text s) ∨ s = [] ∧ Sees r (num 0)) := by
  have hr := (readString_ext (t := [])).keeps _ _ _ h
  have hrn := hr.none he
  unfold readString at h
  rcases readUint32_cases r hrn with ⟨x, hs, e⟩ | ⟨r1, e, h1, _⟩
  · rw [M.bind_ok e] at h
    split at h
    · rename_i h0
      cases h
      refine ⟨(utf8Valid_iff []).1 (by decide), by decide, .inr ⟨rfl, ?_⟩⟩
      rw [h0] at hs
      exact hs
    · rename_i h0
      split at h
      · exfalso
        obtain ⟨_, r2, e2, h⟩ := M.bind_inv h
        cases h
        cases e2
        exact absurd he (by
          show ((r.adv 4).err.or _) ≠ none
          rw [show (r.adv 4).err = none from hrn]
          simp)
      · rcases readFull_cases x.toNat (r.adv 4) (by
          have : x.toNat ≠ 0 := fun h => h0 (UInt32.toNat_inj.1 h)
          omega) hrn with ⟨bs, hl, hsb, e2⟩ | ⟨r2, e2, h2, _⟩
        · rw [M.bind_ok e2] at h
          rw [M.bind_ok (show getErr ((r.adv 4).adv x.toNat) = .ok (none, (r.adv 4).adv x.toNat) from by
            show (Outcome.ok (r.err, _) : Outcome (Option Err × R)) = _; rw [hrn])] at h
          rw [if_neg (by simp)] at h
          split at h
          · exfalso
            obtain ⟨_, r3, e3, h⟩ := M.bind_inv h
            cases h
            cases e3
            exact absurd he (by
              show (((r.adv 4).adv x.toNat).err.or _) ≠ none
              rw [show ((r.adv 4).adv x.toNat).err = none from hrn]
              simp)
          · rename_i hv
            cases h
            simp only [Bool.or_eq_true, decide_eq_true_eq, Bool.not_eq_true', not_or, Bool.not_eq_false, ne_eq, Decidable.not_not] at hv
            refine ⟨(utf8Valid_iff _).1 hv.2, ?_⟩
            have hb : bs = bs.dropLast ++ [0] := by
              have := hv.1
              rw [List.getLast?_eq_some_iff] at this
              obtain ⟨ys, rfl⟩ := this
              rw [List.dropLast_concat]
            have hlen : bs.dropLast.length + 1 = x.toNat := by
              have := congrArg List.length hb
              rw [List.length_append, hl] at this
              exact this.symm
            refine ⟨by omega, .inl ?_⟩
            unfold Spec.text
            rw [List.append_assoc, ← hb, hlen]
            obtain ⟨_, ⟨t1, ht1⟩, hl1⟩ := hs
            obtain ⟨_, ⟨t2, ht2⟩, hl2⟩ := hsb
            have h4 : (be 4 x.toNat).length = 4 := be_length ..
            refine ⟨hrn, ⟨t2, ?_⟩, ?_⟩
            · show _ = num x.toNat ++ bs ++ t2
              rw [ht1, List.append_assoc]
              congr 1
              have : (r.data.drop r.pos).drop 4 = bs ++ t2 := by rw [List.drop_drop]; exact ht2
              rw [ht1, List.drop_append_of_le_length (Nat.le_of_eq h4.symm), List.drop_of_length_le (Nat.le_of_eq h4)] at this
              exact this
            · rw [List.length_append, num_length]
              have : r.pos + 4 + bs.length ≤ r.limit := hl2
              omega
        · exfalso
          rw [M.bind_ok e2] at h
          obtain ⟨e3, hm⟩ := Option.isSome_iff_exists.1 h2
          rw [M.bind_ok (show getErr r2 = .ok (some e3, r2) from by show (Outcome.ok (r2.err, _) : Outcome (Option Err × R)) = _; rw [hm])] at h
          rw [if_pos (by rfl)] at h
          cases h
          rw [he] at hm; cases hm
  · exfalso
    rw [M.bind_ok e] at h
    cases h
    rw [he] at h1; cases h1

theorem Sees.hasAt {r : R} {b : Bytes} (h : Sees r b) : HasAt r.data r.pos b := by
  obtain ⟨_, ⟨t, ht⟩, _⟩ := h
  unfold HasAt
  rw [ht, List.take_left]

/-- C52, what is accepted: `ReadString` returns a string without an error only if the file has that string there, closed by a
zero and valid UTF-8, or the length zero. -/
theorem C52_accepted (r r' : R) (s : Bytes) (h : readString r = .ok (s, r')) (he : r'.err = none) :
    Utf8 s ∧ s.length < maxString ∧ (HasAt r.data r.pos (Spec.text s) ∨ s = [] ∧ HasAt r.data r.pos (num 0)) := by
  obtain ⟨h1, h3, h2⟩ := readString_sees h he
  exact ⟨h1, h3, h2.imp Sees.hasAt (And.imp_right Sees.hasAt)⟩

/-- "é" is read, with and without other bytes after it -/
example : ∃ r', readString (newReader [0, 0, 0, 3, 0xc3, 0xa9, 0, 7]) = .ok ([0xc3, 0xa9], r') ∧ r'.err = none := ⟨_, rfl, rfl⟩

/-- C52, what is read: a valid string in front of the limit of the reader. -/
theorem C52_read (r : R) (s : Bytes) (hu : Utf8 s) (hl : s.length + 1 ≤ maxString) (hr : r.err = none) (hat : HasAt r.data r.pos (Spec.text s))
    (hlim : r.pos + s.length + 5 ≤ r.limit) : ∃ r', readString r = .ok (s, r') ∧ r'.err = none ∧ r'.pos = r.pos + s.length + 5 := by
  have hlen : (Spec.text s).length = s.length + 5 := by
    unfold Spec.text
    rw [List.length_append, List.length_append, num_length, List.length_singleton]
    omega
  have hs : Sees r (Spec.text s) := by
    refine ⟨hr, ⟨r.data.drop (r.pos + (Spec.text s).length), ?_⟩, by omega⟩
    have := (List.take_append_drop (Spec.text s).length (r.data.drop r.pos)).symm
    rw [hat] at this
    rw [this, List.drop_drop]
  refine ⟨_, readText_consumes s hl hu r hs, hr, ?_⟩
  show r.pos + (Spec.text s).length = _
  omega

example : Utf8 [0xc3, 0xa9] ∧ HasAt [9, 0, 0, 0, 3, 0xc3, 0xa9, 0] 1 (Spec.text [0xc3, 0xa9]) :=
  ⟨(utf8Valid_iff _).1 (by decide), by unfold HasAt; decide⟩

/-- C52, what is rejected: bytes whose last is not zero, or that are not valid UTF-8 in front of it. -/
theorem C52_rejected (r : R) (b : Bytes) (h0 : b ≠ []) (hl : b.length < 2 ^ 32) (hat : HasAt r.data r.pos (num b.length ++ b))
    (hbad : ∀ s, Utf8 s → b ≠ s ++ [0]) (s : Bytes) (r' : R) (h : readString r = .ok (s, r')) : r'.err ≠ none := by
  intro he
  have hmax : maxString = 16777216 := rfl
  obtain ⟨hu, hlt, h1 | ⟨-, h1⟩⟩ := C52_accepted r r' s h he
  · unfold Spec.text at h1
    rw [List.append_assoc] at h1
    obtain ⟨g1, g2⟩ := hasAt_append.1 hat
    obtain ⟨k1, k2⟩ := hasAt_append.1 h1
    have e1 : num b.length = num (s.length + 1) := by
      unfold HasAt at g1 k1
      rw [← g1, ← k1, num_length, num_length]
    have hls : s.length + 1 = b.length := by
      have e2 := congrArg fromBE e1
      unfold num at e2
      rw [fromBE_be, fromBE_be] at e2
      omega
    unfold HasAt at g2 k2
    rw [num_length] at g2 k2
    have : b = s ++ [0] := by
      rw [← g2, ← k2, List.length_append, List.length_singleton, hls]
    exact hbad s hu this
  · obtain ⟨g1, g2⟩ := hasAt_append.1 hat
    have e1 : num b.length = num 0 := by
      unfold HasAt at g1 h1
      rw [← g1, ← h1, num_length, num_length]
    have e2 := congrArg fromBE e1
    unfold num at e2
    rw [fromBE_be, fromBE_be] at e2
    have := List.length_pos_iff.2 h0
    omega

example : ∀ s, Utf8 s → ([0xff, 0] : Bytes) ≠ s ++ [0] := by
  intro s hs h
  have : s = [0xff] := by
    have := congrArg List.dropLast h
    rw [List.dropLast_concat] at this
    exact this.symm
  subst this
  exact absurd ((utf8Valid_iff _).2 hs) (by decide)

/-! ### C44, C52: the limit of the reader -/

theorem sees_unique {r : R} {a b : Bytes} (ha : HasAt r.data r.pos a) (hb : Sees r b) (hl : a.length = b.length) : a = b := by
  have := hb.hasAt
  unfold HasAt at ha this
  rw [← ha, ← this, hl]

theorem Ext.keeps_self {α : Type} {m : M α} (h : Ext [] m m) : Keeps m := h.keeps

/-- a layer that is read has its name in front of the limit -/
theorem readLayer_name {c : Ctx} {D : Bytes} {p : Nat} {l : DLayer} {r' : R} (h : readLayer c (readerAt D p) = .ok (l, r')) (he : r'.err = none)
    {a name rest : Bytes} (ha : a.length = 12) (hn : name.length + 1 < 2 ^ 32) (hat : HasAt D p (a ++ (Spec.text name ++ rest))) :
    p + 17 + name.length ≤ maxString := by
  have hmax : maxString = 16777216 := rfl
  have hk : (readerAt D p).err = none := rfl
  unfold readLayer at h
  obtain ⟨w, r1, e1, h⟩ := M.bind_inv h
  obtain ⟨ht, r2, e2, h⟩ := M.bind_inv h
  obtain ⟨ty, r3, e3, h⟩ := M.bind_inv h
  split at h
  · exfalso
    obtain ⟨_, r4, e4, h⟩ := M.bind_inv h
    cases h
    cases e4
    exact absurd he (by
      show (r3.err.or _) ≠ none
      cases r3.err <;> simp)
  · obtain ⟨s, r4, e4, h⟩ := M.bind_inv h
    have k4 : r4.err = none := by
      refine Keep.none (b := r') ?_ he
      refine Ext.keeps_self ?_ _ _ _ h
      refine (readLayerProperties_ext c).bind fun s => (readPtr_ext _).bind fun hp =>
        (readPtr_ext _).bind fun mp => (goto_ext _).bind fun _ => ?_
      refine Ext.bind ?_ fun o => ?_
      · unfold layerImage
        refine Ext.ite (Ext.pure _) ((readImage_ext _ _ _ _).bind fun x => ?_)
        cases x <;> exact Ext.pure _
      · cases o with
        | none => exact Ext.pure _
        | some im =>
          refine (layerText_ext _ _ _).bind fun o => ?_
          cases o with
          | none => exact Ext.pure _
          | some im =>
            exact Ext.ite ((goto_ext _).bind fun _ => (readMask_ext _ _ _).bind fun _ => Ext.pure _) (Ext.pure _)
    have k3 := ((readString_ext (t := [])).keeps _ _ _ e4).none k4
    have k2 := ((readUint32_ext (t := [])).keeps _ _ _ e3).none k3
    have k1 := ((readUint32_ext (t := [])).keeps _ _ _ e2).none k2
    obtain ⟨d1, l1, _⟩ := (readUint32_ext (t := [])).keeps _ _ _ e1
    obtain ⟨d2, l2, _⟩ := (readUint32_ext (t := [])).keeps _ _ _ e2
    obtain ⟨d3, l3, _⟩ := (readUint32_ext (t := [])).keeps _ _ _ e3
    have p1 := (readUint32_inside _ _ _ e1 k1).1
    have p2 := (readUint32_inside _ _ _ e2 k2).1
    have p3 := (readUint32_inside _ _ _ e3 k3).1
    have hpos : r3.pos = p + 12 := by
      have : (readerAt D p).pos = p := rfl
      omega
    have hdat : r3.data = D := by rw [d3, d2, d1]; rfl
    have hlim : r3.limit = maxString := by rw [l3, l2, l1]; rfl
    obtain ⟨_, h2⟩ := hasAt_append.1 hat
    rw [ha, ← hpos, ← hdat, hasAt_append] at h2
    have h2 := h2.1
    unfold Spec.text at h2
    rw [List.append_assoc, hasAt_append] at h2
    obtain ⟨_, hs, h5 | ⟨_, h5⟩⟩ := readString_sees e4 k4
    · have hlen : (Spec.text s).length = s.length + 5 := by
        unfold Spec.text
        rw [List.length_append, List.length_append, num_length, List.length_singleton]
        omega
      have hle := h5.2.2
      rw [hlen, hpos, hlim] at hle
      unfold Spec.text at h5
      rw [List.append_assoc] at h5
      have := sees_unique h2.1 h5.left (by rw [num_length, num_length])
      have := congrArg fromBE this
      unfold num at this
      rw [fromBE_be, fromBE_be] at this
      omega
    · have := sees_unique h2.1 h5 (by rw [num_length, num_length])
      have := congrArg fromBE this
      unfold num at this
      rw [fromBE_be, fromBE_be] at this
      omega

theorem layerAt_ne_zero {D : Bytes} {F : Fmt} {p : Nat} {r : Placed} (hF : FmtOk F) (h0 : HasAt D 0 fileMagic) (h : LayerAt D F p r) : p ≠ 0 := by
  obtain ⟨t, hh, m, _, h1, _⟩ := h
  rintro rfl
  unfold HasAt at h0 h1
  rw [List.drop_zero] at h0 h1
  rw [layerHead_eq] at h1
  simp only [List.append_assoc] at h1
  generalize Spec.text r.layer.name ++ _ = rest at h1
  rw [← List.append_assoc] at h1
  have hl : (int r.layer.bounds.dx ++ int r.layer.bounds.dy).length = 8 := by
    rw [List.length_append]; exact congrArg₂ (· + ·) (num_length _) (num_length _)
  have a1 : D[8]? = some 32 := by
    have := congrArg (fun l : Bytes => l[8]?) h0
    rw [List.getElem?_take_of_lt (by decide)] at this
    rw [this]; rfl
  have a2 : D[8]? = some 0 := by
    have := congrArg (fun l : Bytes => l[8]?) h1
    rw [List.getElem?_append_right (by omega), hl] at this
    rw [List.getElem?_take_of_lt (by simp only [List.length_append, hl, num_length]; omega)] at this
    rw [this]
    rcases hF.kind with ⟨h, _⟩ | ⟨h, _⟩ | ⟨h, _⟩ <;> rw [h] <;> rfl
  rw [a1] at a2
  cases a2

/-- an image is only read if all its layers start in front of the limit -/
theorem layers_in_front {env : Env} {sch : Sched} (hv : sch.Valid) {decompress : Bool} {D : Bytes} {size : Nat} {im : List Layer}
    (h : decodeImage env sch decompress D = .ok (.ok im)) {F : Fmt} (hF : FmtOk F) {b : Rect} {ptrs : List Nat} {ls : List Placed}
    (hat : HasAt (D.take size) 0 (fileHead F b ++ ptrs.flatMap num ++ num 0 ++ num 0))
    (hls : List.Forall₂ (LayerAt (D.take size) F) ptrs ls) (hsz : size ≤ 2 ^ 32)
    (hhead : (fileHead F b ++ ptrs.flatMap num ++ num 0 ++ num 0).length ≤ maxString)
    (hnames : ∀ r ∈ ls, r.layer.name.length + 1 < 2 ^ 32) :
    List.Forall₂ (fun p r => p + 17 + r.layer.name.length ≤ maxString) ptrs ls := by
  have hD : ∀ p b, HasAt (D.take size) p b → HasAt D p b := fun p b hb => by
    have := hasAt_take_le (m := max size D.length) (Nat.le_max_left ..) p b hb
    rwa [List.take_of_length_le (Nat.le_max_right ..)] at this
  have hat' : HasAt (D.take maxString) 0 (fileHead F b ++ ptrs.flatMap num ++ num 0 ++ num 0) := by
    have := hD _ _ hat
    unfold HasAt at this ⊢
    rw [List.drop_zero] at this ⊢
    rw [List.take_take, Nat.min_eq_left hhead]
    exact this
  have hmagic : HasAt (D.take size) 0 fileMagic := by
    unfold fileHead at hat
    simp only [List.append_assoc] at hat
    exact (hasAt_append.1 hat).1
  have hpos : ∀ p r, LayerAt (D.take size) F p r → p ≠ 0 ∧ p < 2 ^ 32 := by
    intro p r hl
    refine ⟨layerAt_ne_zero hF hmagic hl, ?_⟩
    obtain ⟨t, hh, m, _, h1, _⟩ := hl
    have hne : layerHead F r t ++ num hh ++ num m ≠ [] := by
      intro h0
      have := congrArg List.length h0
      rw [List.length_append, num_length, List.length_nil] at this
      omega
    have := HasAt.le h1 hne
    have h2 := List.length_pos_iff.2 hne
    rw [List.length_take] at this
    omega
  obtain ⟨hd, r, g1, g2, g3⟩ := C48_no_error env sch hv decompress D im h
  obtain ⟨r', g4⟩ := readHead_at hF hat' fun p hp => by
    obtain ⟨x, -, hx⟩ := forall₂_right hls hp
    exact hpos p x hx
  rw [g1] at g4
  injection g4 with g4
  injection g4 with g4 _
  injection g4 with g4
  subst g4
  dsimp only at g3
  have key : ∀ p r, p ∈ ptrs → r ∈ ls → LayerAt (D.take size) F p r → p + 17 + r.layer.name.length ≤ maxString := by
    intro p r hp hr hl
    obtain ⟨l, r2, e1, e2⟩ := g3 _ (List.mem_map_of_mem hp)
    rw [M.bind_ok (goto_any (D := D) (hpos p r hl).2 rfl rfl rfl)] at e1
    obtain ⟨t, hh, m, _, h1, _⟩ := hl
    rw [layerHead_eq] at h1
    have h1 := hD _ _ h1
    have e : layerHead F r t ++ num hh ++ num m = (int r.layer.bounds.dx ++ int r.layer.bounds.dy ++ num (2 * F.typ + 1)) ++ (Spec.text r.layer.name ++
      (((layerPropList F r t).flatMap fun p => prop p.1 p.2) ++ (num 0 ++ num 0) ++ num hh ++ num m)) := by
      rw [layerHead_eq]
      simp only [List.append_assoc]
    rw [← layerHead_eq, e] at h1
    refine readLayer_name e1 e2 ?_ (hnames r hr) h1
    rw [List.length_append, List.length_append]
    exact congrArg₂ (· + ·) (congrArg₂ (· + ·) (num_length _) (num_length _)) (num_length _)
  clear g1 g3 hat hat' hhead h
  induction hls with
  | nil => exact .nil
  | cons h1 h2 ih =>
    refine .cons (key _ _ (List.mem_cons_self ..) (List.mem_cons_self ..) h1) (ih (fun r hr => hnames r (List.mem_cons_of_mem _ hr)) ?_)
    intro p r hp hr hl
    exact key p r (List.mem_cons_of_mem _ hp) (List.mem_cons_of_mem _ hr) hl

theorem head_length (F : Fmt) (b : Rect) (ptrs : List Nat) :
    (fileHead F b ++ ptrs.flatMap num ++ num 0 ++ num 0).length ≤ 80 + 3 * (F.palette.getD []).length + 4 * ptrs.length := by
  have h1 : (int b.dx).length = 4 := num_length _
  have h2 : (int b.dy).length = 4 := num_length _
  have h3 : fileMagic.length = 14 := rfl
  have h4 : (colorMap F.palette).length ≤ 12 + 3 * (F.palette.getD []).length := by
    unfold colorMap
    cases F.palette with
    | none => exact Nat.zero_le _
    | some p =>
      have : (p.flatMap fun c => [c.1, c.2.1, c.2.2]).length = 3 * p.length := by
        induction p with
        | nil => rfl
        | cons a l ih => rw [List.flatMap_cons, List.length_append, ih, List.length_cons]; simp; omega
      unfold prop
      simp only [List.length_append, num_length, this, Option.getD_some]
      omega
  unfold fileHead prop
  simp only [List.length_append, num_length, flatMap_num_length, h1, h2, h3, List.length_singleton]
  omega

/-- C44 and C52, what is not read: whatever the picture, if one of its layers has a name of almost 16 MiB, the file is written but
nothing can be read from it. -/
theorem C44_long_name (wenv : WEnv) (env : Env) (sch : Sched) (hv : sch.Valid) (decompress : Bool) (i : Img)
    (hi : Encodable i) (l : List WCall) (h : runEncode wenv i = some (l, none)) (D : Bytes)
    (size : Nat) (hsz : ExactlyOnce l size) (h32 : size ≤ 2 ^ 32) (cm : ColorModel) (hcm : i.colorModel = some cm)
    (hhead : 80 + 3 * ((fmtOf wenv cm).palette.getD []).length + 4 * (layersOf i).length ≤ maxString)
    (r : Placed) (hr : r ∈ layersOf i) (hlong : maxString < r.layer.name.length + 18) (im : List Layer) :
    decodeImage env sch decompress (store D l) ≠ .ok (.ok im) := by
  intro hd
  obtain ⟨size', cm', h1, h2, b, h3, ptrs, h4, h5⟩ := C36_layout wenv i hi l h D
  rw [hcm] at h2
  cases h2
  cases h1.unique hsz
  have hlen := h5.length_eq
  have hF := fmtOk_fmtOf wenv cm
  have hn : ∀ r ∈ layersOf i, r.layer.name.length + 1 < 2 ^ 32 := by
    intro r hr
    obtain ⟨p, -, t, hh, m, _, h6, _⟩ := forall₂_left h5 hr
    have hne : layerHead (fmtOf wenv cm) r t ++ num hh ++ num m ≠ [] := by
      intro h0
      have := congrArg List.length h0
      rw [List.length_append, num_length, List.length_nil] at this
      omega
    have := HasAt.le h6 hne
    rw [layerHead_eq] at this
    have h9 : (Spec.text r.layer.name).length = r.layer.name.length + 5 := by
      unfold Spec.text
      rw [List.length_append, List.length_append, num_length, List.length_singleton]
      omega
    simp only [List.length_append, h9, List.length_take, num_length] at this
    omega
  have := layers_in_front hv hd hF h4 h5 h32 (Nat.le_trans (head_length _ _ _) (by omega)) hn
  obtain ⟨p, hp, h6⟩ := forall₂_left this hr
  obtain ⟨x, -, hx⟩ := forall₂_right h5 hp
  have hmagic : HasAt ((store D l).take size) 0 fileMagic := by
    unfold fileHead at h4
    simp only [List.append_assoc] at h4
    exact (hasAt_append.1 h4).1
  have := layerAt_ne_zero hF hmagic hx
  omega

/-- a picture of one point with a name -/
def named (name : Bytes) : List Layer :=
  [⟨name, ⟨0, 0, 1, 1⟩, Mode.normal, false, 0, .leaf ⟨⟨0, 0, 1, 1⟩, .other, fun _ => some (.nrgba 1 2 3 4)⟩⟩]

theorem named_encodable (name : Bytes) : Encodable (.group (named name)) := by
  refine ⟨?_, by simp only [named, total, totalIn]; decide⟩
  unfold named
  simp only [EveryLayer, EveryIn, LayerSizeOk, pixelsOf, maskOf, SizeOk, Img.bounds, Option.some.injEq,
    forall_eq', reduceCtorEq, false_implies, implies_true, and_true]
  decide

theorem named_whole (name : Bytes) : Whole (.group (named name)) := by
  unfold Whole WholeLayers named Whole WholeLayers
  exact ⟨fun _ => rfl, trivial⟩

theorem named_layers (name : Bytes) : ∃ r, layersOf (.group (named name)) = [r] ∧ r.layer.name = name ∧
    ∀ wenv, fileBytes (fmtOf wenv .other) (.group (named name)) ≤ 20000 + name.length := by
  have hl : layersOf (.group (named name)) = placed (named name) 0 0 0 [] := rfl
  unfold named placed placedIn placed at hl
  refine ⟨_, hl, rfl, fun wenv => ?_⟩
  unfold fileBytes
  unfold named
  rw [hl, List.nil_append, List.nil_append, List.map_cons, List.map_nil, List.sum_cons, List.sum_nil]
  simp only [layerBytes, textBytes, textOf, pixelsOf, maskOf, maskBytes, Img.bounds, pixelBytes, List.length_cons, List.length_nil]
  rw [show tilesAlong (⟨0, 0, 1, 1⟩ : Rect).dx = 1 from rfl, show tilesAlong (⟨0, 0, 1, 1⟩ : Rect).dy = 1 from rfl]
  have h1 := bpp_le wenv .other
  have h2 : ((fmtOf wenv .other).palette.getD []).length = 0 := rfl
  omega

theorem named_lost (wenv : WEnv) (hw : Works wenv) (name : Bytes) (h1 : maxString < name.length + 18) (h2 : name.length ≤ 2 ^ 31) :
    ∃ l, runEncode wenv (.group (named name)) = some (l, none) ∧
      ∀ (env : Env) (sch : Sched), sch.Valid → ∀ (decompress : Bool) (D : Bytes) (im : List Layer),
        decodeImage env sch decompress (store D l) ≠ .ok (.ok im) := by
  obtain ⟨l, h⟩ := C74_encode_succeeds wenv _ (named_whole name) (noText_fits wenv (by simp [layersOf, named, placed, placedIn, textOf])) hw
  obtain ⟨size, hsz⟩ := C34_once wenv _ (named_encodable name) l h
  obtain ⟨r, e1, e2, e3⟩ := named_layers name
  have hs := encode_size wenv _ (named_encodable name) l h .other rfl size hsz
  have := e3 wenv
  refine ⟨l, h, fun env sch hv decompress D im => ?_⟩
  refine C44_long_name wenv env sch hv decompress _ (named_encodable name) l h D size hsz (by omega) .other rfl ?_ r ?_ ?_ im
  · rw [e1]; exact (by decide : 80 + 3 * 0 + 4 * 1 ≤ maxString)
  · rw [e1]; exact List.mem_singleton_self _
  · rw [e2]; exact h1

-- a name of 16777200 bytes
example : ∃ l, runEncode goodSink (.group (named (List.replicate 16777200 97))) = some (l, none) ∧ ∀ (sch : Sched), sch.Valid → ∀ D im,
    decodeImage exEnv sch true (store D l) ≠ .ok (.ok im) := by
  obtain ⟨l, h1, h2⟩ := named_lost goodSink (fun _ => rfl) (List.replicate 16777200 97) (by rw [List.length_replicate]; decide)
    (by rw [List.length_replicate]; decide)
  exact ⟨l, h1, fun sch hv D im => h2 exEnv sch hv true D im⟩

/-- C44 is false.  A file can be too large to be read. -/
theorem C44_refuted (wenv : WEnv) (hw : Works wenv) :
    ∃ (i : Img) (l : List WCall), runEncode wenv i = some (l, none) ∧
      ∀ (env : Env) (sch : Sched), sch.Valid → ∀ (decompress : Bool) (D : Bytes) (im : List Layer),
        decodeImage env sch decompress (store D l) ≠ .ok (.ok im) := by
  have hm : maxString = 16777216 := rfl
  obtain ⟨l, h1, h2⟩ := named_lost wenv hw (List.replicate maxString 97) (by rw [List.length_replicate]; omega) (by rw [List.length_replicate]; decide)
  exact ⟨_, l, h1, h2⟩

example : Works goodSink := fun _ => rfl

theorem utf8_ascii (n : Nat) : Utf8 (List.replicate n 97) := by
  refine (utf8Valid_iff _).1 ?_
  induction n with
  | zero => decide
  | succ n ih =>
    rw [List.replicate_succ]
    unfold utf8Valid
    exact ih

/-- C52 is false.  A name can be valid UTF-8 and shorter than 16 MiB, and yet not be read: the file has to end in front of 16 MiB. -/
theorem C52_refuted (wenv : WEnv) (hw : Works wenv) :
    ∃ (name : Bytes) (l : List WCall), Utf8 name ∧ name.length < maxString ∧ runEncode wenv (.group (named name)) = some (l, none) ∧
      ∀ (env : Env) (sch : Sched), sch.Valid → ∀ (decompress : Bool) (D : Bytes) (im : List Layer),
        decodeImage env sch decompress (store D l) ≠ .ok (.ok im) := by
  have hm : maxString = 16777216 := rfl
  obtain ⟨l, h1, h2⟩ := named_lost wenv hw (List.replicate (maxString - 1) 97) (by rw [List.length_replicate]; omega) (by rw [List.length_replicate]; omega)
  exact ⟨_, l, utf8_ascii _, by rw [List.length_replicate]; omega, h1, h2⟩

example : Works goodSink := fun _ => rfl

/-- C44 (the part that holds).  A picture whose file needs at most 16 MiB is read back; `fileBytes` bounds the size of the file.
Full statement: the same without `hsize`; false by `C44_refuted`. -/
theorem C44_small_partial (wenv : WEnv) (hw : Works wenv) (g : List Layer) (ht : TextsFit wenv (.group g)) (hwh : Whole (.group g)) (hi : Encodable (.group g))
    (cm : ColorModel) (hcm : (Img.group g).colorModel = some cm) (hsize : fileBytes (fmtOf wenv cm) (.group g) ≤ maxString)
    (hx : (groupBounds g).dx ≤ 2 ^ 31) (hy : (groupBounds g).dy ≤ 2 ^ 31) :
    ∃ l, runEncode wenv (.group g) = some (l, none) ∧
      ∀ (env : Env) (sch : Sched), sch.Valid → ∀ D : Bytes,
        (∀ r ∈ placed g 0 0 0 [], Storable (fmtOf wenv cm) (parsesTo env) (groupBounds g).dx (groupBounds g).dy r) →
        ∃ g', decodeImage env sch true (store D l) = .ok (.ok g') := by
  obtain ⟨l, size, h1, h2, h3⟩ := encodes_small _ hwh hi wenv ht hw hcm hsize
  refine ⟨l, h1, fun env sch hv D hs => ?_⟩
  obtain ⟨g', h4, -⟩ := round_trip wenv env sch hv true g hi l h1 D size h2 h3 cm hcm (.inl rfl) hx hy hs
  exact ⟨_, h4⟩

example : Works goodSink ∧ TextsFit goodSink (.group sampleLayers) ∧ Whole (.group sampleLayers) ∧ Encodable (.group sampleLayers) ∧ (Img.group sampleLayers).colorModel = some .other ∧
    fileBytes (fmtOf goodSink .other) (.group sampleLayers) ≤ maxString ∧
    (groupBounds sampleLayers).dx ≤ 2 ^ 31 ∧ (groupBounds sampleLayers).dy ≤ 2 ^ 31 :=
  ⟨fun _ => rfl, fun _ _ _ _ _ _ => rfl, samplePicture_whole, samplePicture_encodable, rfl, by decide +kernel, by decide, by decide⟩

/-! ### C43: the header of an encoded image -/

/-- Specification: the colour model `DecodeConfig` returns for an image with the given colour model; the colours of a palette keep
their upper bytes. -/
def Spec.modelBack : ColorModel → ColorModel
  | .gray | .gray16 | .grayAlpha => .grayAlpha
  | .palette p | .alphaPalette p => .alphaPalette (p.map fun c =>
      .lrgb (UInt8.ofNat (c.rgba32.r.toNat / 256)) (UInt8.ofNat (c.rgba32.g.toNat / 256)) (UInt8.ofNat (c.rgba32.b.toNat / 256)))
  | _ => .other

theorem high_byte (x : UInt32) : (x >>> 8).toUInt8 = UInt8.ofNat (x.toNat / 256) := by
  apply UInt8.toNat_inj.1
  rw [UInt32.toNat_toUInt8, UInt32.toNat_shiftRight, UInt8.toNat_ofNat']
  show (x.toNat >>> 8) % 2 ^ 8 = _
  rw [Nat.shiftRight_eq_div_pow]

theorem paletteBack_high (wenv : WEnv) (cm : ColorModel) (p : List Color) (h : (fmtOf wenv cm).palette = some (p.map rgbModel)) :
    paletteBack (fmtOf wenv cm) = p.map fun c =>
      .lrgb (UInt8.ofNat (c.rgba32.r.toNat / 256)) (UInt8.ofNat (c.rgba32.g.toNat / 256)) (UInt8.ofNat (c.rgba32.b.toNat / 256)) := by
  unfold paletteBack
  rw [h, Option.getD_some, List.map_map]
  apply List.map_congr_left
  intro c _
  show Color.lrgb (c.rgba32.r >>> 8).toUInt8 (c.rgba32.g >>> 8).toUInt8 (c.rgba32.b >>> 8).toUInt8 = _
  rw [high_byte, high_byte, high_byte]

/-- C43 for encoded images: `DecodeConfig` of a file that `Encode` has written returns width and height of the image, and its
colour model as far as the format has it. -/
theorem C43_encoded (wenv : WEnv) (i : Img) (hi : Encodable i) (l : List WCall) (h : runEncode wenv i = some (l, none)) (D : Bytes)
    (size : Nat) (hsz : ExactlyOnce l size) (hmax : size ≤ maxString) (cm : ColorModel) (hcm : i.colorModel = some cm)
    (b : Rect) (hb : i.bounds = some b) (hx : 0 ≤ b.dx ∧ b.dx < 2 ^ 32) (hy : 0 ≤ b.dy ∧ b.dy < 2 ^ 32) :
    decodeConfig (store D l) = .ok (⟨b.dx.toNat, b.dy.toNat, some (modelBack cm)⟩, none) := by
  obtain ⟨b', h1, ptrs, h2, h3⟩ := written wenv i hi l h D size hsz hmax cm hcm
  rw [hb] at h1
  cases h1
  have hF := fmtOk_fmtOf wenv cm
  have hmagic : HasAt ((store D l).take maxString) 0 fileMagic := by
    have h4 := h2
    unfold fileHead at h4
    simp only [List.append_assoc] at h4
    exact (hasAt_append.1 h4).1
  obtain ⟨r', e⟩ := readHead_at hF h2 fun p hp => by
    obtain ⟨x, -, hx⟩ := forall₂_right h3 hp
    exact layerAt_pos hF hmagic hx
  rw [config_of_head _ _ _ e (.inl (show (0 : UInt32) ≠ 1 by decide)) (show (0 : UInt32).toNat ≤ 2 by decide)]
  dsimp only
  obtain ⟨w, hw⟩ := Int.eq_ofNat_of_zero_le hx.1
  obtain ⟨ht, hht⟩ := Int.eq_ofNat_of_zero_le hy.1
  rw [hw, hht, u32_nat, u32_nat, u32_toNat (by omega), u32_toNat (by omega)]
  congr 5
  cases cm with
  | palette p => exact congrArg (fun q => some (ColorModel.alphaPalette q)) (paletteBack_high wenv (.palette p) p rfl)
  | alphaPalette p => exact congrArg (fun q => some (ColorModel.alphaPalette q)) (paletteBack_high wenv (.alphaPalette p) p rfl)
  | _ => rfl

example : ∃ l size, Encodable (.group sampleLayers) ∧ runEncode goodSink (.group sampleLayers) = some (l, none) ∧ ExactlyOnce l size ∧
    size ≤ maxString ∧ (Img.group sampleLayers).colorModel = some .other ∧
    ∃ b, (Img.group sampleLayers).bounds = some b ∧ (0 ≤ b.dx ∧ b.dx < 2 ^ 32) ∧ 0 ≤ b.dy ∧ b.dy < 2 ^ 32 := by
  obtain ⟨l, size, h1, h2, h3⟩ := encodes_small (.group sampleLayers) samplePicture_whole samplePicture_encodable goodSink
    (fun _ _ _ _ _ _ => rfl) (fun _ => rfl) rfl (by decide +kernel)
  refine ⟨l, size, samplePicture_encodable, h1, h2, h3, rfl, groupBounds sampleLayers, ?_, by decide, by decide⟩
  unfold Img.bounds; rfl

/-- C43 is false for the colour model: the images have the colour model `modelBack`, which is another one for gray images and images
with a palette of 16 bits. -/
theorem C43_model_refuted (wenv : WEnv) (hw : Works wenv) (cm : ColorModel) (hcm : modelBack cm ≠ cm)
    (hp : ((fmtOf wenv cm).palette.getD []).length ≤ 256) :
    ∃ (g : List Layer) (l : List WCall), (Img.group g).colorModel = some cm ∧ runEncode wenv (.group g) = some (l, none) ∧
      ∀ D : Bytes, ∃ c, decodeConfig (store D l) = .ok (c, none) ∧ c.model ≠ some cm := by
  have hsize : fileBytes (fmtOf wenv cm) (.group ([(Mode.normal, cm, Color.nrgba 1 2 3 255)].map dot)) ≤ maxString := by
    have := dots_size (fmtOf wenv cm) (bpp_le _ _) [(Mode.normal, cm, Color.nrgba 1 2 3 255)] 0
    unfold fileBytes
    have hl : layersOf (.group ([(Mode.normal, cm, Color.nrgba 1 2 3 255)].map dot)) = placed ([(Mode.normal, cm, Color.nrgba 1 2 3 255)].map dot) 0 0 0 [] := rfl
    rw [hl]
    have hm : maxString = 16777216 := rfl
    rw [List.length_singleton] at this
    omega
  have hwh : Whole (.group ([(Mode.normal, cm, Color.nrgba 1 2 3 255)].map dot)) := by unfold Whole; exact dots_whole _
  have he := dots_encodable [(Mode.normal, cm, Color.nrgba 1 2 3 255)] (by simp)
  have hm := dots_model (Mode.normal, cm, Color.nrgba 1 2 3 255) []
  obtain ⟨l, size, h1, h2, h3⟩ := encodes_small _ hwh he wenv (dots_fit wenv _) hw hm hsize
  refine ⟨_, l, hm, h1, fun D => ?_⟩
  have hb := dots_bounds [(Mode.normal, cm, Color.nrgba 1 2 3 255)] (by simp)
  have := C43_encoded wenv _ he l h1 D size h2 h3 cm hm (groupBounds ([(Mode.normal, cm, Color.nrgba 1 2 3 255)].map dot)) (by unfold Img.bounds; rfl)
    (by rw [hb]; decide) (by rw [hb]; decide)
  exact ⟨_, this, fun h => hcm (by injection h)⟩

/-- a gray image, and one with a palette with a colour of 16 bits -/
example : Works goodSink ∧ modelBack .gray ≠ .gray ∧ modelBack (.palette [.rgba 1 2 3 255]) ≠ .palette [.rgba 1 2 3 255] :=
  ⟨fun _ => rfl, by decide, by simp [modelBack]⟩

end Limage
