import Verif.Proofs.ReadTree
/-! Reading whole files. -/
namespace Limage
open Spec

theorem firstErr_nones {errs : List (Option Err)} (h : ∀ e ∈ errs, e = none) : ∀ order, firstErr errs order = none
  | [] => rfl
  | i :: is => by
    unfold firstErr
    have : errs.getD i none = none := by
      rw [List.getD_eq_getElem?_getD]
      cases he : errs[i]? with
      | none => rfl
      | some e => exact h e (List.mem_of_getElem? he)
    rw [this]
    exact firstErr_nones h is

theorem layerAt_pos {D : Bytes} {F : Fmt} {p : Nat} {r : Placed} (hF : FmtOk F) (h0 : HasAt (D.take maxString) 0 fileMagic)
    (h : LayerAt (D.take maxString) F p r) : p ≠ 0 ∧ p < 2 ^ 32 := by
  have hmax : maxString = 16777216 := rfl
  obtain ⟨t, hh, m, _, h1, _⟩ := h
  have hne : layerHead F r t ++ num hh ++ num m ≠ [] := by
    intro h0
    have := congrArg List.length h0
    rw [List.length_append, num_length, List.length_nil] at this
    omega
  have hlt := hasAt_lt h1 hne
  refine ⟨?_, by omega⟩
  rintro rfl
  unfold HasAt at h0 h1
  rw [List.drop_zero] at h0 h1
  rw [layerHead_eq] at h1
  simp only [List.append_assoc] at h1
  generalize Spec.text r.layer.name ++ _ = rest at h1
  rw [← List.append_assoc] at h1
  have hl : (int r.layer.bounds.dx ++ int r.layer.bounds.dy).length = 8 := by
    rw [List.length_append]; exact congrArg₂ (· + ·) (num_length _) (num_length _)
  have a1 : (D.take maxString)[8]? = some 32 := by
    have := congrArg (fun l : Bytes => l[8]?) h0
    rw [List.getElem?_take_of_lt (by decide)] at this
    rw [this]; rfl
  have a2 : (D.take maxString)[8]? = some 0 := by
    have := congrArg (fun l : Bytes => l[8]?) h1
    rw [List.getElem?_append_right (by omega), hl] at this
    rw [List.getElem?_take_of_lt (by simp only [List.length_append, hl, num_length]; omega)] at this
    rw [this]
    rcases hF.kind with ⟨h, _⟩ | ⟨h, _⟩ | ⟨h, _⟩ <;> rw [h] <;> rfl
  rw [a1] at a2
  cases a2

theorem gather_cons_ok {α : Type} {a : α} {xs : List (Outcome α)} {l : List α} (h : gather xs = .ok l) :
    gather (.ok a :: xs) = .ok (a :: l) := by
  unfold gather
  rw [h]

theorem gather_at {D : Bytes} {c : Ctx} {F : Fmt} (hF : FmtOk F) (hc : c.compression ≠ 0) (hm : c.mode = 0)
    (hb : c.baseType = UInt32.ofNat F.typ) (hpal : c.palette = paletteBack F) {Parses : Bytes → TextData → Prop}
    (hP : ∀ d t, Parses d t → c.env.parseText d = .ok (some t)) {W H : Int} (hW : W ≤ 2 ^ 31) (hH : H ≤ 2 ^ 31)
    (h0 : HasAt (D.take maxString) 0 fileMagic) : ∀ {ptrs : List Nat} {ls : List Placed},
    (c.decompress = true ∨ ∀ r ∈ ls, maskOf r.layer.image = none) →
    List.Forall₂ (LayerAt (D.take maxString) F) ptrs ls → (∀ r ∈ ls, Storable F Parses W H r) →
    ∃ ds : List DLayer, gather ((ptrs.map fun p => (UInt32.ofNat p).toUInt64).map (layerAtPtr c D)) = .ok (ds.map fun d => (d, none)) ∧
      List.Forall₂ (LayerBack F Parses) ls ds
  | [], _, _, .nil, _ => ⟨[], rfl, .nil⟩
  | p :: ptrs, r :: ls, hd, .cons h1 h2, hs => by
    obtain ⟨ds, e1, e2⟩ := gather_at hF hc hm hb hpal hP hW hH h0 (hd.imp_right fun h r hr => h r (List.mem_cons_of_mem _ hr)) h2 fun r hr => hs r (List.mem_cons_of_mem _ hr)
    obtain ⟨l, r', g1, g2, g3⟩ := readLayer_at hF hc hm hb hpal hP hW hH h0
      (hd.imp_right fun h => h r (List.mem_cons_self ..)) h1 (hs r (List.mem_cons_self ..))
    refine ⟨l :: ds, ?_, .cons g3 e2⟩
    have : layerAtPtr c D (UInt32.ofNat p).toUInt64 = .ok (l, none) := by
      unfold layerAtPtr
      rw [M.bind_ok (goto_any (D := D) (layerAt_pos hF h0 h1).2 rfl rfl rfl), g1]
      dsimp only
      rw [g2]
    rw [List.map_cons, List.map_cons, this, gather_cons_ok e1]
    rfl

theorem addsTo_start : AddsTo GState.start 0 0 0 0 [] where
  inv := ginv_start
  key := rfl
  obj := ⟨none, rfl⟩
  len := rfl
  cnt _ := rfl
  fresh _ _ _ := rfl
  alpha := rfl

/-- what the text of a layer means to the decoder -/
def parsesTo (env : Env) (d : Bytes) (t : TextData) : Prop := env.parseText d = .ok (some t)

/-- A file holding storable layers is decoded up to the tree. -/
theorem decode_layers (env : Env) (sch : Sched) (decompress : Bool) (D : Bytes) (F : Fmt) (hF : FmtOk F) (ls : List Placed) (b : Rect)
    (hat : LayersAt (D.take maxString) F b ls) (hd : decompress = true ∨ ∀ r ∈ ls, maskOf r.layer.image = none) {W H : Int}
    (hW : W ≤ 2 ^ 31) (hH : H ≤ 2 ^ 31)
    (hs : ∀ r ∈ ls, Storable F (parsesTo env) W H r) :
    ∃ ds, List.Forall₂ (LayerBack F (parsesTo env)) ls ds ∧ decodeImage env sch decompress D =
      match makeGroups (sizeRect (u32 b.dx).toNat (u32 b.dy).toNat) ds GState.start with
      | .error e => .ok (.error e)
      | .ok s =>
        match makeImage (sch.groups s.map.length) s with
        | none => .panic
        | some im => .ok (.ok im) := by
  obtain ⟨ptrs, h1, h2⟩ := hat
  have h0 : HasAt (D.take maxString) 0 fileMagic := by
    unfold fileHead at h1
    simp only [List.append_assoc] at h1
    exact (hasAt_append.1 h1).1
  have hp : ∀ p ∈ ptrs, p ≠ 0 ∧ p < 2 ^ 32 := by
    intro p hp
    obtain ⟨r, h⟩ : ∃ r, LayerAt (D.take maxString) F p r := by
      clear h1 hs hd
      induction h2 with
      | nil => cases hp
      | cons h _ ih =>
        rcases List.mem_cons.1 hp with rfl | hp
        · exact ⟨_, h⟩
        · exact ih hp
    exact layerAt_pos hF h0 h
  obtain ⟨r', hh⟩ := readHead_at hF h1 hp
  unfold decodeImage
  rw [hh]
  dsimp only
  unfold decodeLayers readLayers
  obtain ⟨ds, e1, e2⟩ := gather_at (D := D) (c := Head.ctx ⟨0, u32 b.dx, u32 b.dy, UInt32.ofNat F.typ, ⟨paletteBack F, 1⟩,
      ptrs.map fun p => (UInt32.ofNat p).toUInt64⟩ env decompress) hF (show (1 : UInt8) ≠ 0 by decide) rfl rfl rfl (Parses := parsesTo env)
      (fun _ _ h => h) hW hH h0 hd h2 hs
  refine ⟨ds, e2, ?_⟩
  rw [e1]
  dsimp only
  rw [firstErr_nones (by
    intro e he
    rw [List.map_map] at he
    obtain ⟨d, _, rfl⟩ := List.mem_map.1 he
    rfl)]
  dsimp only
  rw [List.map_map]
  have hid : (ds.map ((fun x : DLayer × Option Err => x.1) ∘ fun d => (d, none))) = ds := by
    conv => rhs; rw [← List.map_id ds]
    rfl
  rw [hid]
  cases makeGroups (sizeRect (u32 b.dx).toNat (u32 b.dy).toNat) ds GState.start with
  | error e => rfl
  | ok s =>
    dsimp only
    cases makeImage (sch.groups s.map.length) s <;> rfl

/-- A file holding storable layers is decoded to the same tree of layers. -/
theorem decode_at (env : Env) (sch : Sched) (hv : sch.Valid) (decompress : Bool) (D : Bytes) (F : Fmt) (hF : FmtOk F) (g : List Layer) (b : Rect)
    (hat : LayersAt (D.take maxString) F b (placed g 0 0 0 [])) (hd : decompress = true ∨ ∀ r ∈ placed g 0 0 0 [], maskOf r.layer.image = none)
    (hx : 0 ≤ b.dx ∧ b.dx ≤ 2 ^ 31) (hy : 0 ≤ b.dy ∧ b.dy ≤ 2 ^ 31)
    (hs : ∀ r ∈ placed g 0 0 0 [], Storable F (parsesTo env) b.dx b.dy r) :
    ∃ g', decodeImage env sch decompress D = .ok (.ok (fixBottom g')) ∧ SameTree (ImgBack F (parsesTo env)) (modeBack F) g g' := by
  obtain ⟨ds, e2, e3⟩ := decode_layers env sch decompress D F hF _ b hat hd hx.2 hy.2 hs
  rw [e3]
  obtain ⟨w, hw⟩ := Int.eq_ofNat_of_zero_le hx.1
  obtain ⟨h, hh⟩ := Int.eq_ofNat_of_zero_le hy.1
  have hcan : sizeRect (u32 b.dx).toNat (u32 b.dy).toNat = ⟨0, 0, b.dx, b.dy⟩ := by
    rw [hw, hh, u32_nat, u32_nat, u32_toNat (by omega), u32_toNat (by omega)]
    rfl
  rw [hcan]
  obtain ⟨s, f1, f2, f3⟩ := build_list g 0 0 0 [] 0 ds GState.start addsTo_start e2 fun r hr => ⟨(hs r hr).x, (hs r hr).y, (hs r hr).path⟩
  rw [f1]
  dsimp only
  rw [makeImage_tree f2.inv _ (hv.2 _)]
  refine ⟨_, rfl, ?_⟩
  have hpos := f2.inv.pos
  obtain ⟨f, hf⟩ : ∃ f, s.objs.length = f + 1 := ⟨s.objs.length - 1, by omega⟩
  obtain ⟨new, n1, n2⟩ := f2.own
  have hl : (s.items 0).length = 0 + g.length := by
    rw [n1, List.length_append, n2]; rfl
  have := RepList.same f2.inv g 0 0 f (by omega) hpos hl f3
  rw [hf, groupTree_from]
  exact this

end Limage
