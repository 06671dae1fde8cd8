import Verif.Proofs.AnyLayers
import Verif.Props.Skip
/-! Reading files of any version. -/
namespace Limage
open Spec

theorem magic_consumes : ∀ V ∈ allVersions, Consumes readHeader V.magic (.ok V.mode) := by
  have h : ∀ V : Version, V.magic.length = 14 →
      V.magic.take 9 = fileTypeID → (versions.find? fun v => v.1 = (V.magic.drop 9).take 4).map (·.2) = some V.mode →
      V.magic.getD 13 0 = 0 → Consumes readHeader V.magic (.ok V.mode) := by
    intro V hl h1 h2 h3 r hr
    unfold readHeader
    have := hr.2.2
    rw [M.bind_ok (readInto_consumes (List.replicate 14 0) V.magic (by rw [hl]; decide) r hr (by omega))]
    have hg : getErr (r.adv V.magic.length) = .ok (none, r.adv V.magic.length) := by
      unfold getErr
      rw [show (r.adv V.magic.length).err = none from hr.1]
    rw [M.bind_ok hg]
    dsimp only
    rw [if_neg (by simpa using h1)]
    obtain ⟨v, hv1, hv2⟩ := Option.map_eq_some_iff.1 h2
    rw [hv1]
    dsimp only
    rw [if_neg (by simpa using h3), hv2]
    rfl
  intro V hV
  simp only [allVersions, List.mem_cons, List.not_mem_nil, or_false] at hV
  rcases hV with rfl | rfl | rfl | rfl | rfl | rfl | rfl | rfl | rfl | rfl | rfl | rfl | rfl | rfl <;>
    exact h _ (by decide) (by decide) (by decide) (by decide)

theorem version_mode : ∀ V ∈ allVersions, decide (V.mode > 0) = V.precision := by
  intro V hV
  simp only [allVersions, List.mem_cons, List.not_mem_nil, or_false] at hV
  rcases hV with rfl | rfl | rfl | rfl | rfl | rfl | rfl | rfl | rfl | rfl | rfl | rfl | rfl | rfl <;> decide

/-! ### Properties of the image -/

theorem triples_inj : ∀ {a b : List (UInt8 × UInt8 × UInt8)},
    (a.flatMap fun c => [c.1, c.2.1, c.2.2]) = (b.flatMap fun c => [c.1, c.2.1, c.2.2]) → a = b
  | [], [], _ => rfl
  | [], _ :: _, h => by simp at h
  | _ :: _, [], h => by simp at h
  | (r, g, b) :: xs, (r', g', b') :: bs, h => by
    simp only [List.flatMap_cons, List.cons_append, List.nil_append, List.cons.injEq] at h
    obtain ⟨rfl, rfl, rfl, h⟩ := h
    rw [triples_inj h]

/-- the properties of an image are read: the colour map and the compression are those stated -/
theorem imageProps_in (b : UInt32) (pal : List (UInt8 × UInt8 × UInt8)) (k : UInt8) : ∀ (ps : List (Nat × Bytes)) (s : IProps),
    (∀ p ∈ ps, p.1 ≠ 0 ∧ p.1 < 2 ^ 32 ∧ Payload (UInt32.ofNat p.1) p.2 ∧ Handled (b == 2) (UInt32.ofNat p.1) p.2) →
    (∀ p ∈ ps, p.1 = 1 → p.2 = num pal.length ++ pal.flatMap fun c => [c.1, c.2.1, c.2.2]) →
    (∀ p ∈ ps, p.1 = 17 → p.2 = [k]) →
    ∃ s', (∀ f, ps.length < f → Consumes (imageProps b f s) (propList ps) (.ok s')) ∧
      (1 ∈ ps.map (·.1) ∨ s.palette = (pal.map fun c => .lrgb c.1 c.2.1 c.2.2) → s'.palette = pal.map fun c => .lrgb c.1 c.2.1 c.2.2) ∧
      (17 ∈ ps.map (·.1) ∨ s.compression = k → s'.compression = k)
  | [], s, _, _, _ => by
    refine ⟨s, fun f hf => ?_, fun h => by simpa using h, fun h => by simpa using h⟩
    obtain ⟨f, rfl⟩ : ∃ g, f = g + 1 := ⟨f - 1, by simp at hf; omega⟩
    unfold imageProps propList
    rw [List.flatMap_nil, List.nil_append]
    refine (num_consumes 0).bind ((num_consumes 0).map ?_)
    rfl
  | (t, body) :: ps, s, h, hp, hk => by
    obtain ⟨h0, h1, h2, h3⟩ := h (t, body) (List.mem_cons_self ..)
    have hp1 := hp (t, body) (List.mem_cons_self ..)
    have hk1 := hk (t, body) (List.mem_cons_self ..)
    dsimp only at h0 h1 h2 h3 hp1 hk1
    obtain ⟨s1, e, eff⟩ := C49_property_partial b (UInt32.ofNat t) body s h2 h3
    obtain ⟨s', ih, i1, i2⟩ := imageProps_in b pal k ps s1 (fun p q => h p (List.mem_cons_of_mem _ q))
      (fun p q => hp p (List.mem_cons_of_mem _ q)) (fun p q => hk p (List.mem_cons_of_mem _ q))
    have hof : ∀ n : Nat, n < 2 ^ 32 → (UInt32.ofNat t = UInt32.ofNat n ↔ t = n) := by
      intro n hn
      constructor
      · intro h
        have := congrArg UInt32.toNat h
        rwa [u32_toNat h1, u32_toNat hn] at this
      · rintro rfl; rfl
    have ho1 : UInt32.ofNat t = 1 ↔ t = 1 := hof 1 (by decide)
    have ho17 : UInt32.ofNat t = 17 ↔ t = 17 := hof 17 (by decide)
    have ho0 : UInt32.ofNat t = 0 ↔ t = 0 := hof 0 (by decide)
    refine ⟨s', fun f hf => ?_, fun hq => i1 ?_, fun hq => i2 ?_⟩
    · obtain ⟨f, rfl⟩ : ∃ g, f = g + 1 := ⟨f - 1, by simp at hf; omega⟩
      rw [List.length_cons] at hf
      have hps : propList ((t, body) :: ps) = num t ++ (num body.length ++ (body ++ propList ps)) := by
        unfold propList prop
        simp only [List.flatMap_cons, List.append_assoc]
      rw [hps]
      unfold imageProps
      refine (num_consumes t).bind ((num_consumes _).bind ?_)
      rw [if_neg (by rw [ho0]; exact h0)]
      intro r hr
      have hrest : 8 ≤ (propList ps).length := by
        unfold propList
        simp only [List.length_append, num_length]
        omega
      have hlt : r.pos + body.length < r.limit := by
        have := hr.2.2
        rw [List.length_append] at this
        omega
      rw [M.bind_ok (e r hr.left hlt)]
      have h5 := ih f (by omega) _ hr.right
      rw [List.length_append, ← R.adv_adv]
      exact h5
    · by_cases ht : t = 1
      · right
        obtain ⟨cs, c1, c2⟩ := eff.colors (ho1.2 ht)
        have hcs : cs = pal := by
          have h8 := (hp1 ht).symm.trans c1
          have := (List.append_inj h8 (by rw [num_length, be_length])).2
          exact (triples_inj this).symm
        rw [c2, hcs]
      · rw [eff.palette (by rw [Ne, ho1]; exact ht)]
        rcases hq with hq | hq
        · rw [List.map_cons, List.mem_cons] at hq
          rcases hq with hq | hq
          · exact absurd hq.symm ht
          · exact .inl hq
        · exact .inr hq
    · by_cases ht : t = 17
      · right
        have h8 := (eff.compressed (ho17.2 ht)).symm.trans (hk1 ht)
        exact (List.cons.inj h8).1
      · rw [eff.compression (by rw [Ne, ho17]; exact ht)]
        rcases hq with hq | hq
        · rw [List.map_cons, List.mem_cons] at hq
          rcases hq with hq | hq
          · exact absurd hq.symm ht
          · exact .inl hq
        · exact .inr hq

theorem layerPointers_in (V : Version) : ∀ (ps : List Nat) (acc : List UInt64) (f : Nat), (∀ p ∈ ps, p ≠ 0 ∧ p < 2 ^ 32) →
    Consumes (layerPointers V.mode (f + ps.length + 1) acc) (ps.flatMap V.off ++ V.off 0) (acc ++ ps.map fun p => (UInt32.ofNat p).toUInt64)
  | [], acc, f, _ => by
    unfold layerPointers
    rw [List.flatMap_nil, List.nil_append]
    refine (off_consumes V (n := 0) (by decide)).map ?_
    rw [if_pos (by decide), List.map_nil, List.append_nil]
  | p :: ps, acc, f, h => by
    unfold layerPointers
    rw [List.flatMap_cons, List.append_assoc]
    obtain ⟨h1, h2⟩ := h p (List.mem_cons_self ..)
    refine (off_consumes V h2).bind ?_
    rw [if_neg]
    · have := layerPointers_in V ps (acc ++ [(UInt32.ofNat p).toUInt64]) f fun q hq => h q (List.mem_cons_of_mem _ hq)
      rw [List.map_cons, List.length_cons]
      rw [List.append_assoc, List.singleton_append] at this
      exact this
    · intro hc
      have := congrArg UInt64.toNat hc
      rw [UInt32.toNat_toUInt64, u32_toNat h2] at this
      exact h1 this

/-- the start of a file -/
theorem readHead_in {D : Bytes} {V : Version} (hV : V ∈ allVersions) {C : Coding} {b : Rect} {prec : Nat} (hC : C.Ok)
    {ps : List (Nat × Bytes)} (hps : ImageProps C (Handled (C.typ == 2)) ps) {ptrs : List Nat} {rest : Bytes}
    (hat : HasAt (D.take maxString) 0 (V.magic ++ int b.dx ++ int b.dy ++ num C.typ ++ (if V.precision then num prec else []) ++ propList ps ++
      ptrs.flatMap V.off ++ V.off 0 ++ rest)) (hp : ∀ p ∈ ptrs, p ≠ 0 ∧ p < 2 ^ 32) :
    ∃ r', readHead (newReader D) = .ok (.ok ⟨V.mode, u32 b.dx, u32 b.dy, UInt32.ofNat C.typ, ⟨C.pal, if C.rle then 1 else 0⟩,
      ptrs.map fun p => (UInt32.ofNat p).toUInt64⟩, r') := by
  have hmax : maxString = 16777216 := rfl
  have hne : V.magic ++ int b.dx ++ int b.dy ++ num C.typ ++ (if V.precision then num prec else []) ++ propList ps ++
      ptrs.flatMap V.off ++ V.off 0 ++ rest ≠ [] := by
    intro h0
    have := (List.append_eq_nil_iff.1 h0).1
    exact off_ne_nil V _ _ this
  have s := sees_at hat hne
  have hlt := hasAt_lt hat hne
  have hle := HasAt.le hat hne
  simp only [List.append_assoc] at s hlt hle
  simp only [List.length_append, num_length, flatMap_off_length, List.length_take] at hlt hle
  show ∃ r', readHead (readerAt D 0) = _
  unfold readHead
  rw [M.bind_ok (magic_consumes V hV _ s.left)]
  have s := s.right
  dsimp only
  rw [M.bind_ok (int_consumes _ _ s.left)]
  have s := s.right
  rw [M.bind_ok (int_consumes _ _ s.left)]
  have s := s.right
  rw [M.bind_ok (num_consumes _ _ s.left)]
  have s := s.right
  have hpr : ∃ n, Consumes (readPrecision V.precision) (if V.precision then num prec else []) n := by
    unfold readPrecision
    cases V.precision with
    | true => exact ⟨_, num_consumes prec⟩
    | false => exact ⟨_, Consumes.pure _⟩
  obtain ⟨n, hpr⟩ := hpr
  rw [version_mode V hV, M.bind_ok (hpr _ s.left)]
  have s := s.right
  have hbt : (UInt32.ofNat C.typ == 2) = (C.typ == 2) := by
    have := hC.typ
    have ht : C.typ = 0 ∨ C.typ = 1 ∨ C.typ = 2 := by omega
    rcases ht with h | h | h <;> rw [h] <;> rfl
  obtain ⟨s', f1, f2, f3⟩ := imageProps_in (UInt32.ofNat C.typ) C.palette (if C.rle then 1 else 0) ps ⟨[], 0⟩
    (by rw [hbt]; exact hps.wellFormed) hps.colors hps.compression
  have hs' : s' = ⟨C.pal, if C.rle then 1 else 0⟩ := by
    obtain ⟨a, k⟩ := s'
    have h1 := f2 (hps.palette.imp_right fun h => by rw [h]; rfl)
    have h2 := f3 (hps.compressed.imp_right fun h => by rw [h]; rfl)
    dsimp only at h1 h2
    rw [h1, h2]; rfl
  have hpl := (flatMap_prop_length ps).1
  have hpl2 : ps.length ≤ (propList ps).length := by
    unfold propList; rw [List.append_assoc, List.length_append]; omega
  have hprops : ∀ r : R, Sees r (propList ps) → ps.length ≤ r.data.length →
      readImageProperties (UInt32.ofNat C.typ) r = .ok (.ok ⟨C.pal, if C.rle then 1 else 0⟩, r.adv (propList ps).length) := by
    intro r hr h1
    unfold readImageProperties
    rw [← hs']
    exact f1 _ (by omega) r hr
  rw [M.bind_ok (hprops _ s.left (show ps.length ≤ D.length by omega))]
  have s := s.right
  dsimp only
  rw [← List.append_assoc (ptrs.flatMap V.off)] at s
  have hptrs : ∀ r : R, Sees r (ptrs.flatMap V.off ++ V.off 0) → ptrs.length ≤ r.data.length →
      readLayerPointers V.mode r = .ok (ptrs.map fun p => (UInt32.ofNat p).toUInt64, r.adv (ptrs.flatMap V.off ++ V.off 0).length) := by
    intro r hr h1
    unfold readLayerPointers
    have := layerPointers_in V ptrs [] (r.data.length + 1 - ptrs.length) hp r hr
    rwa [show r.data.length + 1 - ptrs.length + ptrs.length + 1 = r.data.length + 2 by omega] at this
  have hsz := size_ge V
  have hpt : ptrs.length ≤ V.size * ptrs.length := Nat.le_mul_of_pos_left _ (by omega)
  rw [M.bind_ok (hptrs _ s.left (show ptrs.length ≤ D.length by omega))]
  have s := s.right
  have hg : ∀ r : R, r.err = none → getErr r = .ok (none, r) := by
    intro r hr; unfold getErr; rw [hr]
  rw [M.bind_ok (hg _ s.1)]
  exact ⟨_, rfl⟩

/-! ### The lowest layer may lack alpha -/

theorem makeGroups_up (bounds : Rect) : ∀ (ds : List DLayer) (s t : GState), (∀ d ∈ ds.dropLast, d.alpha = true) →
    makeGroups bounds (ds.map DLayer.up) s = .ok t → ∃ a, makeGroups bounds ds s = .ok { t with alpha := a }
  | [], s, t, _, h => ⟨t.alpha, h⟩
  | [d], s, t, _, h => by
    simp only [List.map_cons, List.map_nil, makeGroups] at h ⊢
    refine ⟨d.alpha, ?_⟩
    revert h
    have hstep : ∀ t', groupStep bounds d.up s = .ok t' → groupStep bounds d s = .ok { t' with alpha := d.alpha } := by
      intro t' h
      obtain ⟨la, al, gr, ip⟩ := d
      have hu : DLayer.up ⟨la, al, gr, ip⟩ = ⟨la, true, gr, ip⟩ := rfl
      rw [hu] at h
      unfold groupStep at h ⊢
      by_cases ha : s.alpha = false
      · rw [if_pos ha] at h; cases h
      · rw [if_neg ha] at h ⊢
        dsimp only at h ⊢
        cases hk : lookupKey s.map (pathKey (if ip = [] then [s.n] else ip).dropLast) with
        | none => rw [hk] at h; cases h
        | some gi =>
          rw [hk] at h
          dsimp only at h ⊢
          cases hg : s.objs[gi]? with
          | none => rw [hg] at h; cases h
          | some g =>
            rw [hg] at h
            dsimp only at h ⊢
            cases gr with
            | true =>
              rw [if_pos rfl] at h ⊢
              injection h with h
              rw [← h]
            | false =>
              rw [if_neg (by decide)] at h ⊢
              injection h with h
              rw [← h]
    cases h1 : groupStep bounds d.up s with
    | error e => intro h; cases h
    | ok t' =>
      rw [hstep t' h1]
      dsimp only
      intro h
      injection h with h
      rw [h]
  | d :: e :: ds, s, t, ha, h => by
    have hd : d.up = d := by
      have := ha d (by simp)
      unfold DLayer.up
      rw [← this]
    rw [List.map_cons, hd] at h
    unfold makeGroups at h ⊢
    cases h1 : groupStep bounds d s with
    | error e => rw [h1] at h; cases h
    | ok s' =>
      rw [h1] at h
      dsimp only at h ⊢
      exact makeGroups_up bounds (e :: ds) s' t (fun x hx => ha x (by
        rw [List.dropLast_cons_of_ne_nil (by simp)]
        exact List.mem_cons_of_mem _ hx)) h

theorem makeImage_alpha (order : List Nat) (s : GState) (a : Bool) : makeImage order { s with alpha := a } = makeImage order s := rfl

/-- A file of any version is decoded to the tree of layers it holds. -/
theorem decode_in (env : Env) (sch : Sched) (hv : sch.Valid) (decompress : Bool) (D : Bytes) {V : Version} (hV : V ∈ allVersions)
    {C : Coding} (hC : C.Ok) (hfo : env.floatOpacity = C.opacity)
    (hP : ∀ d t, C.parses d t → env.parseText d = .ok (some t)) {alpha : Layer → Bool} (g : List Layer) (b : Rect)
    (hat : FileIn (D.take maxString) V C (Handled (C.typ == 2)) alpha b (placed g 0 0 0 []))
    (hf : ∀ r ∈ placed g 0 0 0 [], C.rle = true ∨ (isGroupLayer r.layer = false → bppOf C.typ (alpha r.layer) = 1))
    (hd : ∀ r ∈ placed g 0 0 0 [], (decompress = true ∨ C.rle = false) ∨ maskOf r.layer.image = none ∧ C.kind (alpha r.layer) ≠ 4)
    (hmo : ∀ r ∈ placed g 0 0 0 [], C.typ = 0 ∨ r.layer.mode = Mode.normal)
    (hx : 0 ≤ b.dx ∧ b.dx ≤ 2 ^ 31) (hy : 0 ≤ b.dy ∧ b.dy ≤ 2 ^ 31) (hs : ∀ r ∈ placed g 0 0 0 [], Fits b.dx b.dy r) :
    ∃ g', decodeImage env sch decompress D = .ok (.ok (fixBottom g')) ∧ SameTree (C.ImgRead alpha) id g g' := by
  obtain ⟨hal, prec, ps, ptrs, rest, hps, h1, h2⟩ := hat
  have h0 : HasAt (D.take maxString) 0 V.magic := by
    simp only [List.append_assoc] at h1
    exact (hasAt_append.1 h1).1
  have hp : ∀ p ∈ ptrs, p ≠ 0 ∧ p < 2 ^ 32 := by
    intro p hp
    obtain ⟨r, h⟩ : ∃ r, LayerIn (D.take maxString) V C alpha p r := by
      clear h1 hs hd hmo hal hf
      generalize placed g 0 0 0 [] = ls at h2
      induction h2 with
      | nil => cases hp
      | cons h _ ih =>
        rcases List.mem_cons.1 hp with rfl | hp
        · exact ⟨_, h⟩
        · exact ih hp
    exact layerIn_pos hC h0 h
  rw [List.append_assoc _ (rest.flatMap V.off)] at h1
  obtain ⟨r', hh⟩ := readHead_in hV hC hps h1 hp
  unfold decodeImage
  rw [hh]
  dsimp only
  unfold decodeLayers readLayers
  have hb0 : ∀ m : Mode, (C.typ = 0 ∨ m = Mode.normal) → (UInt32.ofNat C.typ = 0 ∨ m = Mode.normal) := by
    intro m h
    exact h.imp_left fun h => by rw [h]; rfl
  obtain ⟨ds, e1, e2, e3⟩ := gather_in (D := D) (c := Head.ctx ⟨V.mode, u32 b.dx, u32 b.dy, UInt32.ofNat C.typ, ⟨C.pal, if C.rle then 1 else 0⟩,
      ptrs.map fun p => (UInt32.ofNat p).toUInt64⟩ env decompress) hC (by show ((if C.rle = true then (1 : UInt8) else 0) != 0) = C.rle; cases C.rle <;> rfl) rfl rfl rfl hfo
      hP hx.2 hy.2 h0 hf (fun r hr => (hd r hr).imp_left fun h => h.imp_right fun h => by
        show (if C.rle = true then (1 : UInt8) else 0) = 0; rw [h]; rfl) (fun r hr => hb0 _ (hmo r hr)) h2 hs
  rw [e1]
  dsimp only
  rw [firstErr_nones (by
    intro e he
    rw [List.map_map] at he
    obtain ⟨d, _, rfl⟩ := List.mem_map.1 he
    rfl)]
  dsimp only
  rw [List.map_map]
  have hid : (ds.map ((fun x : DLayer × Option Err => x.1) ∘ fun d => (d, none))) = ds := by
    conv => rhs; rw [← List.map_id ds]
    rfl
  rw [hid]
  obtain ⟨w, hw⟩ := Int.eq_ofNat_of_zero_le hx.1
  obtain ⟨h, hh⟩ := Int.eq_ofNat_of_zero_le hy.1
  have hcan : sizeRect (u32 b.dx).toNat (u32 b.dy).toNat = ⟨0, 0, b.dx, b.dy⟩ := by
    rw [hw, hh, u32_nat, u32_nat, u32_toNat (by omega), u32_toNat (by omega)]
    rfl
  rw [hcan]
  obtain ⟨s, f1, f2, f3⟩ := build_list g 0 0 0 [] 0 (ds.map DLayer.up) GState.start addsTo_start e2
    fun r hr => ⟨(hs r hr).x, (hs r hr).y, (hs r hr).path⟩
  obtain ⟨a, f4⟩ := makeGroups_up _ ds _ _ (by
    intro d hd
    have h5 : ds.dropLast.map (·.alpha) = (placed g 0 0 0 []).dropLast.map fun r => alpha r.layer := by
      rw [List.map_dropLast, e3, List.map_dropLast]
    have h6 : d.alpha ∈ ds.dropLast.map (·.alpha) := List.mem_map.2 ⟨d, hd, rfl⟩
    rw [h5] at h6
    obtain ⟨r, q1, q2⟩ := List.mem_map.1 h6
    rw [← q2]
    exact hal r q1) f1
  rw [f4]
  dsimp only
  have e0 : ({ s with alpha := a } : GState).map = s.map := rfl
  rw [makeImage_alpha, makeImage_tree f2.inv _ (hv.2 _)]
  refine ⟨_, rfl, ?_⟩
  have hpos := f2.inv.pos
  obtain ⟨f, hf⟩ : ∃ f, s.objs.length = f + 1 := ⟨s.objs.length - 1, by omega⟩
  obtain ⟨new, n1, n2⟩ := f2.own
  have hl : (s.items 0).length = 0 + g.length := by
    rw [n1, List.length_append, n2]; rfl
  have := RepList.same f2.inv g 0 0 f (by omega) hpos hl f3
  rw [hf, groupTree_from]
  exact this

end Limage
