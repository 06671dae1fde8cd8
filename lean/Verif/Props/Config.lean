import Verif.Props.Readable
import Verif.Props.Image
/-! # `DecodeConfig` and `Decode` (C43) -/
namespace Limage

/-- Specification: versions 4 to 10. -/
def Spec.middleVersions : List Bytes :=
  [[0x76, 0x30, 0x30, 0x34], [0x76, 0x30, 0x30, 0x35], [0x76, 0x30, 0x30, 0x36], [0x76, 0x30, 0x30, 0x37],
   [0x76, 0x30, 0x30, 0x38], [0x76, 0x30, 0x30, 0x39], [0x76, 0x30, 0x31, 0x30]]

/-- the colour model for a base type: `color.NRGBAModel`, `lcolor.GrayAlphaModel`, the palette -/
def Spec.configModel (baseType : Nat) (palette : List Color) : Option ColorModel :=
  if baseType = 0 then some .other
  else if baseType = 1 then some .grayAlpha
  else if baseType = 2 then some (.alphaPalette palette)
  else none

/-- what `readHead` reads is what `DecodeConfig` reads, unless the precision comes between -/
theorem config_of_head (D : Bytes) (hd : Head) (r : R) (e : readHead (newReader D) = .ok (.ok hd, r))
    (hm : hd.mode ≠ 1 ∨ hd.baseType ≠ 2) (hmode : hd.mode.toNat ≤ 2) :
    decodeConfig D = .ok (⟨hd.width.toNat, hd.height.toNat, Spec.configModel hd.baseType.toNat hd.props.palette⟩, none) := by
  unfold readHead at e
  obtain ⟨x, r1, e1, e⟩ := M.bind_inv e
  cases x with
  | error er => cases e
  | ok mode =>
    dsimp only at e
    obtain ⟨w, r2, e2, e⟩ := M.bind_inv e
    obtain ⟨ht, r3, e3, e⟩ := M.bind_inv e
    obtain ⟨b, r4, e4, e⟩ := M.bind_inv e
    obtain ⟨pr, r5, e5, e⟩ := M.bind_inv e
    obtain ⟨y, r6, e6, e⟩ := M.bind_inv e
    cases y with
    | error er => cases e
    | ok props =>
      dsimp only at e
      obtain ⟨ptrs, r7, e7, e⟩ := M.bind_inv e
      obtain ⟨er, r8, e8, e⟩ := M.bind_inv e
      cases e8
      cases her : r7.err with
      | some er => rw [her] at e; cases e
      | none =>
        rw [her] at e
        cases e
        dsimp only at hm hmode ⊢
        have k6 : r6.err = none := ((readLayerPointers_total _).keeps _ _ _ e7).none her
        have k5 : r5.err = none := ((readImageProperties_total _).keeps _ _ _ e6).none k6
        have k4 : r4.err = none := ((readPrecision_total _).keeps _ _ _ e5).none k5
        -- the precision in `DecodeConfig`
        obtain ⟨pr', r5', e5', k5', hsame⟩ : ∃ pr' r5', readPrecision (mode = 2) r4 = .ok (pr', r5') ∧ r5'.err = none ∧
            (mode ≠ 1 → r5' = r5) := by
          by_cases h1 : mode = 1
          · refine ⟨0, r4, ?_, k4, fun h => absurd h1 h⟩
            unfold readPrecision
            rw [if_neg (by rw [h1]; decide)]
            rfl
          · refine ⟨pr, r5, ?_, k5, fun _ => rfl⟩
            rw [← e5]
            congr 2
            have : mode = 0 ∨ mode = 2 := by
              have : mode.toNat ≠ 1 := fun h => h1 (UInt32.toNat_inj.1 h)
              have h2 : mode.toNat = 0 ∨ mode.toNat = 2 := by omega
              rcases h2 with h2 | h2
              · exact Or.inl (UInt32.toNat_inj.1 h2)
              · exact Or.inr (UInt32.toNat_inj.1 h2)
            rcases this with rfl | rfl <;> decide
        unfold decodeConfig decodeConfigM
        rw [M.bind_ok e1]
        dsimp only
        rw [M.bind_ok e2, M.bind_ok e3, M.bind_ok e4, M.bind_ok e5']
        have hn : ∀ n : Nat, n ≤ 2 → (b = UInt32.ofNat n ↔ b.toNat = n) := by
          intro n hn
          rw [← UInt32.toNat_inj, UInt32.toNat_ofNat', Nat.mod_eq_of_lt (by omega)]
        have hb0 : b = 0 ↔ b.toNat = 0 := hn 0 (by omega)
        have hb1 : b = 1 ↔ b.toNat = 1 := hn 1 (by omega)
        have hb2 : b = 2 ↔ b.toNat = 2 := hn 2 (by omega)
        unfold Spec.configModel
        by_cases h0 : b = 0
        · rw [if_pos h0, if_pos (hb0.1 h0)]
          show Outcome.ok (_, r5'.err) = _
          rw [k5']
        rw [if_neg h0, if_neg (fun h => h0 (hb0.2 h))]
        by_cases h1 : b = 1
        · rw [if_pos h1, if_pos (hb1.1 h1)]
          show Outcome.ok (_, r5'.err) = _
          rw [k5']
        rw [if_neg h1, if_neg (fun h => h1 (hb1.2 h))]
        by_cases h2 : b = 2
        · rw [if_pos h2, if_pos (hb2.1 h2)]
          have hr : r5' = r5 := hsame (by rcases hm with hm | hm; exact hm; exact absurd h2 hm)
          rw [hr, ← h2, M.bind_ok e6]
          show Outcome.ok (_, r6.err) = _
          rw [k6]
        · rw [if_neg h2, if_neg (fun h => h2 (hb2.2 h))]
          show Outcome.ok (_, r5'.err) = _
          rw [k5']

theorem readHead_mode (D : Bytes) (hd : Head) (r : R) (e : readHead (newReader D) = .ok (.ok hd, r)) :
    hd.mode.toNat ≤ 2 ∧ (hd.mode = 1 → (D.drop 9).take 4 ∈ Spec.middleVersions) := by
  unfold readHead at e
  obtain ⟨x, r1, e1, e⟩ := M.bind_inv e
  cases x with
  | error er => cases e
  | ok mode =>
    have hmd : hd.mode = mode := by
      dsimp only at e
      obtain ⟨w, r2, e2, e⟩ := M.bind_inv e
      obtain ⟨ht, r3, e3, e⟩ := M.bind_inv e
      obtain ⟨b, r4, e4, e⟩ := M.bind_inv e
      obtain ⟨pr, r5, e5, e⟩ := M.bind_inv e
      obtain ⟨y, r6, e6, e⟩ := M.bind_inv e
      cases y with
      | error er => cases e
      | ok props =>
        dsimp only at e
        obtain ⟨ptrs, r7, e7, e⟩ := M.bind_inv e
        obtain ⟨er, r8, e8, e⟩ := M.bind_inv e
        cases er with
        | some er => cases e
        | none => cases e; rfl
    obtain ⟨m, r', hr, hm⟩ := readHeader_fault D
    have hf : Spec.headerFault D = none := by
      cases hf : Spec.headerFault D with
      | none => rfl
      | some er => rw [hf, e1] at hr; cases hr
    rw [hf, e1] at hr
    cases hr
    obtain ⟨_, v, hv, h1, h2⟩ := hm hf
    rw [hmd, ← h1, ← h2]
    have : ∀ v ∈ versions, v.2.toNat ≤ 2 ∧ (v.2 = 1 → v.1 ∈ Spec.middleVersions) := by decide
    exact this v hv

/-- a version 4 file with a palette of two colours and no layers; the number of the precision is taken
for the type of a property -/
def palette4 : Bytes :=
  fileTypeID ++ [118, 48, 48, 52, 0] ++ be 4 1 ++ be 4 1 ++ be 4 2 ++ be 4 0 ++
  be 4 1 ++ be 4 10 ++ be 4 2 ++ [10, 20, 30, 40, 50, 60] ++ be 4 0 ++ be 4 0 ++ be 4 0

/-- C43 is false: an indexed file of version 4 which `Decode` reads is refused by `DecodeConfig`. -/
theorem C43_refuted : (decodeImage exEnv exSched true palette4).isImage = true ∧
    decodeConfig palette4 = .ok (⟨1, 1, none⟩, some .invalidProperties) := by
  refine ⟨by decide +kernel, ?_⟩
  rfl

/-- the layers at the top are cut to the canvas -/
theorem makeGroups_canvas {bounds : Rect} : ∀ {ls : List DLayer} {s s' : GState}, GInv s →
    (∀ g, s.objs[0]? = some g → g.ox = 0 ∧ g.oy = 0) → (∀ l ∈ s.items 0, Spec.inside l.bounds bounds) →
    makeGroups bounds ls s = .ok s' → ∀ l ∈ s'.items 0, Spec.inside l.bounds bounds := by
  intro ls
  induction ls with
  | nil => intro s s' _ _ h2 h; cases h; exact h2
  | cons l ls ih =>
    intro s s' hi h0 h2 h
    unfold makeGroups at h
    cases hs : groupStep bounds l s with
    | error e => rw [hs] at h; cases h
    | ok s1 =>
      rw [hs] at h
      obtain ⟨gi, g, hl, hgi, hg, hlk, hhl, hit, _, _, hf, ht⟩ := groupStep_ok hi hs
      refine ih (groupStep_inv hi hs) ?_ ?_ h
      · intro g' hg'
        refine h0 g' ?_
        cases hgr : l.group with
        | false => rwa [(hf hgr).1] at hg'
        | true => rwa [(ht hgr).1, List.getElem?_append_left hi.pos] at hg'
      · intro x hx
        rw [hit] at hx
        by_cases hig : 0 = gi
        · rw [if_pos hig] at hx
          rcases List.mem_append.1 hx with hx | hx
          · rw [← hig] at hx; exact h2 x hx
          · rw [List.mem_singleton.1 hx, hhl]
            obtain ⟨o1, o2⟩ := h0 g (by rw [hig]; exact hg)
            intro p hp
            have hsub : ((l.layer.bounds.inter bounds).sub ⟨g.ox, g.oy⟩) = l.layer.bounds.inter bounds := by
              rw [o1, o2]; unfold Rect.sub; simp
            dsimp only at hp
            rw [hsub] at hp
            exact ((inRect_inter ..).1 hp).2
        · rw [if_neg hig] at hx; exact h2 x hx

/-- C43, the true part: for every file `Decode` accepts that is not an indexed file of versions 4 to 10,
`DecodeConfig` returns without error a size and a colour model, of which
the size is the canvas every top layer of the decoded image lies in,
and the palette of every indexed image decoded is that of the colour model.
Missing: indexed files of versions 4 to 10, for which it is false (`C43_refuted`). -/
theorem C43_decode_partial (env : Env) (sch : Sched) (hv : sch.Valid) (D : Bytes) (im : List Layer)
    (h : decodeImage env sch true D = .ok (.ok im))
    (hm : (D.drop 9).take 4 ∉ Spec.middleVersions ∨ fromBE ((D.drop 22).take 4) ≠ 2) :
    ∃ w ht pal, decodeConfig D = .ok (⟨w, ht, Spec.configModel (fromBE ((D.drop 22).take 4)) pal⟩, none) ∧
      (∀ l ∈ im, Spec.inside l.bounds ⟨0, 0, w, ht⟩) ∧
      (∀ l p, Spec.Within (.leaf l) (.group im) → l.model = .palette p ∨ l.model = .alphaPalette p → p = pal) := by
  obtain ⟨hd, r, hh, hbuilt⟩ := decode_built hv h
  have hbase := readHead_baseType D hd r hh
  obtain ⟨hmode, hmid⟩ := readHead_mode D hd r hh
  refine ⟨hd.width.toNat, hd.height.toNat, hd.props.palette, ?_, ?_, ?_⟩
  · rw [hbase]
    refine config_of_head D hd r hh ?_ hmode
    rcases hm with hm | hm
    · exact Or.inl fun h1 => hm (hmid h1)
    · refine Or.inr fun h2 => hm ?_
      rw [hbase, h2]; rfl
  · unfold decodeImage at h
    rw [hh] at h
    dsimp only at h
    unfold decodeLayers at h
    split at h
    · cases h
    · cases h
    · cases h
    · rename_i ls hl
      cases hmg : makeGroups (sizeRect hd.width.toNat hd.height.toNat) ls GState.start with
      | error e => rw [hmg] at h; cases h
      | ok s =>
        rw [hmg] at h
        dsimp only at h
        have hi := makeGroups_inv ginv_start hmg
        rw [makeImage_tree hi _ (hv.2 _)] at h
        have hb0 := makeGroups_canvas ginv_start (by intro g hg; cases hg; exact ⟨rfl, rfl⟩)
          (by intro l hl; cases hl) hmg
        cases h
        have htree : ∀ f, ∀ l ∈ groupTree s (s.map.map (·.2)) f 0, Spec.inside l.bounds (sizeRect hd.width.toNat hd.height.toNat) := by
          intro f
          cases f with
          | zero => intro l hl; cases hl
          | succ f =>
            intro l hl
            unfold groupTree at hl
            obtain ⟨k, hk, rfl⟩ := List.mem_mapIdx.1 hl
            exact hb0 _ (List.getElem_mem hk)
        intro l hl
        unfold fixBottom at hl
        split at hl
        · exact htree _ l hl
        · rename_i x hx
          split at hl
          · exact htree _ l hl
          · rcases List.mem_append.1 hl with hl | hl
            · exact htree _ l (List.dropLast_subset _ hl)
            · rw [List.mem_singleton.1 hl]
              exact htree _ x (List.mem_of_getLast? hx)
  · intro l p hw hp
    have key : ∀ {i : Img}, Built hd.baseType.toNat hd.props.palette i → Spec.Within (.leaf l) i → p = hd.props.palette := by
      intro i hb hw
      induction hb with
      | nil => cases hw
      | leaf e hk hb he =>
        cases hw
        have h2 : kindModel e.kind e.palette = .palette p ∨ kindModel e.kind e.palette = .alphaPalette p := hp
        rw [he] at h2
        unfold kindModel at h2
        split at h2 <;> rcases h2 with h | h <;> cases h <;> rfl
      | text _ _ ih => cases hw with
        | text hw => exact ih hw
      | masked _ _ ih => cases hw with
        | masked hw => exact ih hw
      | group _ ih => cases hw with
        | layer hm hw => exact ih _ hm hw
    exact key hbuilt hw

example : (decodeImage exEnv exSched true badIndex).isImage = true ∧
    (badIndex.drop 9).take 4 ∉ Spec.middleVersions ∧ fromBE ((badIndex.drop 22).take 4) = 2 := by
  decide +kernel

end Limage
