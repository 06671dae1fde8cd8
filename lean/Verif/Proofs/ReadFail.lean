import Verif.Proofs.ReadFile
import Verif.Props.Truncate
/-! Reading layers that are rejected. -/
namespace Limage
open Spec

theorem hierarchy_lt {D : Bytes} {h : Nat} {b : Rect} {bpp : Nat} {S : Pt → Bytes → Prop} (hpx : PixelsAt (D.take maxString) h b bpp S) :
    h < 2 ^ 32 := by
  have hmax : maxString = 16777216 := rfl
  obtain ⟨level, tiles, g, _⟩ := hpx
  have := hasAt_lt g (by
    intro h0
    have := congrArg List.length h0
    rw [List.length_append, num_length, List.length_nil] at this
    omega)
  omega

/-- pixels of another size than that of the layer -/
theorem readImage_size {D : Bytes} {c : Ctx} {h : Nat} {b : Rect} {bpp : Nat} {S : Pt → Bytes → Prop}
    (hpx : PixelsAt (D.take maxString) h b bpp S) {w ht kind : UInt32} (hne : u32 b.dx ≠ w ∨ u32 b.dy ≠ ht) :
    ∃ r', readImage c w ht kind (readerAt D h) = .ok (none, r') ∧ r'.err = some .inconsistentData := by
  obtain ⟨level, tiles, g, _⟩ := hpx
  simp only [List.append_assoc] at g
  have s := sees_at g (by
    intro h0
    have := congrArg List.length h0
    rw [List.length_append, show (int b.dx).length = 4 from num_length _, List.length_nil] at this
    omega)
  have e : readLevel c w ht kind (readerAt D h) = .ok (none,
      { ((readerAt D h).adv (int b.dx).length).adv (int b.dy).length with err := some .inconsistentData }) := by
    unfold readLevel
    rw [M.bind_ok (int_consumes _ _ s.left), M.bind_ok (int_consumes _ _ s.right.left), if_pos hne]
    rfl
  refine ⟨{ ((readerAt D h).adv (int b.dx).length).adv (int b.dy).length with err := some .inconsistentData }, ?_, rfl⟩
  unfold readImage
  rw [M.bind_ok e]
  rfl

/-- A layer that could be stored if its mask were at the origin. -/
structure Spec.StorableMask (F : Fmt) (Parses : Bytes → TextData → Prop) (W H : Int) (r : Placed) : Prop where
  name : Utf8 r.layer.name
  x : 0 ≤ r.ox ∧ 0 < r.layer.bounds.dx ∧ r.ox + r.layer.bounds.dx ≤ W
  y : 0 ≤ r.oy ∧ 0 < r.layer.bounds.dy ∧ r.oy + r.layer.bounds.dy ≤ H
  size : isGroupLayer r.layer = false → ∀ b, (pixelsOf r.layer.image).bounds = some b → b.dx = r.layer.bounds.dx ∧ b.dy = r.layer.bounds.dy
  text : ∀ t d, textOf r.layer = some t → F.text t r.layer.bounds.dx r.layer.bounds.dy = some d → ∃ t', Parses d t'
  mask : ∀ m, maskOf r.layer.image = some m → m.rect.dx = r.layer.bounds.dx ∧ m.rect.dy = r.layer.bounds.dy
  path : ∀ n ∈ r.path, n < 0xd800

theorem storable_of_mask {F : Fmt} {P : Bytes → TextData → Prop} {W H : Int} {r : Placed} (h : StorableMask F P W H r)
    (ho : maskOf r.layer.image ≠ none → r.ox = 0 ∧ r.oy = 0) : Storable F P W H r :=
  ⟨h.name, h.x, h.y, h.size, h.text, fun m hm => by
    obtain ⟨a, b⟩ := ho (by rw [hm]; intro h; cases h)
    exact ⟨a, b, h.mask m hm⟩, h.path⟩

theorem masked_facts {r : Placed} {m : GrayImg} (h : maskOf r.layer.image = some m) : isGroupLayer r.layer = false ∧ textOf r.layer = none := by
  unfold maskOf at h
  unfold isGroupLayer textOf
  split at h
  · rename_i he; rw [he]; exact ⟨rfl, rfl⟩
  · cases h

/-- A masked layer that is not at the origin is rejected; without decompression every masked layer panics. -/
theorem masked_at {D : Bytes} {c : Ctx} {F : Fmt} (hF : FmtOk F) (hc : c.compression ≠ 0) (hm : c.mode = 0)
    (hb : c.baseType = UInt32.ofNat F.typ) (hpal : c.palette = paletteBack F) {Parses : Bytes → TextData → Prop}
    {W H : Int} (hW : W ≤ 2 ^ 31) (hH : H ≤ 2 ^ 31)
    (h0 : HasAt (D.take maxString) 0 fileMagic) {p : Nat} {r : Placed} (hat : LayerAt (D.take maxString) F p r)
    (hs : StorableMask F Parses W H r) {mk : GrayImg} (hmo : maskOf r.layer.image = some mk) :
    (c.decompress = false → readLayer c (readerAt D p) = .panic) ∧
    (c.decompress = true → ¬ (r.ox = 0 ∧ r.oy = 0) → ∃ l r', readLayer c (readerAt D p) = .ok (l, r') ∧ r'.err = some .inconsistentData) := by
  have hmax : maxString = 16777216 := rfl
  obtain ⟨t, h, m, ht, h1, ⟨b, hbd, hpx⟩, hmask⟩ := hat
  have hh := hierarchy_lt hpx
  rw [readLayer_head hF hb hm h1 hs.name hh]
  obtain ⟨x1, x2, x3⟩ := hs.x
  obtain ⟨y1, y2, y3⟩ := hs.y
  obtain ⟨w, hw⟩ := Int.eq_ofNat_of_zero_le (Int.le_of_lt x2)
  obtain ⟨ht', hht'⟩ := Int.eq_ofNat_of_zero_le (Int.le_of_lt y2)
  rw [hw, hht', u32_nat, u32_nat]
  have hw2 : w < 2 ^ 32 := by omega
  have hh2 : ht' < 2 ^ 32 := by omega
  obtain ⟨hg, hto⟩ := masked_facts hmo
  have htn : t = none := by
    rcases ht with h | ⟨td, h, _⟩
    · exact h.2
    · rw [hto] at h; cases h
  subst htn
  have hbounds : (⟨0, 0, (UInt32.ofNat w).toNat, (UInt32.ofNat ht').toNat⟩ : Rect).add (propsBack F r none).off =
      ⟨r.ox, r.oy, r.ox + w, r.oy + ht'⟩ := by
    rw [u32_toNat hw2, u32_toNat hh2]
    show (⟨0 + toInt32 (u32 r.ox), 0 + toInt32 (u32 r.oy), w + toInt32 (u32 r.ox), ht' + toInt32 (u32 r.oy)⟩ : Rect) = _
    rw [toInt32_u32 x1 (by omega), toInt32_u32 y1 (by omega)]
    simp [Int.add_comm]
  unfold layerRest
  have hgr : (propsBack F r none).group = isGroupLayer r.layer := rfl
  have hpar : (propsBack F r none).parasites = parasitesBack none := rfl
  obtain ⟨hsx, hsy⟩ := hs.size hg b hbd
  obtain ⟨L, r', e, e1, e2, e3, e4⟩ := layerImage_at hF hc hm hpal hbd hpx (hsx.trans hw) (hsy.trans hht') (by omega) (by omega) hw2 hh2
  have hgf : (propsBack F r none).group = false := hgr.trans hg
  rw [← hgf] at e
  rw [hpar, M.bind_ok e]
  dsimp only
  have et : layerText c (parasitesBack none) (.leaf L) r' = .ok (some (.leaf L), r') := rfl
  rw [M.bind_ok et]
  dsimp only
  rw [hmo] at hmask
  have hmask : MaskAt (D.take maxString) m mk := hmask
  obtain ⟨o3, o4⟩ := hs.mask mk hmo
  have hm0 : (UInt32.ofNat m).toUInt64 ≠ 0 ∧ m < maxString := by
    have hmm : m < maxString := by
      obtain ⟨hp, g1, _⟩ := hmask
      have := hasAt_lt g1 (by
        intro h0
        have := congrArg List.length h0
        rw [List.length_append, num_length, List.length_nil] at this
        omega)
      rw [List.length_append, num_length] at this
      omega
    refine ⟨?_, hmm⟩
    intro h
    have h := congrArg UInt64.toNat h
    rw [UInt32.toNat_toUInt64, u32_toNat (by omega)] at h
    have h : m = 0 := h
    subst h
    exact maskAt_ne_zero h0 hmask
  rw [if_pos hm0.1, M.bind_ok (goto_any (by omega) e1 e2 e3)]
  constructor
  · intro hd
    have er : readChannel c (readerAt D m) = .panic := by
      obtain ⟨hp, g1, g2⟩ := hmask
      simp only [List.append_assoc] at g1
      have s := sees_at g1 (by
        intro h0
        have := congrArg List.length h0
        rw [List.length_append, show (int mk.rect.dx).length = 4 from num_length _, List.length_nil] at this
        omega)
      obtain ⟨hlt, d, r'', f1, f2, f3, f4, f5, _⟩ := readImage_any (c := c) hc hm (by rw [hpal]; exact paletteBack_rgb F) g2 (by
        rintro q bs rfl
        rfl) (o3.trans hw) (o4.trans hht') (by omega) (by omega) hw2 hh2 2 (by decide) (by omega) (by omega) (by decide)
      obtain ⟨im, rfl⟩ := f5 hd
      unfold readChannel
      rw [M.bind_ok (int_consumes _ _ s.left)]
      have s := s.right
      rw [M.bind_ok (int_consumes _ _ s.left)]
      have s := s.right
      rw [M.bind_ok (skipText_consumes _ s.left)]
      have s := s.right
      rw [← List.append_assoc] at s
      rw [M.bind_ok (skipPropertiesAll_consumes _ s.left)]
      have s := s.right
      rw [hm, M.bind_ok (readPtr_consumes _ _ s)]
      rw [M.bind_ok (goto_any (D := D) (by omega) rfl rfl rfl)]
      rw [o3, o4, hw, hht', u32_nat, u32_nat, M.bind_ok f1]
      rfl
    have : ∀ {β : Type} (f : Img → M β) (R : Rect) (i : Img), (readMask c R i >>= f) (readerAt D m) = .panic := by
      intro β f R i
      show M.bind _ _ _ = _
      unfold M.bind
      have : readMask c R i (readerAt D m) = .panic := by
        unfold readMask
        show M.bind _ _ _ = _
        unfold M.bind
        rw [er]
      rw [this]
    exact this _ _ _
  · intro hd hno
    obtain ⟨g0, m', r'', g1, g2, g3, g4⟩ := readChannel_at hc hd hm hmask (o3.trans hw) (o4.trans hht') (by omega) (by omega) hw2 hh2
    have er : ∃ i r3, readMask c ((⟨0, 0, (UInt32.ofNat w).toNat, (UInt32.ofNat ht').toNat⟩ : Rect).add (propsBack F r none).off) (.leaf L)
        (readerAt D m) = .ok (i, r3) ∧ r3.err = some .inconsistentData := by
      unfold readMask
      rw [M.bind_ok g1]
      dsimp only
      rw [if_neg]
      · refine ⟨_, { r'' with err := r''.err.or (some .inconsistentData) }, rfl, ?_⟩
        dsimp only
        rw [g2]; rfl
      · rw [hbounds, g3]
        unfold Rect.eq sizeRect Rect.empty
        simp only [Bool.or_eq_true, decide_eq_true_eq, Rect.mk.injEq, Bool.and_eq_true]
        omega
    obtain ⟨i, r3, er, ee⟩ := er
    rw [M.bind_ok er]
    exact ⟨_, r3, rfl, ee⟩

/-! ### Whole files -/

/-- a file up to the reading of the layers -/
theorem decode_start (env : Env) (sch : Sched) (decompress : Bool) (D : Bytes) (F : Fmt) (hF : FmtOk F) (ls : List Placed) (b : Rect)
    (hat : LayersAt (D.take maxString) F b ls) : ∃ (ptrs : List Nat) (c : Ctx), List.Forall₂ (LayerAt (D.take maxString) F) ptrs ls ∧
      HasAt (D.take maxString) 0 fileMagic ∧ c.compression ≠ 0 ∧ c.mode = 0 ∧ c.baseType = UInt32.ofNat F.typ ∧ c.palette = paletteBack F ∧
      c.decompress = decompress ∧ c.env = env ∧
      (∀ rs, gather ((ptrs.map fun p => (UInt32.ofNat p).toUInt64).map (layerAtPtr c D)) = .ok rs →
        ∀ e, firstErr (rs.map (·.2)) (sch.layers ls.length) = some e → decodeImage env sch decompress D = .ok (.error e)) ∧
      (gather ((ptrs.map fun p => (UInt32.ofNat p).toUInt64).map (layerAtPtr c D)) = .panic → decodeImage env sch decompress D = .panic) := by
  obtain ⟨ptrs, h1, h2⟩ := hat
  have h0 : HasAt (D.take maxString) 0 fileMagic := by
    unfold fileHead at h1
    simp only [List.append_assoc] at h1
    exact (hasAt_append.1 h1).1
  have hp : ∀ p ∈ ptrs, p ≠ 0 ∧ p < 2 ^ 32 := by
    intro p hp
    obtain ⟨r, h⟩ : ∃ r, LayerAt (D.take maxString) F p r := by
      clear h1
      induction h2 with
      | nil => cases hp
      | cons h _ ih =>
        rcases List.mem_cons.1 hp with rfl | hp
        · exact ⟨_, h⟩
        · exact ih hp
    exact layerAt_pos hF h0 h
  obtain ⟨r', hh⟩ := readHead_at hF h1 hp
  refine ⟨ptrs, Head.ctx ⟨0, u32 b.dx, u32 b.dy, UInt32.ofNat F.typ, ⟨paletteBack F, 1⟩,
      ptrs.map fun p => (UInt32.ofNat p).toUInt64⟩ env decompress, h2, h0, (show (1 : UInt8) ≠ 0 by decide), rfl, rfl, rfl, rfl, rfl, ?_, ?_⟩
  · intro rs hr e he
    unfold decodeImage
    rw [hh]
    dsimp only
    unfold decodeLayers readLayers
    rw [hr]
    dsimp only
    rw [List.length_map, h2.length_eq, he]
  · intro hr
    unfold decodeImage
    rw [hh]
    dsimp only
    unfold decodeLayers readLayers
    rw [hr]

theorem gather_panic {α : Type} {xs : List (Outcome α)} (h : .panic ∈ xs) : gather xs = .panic := by
  induction xs with
  | nil => cases h
  | cons x xs ih =>
    unfold gather
    rcases List.mem_cons.1 h with h | h
    · rw [← h]
    · rw [ih h]
      cases x <;> rfl

theorem layerAtPtr_ok {D : Bytes} {c : Ctx} {p : Nat} (hp : p < 2 ^ 32) {l : DLayer} {r : R} (h : readLayer c (readerAt D p) = .ok (l, r)) :
    layerAtPtr c D (UInt32.ofNat p).toUInt64 = .ok (l, r.err) := by
  unfold layerAtPtr
  rw [M.bind_ok (goto_any (D := D) hp rfl rfl rfl), h]

theorem layerAtPtr_panic {D : Bytes} {c : Ctx} {p : Nat} (hp : p < 2 ^ 32) (h : readLayer c (readerAt D p) = .panic) :
    layerAtPtr c D (UInt32.ofNat p).toUInt64 = .panic := by
  unfold layerAtPtr
  rw [M.bind_ok (goto_any (D := D) hp rfl rfl rfl), h]

theorem gather_masks {D : Bytes} {c : Ctx} {F : Fmt} (hF : FmtOk F) (hc : c.compression ≠ 0) (hm : c.mode = 0)
    (hb : c.baseType = UInt32.ofNat F.typ) (hpal : c.palette = paletteBack F) (hd : c.decompress = true) {Parses : Bytes → TextData → Prop}
    (hP : ∀ d t, Parses d t → c.env.parseText d = .ok (some t)) {W H : Int} (hW : W ≤ 2 ^ 31) (hH : H ≤ 2 ^ 31)
    (h0 : HasAt (D.take maxString) 0 fileMagic) : ∀ {ptrs : List Nat} {ls : List Placed},
    List.Forall₂ (LayerAt (D.take maxString) F) ptrs ls → (∀ r ∈ ls, StorableMask F Parses W H r) →
    ∃ rs : List (DLayer × Option Err), gather ((ptrs.map fun p => (UInt32.ofNat p).toUInt64).map (layerAtPtr c D)) = .ok rs ∧
      List.Forall₂ (fun r x => x.2 = if maskOf r.layer.image ≠ none ∧ ¬ (r.ox = 0 ∧ r.oy = 0) then some .inconsistentData else none) ls rs
  | [], _, .nil, _ => ⟨[], rfl, .nil⟩
  | p :: ptrs, r :: ls, .cons h1 h2, hs => by
    obtain ⟨rs, e1, e2⟩ := gather_masks hF hc hm hb hpal hd hP hW hH h0 h2 fun r hr => hs r (List.mem_cons_of_mem _ hr)
    have hr := hs r (List.mem_cons_self ..)
    have hp := (layerAt_pos hF h0 h1).2
    by_cases hbad : maskOf r.layer.image ≠ none ∧ ¬ (r.ox = 0 ∧ r.oy = 0)
    · obtain ⟨mk, hmk⟩ := Option.ne_none_iff_exists'.1 hbad.1
      obtain ⟨l, r', g1, g2⟩ := (masked_at hF hc hm hb hpal hW hH h0 h1 hr hmk).2 hd hbad.2
      refine ⟨(l, some .inconsistentData) :: rs, ?_, .cons (by rw [if_pos hbad]) e2⟩
      rw [List.map_cons, List.map_cons, layerAtPtr_ok hp g1, gather_cons_ok e1, g2]
    · have hst : Storable F Parses W H r := storable_of_mask hr fun h => Classical.byContradiction fun h' => hbad ⟨h, h'⟩
      obtain ⟨l, r', g1, g2, g3⟩ := readLayer_at hF hc hm hb hpal hP hW hH h0 (.inl hd) h1 hst
      refine ⟨(l, none) :: rs, ?_, .cons (by rw [if_neg hbad]) e2⟩
      rw [List.map_cons, List.map_cons, layerAtPtr_ok hp g1, gather_cons_ok e1, g2]

theorem forall₂_left {α β : Type} {R : α → β → Prop} {xs : List α} {ys : List β} (h : List.Forall₂ R xs ys) {y : β} (hy : y ∈ ys) :
    ∃ x ∈ xs, R x y := by
  induction h with
  | nil => cases hy
  | cons h _ ih =>
    rcases List.mem_cons.1 hy with rfl | hy
    · exact ⟨_, List.mem_cons_self .., h⟩
    · obtain ⟨x, h1, h2⟩ := ih hy
      exact ⟨x, List.mem_cons_of_mem _ h1, h2⟩

theorem forall₂_right {α β : Type} {R : α → β → Prop} {xs : List α} {ys : List β} (h : List.Forall₂ R xs ys) {x : α} (hx : x ∈ xs) :
    ∃ y ∈ ys, R x y := by
  induction h with
  | nil => cases hx
  | cons h _ ih =>
    rcases List.mem_cons.1 hx with rfl | hx
    · exact ⟨_, List.mem_cons_self .., h⟩
    · obtain ⟨y, h1, h2⟩ := ih hx
      exact ⟨y, List.mem_cons_of_mem _ h1, h2⟩

/-- a picture with a masked layer that is not at the origin is rejected -/
theorem decode_masks (env : Env) (sch : Sched) (hv : sch.Valid) (D : Bytes) (F : Fmt) (hF : FmtOk F) (ls : List Placed) (b : Rect)
    (hat : LayersAt (D.take maxString) F b ls) {W H : Int} (hW : W ≤ 2 ^ 31) (hH : H ≤ 2 ^ 31)
    (hs : ∀ r ∈ ls, StorableMask F (parsesTo env) W H r)
    (hx : ∃ r ∈ ls, maskOf r.layer.image ≠ none ∧ ¬ (r.ox = 0 ∧ r.oy = 0)) :
    decodeImage env sch true D = .ok (.error .inconsistentData) := by
  obtain ⟨ptrs, c, h2, h0, hc, hm, hb, hpal, hd, he, hok, -⟩ := decode_start env sch true D F hF ls b hat
  obtain ⟨rs, e1, e2⟩ := gather_masks hF hc hm hb hpal hd (Parses := parsesTo env) (fun d t h => by rw [he]; exact h) hW hH h0 h2 hs
  cases hf : firstErr (rs.map (·.2)) (sch.layers ls.length) with
  | some e =>
    rw [hok rs e1 e hf]
    obtain ⟨x, hx1, hx2⟩ : ∃ x ∈ rs.map (·.2), x = some e := by
      have : ∀ (errs : List (Option Err)) (is : List Nat), firstErr errs is = some e → some e ∈ errs := by
        intro errs is
        induction is with
        | nil => intro h; cases h
        | cons i is ih =>
          intro h
          unfold firstErr at h
          cases hi : errs.getD i none with
          | none => rw [hi] at h; exact ih h
          | some x =>
            rw [hi] at h
            cases h
            rw [List.getD_eq_getElem?_getD] at hi
            cases hg : errs[i]? with
            | none => rw [hg] at hi; cases hi
            | some y =>
              rw [hg] at hi
              have hi : y = some e := hi
              subst hi
              exact List.mem_of_getElem? hg
      exact ⟨_, this _ _ hf, rfl⟩
    obtain ⟨y, hy, rfl⟩ := List.mem_map.1 hx1
    obtain ⟨r, hr, hry⟩ := forall₂_left e2 hy
    rw [hry] at hx2
    split at hx2 <;> cases hx2
    rfl
  | none =>
    exfalso
    obtain ⟨r, hr, hbad⟩ := hx
    obtain ⟨y, hy, hry⟩ := forall₂_right e2 hr
    rw [if_pos hbad] at hry
    have := firstErr_all (errs := rs.map (·.2)) (by rw [List.length_map, ← e2.length_eq]; exact hv.1 _) hf _ (List.mem_map.2 ⟨y, hy, rfl⟩)
    rw [hry] at this
    cases this

/-- without decompression a picture with a mask panics -/
theorem decode_masks_lazy (env : Env) (sch : Sched) (D : Bytes) (F : Fmt) (hF : FmtOk F) (ls : List Placed) (b : Rect)
    (hat : LayersAt (D.take maxString) F b ls) {W H : Int} (hW : W ≤ 2 ^ 31) (hH : H ≤ 2 ^ 31)
    (hx : ∃ r ∈ ls, maskOf r.layer.image ≠ none ∧ StorableMask F (parsesTo env) W H r) :
    decodeImage env sch false D = .panic := by
  obtain ⟨ptrs, c, h2, h0, hc, hm, hb, hpal, hd, -, -, hpan⟩ := decode_start env sch false D F hF ls b hat
  apply hpan
  apply gather_panic
  obtain ⟨r, hr, hmk, hst⟩ := hx
  obtain ⟨mk, hmk⟩ := Option.ne_none_iff_exists'.1 hmk
  obtain ⟨p, hp, hat⟩ := forall₂_left h2 hr
  have := layerAtPtr_panic (layerAt_pos hF h0 hat).2 ((masked_at hF hc hm hb hpal hW hH h0 hat hst hmk).1 hd)
  rw [List.map_map]
  exact List.mem_map.2 ⟨p, hp, this⟩

/-- a file with a single layer that has another size than its pixels is rejected -/
theorem decode_wrong_size (env : Env) (sch : Sched) (hv : sch.Valid) (decompress : Bool) (D : Bytes) (F : Fmt) (hF : FmtOk F) (r : Placed) (b : Rect)
    (hat : LayersAt (D.take maxString) F b [r]) (hu : Utf8 r.layer.name) (hg : isGroupLayer r.layer = false) {pb : Rect}
    (hpb : (pixelsOf r.layer.image).bounds = some pb) (hne : u32 pb.dx ≠ u32 r.layer.bounds.dx ∨ u32 pb.dy ≠ u32 r.layer.bounds.dy) :
    decodeImage env sch decompress D = .ok (.error .inconsistentData) := by
  obtain ⟨ptrs, c, h2, h0, hc, hm, hb, hpal, hd, he, hok, -⟩ := decode_start env sch decompress D F hF _ b hat
  match ptrs, h2 with
  | [p], .cons h2 .nil =>
    have hp := (layerAt_pos hF h0 h2).2
    obtain ⟨t, h, m, ht, h1, ⟨b', hbd, hpx⟩, hmask⟩ := h2
    rw [hpb] at hbd
    cases hbd
    obtain ⟨r', e1, e2⟩ := readImage_size (c := c) hpx (kind := UInt32.ofNat (2 * F.typ + 1)) hne
    have : ∃ l, readLayer c (readerAt D p) = .ok (l, r') := by
      rw [readLayer_head hF hb hm h1 hu (hierarchy_lt hpx)]
      unfold layerRest
      have hgf : (propsBack F r t).group = false := hg
      rw [hgf]
      have : layerImage c false (u32 r.layer.bounds.dx) (u32 r.layer.bounds.dy) (UInt32.ofNat (2 * F.typ + 1)) (readerAt D h) = .ok (none, r') := by
        unfold layerImage
        rw [if_neg (by decide), M.bind_ok e1]
        rfl
      rw [M.bind_ok this]
      exact ⟨_, rfl⟩
    obtain ⟨l, hl⟩ := this
    refine hok [(l, r'.err)] ?_ _ ?_
    · rw [List.map_cons, List.map_cons, layerAtPtr_ok hp hl]; rfl
    · have : sch.layers 1 = [0] := by
        have := hv.1 1
        rwa [show List.range 1 = [0] from rfl, List.perm_singleton] at this
      rw [List.length_singleton, this, e2]
      rfl

end Limage
