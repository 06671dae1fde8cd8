import Verif.Proofs.RleCopy
/-! Reading the tiles of an image, lazily and eagerly. -/
namespace Limage
open Spec

theorem R.err_eta (r : R) : ({ r with err := r.err } : R) = r := rfl

theorem setErr?_err (e : Option Err) (r : R) (he : r.err.isSome) : setErr? e r = .ok ((), r) := by
  obtain ⟨x, hx⟩ := Option.isSome_iff_exists.1 he
  cases e with
  | none => rfl
  | some e =>
    show Outcome.ok ((), { r with err := r.err.or (some e) }) = _
    rw [show r.err.or (some e) = r.err by rw [hx]; rfl]

theorem setErr?_some (e : Err) (r : R) : ∃ r', setErr? (some e) r = .ok ((), r') ∧ r'.err.isSome ∧ Frame r r' := by
  refine ⟨{ r with err := r.err.or (some e) }, rfl, ?_, rfl, rfl, Nat.le_refl _⟩
  cases r.err <;> rfl

theorem readRLEAll_err (n : Nat) (r : R) (he : r.err.isSome) : ∃ x, readRLEAll n r = .ok (x, r) :=
  readRLE_err _ _ r he (by omega)

theorem readChannels_err (n : Nat) : ∀ (k : Nat) (r : R), r.err.isSome →
    ∃ bs, readChannels n k r = .ok (bs, r) := by
  intro k
  induction k with
  | zero => intro r _; exact ⟨[], rfl⟩
  | succ k ih =>
    intro r he
    obtain ⟨⟨b, e⟩, h⟩ := readRLEAll_err n r he
    obtain ⟨bs, h2⟩ := ih r he
    refine ⟨b :: bs, ?_⟩
    unfold readChannels
    rw [M.bind_ok h]
    dsimp only
    rw [M.bind_ok (setErr?_err e r he), M.bind_ok h2]; rfl

/-- operations that make up one channel of `n` bytes -/
def GoodOps (n : Nat) (ops : List Op) : Prop :=
  (∀ o ∈ ops, o.valid) ∧ LastReal ops ∧ (ops.flatMap Op.plain).length = n

/-- the code of a channel -/
def codeOf (ops : List Op) : Bytes := ops.flatMap Op.code
/-- the contents of a channel -/
def plainOf (ops : List Op) : Bytes := ops.flatMap Op.plain

theorem readChannels_cases (n : Nat) (hn : 1 ≤ n) : ∀ (k : Nat) (r : R), r.err = none → r.pos ≤ r.limit ∨ 1 ≤ k →
    ∃ bs r', readChannels n k r = .ok (bs, r') ∧ Frame r r' ∧
      (r'.err = none → ∃ d : List (List Op), d.length = k ∧ (∀ ops ∈ d, GoodOps n ops) ∧
        bs = d.map codeOf ∧ Sees r bs.flatten ∧ r' = r.adv bs.flatten.length) := by
  intro k
  induction k with
  | zero =>
    intro r he hl
    exact ⟨[], r, rfl, Frame.refl r, fun _ => ⟨[], rfl, by simp, rfl, sees_nil he (by omega), rfl⟩⟩
  | succ k ih =>
    intro r he _
    obtain ⟨b, e, r1, h1, h2, h3⟩ := readRLE_cases (n + r.data.length + 2) n r he (by omega)
    unfold readChannels
    rw [show (readRLEAll n >>= _) r = _ from M.bind_ok h1]
    dsimp only
    cases he1 : r1.err with
    | some x =>
      have hs : r1.err.isSome := by rw [he1]; rfl
      obtain ⟨bs, h4⟩ := readChannels_err n k r1 hs
      rw [M.bind_ok (setErr?_err e r1 hs), M.bind_ok h4]
      exact ⟨_, _, rfl, h2, fun h => by rw [he1] at h; cases h⟩
    | none =>
      cases e with
      | some e =>
        obtain ⟨r2, h4, h5, h6⟩ := setErr?_some e r1
        obtain ⟨bs, h7⟩ := readChannels_err n k r2 h5
        rw [M.bind_ok h4, M.bind_ok h7]
        exact ⟨_, _, rfl, h2.trans h6, fun h => by rw [h] at h5; cases h5⟩
      | none =>
        obtain ⟨_, ops, k1, k2, k3, k4, k5, k6⟩ := h3 rfl he1
        have hb := k5 (by omega)
        have hlast : LastReal ops := by
          rcases k3 with rfl | h
          · simp at k4; omega
          · exact h
        obtain ⟨bs, r', h7, h8, h9⟩ := ih r1 he1 (Or.inl (by rw [k6]; exact hb.2.2))
        rw [show (setErr? none >>= _) r1 = _ from M.bind_ok rfl, M.bind_ok h7]
        refine ⟨b :: bs, r', rfl, h2.trans h8, fun h => ?_⟩
        obtain ⟨d, g1, g2, g3, g4, g5⟩ := h9 h
        refine ⟨ops :: d, by simp [g1], ?_, by simp [g3, k2, codeOf], ?_, ?_⟩
        · intro o ho
          rcases List.mem_cons.1 ho with rfl | ho
          · exact ⟨k1, hlast, by simpa using k4⟩
          · exact g2 _ ho
        · rw [List.flatten_cons]
          exact hb.append (by rw [← k6]; exact g4)
        · rw [g5, k6, R.adv_adv, List.flatten_cons, List.length_append]

/-- the contents of a tile: its channels one after the other -/
def tilePlain (d : List (List Op)) : Bytes := d.flatMap plainOf

theorem tilePlain_length (n : Nat) (d : List (List Op)) (h : ∀ ops ∈ d, GoodOps n ops) :
    (tilePlain d).length = n * d.length := by
  induction d with
  | nil => rfl
  | cons o d ih =>
    unfold tilePlain at ih ⊢
    rw [List.flatMap_cons, List.length_append, ih (fun o ho => h o (List.mem_cons_of_mem _ ho)),
      List.length_cons, Nat.mul_succ, show (plainOf o).length = n from (h o (by simp)).2.2]
    omega

theorem flatten_code (d : List (List Op)) : (d.map codeOf).flatten = (d.flatten).flatMap Op.code := by
  induction d with
  | nil => rfl
  | cons o d ih => rw [List.map_cons, List.flatten_cons, List.flatten_cons, List.flatMap_append, ih]; rfl

theorem tilePlain_eq (d : List (List Op)) : tilePlain d = (d.flatten).flatMap Op.plain := by
  induction d with
  | nil => rfl
  | cons o d ih => rw [List.flatten_cons, List.flatMap_append, ← ih]; rfl

theorem flatten_last (n : Nat) (d : List (List Op)) (h : ∀ ops ∈ d, GoodOps n ops) (hd : d ≠ []) :
    LastReal d.flatten := by
  obtain ⟨d', ops, rfl⟩ : ∃ d' ops, d = d' ++ [ops] := ⟨d.dropLast, d.getLast hd, (List.dropLast_concat_getLast hd).symm⟩
  rw [List.flatten_append]
  refine LastReal.append ?_
  simpa using (h ops (by simp)).2.1

/-- one `Read` over all the channels of a tile -/
theorem rleReadAll_tile (n : Nat) (d : List (List Op)) (h : ∀ ops ∈ d, GoodOps n ops) (hd : d ≠ [])
    (s : Rle) (hs : s.count = 0) (p : Bytes) (hp : p.length = n * d.length) (r : R)
    (hr : Sees r (d.map codeOf).flatten) :
    ∃ s', s'.count = 0 ∧ rleReadAll s p r = .ok ((tilePlain d, s', none), r.adv (d.map codeOf).flatten.length) := by
  rw [flatten_code] at hr ⊢
  have hlast := flatten_last n d h hd
  have hv : ∀ o ∈ d.flatten, o.valid := by
    intro o ho
    obtain ⟨ops, h1, h2⟩ := List.mem_flatten.1 ho
    exact (h ops h1).1 o h2
  have hlen := tilePlain_length n d h
  have hle : d.flatten.length < rleFuel r p := by
    have h1 := ops_le_code d.flatten
    obtain ⟨_, ⟨t, h2⟩, _⟩ := hr
    have := congrArg List.length h2
    rw [List.length_drop, List.length_append] at this
    unfold rleFuel; omega
  obtain ⟨f, hf⟩ : ∃ f, rleFuel r p = f + 1 + d.flatten.length := ⟨rleFuel r p - d.flatten.length - 1, by omega⟩
  obtain ⟨s', h1, h2⟩ := rleRead_ops_then d.flatten (f + 1) s p r hv (Or.inr hlast) hs hr
    (by rw [← tilePlain_eq, hlen, hp]; exact Nat.le_refl _)
  refine ⟨s', h1, ?_⟩
  have hdrop : p.drop (d.flatten.flatMap Op.plain).length = [] := by
    rw [← tilePlain_eq, hlen, ← hp]; simp
  have h3 := rleRead_nil f s' (r.adv (d.flatten.flatMap Op.code).length) hr.1
  rw [if_pos h1] at h3
  have h4 := h2 [] s' none _ (by rw [hdrop]; exact h3)
  show rleRead (rleFuel r p) s p r = _
  rw [hf, h4, tilePlain_eq, List.append_nil]

/-- the pixels of a tile only depend on the part of the buffer that was filled -/
theorem storeTile_append (bpp : Nat) (t : Tile) (a b : Bytes) (px : Px) (h : a.length = t.w * t.h * bpp) :
    storeTile bpp t (a ++ b) px = storeTile bpp t a px := by
  funext x y
  unfold storeTile
  by_cases hc : t.x ≤ x ∧ x < t.x + t.w ∧ t.y ≤ y ∧ y < t.y + t.h
  · rw [if_pos hc, if_pos hc]
    apply List.map_congr_left
    intro k hk
    rw [List.mem_range] at hk
    have hlt : (y - t.y) * t.w + (x - t.x) < t.w * t.h := by
      have h1 : (y - t.y) * t.w ≤ (t.h - 1) * t.w := Nat.mul_le_mul_right _ (by omega)
      have h2 : (t.h - 1) * t.w + t.w = t.w * t.h := by
        rw [← Nat.succ_mul, Nat.mul_comm]; congr 1; omega
      omega
    have h3 : t.w * t.h * k + t.w * t.h ≤ t.w * t.h * bpp := by
      rw [← Nat.mul_succ]; exact Nat.mul_le_mul_left _ (by omega)
    rw [List.getD_eq_getElem?_getD, List.getD_eq_getElem?_getD, List.getElem?_append_left (by omega)]
  · rw [if_neg hc, if_neg hc]

/-- body of the lazy loop -/
def lazyBody (bpp : Nat) (t : Tile) (ts : List (List Bytes)) : M (List (List Bytes)) := do
  let bs ← readChannels (t.w * t.h) bpp
  return ts ++ [bs]

theorem goto_err (p : UInt64) (r : R) : ∃ r', goto p r = .ok ((), r') ∧ r'.err = r.err := by
  unfold goto
  by_cases h : p.toNat < 2 ^ 63
  · rw [if_pos h]; exact ⟨_, rfl, rfl⟩
  · rw [if_neg h]; exact ⟨_, rfl, rfl⟩

theorem lazyGo_err (bpp : Nat) : ∀ (ts : List Tile) (ps : List UInt64) (acc : List (List Bytes)) (r r' : R)
    (acc' : List (List Bytes)), r.err.isSome → tileLoop.go (lazyBody bpp) ts ps acc r = .ok (acc', r') → r'.err.isSome := by
  intro ts
  induction ts with
  | nil =>
    intro ps acc r r' acc' he h
    cases h; exact he
  | cons t ts ih =>
    intro ps acc r r' acc' he h
    cases ps with
    | nil => cases h
    | cons p ps =>
      unfold tileLoop.go at h
      obtain ⟨r1, h1, h2⟩ := goto_err p r
      rw [M.bind_ok h1] at h
      have he1 : r1.err.isSome := by rw [h2]; exact he
      obtain ⟨bs, h3⟩ := readChannels_err (t.w * t.h) bpp r1 he1
      have h4 : lazyBody bpp t acc r1 = .ok (acc ++ [bs], r1) := by
        unfold lazyBody; rw [M.bind_ok h3]; rfl
      rw [M.bind_ok h4] at h
      exact ih ps _ r1 r' acc' he1 h

/-- contents of a tile -/
def GoodTile (bpp : Nat) (t : Tile) (d : List (List Op)) : Prop :=
  d.length = bpp ∧ ∀ ops ∈ d, GoodOps (t.w * t.h) ops

/-- contents for every tile -/
def GoodTiles (bpp : Nat) : List Tile → List (List (List Op)) → Prop
  | [], [] => True
  | t :: ts, d :: ds => GoodTile bpp t d ∧ GoodTiles bpp ts ds
  | _, _ => False

/-- all the pixels stored -/
def storeAll (bpp : Nat) : List Tile → List (List (List Op)) → Px → Px
  | t :: ts, d :: ds, px => storeAll bpp ts ds (storeTile bpp t (tilePlain d) px)
  | _, _, px => px

/-- The eager loop follows the lazy one. -/
theorem loop_sim (c : Ctx) (hc : c.compression ≠ 0) (bpp : Nat) (hb : 1 ≤ bpp) (hb4 : bpp ≤ 4) :
    ∀ (ts : List Tile) (ps : List UInt64) (acc acc' : List (List Bytes)) (s : EagerState) (r r' : R),
    (∀ t ∈ ts, 1 ≤ t.w * t.h ∧ t.w * t.h ≤ 4096) → s.rle.count = 0 → s.buf.length = 16384 → r.err = none →
    tileLoop.go (lazyBody bpp) ts ps acc r = .ok (acc', r') → r'.err = none →
    ∃ ds : List (List (List Op)), GoodTiles bpp ts ds ∧
      acc' = acc ++ ds.map (fun d => d.map codeOf) ∧
      ∃ s', tileLoop.go (eagerTile c bpp) ts ps s r = .ok (s', r') ∧ s'.px = storeAll bpp ts ds s.px := by
  intro ts
  induction ts with
  | nil =>
    intro ps acc acc' s r r' _ _ _ _ h _
    cases h
    exact ⟨[], trivial, by simp, s, rfl, rfl⟩
  | cons t ts ih =>
    intro ps acc acc' s r r' ht hs hbuf he h he'
    cases ps with
    | nil => cases h
    | cons p ps =>
      unfold tileLoop.go at h ⊢
      obtain ⟨r1, h1, h2⟩ := goto_err p r
      rw [M.bind_ok h1] at h ⊢
      rw [he] at h2
      obtain ⟨hn1, hn2⟩ := ht t (by simp)
      obtain ⟨bs, r2, h3, h4, h5⟩ := readChannels_cases (t.w * t.h) hn1 bpp r1 h2 (Or.inr hb)
      have h6 : lazyBody bpp t acc r1 = .ok (acc ++ [bs], r2) := by
        unfold lazyBody; rw [M.bind_ok h3]; rfl
      rw [M.bind_ok h6] at h
      have he2 : r2.err = none := by
        cases hh : r2.err with
        | none => rfl
        | some x =>
          have := lazyGo_err bpp ts ps _ r2 r' acc' (by rw [hh]; rfl) h
          rw [he'] at this; cases this
      obtain ⟨d, g1, g2, g3, g4, g5⟩ := h5 he2
      subst g3
      have hnd : t.w * t.h * d.length ≤ 16384 := by
        rw [g1]
        calc t.w * t.h * bpp ≤ 4096 * 4 := Nat.mul_le_mul hn2 hb4
          _ = 16384 := rfl
      have hd : d ≠ [] := by rintro rfl; simp at g1; omega
      obtain ⟨s', k1, k2⟩ := rleReadAll_tile (t.w * t.h) d g2 hd s.rle hs (s.buf.take (t.w * t.h * bpp))
        (by rw [List.length_take, hbuf, ← g1]; omega) r1 g4
      have hpl := tilePlain_length _ d g2
      have h7 : eagerTile c bpp t s r1 = .ok (⟨s', tilePlain d ++ s.buf.drop (t.w * t.h * bpp),
          storeTile bpp t (tilePlain d) s.px⟩, r2) := by
        unfold eagerTile
        dsimp only
        rw [if_neg hc, M.bind_ok k2]
        dsimp only
        rw [show (setErr? none >>= _) _ = _ from M.bind_ok rfl, storeTile_append _ _ _ _ _ (by rw [hpl, g1]), g5]
        rfl
      rw [M.bind_ok h7]
      obtain ⟨ds, m1, m2, s'', m3, m4⟩ := ih ps (acc ++ [d.map codeOf]) acc'
        ⟨s', tilePlain d ++ s.buf.drop (t.w * t.h * bpp), storeTile bpp t (tilePlain d) s.px⟩ r2 r' (fun t ht' => ht t (List.mem_cons_of_mem _ ht')) k1
        (by rw [List.length_append, List.length_drop, hpl, hbuf, g1]; rw [g1] at hnd; omega) he2 h he'
      refine ⟨d :: ds, ⟨⟨g1, g2⟩, m1⟩, ?_, s'', m3, ?_⟩
      · rw [m2, List.append_assoc]; rfl
      · rw [m4]; rfl

end Limage
