import Verif.Spec.Raster
import Mathlib.Tactic.Linarith
/-! Refinement of the array model of rasters to maps from points to pixels. -/
namespace Limage
open Spec

theorem mem_iff (p : Pt) (r : Rect) : Rect.mem p r = true ↔ inRect r p := by
  simp [Rect.mem, inRect, and_assoc]

theorem empty_iff (r : Rect) : r.empty = true ↔ ¬ (r.x0 < r.x1 ∧ r.y0 < r.y1) := by
  simp [Rect.empty]; omega

theorem not_inRect_of_empty {r : Rect} (h : r.empty = true) (p : Pt) : ¬ inRect r p := by
  rw [empty_iff] at h
  rintro ⟨h1, h2, h3, h4⟩
  apply h
  constructor <;> omega

theorem inRect_inter (r s : Rect) (p : Pt) : inRect (r.inter s) p ↔ inRect r p ∧ inRect s p := by
  unfold Rect.inter
  dsimp only
  split
  · rename_i h
    constructor
    · intro hp; exact absurd hp (not_inRect_of_empty (by decide) p)
    · rintro ⟨⟨a1, a2, a3, a4⟩, ⟨b1, b2, b3, b4⟩⟩
      exfalso
      refine not_inRect_of_empty h p ⟨?_, ?_, ?_, ?_⟩ <;> dsimp only <;> omega
  · constructor
    · rintro ⟨h1, h2, h3, h4⟩
      dsimp only at h1 h2 h3 h4
      refine ⟨⟨?_, ?_, ?_, ?_⟩, ⟨?_, ?_, ?_, ?_⟩⟩ <;> omega
    · rintro ⟨⟨a1, a2, a3, a4⟩, ⟨b1, b2, b3, b4⟩⟩
      refine ⟨?_, ?_, ?_, ?_⟩ <;> dsimp only <;> omega

/-- position of a point in the array of an image with bounds `b` -/
def baseIdx (b : Rect) (p : Pt) : Int := (p.y - b.y0) * b.dx + (p.x - b.x0)

theorem baseIdx_bounds {b : Rect} {p : Pt} (h : inRect b p) :
    0 ≤ baseIdx b p ∧ baseIdx b p < b.dx * b.dy := by
  obtain ⟨h1, h2, h3, h4⟩ := h
  unfold baseIdx Rect.dx Rect.dy
  have hx : 0 ≤ p.x - b.x0 := by omega
  have hx2 : p.x - b.x0 < b.x1 - b.x0 := by omega
  have hy : 0 ≤ p.y - b.y0 := by omega
  have hy2 : p.y - b.y0 + 1 ≤ b.y1 - b.y0 := by omega
  generalize p.x - b.x0 = x at *
  generalize p.y - b.y0 = y at *
  generalize b.x1 - b.x0 = w at *
  generalize b.y1 - b.y0 = k at *
  constructor
  · have := Int.mul_nonneg hy (show 0 ≤ w by omega); omega
  · have := Int.mul_le_mul_of_nonneg_right hy2 (show 0 ≤ w by omega)
    rw [Int.add_mul, Int.one_mul, Int.mul_comm k] at this
    omega

theorem baseIdx_inj {b : Rect} {p q : Pt} (hp : inRect b p) (hq : inRect b q)
    (h : baseIdx b p = baseIdx b q) : p = q := by
  have mod : ∀ p, inRect b p → baseIdx b p % b.dx = p.x - b.x0 := by
    rintro p ⟨h1, h2, h3, h4⟩
    unfold baseIdx Rect.dx
    rw [Int.add_comm, Int.add_mul_emod_self_right]
    exact Int.emod_eq_of_lt (by omega) (by omega)
  have div : ∀ p, inRect b p → baseIdx b p / b.dx = p.y - b.y0 := by
    rintro p ⟨h1, h2, h3, h4⟩
    unfold baseIdx Rect.dx
    rw [Int.add_comm, Int.add_mul_ediv_right _ _ (by omega),
      Int.ediv_eq_zero_of_lt (by omega) (by omega)]
    omega
  have ex : p.x = q.x := by have := mod p hp; have := mod q hq; rw [h] at *; omega
  have ey : p.y = q.y := by have := div p hp; have := div q hq; rw [h] at *; omega
  cases p; cases q; simp_all

theorem baseIdx_surj {b : Rect} {k : Int} (hx : b.x0 ≤ b.x1) (h0 : 0 ≤ k) (h : k < b.dx * b.dy) :
    ∃ p, inRect b p ∧ baseIdx b p = k := by
  have hdx : 0 < b.dx := by
    rcases Int.lt_or_le 0 b.dx with h' | h'
    · exact h'
    · exfalso
      have : b.dx = 0 := by unfold Rect.dx at *; omega
      rw [this] at h; omega
  have hm0 := Int.emod_nonneg k (show b.dx ≠ 0 by omega)
  have hm1 := Int.emod_lt_of_pos k hdx
  have hd0 : 0 ≤ k / b.dx := Int.ediv_nonneg h0 (by omega)
  have hd1 : k / b.dx < b.dy := by
    apply Int.ediv_lt_of_lt_mul hdx; rw [Int.mul_comm]; exact h
  refine ⟨⟨b.x0 + k % b.dx, b.y0 + k / b.dx⟩, ⟨?_, ?_, ?_, ?_⟩, ?_⟩
  · dsimp only; omega
  · dsimp only; unfold Rect.dx at *; omega
  · dsimp only; omega
  · dsimp only; unfold Rect.dy at *; omega
  · unfold baseIdx
    dsimp only
    rw [show b.y0 + k / b.dx - b.y0 = k / b.dx by omega,
      show b.x0 + k % b.dx - b.x0 = k % b.dx by omega, Int.mul_comm]
    exact Int.mul_ediv_add_emod k b.dx

/-- an image agrees with its view -/
structure ImgOK (bases : List Rect) (m : Raster) (w : View) : Prop where
  region : ∀ p, Rect.mem p m.rect = true ↔ w.region p
  good : m.rect.empty = true ∨ ∃ b, bases[m.arr]? = some b ∧ m.arr = w.canvas ∧ m.stride = b.dx ∧
    (∀ p, inRect m.rect p → inRect b p) ∧ (m.off : Int) = baseIdx b ⟨m.rect.x0, m.rect.y0⟩ ∧
    (m.off : Int) + m.len = b.dx * b.dy

/-- state and specification state agree -/
structure Inv {π : Type} (s : RState π) (t : SState π) (bases : List Rect) : Prop where
  hlen : s.heap.length = bases.length
  nc : t.nCanvas = bases.length
  ilen : s.imgs.length = t.views.length
  arr : ∀ (c : Nat) (b : Rect) (a : List π), bases[c]? = some b → s.heap[c]? = some a →
    (a.length : Int) = b.dx * b.dy ∧
    ∀ p, inRect b p → a[(baseIdx b p).toNat]? = some (t.canvas c p)
  img : ∀ (i : Nat) (m : Raster), s.imgs[i]? = some m → ∃ w, t.views[i]? = some w ∧ ImgOK bases m w

theorem ImgOK.mono {bases : List Rect} {m : Raster} {w : View} (h : ImgOK bases m w) (b : Rect) :
    ImgOK (bases ++ [b]) m w := by
  refine ⟨h.region, ?_⟩
  rcases h.good with e | ⟨b', h1, h2⟩
  · exact Or.inl e
  · exact Or.inr ⟨b', by rw [List.getElem?_append_left]; exact h1; exact (List.getElem?_eq_some_iff.1 h1).1, h2⟩

/-- a point of an image is stored at its base position -/
theorem pixOffset_base {m : Raster} {b : Rect} (hs : m.stride = b.dx)
    (ho : (m.off : Int) = baseIdx b ⟨m.rect.x0, m.rect.y0⟩) (p : Pt) :
    (m.off : Int) + m.pixOffset p = baseIdx b p := by
  rw [ho]
  unfold Raster.pixOffset baseIdx
  rw [hs]
  dsimp only
  have : (p.y - b.y0) * b.dx = (m.rect.y0 - b.y0) * b.dx + (p.y - m.rect.y0) * b.dx := by
    rw [← Int.add_mul]; congr 1; omega
  omega

theorem index_ok {bases : List Rect} {m : Raster} {w : View} (h : ImgOK bases m w) {p : Pt}
    (hp : inRect m.rect p) :
    ∃ b, bases[m.arr]? = some b ∧ m.arr = w.canvas ∧ inRect b p ∧
      m.index (m.pixOffset p) = some (baseIdx b p).toNat ∧
      m.off ≤ (baseIdx b p).toNat ∧ (baseIdx b p).toNat < m.off + m.len := by
  rcases h.good with e | ⟨b, h1, h2, h3, h4, h5, h6⟩
  · exact absurd hp (not_inRect_of_empty e p)
  · have hb := h4 p hp
    obtain ⟨k1, k2⟩ := baseIdx_bounds hb
    have e := pixOffset_base h3 h5 p
    have hpo : 0 ≤ m.pixOffset p := by
      unfold Raster.pixOffset
      obtain ⟨a1, a2, a3, a4⟩ := hp
      obtain ⟨c1, c2, c3, c4⟩ := hb
      have : 0 ≤ (p.y - m.rect.y0) * m.stride := by
        apply Int.mul_nonneg (by omega)
        rw [h3]; unfold Rect.dx; omega
      omega
    refine ⟨b, h1, h2, hb, ?_, by omega, by omega⟩
    unfold Raster.index
    rw [if_pos (by omega)]
    congr 1
    omega

theorem sub_ok {bases : List Rect} {m : Raster} {w : View} (h : ImgOK bases m w) (r : Rect) :
    ∃ m', m.sub r = some m' ∧ ImgOK bases m' ⟨w.canvas, fun p => inRect r p ∧ w.region p⟩ := by
  unfold Raster.sub
  dsimp only
  split
  · rename_i e
    refine ⟨_, rfl, ⟨?_, Or.inl rfl⟩⟩
    intro p
    dsimp only
    constructor
    · intro hp
      rw [mem_iff] at hp
      exact absurd hp (not_inRect_of_empty (by decide) p)
    · rintro ⟨h1, h2⟩
      exfalso
      rw [← h.region, mem_iff] at h2
      exact not_inRect_of_empty e p ((inRect_inter ..).2 ⟨h1, h2⟩)
  · rename_i e
    have hp : inRect (r.inter m.rect) ⟨(r.inter m.rect).x0, (r.inter m.rect).y0⟩ := by
      have := (empty_iff (r.inter m.rect)).not.1 e
      refine ⟨?_, ?_, ?_, ?_⟩ <;> dsimp only <;> omega
    have hpm := ((inRect_inter ..).1 hp).2
    obtain ⟨b, h1, h2, hb, hidx, l1, l2⟩ := index_ok h hpm
    generalize hr : r.inter m.rect = r' at *
    have hgood := h.good
    rcases hgood with e' | ⟨b', g1, g2, g3, g4, g5, g6⟩
    · exact absurd hpm (not_inRect_of_empty e' _)
    · rw [h1] at g1
      injection g1 with g1
      subst g1
      have eoff := pixOffset_base g3 g5 ⟨r'.x0, r'.y0⟩
      obtain ⟨k1, k2⟩ := baseIdx_bounds hb
      have hcond : 0 ≤ m.pixOffset ⟨r'.x0, r'.y0⟩ ∧ m.pixOffset ⟨r'.x0, r'.y0⟩ ≤ m.len := by
        omega
      rw [if_pos hcond]
      refine ⟨_, rfl, ⟨?_, Or.inr ⟨b, h1, h2, g3, ?_, ?_, ?_⟩⟩⟩
      · intro p
        dsimp only
        rw [mem_iff, ← hr, inRect_inter, ← h.region, mem_iff]
      · intro p hp'
        dsimp only at hp'
        rw [← hr, inRect_inter] at hp'
        exact g4 p hp'.2
      · dsimp only; omega
      · dsimp only; omega

theorem step_ok {π : Type} (z : π) {s : RState π} {t : SState π} {bases : List Rect}
    (inv : Inv s t bases) (op : ROp π) (ops : List (ROp π)) (hw : WF s.imgs.length (op :: ops)) :
    ∃ s' bases', s.step z op = some s' ∧ Inv s' (t.step z op) bases' ∧ WF s'.imgs.length ops ∧
      bases <+: bases' ∧ s.imgs <+: s'.imgs ∧
      (∀ r, op = .new r → bases' = bases ++ [r] ∧
        s'.imgs = s.imgs ++ [⟨bases.length, 0, (r.dx * r.dy).toNat, r.dx, r⟩]) := by
  cases op with
  | new r =>
    obtain ⟨hr, hw⟩ := hw
    have hr' : 0 ≤ r.dx * r.dy := hr
    refine ⟨⟨s.heap ++ [List.replicate (r.dx * r.dy).toNat z],
      s.imgs ++ [⟨s.heap.length, 0, (r.dx * r.dy).toNat, r.dx, r⟩]⟩, bases ++ [r], ?_, ?_, ?_,
      List.prefix_append .., List.prefix_append .., ?_⟩
    · simp only [RState.step, Raster.new]
      rw [if_neg (by omega)]; rfl
    · refine ⟨?_, ?_, ?_, ?_, ?_⟩
      · simp [inv.hlen]
      · simp [SState.step, inv.nc]
      · simp [SState.step, inv.ilen]
      · intro c b a hb ha
        simp only [SState.step]
        rcases Nat.lt_or_ge c bases.length with hc | hc
        · rw [List.getElem?_append_left hc] at hb
          dsimp only at ha
          rw [List.getElem?_append_left (by rw [inv.hlen]; exact hc)] at ha
          obtain ⟨k1, k2⟩ := inv.arr c b a hb ha
          refine ⟨k1, ?_⟩
          intro p hp
          rw [if_neg (by rw [inv.nc]; omega)]
          exact k2 p hp
        · rw [List.getElem?_append_right hc] at hb
          dsimp only at ha
          rw [List.getElem?_append_right (by rw [inv.hlen]; exact hc)] at ha
          have hc0 : c = bases.length := by
            have := (List.getElem?_eq_some_iff.1 hb).1
            simp at this; omega
          rw [hc0] at ha hb
          rw [inv.hlen] at ha
          simp at ha hb
          subst ha hb
          refine ⟨by simp; omega, ?_⟩
          intro p hp
          rw [if_pos (by rw [inv.nc]; exact hc0)]
          obtain ⟨k1, k2⟩ := baseIdx_bounds hp
          rw [List.getElem?_replicate, if_pos (by omega)]
      · intro i m hm
        simp only [SState.step]
        dsimp only at hm
        rcases Nat.lt_or_ge i s.imgs.length with hi | hi
        · rw [List.getElem?_append_left hi] at hm
          obtain ⟨w, hw1, hw2⟩ := inv.img i m hm
          refine ⟨w, ?_, hw2.mono r⟩
          rw [List.getElem?_append_left (by rw [← inv.ilen]; exact hi)]; exact hw1
        · rw [List.getElem?_append_right hi] at hm
          have hi0 : i = s.imgs.length := by
            have := (List.getElem?_eq_some_iff.1 hm).1
            simp at this; omega
          subst hi0
          simp at hm
          subst hm
          refine ⟨⟨t.nCanvas, inRect r⟩, ?_, ⟨?_, ?_⟩⟩
          · rw [List.getElem?_append_right (by rw [inv.ilen]), inv.ilen]; simp
          · intro p; exact mem_iff p r
          · right
            refine ⟨r, ?_, ?_, rfl, fun p hp => hp, ?_, ?_⟩
            · dsimp only
              rw [inv.hlen, List.getElem?_append_right (Nat.le_refl _)]; simp
            · dsimp only; rw [inv.hlen, inv.nc]
            · simp [baseIdx]
            · dsimp only; omega
    · simpa using hw
    · intro r' e
      injection e with e
      subst e
      refine ⟨rfl, ?_⟩
      rw [inv.hlen]
  | set i p v =>
    obtain ⟨hi, hw⟩ := hw
    obtain ⟨m, hm⟩ : ∃ m, s.imgs[i]? = some m := ⟨_, List.getElem?_eq_getElem hi⟩
    obtain ⟨w, hv, ok⟩ := inv.img i m hm
    by_cases hp : Rect.mem p m.rect = true
    · obtain ⟨b, hb, hc, hpb, hidx, -, -⟩ := index_ok ok ((mem_iff ..).1 hp)
      refine ⟨{ s with heap := s.heap.modify m.arr (·.set (baseIdx b p).toNat v) }, bases, ?_, ?_,
        hw, List.prefix_refl _, List.prefix_refl _, fun r e => by cases e⟩
      · simp only [RState.step, hm, Option.bind_some, Raster.set, hp, if_true, hidx]; rfl
      · have hreg := (ok.region p).1 hp
        refine ⟨by simp [inv.hlen], by simp [SState.step, hv, inv.nc],
          by simp [SState.step, hv, inv.ilen], ?_, ?_⟩
        · intro c b' a hb' ha
          simp only [SState.step, hv]
          dsimp only at ha
          rw [List.getElem?_modify] at ha
          by_cases hcm : m.arr = c
          · subst hcm
            simp only [if_true] at ha
            rw [hb] at hb'
            injection hb' with hb'
            subst hb'
            obtain ⟨a0, ha0, rfl⟩ := Option.map_eq_some_iff.1 ha
            obtain ⟨k1, k2⟩ := inv.arr m.arr b a0 hb ha0
            refine ⟨by simpa using k1, ?_⟩
            intro q hq
            rw [List.getElem?_set]
            obtain ⟨i1, i2⟩ := baseIdx_bounds hpb
            obtain ⟨j1, j2⟩ := baseIdx_bounds hq
            by_cases hqp : q = p
            · subst hqp
              rw [if_pos rfl, if_pos (by omega), if_pos ⟨hc, rfl, hreg⟩]
            · rw [if_neg, if_neg (by rintro ⟨_, h, _⟩; exact hqp h)]
              · exact k2 q hq
              · intro e
                exact hqp (baseIdx_inj hq hpb (by omega))
          · simp only [if_neg hcm, Option.map_eq_map, Option.map_id'] at ha
            obtain ⟨k1, k2⟩ := inv.arr c b' a hb' ha
            refine ⟨k1, ?_⟩
            intro q hq
            rw [if_neg (by rintro ⟨h, _⟩; exact hcm (hc.trans h.symm))]
            exact k2 q hq
        · intro j m' hm'
          simp only [SState.step, hv]
          exact inv.img j m' hm'
    · refine ⟨s, bases, ?_, ?_, hw, List.prefix_refl _, List.prefix_refl _, fun r e => by cases e⟩
      · simp only [RState.step, hm, Option.bind_some, Raster.set]
        rw [if_neg hp]; rfl
      · have hreg : ¬ w.region p := fun h => hp ((ok.region p).2 h)
        refine ⟨inv.hlen, by simp [SState.step, hv, inv.nc],
          by simp [SState.step, hv, inv.ilen], ?_, ?_⟩
        · intro c b' a hb' ha
          simp only [SState.step, hv]
          obtain ⟨k1, k2⟩ := inv.arr c b' a hb' ha
          refine ⟨k1, ?_⟩
          intro q hq
          rw [if_neg (by rintro ⟨_, _, h⟩; exact hreg h)]
          exact k2 q hq
        · intro j m' hm'
          simp only [SState.step, hv]
          exact inv.img j m' hm'
  | sub i r =>
    obtain ⟨hi, hw⟩ := hw
    obtain ⟨m, hm⟩ : ∃ m, s.imgs[i]? = some m := ⟨_, List.getElem?_eq_getElem hi⟩
    obtain ⟨w, hv, ok⟩ := inv.img i m hm
    obtain ⟨m', hs, ok'⟩ := sub_ok ok r
    refine ⟨{ s with imgs := s.imgs ++ [m'] }, bases, ?_, ?_, by simpa using hw,
      List.prefix_refl _, List.prefix_append .., fun r e => by cases e⟩
    · simp only [RState.step, hm, Option.bind_some, hs]; rfl
    · refine ⟨inv.hlen, by simp [SState.step, hv, inv.nc],
        by simp [SState.step, hv, inv.ilen], ?_, ?_⟩
      · intro c b' a hb' ha
        simp only [SState.step, hv]
        exact inv.arr c b' a hb' ha
      · intro j n hn
        simp only [SState.step, hv]
        dsimp only at hn
        rcases Nat.lt_or_ge j s.imgs.length with hj | hj
        · rw [List.getElem?_append_left hj] at hn
          obtain ⟨w', hw1, hw2⟩ := inv.img j n hn
          refine ⟨w', ?_, hw2⟩
          rw [List.getElem?_append_left (by rw [← inv.ilen]; exact hj)]; exact hw1
        · rw [List.getElem?_append_right hj] at hn
          have hj0 : j = s.imgs.length := by
            have := (List.getElem?_eq_some_iff.1 hn).1
            simp at this; omega
          subst hj0
          simp at hn
          subst hn
          refine ⟨_, ?_, ok'⟩
          rw [List.getElem?_append_right (by rw [inv.ilen]), inv.ilen]; simp

theorem run_ok {π : Type} (z : π) (ops : List (ROp π)) {s : RState π} {t : SState π}
    {bases : List Rect} (inv : Inv s t bases) (hw : WF s.imgs.length ops) :
    ∃ s' bases', s.run z ops = some s' ∧ Inv s' (t.run z ops) bases' ∧
      bases <+: bases' ∧ s.imgs <+: s'.imgs := by
  induction ops generalizing s t bases with
  | nil => exact ⟨s, bases, rfl, inv, List.prefix_refl _, List.prefix_refl _⟩
  | cons op ops ih =>
    obtain ⟨s1, b1, h1, inv1, hw1, p1, q1, -⟩ := step_ok z inv op ops hw
    obtain ⟨s2, b2, h2, inv2, p2, q2⟩ := ih inv1 hw1
    refine ⟨s2, b2, ?_, inv2, p1.trans p2, q1.trans q2⟩
    simp only [RState.run, h1, Option.bind_some, h2]

theorem inv_init {π : Type} (z : π) : Inv (π := π) ⟨[], []⟩ (SState.init z) [] :=
  ⟨rfl, rfl, rfl, by simp, by simp⟩

theorem get_ok {π : Type} (z : π) {s : RState π} {t : SState π} {bases : List Rect}
    (inv : Inv s t bases) {i : Nat} {m : Raster} {w : View} (hm : s.imgs[i]? = some m)
    (hv : t.views[i]? = some w) (p : Pt) : Raster.get z s.heap m p = some (w.at z t p) := by
  obtain ⟨w', hv', ok⟩ := inv.img i m hm
  rw [hv] at hv'
  injection hv' with hv'
  subst hv'
  unfold Raster.get View.at
  by_cases hp : Rect.mem p m.rect = true
  · obtain ⟨b, hb, hc, hpb, hidx, -, -⟩ := index_ok ok ((mem_iff ..).1 hp)
    rw [if_pos hp, if_pos ((ok.region p).1 hp), hidx]
    dsimp only
    have hlt : m.arr < s.heap.length := by
      rw [inv.hlen]; exact (List.getElem?_eq_some_iff.1 hb).1
    have ha := List.getElem?_eq_getElem hlt
    rw [ha, Option.bind_some]
    rw [(inv.arr m.arr b _ hb ha).2 p hpb, hc]
  · rw [if_neg hp, if_neg (fun h => hp ((ok.region p).2 h))]

end Limage
