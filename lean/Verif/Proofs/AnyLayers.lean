import Verif.Proofs.AnyPixels
import Verif.Proofs.ReadFile
/-! Reading layers in files of any version. -/
namespace Limage
open Spec

/-! ### Properties of layers -/

/-- the parasites as they are kept -/
def parasitesIn (pars : List (Bytes × Nat × Bytes)) : List Parasite := pars.map fun p => ⟨p.1, UInt32.ofNat p.2.1, p.2.2⟩

/-- what is known after the properties `done` -/
def propsAfter (r : Placed) (pars : List (Bytes × Nat × Bytes)) (done : List Nat) : LProps :=
  ⟨if 15 ∈ done then ⟨r.ox, r.oy⟩ else ⟨0, 0⟩, if 6 ∈ done ∨ 33 ∈ done then r.layer.transparency else 0,
    if 8 ∈ done then r.layer.invisible else false, decide (29 ∈ done), if 30 ∈ done then r.path.map UInt32.ofNat else [],
    if 7 ∈ done then r.layer.mode else 0, if 21 ∈ done then parasitesIn pars else []⟩

theorem gimpModes_read : ∀ n < 62, gimpModes[n]? = some (modeOf (UInt32.ofNat n)) := by decide +kernel

theorem gimpModes_normal : ∀ n < 62, gimpModes[n]? = some Mode.normal → n = 0 ∨ n = 28 := by decide +kernel

theorem gimpModes_lt {n : Nat} {m : Mode} (h : gimpModes[n]? = some m) : n < 62 := (List.getElem?_eq_some_iff.1 h).1

theorem gimpMode_read {c : Ctx} {n : Nat} {m : Mode} (h : gimpModes[n]? = some m) (hm : c.baseType = 0 ∨ m = Mode.normal) :
    (if c.baseType ≠ 0 then (if UInt32.ofNat n = 2 then Mode.behind else Mode.normal) else modeOf (UInt32.ofNat n)) = m := by
  by_cases hb : c.baseType = 0
  · rw [if_neg (by simpa using hb)]
    have := gimpModes_read n (gimpModes_lt h)
    rw [h] at this
    exact (Option.some.inj this).symm
  · rw [if_pos hb]
    have hm := hm.resolve_left hb
    subst hm
    rcases gimpModes_normal n (gimpModes_lt h) h with rfl | rfl <;> rfl

theorem eats_parasites {c : Ctx} {s : LProps} (pars : List (Bytes × Nat × Bytes)) (hp : ∀ p ∈ pars, Utf8 p.1 ∧ p.1 ≠ [])
    (hl : (pars.flatMap fun p => parasite p.1 p.2.1 p.2.2).length ≤ maxString) :
    Eats (layerProp c (UInt32.ofNat 21) (UInt32.ofNat (pars.flatMap fun p => parasite p.1 p.2.1 p.2.2).length) s)
      (pars.flatMap fun p => parasite p.1 p.2.1 p.2.2) { s with parasites := parasitesIn pars } := by
  have hm : maxString = 16777216 := rfl
  unfold layerProp
  rw [if_neg (by decide), if_neg (by decide), if_pos (by decide)]
  refine Eats.map (x := parasitesIn pars) ?_ rfl
  intro r hr hlt
  unfold readParasitesAll
  have hql : pars.length ≤ (pars.flatMap fun p => Spec.parasite p.1 p.2.1 p.2.2).length := by
    clear hl hr hlt hp
    induction pars with
    | nil => simp
    | cons p pars ih =>
      rw [List.flatMap_cons, List.length_append, List.length_cons]
      have : 1 ≤ (parasite p.1 p.2.1 p.2.2).length := by
        unfold Spec.parasite
        simp only [List.length_append, be_length]
        omega
      omega
  exact readParasites_eats pars _ [] (by rw [u32_toNat (by omega)]; omega) hp hl r hr hlt

theorem eats_flag {c : Ctx} {s : LProps} {t : Nat} (ht : t ∈ [9, 10, 11, 12, 13, 28]) (n : Nat) {l : UInt32} :
    Eats (layerProp c (UInt32.ofNat t) l s) (num n) s := by
  have : UInt32.ofNat t = 9 ∨ UInt32.ofNat t = 28 ∨ UInt32.ofNat t = 11 ∨ UInt32.ofNat t = 12 ∨ UInt32.ofNat t = 10 ∨ UInt32.ofNat t = 13 := by
    simp only [List.mem_cons, List.not_mem_nil, or_false] at ht
    rcases ht with rfl | rfl | rfl | rfl | rfl | rfl <;> decide
  unfold layerProp
  rw [if_pos this]
  unfold skipBoolProperty
  refine ((skip_consumes 4 (num n) (num_length n)).map ?_).eats
  rfl

theorem eats_number {c : Ctx} {s : LProps} {t : Nat} (ht : t ∈ [5, 20, 26, 31]) (n : Nat) {l : UInt32} :
    Eats (layerProp c (UInt32.ofNat t) l s) (num n) s := by
  have hs : Eats (do skipUint32; return s : M LProps) (num n) s := by
    unfold skipUint32
    refine ((skip_consumes 4 (num n) (num_length n)).map ?_).eats
    rfl
  simp only [List.mem_cons, List.not_mem_nil, or_false] at ht
  unfold layerProp
  rcases ht with rfl | rfl | rfl | rfl <;>
    rw [if_neg (by decide), if_neg (by decide), if_neg (by decide), if_pos (by decide)] <;> exact hs

theorem eats_active {c : Ctx} {s : LProps} {l : UInt32} : Eats (layerProp c (UInt32.ofNat 2) l s) [] s := by
  unfold layerProp
  rw [if_neg (by decide), if_neg (by decide), if_neg (by decide), if_neg (by decide), if_neg (by decide), if_pos (by decide)]
  exact (Consumes.pure _).eats

theorem eats_floatOpacity {c : Ctx} {s : LProps} (n : Nat) {l : UInt32} :
    Eats (layerProp c (UInt32.ofNat 33) l s) (num n) { s with transparency := 255 - c.env.floatOpacity (UInt32.ofNat n) } := by
  unfold layerProp
  rw [if_neg (by decide), if_neg (by decide), if_neg (by decide), if_neg (by decide), if_neg (by decide), if_neg (by decide),
    if_neg (by decide), if_neg (by decide), if_neg (by decide), if_neg (by decide), if_pos (by decide)]
  refine ((num_consumes n).map ?_).eats
  rfl

theorem eats_other {c : Ctx} {s : LProps} {t : Nat} (ht : t ∉ layerPropNumbers) (ht2 : t < 2 ^ 32) (b : Bytes) (hb : b.length < 2 ^ 32) :
    Eats (layerProp c (UInt32.ofNat t) (UInt32.ofNat b.length) s) b s := by
  have hne : ∀ k : Nat, k < 2 ^ 32 → t ≠ k → UInt32.ofNat t ≠ UInt32.ofNat k := by
    intro k hk h1 h2
    have := congrArg UInt32.toNat h2
    rw [u32_toNat ht2, u32_toNat hk] at this
    exact h1 this
  simp only [layerPropNumbers, List.mem_cons, List.not_mem_nil, or_false, not_or] at ht
  obtain ⟨a0, a2, a5, a6, a7, a8, a9, a10, a11, a12, a13, a15, a20, a21, a26, a28, a29, a30, a31, a33⟩ := ht
  have b2 : UInt32.ofNat t ≠ 2 := hne 2 (by decide) a2
  have b5 : UInt32.ofNat t ≠ 5 := hne 5 (by decide) a5
  have b6 : UInt32.ofNat t ≠ 6 := hne 6 (by decide) a6
  have b7 : UInt32.ofNat t ≠ 7 := hne 7 (by decide) a7
  have b8 : UInt32.ofNat t ≠ 8 := hne 8 (by decide) a8
  have b9 : UInt32.ofNat t ≠ 9 := hne 9 (by decide) a9
  have b10 : UInt32.ofNat t ≠ 10 := hne 10 (by decide) a10
  have b11 : UInt32.ofNat t ≠ 11 := hne 11 (by decide) a11
  have b12 : UInt32.ofNat t ≠ 12 := hne 12 (by decide) a12
  have b13 : UInt32.ofNat t ≠ 13 := hne 13 (by decide) a13
  have b15 : UInt32.ofNat t ≠ 15 := hne 15 (by decide) a15
  have b20 : UInt32.ofNat t ≠ 20 := hne 20 (by decide) a20
  have b21 : UInt32.ofNat t ≠ 21 := hne 21 (by decide) a21
  have b26 : UInt32.ofNat t ≠ 26 := hne 26 (by decide) a26
  have b28 : UInt32.ofNat t ≠ 28 := hne 28 (by decide) a28
  have b29 : UInt32.ofNat t ≠ 29 := hne 29 (by decide) a29
  have b30 : UInt32.ofNat t ≠ 30 := hne 30 (by decide) a30
  have b31 : UInt32.ofNat t ≠ 31 := hne 31 (by decide) a31
  have b33 : UInt32.ofNat t ≠ 33 := hne 33 (by decide) a33
  unfold layerProp
  rw [if_neg (by simp [*]), if_neg b6, if_neg b21, if_neg (by simp [*]), if_neg b8, if_neg b2, if_neg b29, if_neg b30, if_neg b7,
    if_neg b15, if_neg b33]
  refine ((skip_consumes _ b (by rw [u32_toNat hb])).map ?_).eats
  rfl

/-- one property more -/
theorem layerProp_step {c : Ctx} {C : Coding} (hfo : c.env.floatOpacity = C.opacity) {r : Placed}
    (hmode : c.baseType = 0 ∨ r.layer.mode = Mode.normal) (hox : 0 ≤ r.ox ∧ r.ox < 2 ^ 31) (hoy : 0 ≤ r.oy ∧ r.oy < 2 ^ 31)
    {pars : List (Bytes × Nat × Bytes)} (hp : ∀ p ∈ pars, Utf8 p.1 ∧ p.1 ≠ []) {t : Nat} {body : Bytes} (h : LayerProp C r pars t body)
    {done : List Nat} (ht : t ∉ done) (hl : body.length ≤ maxString) :
    t ≠ 0 ∧ t < 2 ^ 32 ∧
      Eats (layerProp c (UInt32.ofNat t) (UInt32.ofNat body.length) (propsAfter r pars done)) body (propsAfter r pars (t :: done)) := by
  have hm : maxString = 16777216 := rfl
  have htr : (255 : UInt8) - (UInt32.ofNat (255 - r.layer.transparency.toNat)).toUInt8 = r.layer.transparency := opacity_back _
  cases h with
  | opacity =>
    refine ⟨by decide, by decide, ?_⟩
    have e := eats_opacity (c := c) (s := propsAfter r pars done) (n := 255 - r.layer.transparency.toNat) (by omega)
      (l := UInt32.ofNat (num (255 - r.layer.transparency.toNat)).length)
    rw [htr] at e
    have e' : propsAfter r pars (6 :: done) = { propsAfter r pars done with transparency := r.layer.transparency } := by
      simp [propsAfter]
    rw [e']
    exact e
  | floatOpacity n hn =>
    refine ⟨by decide, by decide, ?_⟩
    have e := eats_floatOpacity (c := c) (s := propsAfter r pars done) n (l := UInt32.ofNat (num n).length)
    have h1 : (255 : UInt8) - c.env.floatOpacity (UInt32.ofNat n) = r.layer.transparency := by
      rw [hfo, ← htr]
      congr 1
      apply UInt8.toNat_inj.1
      rw [hn, UInt32.toNat_toUInt8, u32_toNat (by omega)]
      omega
    rw [h1] at e
    have e' : propsAfter r pars (33 :: done) = { propsAfter r pars done with transparency := r.layer.transparency } := by
      simp [propsAfter]
    rw [e']
    exact e
  | visible =>
    refine ⟨by decide, by decide, ?_⟩
    have e := eats_visible (c := c) (s := propsAfter r pars done) r.layer.invisible
      (l := UInt32.ofNat (num (if r.layer.invisible then 0 else 1)).length)
    have e' : propsAfter r pars (8 :: done) = { propsAfter r pars done with invisible := r.layer.invisible } := by
      simp [propsAfter]
    rw [e']
    exact e
  | offsets =>
    refine ⟨by decide, by decide, ?_⟩
    have e := eats_offsets (c := c) (s := propsAfter r pars done) r.ox r.oy (l := UInt32.ofNat (int r.ox ++ int r.oy).length)
    rw [toInt32_u32 hox.1 hox.2, toInt32_u32 hoy.1 hoy.2] at e
    have h0 : (propsAfter r pars done).off = ⟨0, 0⟩ := by simp [propsAfter, ht]
    rw [h0] at e
    have e' : propsAfter r pars (15 :: done) = { propsAfter r pars done with off := ⟨(0 : Int) + r.ox, (0 : Int) + r.oy⟩ } := by
      simp [propsAfter]
    rw [e']
    exact e
  | mode n hn =>
    refine ⟨by decide, by decide, ?_⟩
    have e := eats_mode (c := c) (s := propsAfter r pars done) n (l := UInt32.ofNat (num n).length)
    rw [gimpMode_read hn hmode] at e
    have e' : propsAfter r pars (7 :: done) = { propsAfter r pars done with mode := r.layer.mode } := by
      simp [propsAfter]
    rw [e']
    exact e
  | path hpl =>
    refine ⟨by decide, by decide, ?_⟩
    have e := eats_path (c := c) (s := propsAfter r pars done) r.path (by omega)
    have e' : propsAfter r pars (30 :: done) = { propsAfter r pars done with itemPath := r.path.map UInt32.ofNat } := by
      simp [propsAfter]
    rw [e']
    exact e
  | group hg =>
    refine ⟨by decide, by decide, ?_⟩
    have e := eats_group (c := c) (s := propsAfter r pars done) (l := UInt32.ofNat ([] : Bytes).length)
    have e' : propsAfter r pars (29 :: done) = { propsAfter r pars done with group := true } := by
      simp [propsAfter]
    rw [e']
    exact e
  | parasites =>
    refine ⟨by decide, by decide, ?_⟩
    have e := eats_parasites (c := c) (s := propsAfter r pars done) pars hp hl
    have e' : propsAfter r pars (21 :: done) = { propsAfter r pars done with parasites := parasitesIn pars } := by
      simp [propsAfter]
    rw [e']
    exact e
  | flag t n h1 h2 =>
    have e := eats_flag (c := c) (s := propsAfter r pars done) h1 n (l := UInt32.ofNat (num n).length)
    simp only [List.mem_cons, List.not_mem_nil, or_false] at h1
    have e' : propsAfter r pars (t :: done) = propsAfter r pars done := by
      rcases h1 with rfl | rfl | rfl | rfl | rfl | rfl <;> simp [propsAfter]
    rw [e']
    exact ⟨by omega, by omega, e⟩
  | number t n h1 =>
    have e := eats_number (c := c) (s := propsAfter r pars done) h1 n (l := UInt32.ofNat (num n).length)
    simp only [List.mem_cons, List.not_mem_nil, or_false] at h1
    have e' : propsAfter r pars (t :: done) = propsAfter r pars done := by
      rcases h1 with rfl | rfl | rfl | rfl <;> simp [propsAfter]
    rw [e']
    exact ⟨by omega, by omega, e⟩
  | active =>
    refine ⟨by decide, by decide, ?_⟩
    have e' : propsAfter r pars (2 :: done) = propsAfter r pars done := by simp [propsAfter]
    rw [e']
    exact eats_active
  | other t b h1 h2 =>
    have e := eats_other (c := c) (s := propsAfter r pars done) h1 h2 body (by omega)
    simp only [layerPropNumbers, List.mem_cons, List.not_mem_nil, or_false, not_or] at h1
    obtain ⟨a0, a2, a5, a6, a7, a8, a9, a10, a11, a12, a13, a15, a20, a21, a26, a28, a29, a30, a31, a33⟩ := h1
    have e' : propsAfter r pars (t :: done) = propsAfter r pars done := by
      simp [propsAfter, Ne.symm a15, Ne.symm a6, Ne.symm a33, Ne.symm a8, Ne.symm a29, Ne.symm a30, Ne.symm a7, Ne.symm a21]
    rw [e']
    exact ⟨a0, h2, e⟩

theorem propsAfter_perm {r : Placed} {pars : List (Bytes × Nat × Bytes)} {xs ys : List Nat} (h : ∀ t, t ∈ xs ↔ t ∈ ys) :
    propsAfter r pars xs = propsAfter r pars ys := by
  unfold propsAfter
  simp only [h]

theorem layerProps_run_in {c : Ctx} {C : Coding} (hfo : c.env.floatOpacity = C.opacity) {r : Placed}
    (hmode : c.baseType = 0 ∨ r.layer.mode = Mode.normal) (hox : 0 ≤ r.ox ∧ r.ox < 2 ^ 31) (hoy : 0 ≤ r.oy ∧ r.oy < 2 ^ 31)
    {pars : List (Bytes × Nat × Bytes)} (hp : ∀ p ∈ pars, Utf8 p.1 ∧ p.1 ≠ []) : ∀ (ps : List (Nat × Bytes)) (done : List Nat),
    (∀ p ∈ ps, LayerProp C r pars p.1 p.2 ∧ p.2.length ≤ maxString) → (ps.map (·.1)).Nodup → (∀ t ∈ ps.map (·.1), t ∉ done) →
    PropRun c (propsAfter r pars done) ps (propsAfter r pars (ps.map (·.1) ++ done))
  | [], done, _, _, _ => .nil _
  | (t, body) :: ps, done, h, hn, hd => by
    rw [List.map_cons, List.nodup_cons] at hn
    obtain ⟨h1, h2⟩ := h (t, body) (by simp)
    obtain ⟨a1, a2, a3⟩ := layerProp_step hfo hmode hox hoy hp h1 (hd t (by simp)) h2
    refine .cons a1 a2 a3 ?_
    have ih := layerProps_run_in hfo hmode hox hoy hp ps (t :: done) (fun p hp => h p (by simp [hp])) hn.2 (by
      intro u hu hc
      rcases List.mem_cons.1 hc with rfl | hc
      · exact hn.1 hu
      · exact hd u (by rw [List.map_cons]; exact List.mem_cons_of_mem _ hu) hc)
    have e : propsAfter r pars (((t, body) :: ps).map (·.1) ++ done) = propsAfter r pars (ps.map (·.1) ++ t :: done) :=
      propsAfter_perm (by intro u; simp [or_left_comm])
    rw [e]
    exact ih

/-- everything that is to be known about a layer -/
def propsIn (r : Placed) (pars : List (Bytes × Nat × Bytes)) : LProps :=
  ⟨⟨r.ox, r.oy⟩, r.layer.transparency, r.layer.invisible, isGroupLayer r.layer,
    if 1 < r.path.length then r.path.map UInt32.ofNat else [], r.layer.mode, parasitesIn pars⟩

theorem layerProps_held {c : Ctx} {C : Coding} (hfo : c.env.floatOpacity = C.opacity) {r : Placed}
    (hmode : c.baseType = 0 ∨ r.layer.mode = Mode.normal) (hox : 0 ≤ r.ox ∧ r.ox < 2 ^ 31) (hoy : 0 ≤ r.oy ∧ r.oy < 2 ^ 31)
    {ps : List (Nat × Bytes)} (h : LayerProps C r ps) (hl : ∀ p ∈ ps, p.2.length ≤ maxString) :
    ∃ pars, PropRun c LProps.start ps (propsIn r pars) ∧
      (textOf r.layer = none ∧ textData pars = none ∨ ∃ t d, textOf r.layer = some t ∧ textData pars = some d ∧ C.parses d t) := by
  obtain ⟨pars, hps, hpu, hpe, htx⟩ := h.parasites
  refine ⟨pars, ?_, htx⟩
  have hrun := layerProps_run_in (c := c) hfo hmode hox hoy hpu ps [] (fun p hp => ⟨hps p hp, hl p hp⟩) h.once (by simp)
  have e : propsAfter r pars [] = LProps.start := by simp [propsAfter, LProps.start]
  have e2 : propsAfter r pars (ps.map (·.1) ++ []) = propsIn r pars := by
    rw [List.append_nil]
    have hmem : ∀ t, t ∈ ps.map (·.1) → ∃ body, LayerProp C r pars t body := by
      intro t ht
      obtain ⟨p, hp, rfl⟩ := List.mem_map.1 ht
      exact ⟨_, hps p hp⟩
    have h30 : 30 ∈ ps.map (·.1) → 1 < r.path.length := by
      intro h1
      obtain ⟨body, hb⟩ := hmem 30 h1
      cases hb with
      | path h => exact h
      | flag _ _ h => simp at h
      | number _ _ h => simp at h
      | other _ _ h => simp [layerPropNumbers] at h
    have h29 : 29 ∈ ps.map (·.1) → isGroupLayer r.layer = true := by
      intro h1
      obtain ⟨body, hb⟩ := hmem 29 h1
      cases hb with
      | group h => exact h
      | flag _ _ h => simp at h
      | number _ _ h => simp at h
      | other _ _ h => simp [layerPropNumbers] at h
    unfold propsAfter propsIn
    congr 1
    · by_cases h1 : 15 ∈ ps.map (·.1)
      · rw [if_pos h1]
      · rw [if_neg h1, (h.offsets.resolve_left h1).1, (h.offsets.resolve_left h1).2]
    · by_cases h1 : 6 ∈ ps.map (·.1) ∨ 33 ∈ ps.map (·.1)
      · rw [if_pos h1]
      · rw [if_neg h1]
        rcases h.opacity with h2 | h2 | h2
        · exact absurd (.inl h2) h1
        · exact absurd (.inr h2) h1
        · exact h2.symm
    · by_cases h1 : 8 ∈ ps.map (·.1)
      · rw [if_pos h1]
      · rw [if_neg h1, h.visible.resolve_left h1]
    · by_cases h1 : 29 ∈ ps.map (·.1)
      · rw [h29 h1]; simpa using h1
      · rw [h.group.resolve_left h1]; simpa using h1
    · by_cases h1 : 30 ∈ ps.map (·.1)
      · rw [if_pos h1, if_pos (h30 h1)]
      · rw [if_neg h1, if_neg (by have := h.path.resolve_left h1; omega)]
    · by_cases h1 : 7 ∈ ps.map (·.1)
      · rw [if_pos h1]
      · rw [if_neg h1, h.mode.resolve_left h1]; rfl
    · by_cases h1 : 21 ∈ ps.map (·.1)
      · rw [if_pos h1]
      · rw [if_neg h1, hpe h1]; rfl
  rw [e, e2] at hrun
  exact hrun

/-! ### Strings and properties -/

theorem isText_length {s bs : Bytes} (h : IsText s bs) : s.length ≤ bs.length ∧ 4 ≤ bs.length := by
  rcases h with rfl | rfl
  · simp [Spec.text, num_length]; omega
  · rw [str_length]; split
    · rename_i h; simp [h]
    · omega

theorem isText_lt {s bs : Bytes} (h : IsText s bs) (hl : bs.length ≤ maxString) : s.length + 1 ≤ maxString := by
  have hm : maxString = 16777216 := rfl
  rcases h with rfl | rfl
  · simp [Spec.text, num_length] at hl; omega
  · rw [str_length] at hl
    split at hl
    · rename_i h; simp [h, hm]
    · omega

theorem isText_reads {s bs : Bytes} (h : IsText s bs) (hl : bs.length ≤ maxString) (hu : Utf8 s) : Consumes readString bs s := by
  have := isText_lt h hl
  rcases h with rfl | rfl
  · exact readText_consumes s this hu
  · exact readString_consumes s this hu

theorem isText_skips {s bs : Bytes} (h : IsText s bs) (hl : bs.length ≤ maxString) : Consumes skipString bs () := by
  have hm : maxString = 16777216 := rfl
  have := isText_lt h hl
  rcases h with rfl | rfl
  · unfold skipString Spec.text
    rw [List.append_assoc]
    refine (num_consumes _).bind (skip_consumes _ _ ?_)
    rw [u32_toNat (by omega), List.length_append]; rfl
  · exact skipString_consumes s (by omega)

theorem flatMap_prop_length (ps : List (Nat × Bytes)) : ps.length ≤ (ps.flatMap fun p => prop p.1 p.2).length ∧
    ∀ p ∈ ps, p.2.length ≤ (ps.flatMap fun p => prop p.1 p.2).length := by
  induction ps with
  | nil => simp
  | cons a ps ih =>
    rw [List.flatMap_cons, List.length_append, List.length_cons]
    have h1 : (prop a.1 a.2).length = a.2.length + 8 := by unfold prop; simp [num_length]; omega
    refine ⟨by have := ih.1; omega, fun p hp => ?_⟩
    rcases List.mem_cons.1 hp with rfl | hp
    · omega
    · have := ih.2 p hp; omega

/-- the properties of a mask are passed over -/
theorem skipProperties_in : ∀ (ps : List (Nat × Bytes)), (∀ p ∈ ps, p.1 ≠ 0 ∧ p.1 < 2 ^ 32 ∧ (p.1 = 6 → ∃ n ≤ 255, p.2 = num n)) →
    (∀ p ∈ ps, p.2.length < 2 ^ 32) → ∀ f, ps.length < f →
    Consumes (skipProperties f) ((ps.flatMap fun p => prop p.1 p.2) ++ (num 0 ++ num 0)) ()
  | [], _, _, f, hf => by
    obtain ⟨f, rfl⟩ : ∃ g, f = g + 1 := ⟨f - 1, by simp at hf; omega⟩
    unfold skipProperties
    rw [List.flatMap_nil, List.nil_append]
    refine (num_consumes _).bind ((num_consumes _).map ?_)
    rfl
  | (t, body) :: ps, h, hl, f, hf => by
    obtain ⟨f, rfl⟩ : ∃ g, f = g + 1 := ⟨f - 1, by simp at hf; omega⟩
    obtain ⟨h0, h1, h6⟩ := h (t, body) (List.mem_cons_self ..)
    have hb := hl (t, body) (List.mem_cons_self ..)
    have ih := skipProperties_in ps (fun p hp => h p (List.mem_cons_of_mem _ hp)) (fun p hp => hl p (List.mem_cons_of_mem _ hp)) f
      (by rw [List.length_cons] at hf; omega)
    dsimp only at h0 h1 h6 hb
    unfold skipProperties
    rw [List.flatMap_cons]
    unfold prop at ih ⊢
    simp only [List.append_assoc] at ih ⊢
    refine (num_consumes _).bind ((num_consumes _).bind ?_)
    have hne : UInt32.ofNat t ≠ 0 := by
      intro h
      have := congrArg UInt32.toNat h
      rw [u32_toNat h1] at this
      exact h0 this
    rw [if_neg hne]
    by_cases ht : t = 6
    · subst ht
      obtain ⟨n, hn, rfl⟩ := h6 rfl
      rw [if_pos (by decide)]
      refine (num_consumes n).bind ?_
      rw [if_neg]
      · exact Consumes.bind (a := []) (b := _) (Consumes.pure ()) ih
      · intro hc
        have := UInt32.lt_iff_toNat_lt.1 hc
        rw [u32_toNat (by omega)] at this
        have e : (255 : UInt32).toNat = 255 := rfl
        omega
    · rw [if_neg]
      · exact (skip_consumes _ body (by rw [u32_toNat hb])).bind ih
      · intro h
        have := congrArg UInt32.toNat h
        rw [u32_toNat h1] at this
        exact ht this

theorem skipPropertiesAll_in (ps : List (Nat × Bytes)) (h : ∀ p ∈ ps, p.1 ≠ 0 ∧ p.1 < 2 ^ 32 ∧ (p.1 = 6 → ∃ n ≤ 255, p.2 = num n))
    (hl : ∀ p ∈ ps, p.2.length < 2 ^ 32) {r : R} (hs : Sees r ((ps.flatMap fun p => prop p.1 p.2) ++ (num 0 ++ num 0)))
    (hd : ps.length < r.data.length + 2) :
    skipPropertiesAll r = .ok ((), r.adv ((ps.flatMap fun p => prop p.1 p.2) ++ (num 0 ++ num 0)).length) := by
  unfold skipPropertiesAll
  exact skipProperties_in ps h hl _ hd r hs

theorem off_ne_nil (V : Version) (a : Bytes) (n : Nat) : a ++ V.off n ≠ [] := by
  intro h0
  have := congrArg List.length h0
  rw [List.length_append, off_length, List.length_nil] at this
  have := size_ge V
  omega

/-- a mask -/
theorem readChannel_in {D : Bytes} {V : Version} {c : Ctx} {rle : Bool} (hc : (c.compression != 0) = rle)
    (hd : c.decompress = true ∨ c.compression = 0) (hm : c.mode = V.mode)
    {p : Nat} {m : GrayImg} (hat : MaskIn (D.take maxString) V rle p m) {x y : Nat} (hx : m.rect.dx = x) (hy : m.rect.dy = y)
    (hx0 : 0 < x) (hy0 : 0 < y) (hx2 : x < 2 ^ 32) (hy2 : y < 2 ^ 32) :
    p < maxString ∧ ∃ m' r', readChannel c (readerAt D p) = .ok (some m', r') ∧ r'.err = none ∧ m'.rect = sizeRect x y ∧ MaskBack m m' := by
  have hmax : maxString = 16777216 := rfl
  obtain ⟨name, nm, ps, h, hnm, hps, h1, h2⟩ := hat
  have hne := off_ne_nil V (int m.rect.dx ++ int m.rect.dy ++ nm ++ propList ps) h
  have s := sees_at h1 hne
  have hlt := hasAt_lt h1 hne
  have hD := HasAt.le h1 hne
  rw [List.length_take] at hD
  have hil : ∀ x, (int x).length = 4 := fun x => num_length _
  unfold propList at s hlt hD
  simp only [List.append_assoc] at s hlt hD
  simp only [List.length_append, num_length, hil, off_length] at hlt hD
  obtain ⟨hpl, hpb⟩ := flatMap_prop_length ps
  have hlv := readLevel_in hm hc (by omega) (.inr rfl) h2 (by
      rintro q bs rfl
      rfl) hx hy hx0 hy0 hx2 hy2 2 (by decide)
  obtain ⟨hh, im, r', e, e1, e2, e3, e4, e5, e6, e7, e8⟩ := readImage_level hd hx0 hy0 hx2 hy2 2 (by decide) (by omega) (by omega) hlv
  refine ⟨by omega, im.gray, r', ?_, e3, ?_, ?_, ?_⟩
  · unfold readChannel
    rw [M.bind_ok (int_consumes _ _ s.left)]
    have s := s.right
    rw [M.bind_ok (int_consumes _ _ s.left)]
    have s := s.right
    rw [M.bind_ok (isText_skips hnm (by omega) _ s.left)]
    have s := s.right
    have es : ∀ x : Bytes, (ps.flatMap fun p => prop p.1 p.2) ++ (num 0 ++ (num 0 ++ x)) =
        ((ps.flatMap fun p => prop p.1 p.2) ++ (num 0 ++ num 0)) ++ x := by intro x; simp only [List.append_assoc]
    rw [es] at s
    rw [M.bind_ok (skipPropertiesAll_in ps hps (fun p hp => by have := hpb p hp; omega) s.left (show _ < D.length + 2 by omega))]
    have s := s.right
    rw [hm, M.bind_ok (off_consumes V (by omega) _ s)]
    rw [M.bind_ok (goto_any (D := D) (by omega) rfl rfl rfl)]
    rw [hx, hy, u32_nat, u32_nat, M.bind_ok e]
    rfl
  · show sizeRect im.width im.height = _
    rw [e5, e6]
  · show sizeRect im.width im.height = _
    rw [e5, e6, hx, hy]; rfl
  · intro p hp
    have hp : Rect.mem p (sizeRect im.width im.height) = true := hp
    have e : im.gray.grayAt p = (im.px p.x.toNat p.y.toNat).getD 0 0 := by
      unfold GrayImg.grayAt
      rw [if_pos (show Rect.mem p im.gray.rect = true from hp)]
      rfl
    rw [e5, e6, mem_sizeRect] at hp
    have := e8 p.x.toNat p.y.toNat (by omega) (by omega)
    rw [e, this, Int.toNat_of_nonneg hp.1, Int.toNat_of_nonneg hp.2.2.1]
    rfl

/-! ### Layers -/

/-- the colour map as it is kept -/
def Spec.Coding.pal (C : Coding) : List Color := C.palette.map fun c => .lrgb c.1 c.2.1 c.2.2

/-- the type of a layer -/
def Spec.Coding.kind (C : Coding) (α : Bool) : Nat := 2 * C.typ + if α then 1 else 0

theorem Spec.Coding.kind_lt {C : Coding} (hC : C.Ok) (α : Bool) : C.kind α < 6 := by
  have := hC.typ
  unfold Coding.kind
  cases α <;> simp <;> omega

theorem bppOf_bound (t : Nat) (α : Bool) : 1 ≤ bppOf t α ∧ bppOf t α ≤ 4 := by
  unfold bppOf
  cases α <;> split <;> simp

theorem Spec.Coding.bpp_ok {C : Coding} (hC : C.Ok) (α : Bool) : bppOk (UInt32.ofNat (C.kind α)) (UInt32.ofNat (bppOf C.typ α)) = true := by
  have := hC.typ
  unfold Coding.kind
  have : C.typ = 0 ∨ C.typ = 1 ∨ C.typ = 2 := by omega
  rcases this with h | h | h <;> rw [h] <;> cases α <;> decide

theorem Spec.Coding.color_read {C : Coding} (hC : C.Ok) (α : Bool) {bs : Bytes} (hl : bs.length = bppOf C.typ α) :
    eagerColor (C.kind α) C.pal bs = C.color bs := by
  have := hC.typ
  unfold Coding.kind Coding.color
  have ht : C.typ = 0 ∨ C.typ = 1 ∨ C.typ = 2 := by omega
  have h1 : bppOf 0 false = 3 := rfl
  have h2 : bppOf 0 true = 4 := rfl
  have h3 : bppOf 1 false = 1 := rfl
  have h4 : bppOf 1 true = 2 := rfl
  have h5 : bppOf 2 false = 1 := rfl
  have h6 : bppOf 2 true = 2 := rfl
  rcases ht with h | h | h <;> rw [h] at hl ⊢ <;> cases α
  · match bs, hl with
    | [a, b, c], _ => rfl
  · match bs, hl with
    | [a, b, c, d], _ => rfl
  · match bs, hl with
    | [a], _ => rfl
  · match bs, hl with
    | [a, b], _ => rfl
  · match bs, hl with
    | [a], _ =>
      show C.pal[a.toNat]? = _
      unfold Coding.pal
      rw [List.getElem?_map]
      rfl
  · match bs, hl with
    | [a, b], _ =>
      show IdxPix.toColor C.pal ⟨a, b⟩ = (C.palette[a.toNat]?).map fun c => Color.nrgba c.1 c.2.1 c.2.2 b
      unfold IdxPix.toColor Coding.pal
      rw [List.getElem?_map]
      cases C.palette[a.toNat]? with
      | none => rfl
      | some c => simp [Color.rgba32, widen_high]

theorem Spec.Coding.model_read {C : Coding} (hC : C.Ok) (α : Bool) : kindModel (C.kind α) C.pal = C.model α := by
  have := hC.typ
  unfold Coding.kind Coding.model
  have ht : C.typ = 0 ∨ C.typ = 1 ∨ C.typ = 2 := by omega
  rcases ht with h | h | h <;> rw [h] <;> cases α <;> rfl

theorem Spec.Coding.pal_rgb (C : Coding) : RGBPalette C.pal := by
  intro c hc
  obtain ⟨x, _, rfl⟩ := List.mem_map.1 hc
  exact ⟨_, _, _, rfl⟩

/-- the pixels of a layer -/
theorem layerImage_in {D : Bytes} {V : Version} {c : Ctx} {C : Coding} (hC : C.Ok) (hc : (c.compression != 0) = C.rle) (hm : c.mode = V.mode)
    (hpal : c.palette = C.pal) {i : Img} {α : Bool} (hf : C.rle = true ∨ bppOf C.typ α = 1)
    (hd : (c.decompress = true ∨ c.compression = 0) ∨ C.kind α ≠ 4) {b : Rect} {h : Nat} (hb : i.bounds = some b)
    (hat : PixelsIn (D.take maxString) V C.rle h b (bppOf C.typ α) (C.Shown α i)) {x y : Nat} (hx : b.dx = x) (hy : b.dy = y)
    (hx0 : 0 < x) (hy0 : 0 < y) (hx2 : x < 2 ^ 32) (hy2 : y < 2 ^ 32) :
    ∃ L r', layerImage c false (UInt32.ofNat x) (UInt32.ofNat y) (UInt32.ofNat (C.kind α)) (readerAt D h) =
      .ok (some (.leaf L), r') ∧ r'.data = D ∧ r'.limit = maxString ∧ r'.err = none ∧ C.PixelsRead α i L := by
  have hk6 := Coding.kind_lt hC α
  have hk : (UInt32.ofNat (C.kind α)).toNat = C.kind α := u32_toNat (by omega)
  obtain ⟨hb1, hb4⟩ := bppOf_bound C.typ α
  have hlv := readLevel_in hm hc hb1 hf hat (by
      rintro q bs ⟨_, _, c, _, rfl⟩
      exact hC.conv α c) hx hy hx0 hy0 hx2 hy2 (UInt32.ofNat (C.kind α)) (Coding.bpp_ok hC α)
  have main : ∃ (d : DecImg) (r' : R), readImage c (UInt32.ofNat x) (UInt32.ofNat y) (UInt32.ofNat (C.kind α)) (readerAt D h) = .ok (some d, r') ∧
      r'.data = D ∧ r'.limit = maxString ∧ r'.err = none ∧ d.leaf.bounds = sizeRect x y ∧ d.leaf.model = kindModel (C.kind α) c.palette ∧
      ∀ u v : Nat, u < x → v < y → ∃ px, C.Shown α i ⟨b.x0 + u, b.y0 + v⟩ px ∧ d.leaf.pixel ⟨u, v⟩ = eagerColor (C.kind α) c.palette px := by
    rcases Classical.em (C.kind α = 4) with h4 | h4
    · have hdt := hd.resolve_right (fun h => h h4)
      obtain ⟨_, im, r', e, k1, k2, k3, k4, k5, k6, k7, k8⟩ := readImage_level hdt hx0 hy0 hx2 hy2 _ (by rw [hk]; exact hk6) hb1 hb4 hlv
      refine ⟨.eager im, r', e, k1, k2, k3, ?_, ?_, fun u v hu hv => ⟨_, k8 u v hu hv, ?_⟩⟩
      · show sizeRect im.width im.height = _
        rw [k5, k6]
      · show kindModel im.kind im.palette = _
        rw [k4, k7, hk]
      · show im.at _ = _
        unfold EagerImg.at
        rw [k5, k6, if_pos (by simp [hu, hv]), k4, k7, hk]
        simp
    · obtain ⟨_, d, r', e, k1, k2, k3, _, k4, k5, k7, k6⟩ := readImage_any_level (by rw [hpal]; exact C.pal_rgb) hx0 hy0 hx2 hy2 _
        (by rw [hk]; exact hk6) hb1 hb4 hlv
      refine ⟨d, r', e, k1, k2, k3, k4, by rw [k5, hk], ?_⟩
      intro u v hu hv
      obtain ⟨px, g1, g2⟩ := k6 (by rw [hk]; exact h4) u v hu hv
      exact ⟨px, g1, by rw [g2, hk]⟩
  obtain ⟨d, r', e, h1, h2, h3, h4, h5, h6⟩ := main
  refine ⟨d.leaf, r', ?_, h1, h2, h3, b, hb, ?_, ?_, ?_⟩
  · unfold layerImage
    rw [if_neg (by decide), M.bind_ok e]
    rfl
  · rw [h4, hx, hy]; rfl
  · rw [h5, hpal, Coding.model_read hC]
  · intro p hp
    rw [h4, mem_sizeRect] at hp
    obtain ⟨px, ⟨n, n', col, g1, g2⟩, g3⟩ := h6 p.x.toNat p.y.toNat (by omega) (by omega)
    rw [Int.toNat_of_nonneg hp.1, Int.toNat_of_nonneg hp.2.2.1] at g1 g3
    refine ⟨n, n', col, g1, ?_⟩
    rw [show p = ⟨p.x, p.y⟩ from rfl, g3, hpal, g2]
    exact Coding.color_read hC α (hC.conv α col)

theorem readLayer_head_in {D : Bytes} {V : Version} {c : Ctx} {C : Coding} (hC : C.Ok) (hb : c.baseType = UInt32.ofNat C.typ)
    (hm : c.mode = V.mode) {r : Placed} {α : Bool} {nm : Bytes} {ps : List (Nat × Bytes)} {s' : LProps} {p h m : Nat}
    (hnm : IsText r.layer.name nm) (hrun : (∀ p ∈ ps, p.2.length ≤ maxString) → PropRun c LProps.start ps s')
    (hat : HasAt (D.take maxString) p (int r.layer.bounds.dx ++ int r.layer.bounds.dy ++ num (C.kind α) ++ nm ++
      propList ps ++ V.off h ++ V.off m))
    (hu : Utf8 r.layer.name) (hh : h < 2 ^ 32) (hmm : m < 2 ^ 32) :
    readLayer c (readerAt D p) = layerRest c (u32 r.layer.bounds.dx) (u32 r.layer.bounds.dy) (UInt32.ofNat (C.kind α))
      r.layer.name s' (UInt32.ofNat m).toUInt64 (readerAt D h) := by
  have hmax : maxString = 16777216 := rfl
  have hne := off_ne_nil V (int r.layer.bounds.dx ++ int r.layer.bounds.dy ++ num (C.kind α) ++ nm ++ propList ps ++ V.off h) m
  have s := sees_at hat hne
  have hlt := hasAt_lt hat hne
  have hD := HasAt.le hat hne
  rw [List.length_take] at hD
  have hil : ∀ x, (int x).length = 4 := fun x => num_length _
  unfold propList at s hlt hD
  simp only [List.append_assoc] at s hlt hD
  simp only [List.length_append, num_length, hil, off_length] at hlt hD
  have hsz := size_ge V
  obtain ⟨hpl, hpb⟩ := flatMap_prop_length ps
  have hrun := hrun (fun p hp => by have := hpb p hp; omega)
  unfold readLayer
  rw [M.bind_ok (int_consumes _ _ s.left)]
  have s := s.right
  rw [M.bind_ok (int_consumes _ _ s.left)]
  have s := s.right
  rw [M.bind_ok (num_consumes _ _ s.left)]
  have s := s.right
  have hty : UInt32.ofNat (C.kind α) >>> 1 = c.baseType := by
    rw [hb]
    have := hC.typ
    unfold Coding.kind
    have ht : C.typ = 0 ∨ C.typ = 1 ∨ C.typ = 2 := by omega
    rcases ht with h | h | h <;> rw [h] <;> cases α <;> rfl
  rw [if_neg (by rw [hty]; simp)]
  rw [M.bind_ok (isText_reads hnm (by omega) hu _ s.left)]
  have s := s.right
  have es : ∀ x : Bytes, (ps.flatMap fun p => prop p.1 p.2) ++ (num 0 ++ (num 0 ++ x)) =
      ((ps.flatMap fun p => prop p.1 p.2) ++ (num 0 ++ num 0)) ++ x := by intro x; simp only [List.append_assoc]
  rw [es] at s
  rw [M.bind_ok (readLayerProperties_ok hrun s.left (by
    simp only [R.adv_pos, R.adv_limit, readerAt, List.length_append, num_length, hil]
    omega) (show _ < D.length + 2 by omega))]
  have s := s.right
  rw [hm, M.bind_ok (off_consumes V hh _ s.left)]
  have s := s.right
  rw [M.bind_ok (off_consumes V hmm _ s)]
  rw [M.bind_ok (goto_any (D := D) hh rfl rfl rfl)]
  rfl

/-- Nothing but the head of a file begins with "gimp xcf ". -/
theorem not_magic {D : Bytes} {V : Version} (h0 : HasAt D 0 V.magic) {a rest : Bytes} {n : Nat} (ha : a.length = 8) (hn : n < 2 ^ 24)
    (h : HasAt D 0 (a ++ num n ++ rest)) : False := by
  unfold HasAt at h0 h
  rw [List.drop_zero] at h0 h
  have a1 : D[8]? = some 32 := by
    have := congrArg (fun l : Bytes => l[8]?) h0
    rw [List.getElem?_take_of_lt (by simp [Version.magic])] at this
    rw [this]
    simp [Version.magic]
  have a2 : D[8]? = some 0 := by
    have := congrArg (fun l : Bytes => l[8]?) h
    rw [List.append_assoc, List.getElem?_append_right (by omega), ha] at this
    rw [List.getElem?_take_of_lt (by simp only [List.length_append, ha, num_length]; omega)] at this
    rw [this, List.getElem?_append_left (by rw [num_length]; omega)]
    show some (UInt8.ofNat (n / 256 ^ 3)) = _
    rw [Nat.div_eq_of_lt (by omega)]
    rfl
  rw [a1] at a2
  cases a2

theorem pixelsIn_lt {D : Bytes} {V : Version} {rle : Bool} {p : Nat} {b : Rect} {bpp : Nat} {Shows : Pt → Bytes → Prop}
    (h : PixelsIn (D.take maxString) V rle p b bpp Shows) : p < maxString := by
  obtain ⟨level, tiles, more, h1, _⟩ := h
  have hne := off_ne_nil V (int b.dx ++ int b.dy ++ num bpp ++ V.off level ++ more.flatMap V.off) 0
  have := hasAt_lt h1 hne
  have := List.length_pos_iff.2 hne
  omega

theorem maskIn_pos {D : Bytes} {V : Version} {rle : Bool} {p : Nat} {m : GrayImg} (h0 : HasAt (D.take maxString) 0 V.magic)
    (h : MaskIn (D.take maxString) V rle p m) : p ≠ 0 ∧ p < maxString := by
  have hmax : maxString = 16777216 := rfl
  obtain ⟨name, nm, ps, hh, hnm, _, h1, _⟩ := h
  have hne := off_ne_nil V (int m.rect.dx ++ int m.rect.dy ++ nm ++ propList ps) hh
  have hlt := hasAt_lt h1 hne
  have := List.length_pos_iff.2 hne
  refine ⟨?_, by omega⟩
  rintro rfl
  have hl : (int m.rect.dx ++ int m.rect.dy).length = 8 := by
    rw [List.length_append]; exact congrArg₂ (· + ·) (num_length _) (num_length _)
  simp only [List.length_append] at hlt
  obtain ⟨n, rest, hn, e⟩ : ∃ n rest, n < 2 ^ 24 ∧ nm = num n ++ rest := by
    have := isText_lt hnm (by omega)
    rcases hnm with rfl | rfl
    · simp only [Spec.text, List.length_append, num_length] at hlt
      exact ⟨name.length + 1, name ++ [0], by simp at hlt; omega, by simp [Spec.text]⟩
    · unfold str
      split
      · exact ⟨0, [], by omega, by simp [num]⟩
      · rename_i hs
        rw [str_length, if_neg hs] at hlt
        exact ⟨name.length + 1, name ++ [0], by omega, by simp [num]⟩
  subst e
  simp only [List.append_assoc] at h1
  rw [← List.append_assoc, ← List.append_assoc] at h1
  exact not_magic h0 hl hn h1

/-- a layer read, except for what is said about alpha -/
def DLayer.up (l : DLayer) : DLayer := { l with alpha := true }

theorem find_parasite (pars : List (Bytes × Nat × Bytes)) :
    (getParasite (parasitesIn pars) textParasiteName).map (·.data) = textData pars := by
  have e : textParasiteName = textName := rfl
  unfold getParasite parasitesIn textData
  rw [e]
  induction pars with
  | nil => rfl
  | cons p ps ih =>
    rw [List.map_cons, List.find?_cons, List.find?_cons]
    by_cases h : p.1 = textName
    · simp [h]
    · simpa [h] using ih

theorem readLayer_in {D : Bytes} {V : Version} {c : Ctx} {C : Coding} (hC : C.Ok) (hc : (c.compression != 0) = C.rle)
    (hm : c.mode = V.mode) (hb : c.baseType = UInt32.ofNat C.typ) (hpal : c.palette = C.pal) (hfo : c.env.floatOpacity = C.opacity)
    (hP : ∀ d t, C.parses d t → c.env.parseText d = .ok (some t)) {W H : Int} (hW : W ≤ 2 ^ 31) (hH : H ≤ 2 ^ 31)
    (h0 : HasAt (D.take maxString) 0 V.magic) {alpha : Layer → Bool} {p : Nat} {r : Placed}
    (hf : C.rle = true ∨ (isGroupLayer r.layer = false → bppOf C.typ (alpha r.layer) = 1))
    (hd : (c.decompress = true ∨ c.compression = 0) ∨ maskOf r.layer.image = none ∧ C.kind (alpha r.layer) ≠ 4)
    (hmode : c.baseType = 0 ∨ r.layer.mode = Mode.normal)
    (hat : LayerIn (D.take maxString) V C alpha p r) (hs : Fits W H r) :
    ∃ l r', readLayer c (readerAt D p) = .ok (l, r') ∧ r'.err = none ∧ LayerGot (C.ImgRead alpha) id r l.up ∧ l.alpha = alpha r.layer := by
  have hmax : maxString = 16777216 := rfl
  obtain ⟨nm, ps, h, m, hnm, hps, h1, hrest⟩ := hat
  obtain ⟨x1, x2, x3⟩ := hs.x
  obtain ⟨y1, y2, y3⟩ := hs.y
  have hh : h < 2 ^ 32 := by
    cases hg : isGroupLayer r.layer with
    | true =>
      rw [hg, if_pos rfl] at hrest
      have := hrest.1
      rw [List.length_take] at this
      omega
    | false =>
      rw [hg, if_neg (by decide)] at hrest
      obtain ⟨⟨b, _, hpx⟩, _⟩ := hrest
      have := pixelsIn_lt hpx
      omega
  have hmm : m < 2 ^ 32 := by
    cases hg : isGroupLayer r.layer with
    | true =>
      rw [hg, if_pos rfl] at hrest
      have := hrest.2
      omega
    | false =>
      rw [hg, if_neg (by decide)] at hrest
      have hmask := hrest.2
      cases hmo : maskOf r.layer.image with
      | none =>
        rw [hmo] at hmask
        have hmask : m = 0 := hmask
        omega
      | some k =>
        rw [hmo] at hmask
        have := (maskIn_pos h0 hmask).2
        omega
  obtain ⟨pars, hrun, htx⟩ : ∃ pars, ((∀ p ∈ ps, p.2.length ≤ maxString) → PropRun c LProps.start ps (propsIn r pars)) ∧
      (textOf r.layer = none ∧ textData pars = none ∨ ∃ t d, textOf r.layer = some t ∧ textData pars = some d ∧ C.parses d t) := by
    by_cases hl : ∀ p ∈ ps, p.2.length ≤ maxString
    · obtain ⟨pars, h1, h2⟩ := layerProps_held (c := c) hfo hmode ⟨x1, by omega⟩ ⟨y1, by omega⟩ hps hl
      exact ⟨pars, fun _ => h1, h2⟩
    · obtain ⟨pars, _, _, _, h⟩ := hps.parasites
      exact ⟨pars, fun h => absurd h hl, h⟩
  have hkd : 2 * C.typ + (if alpha r.layer = true then 1 else 0) = C.kind (alpha r.layer) := rfl
  rw [hkd] at h1
  rw [readLayer_head_in hC hb hm hnm hrun h1 hs.name hh hmm]
  obtain ⟨w, hw⟩ := Int.eq_ofNat_of_zero_le (Int.le_of_lt x2)
  obtain ⟨ht', hht'⟩ := Int.eq_ofNat_of_zero_le (Int.le_of_lt y2)
  rw [hw, hht', u32_nat, u32_nat]
  have hw2 : w < 2 ^ 32 := by omega
  have hh2 : ht' < 2 ^ 32 := by omega
  have hbounds : (⟨0, 0, (UInt32.ofNat w).toNat, (UInt32.ofNat ht').toNat⟩ : Rect).add (propsIn r pars).off =
      ⟨r.ox, r.oy, r.ox + r.layer.bounds.dx, r.oy + r.layer.bounds.dy⟩ := by
    rw [u32_toNat hw2, u32_toNat hh2]
    show (⟨0 + r.ox, 0 + r.oy, w + r.ox, ht' + r.oy⟩ : Rect) = _
    rw [hw, hht']
    simp [Int.add_comm]
  have halpha : decide (UInt32.ofNat (C.kind (alpha r.layer)) &&& 1 = 1) = alpha r.layer := by
    have := hC.typ
    unfold Coding.kind
    have ht : C.typ = 0 ∨ C.typ = 1 ∨ C.typ = 2 := by omega
    rcases ht with h | h | h <;> rw [h] <;> cases alpha r.layer <;> decide
  have mk : ∀ im : Img, (isGroupLayer r.layer = false → C.ImgRead alpha r.layer im) →
      LayerGot (C.ImgRead alpha) id r (DLayer.up ⟨⟨r.layer.name, (⟨0, 0, (UInt32.ofNat w).toNat, (UInt32.ofNat ht').toNat⟩ : Rect).add (propsIn r pars).off,
        (propsIn r pars).mode, (propsIn r pars).invisible, (propsIn r pars).transparency, im⟩,
        decide (UInt32.ofNat (C.kind (alpha r.layer)) &&& 1 = 1), (propsIn r pars).group, (propsIn r pars).itemPath⟩) := by
    intro im him
    exact ⟨rfl, hbounds, rfl, rfl, rfl, rfl, rfl, rfl, him⟩
  unfold layerRest
  have hgr : (propsIn r pars).group = isGroupLayer r.layer := rfl
  have hpar : (propsIn r pars).parasites = parasitesIn pars := rfl
  have hfp := find_parasite pars
  have hz : (UInt32.ofNat 0).toUInt64 = 0 := rfl
  cases hg : isGroupLayer r.layer with
  | true =>
    rw [hg, if_pos rfl] at hrest
    obtain ⟨_, rfl⟩ := hrest
    have htn : textData pars = none := by
      rcases htx with h | ⟨td, d, h, _⟩
      · exact h.2
      · unfold isGroupLayer at hg
        unfold textOf at h
        split at hg
        · rename_i he; rw [he] at h; cases h
        · cases hg
    rw [htn] at hfp
    have hfp := Option.map_eq_none_iff.1 hfp
    refine ⟨_, readerAt D h, ?_, rfl, mk .nil (by rw [hg]; intro h; cases h), halpha⟩
    rw [hgr, hg, hpar]
    unfold layerImage
    rw [if_pos rfl, M.bind_ok (show (pure (some Img.nil) : M (Option Img)) _ = _ from rfl)]
    dsimp only
    have et : layerText c (parasitesIn pars) .nil (readerAt D h) = .ok (some .nil, readerAt D h) := by
      unfold layerText
      rw [hfp]
      rfl
    rw [M.bind_ok et]
    dsimp only
    rw [if_neg (by rw [hz]; simp)]
    rfl
  | false =>
    rw [hg, if_neg (by decide)] at hrest
    obtain ⟨⟨b, hbd, hpx⟩, hmask⟩ := hrest
    obtain ⟨hsx, hsy⟩ := hs.size hg b hbd
    obtain ⟨L, r', e, e1, e2, e3, e4⟩ := layerImage_in hC hc hm hpal (hf.imp_right fun h => h hg) (hd.imp_right (·.2)) hbd hpx (hsx.trans hw) (hsy.trans hht') (by omega) (by omega) hw2 hh2
    have hgf : (propsIn r pars).group = false := hgr.trans hg
    rw [← hgf] at e
    rw [hpar, M.bind_ok e]
    dsimp only
    rcases htx with ⟨hto, htn⟩ | ⟨td, d, hto, hti, htt⟩
    · rw [htn] at hfp
      have hfp := Option.map_eq_none_iff.1 hfp
      have et : layerText c (parasitesIn pars) (.leaf L) r' = .ok (some (.leaf L), r') := by
        unfold layerText
        rw [hfp]
        rfl
      rw [M.bind_ok et]
      dsimp only
      cases hmo : maskOf r.layer.image with
      | none =>
        rw [hmo] at hmask
        have hmask : m = 0 := hmask
        subst hmask
        rw [if_neg (by rw [hz]; simp)]
        exact ⟨_, r', rfl, e3, mk _ fun _ => ⟨L, e4, .inl ⟨hto, hmo, rfl⟩⟩, halpha⟩
      | some mk' =>
        rw [hmo] at hmask
        have hmask : MaskIn (D.take maxString) V C.rle m mk' := hmask
        obtain ⟨o1, o2, o3, o4⟩ := hs.mask mk' hmo
        have hd : c.decompress = true ∨ c.compression = 0 := by
          rcases hd with h | h
          · exact h
          · rw [hmo] at h; cases h.1
        obtain ⟨g0, m', r'', g1, g2, g3, g4⟩ := readChannel_in hc hd hm hmask (o3.trans hw) (o4.trans hht') (by omega) (by omega) hw2 hh2
        have hm0 : (UInt32.ofNat m).toUInt64 ≠ 0 := by
          intro h
          have h := congrArg UInt64.toNat h
          rw [UInt32.toNat_toUInt64, u32_toNat (by omega)] at h
          exact (maskIn_pos h0 hmask).1 h
        rw [if_pos hm0, M.bind_ok (goto_any (by omega) e1 e2 e3)]
        have er : readMask c ((⟨0, 0, (UInt32.ofNat w).toNat, (UInt32.ofNat ht').toNat⟩ : Rect).add (propsIn r pars).off) (.leaf L)
            (readerAt D m) = .ok (.masked (.leaf L) (some m'), r'') := by
          unfold readMask
          rw [M.bind_ok g1]
          dsimp only
          rw [if_pos]
          · rfl
          · rw [hbounds, g3, o1, o2, hw, hht', Int.zero_add, Int.zero_add]
            unfold Rect.eq sizeRect
            simp
        rw [M.bind_ok er]
        exact ⟨_, r'', rfl, g2, mk _ fun _ => ⟨L, e4, .inr (.inr ⟨mk', m', hto, hmo, g4, rfl⟩)⟩, halpha⟩
    · rw [hti] at hfp
      obtain ⟨q, hq1, hq2⟩ := Option.map_eq_some_iff.1 hfp
      have et : layerText c (parasitesIn pars) (.leaf L) r' = .ok (some (.text (.leaf L) td), r') := by
        unfold layerText
        rw [hq1]
        dsimp only
        rw [hq2, hP d td htt]
        rfl
      rw [M.bind_ok et]
      dsimp only
      have hmo : maskOf r.layer.image = none := by
        unfold textOf at hto
        split at hto
        · rename_i he; rw [he]; rfl
        · cases hto
      rw [hmo] at hmask
      have hmask : m = 0 := hmask
      subst hmask
      rw [if_neg (by rw [hz]; simp)]
      exact ⟨_, r', rfl, e3, mk _ fun _ => ⟨L, e4, .inr (.inl ⟨td, hto, rfl⟩)⟩, halpha⟩

theorem layerIn_pos {D : Bytes} {V : Version} {C : Coding} {alpha : Layer → Bool} {p : Nat} {r : Placed} (hC : C.Ok)
    (h0 : HasAt (D.take maxString) 0 V.magic) (h : LayerIn (D.take maxString) V C alpha p r) : p ≠ 0 ∧ p < 2 ^ 32 := by
  have hmax : maxString = 16777216 := rfl
  obtain ⟨nm, ps, hh, m, _, _, h1, _⟩ := h
  have hne := off_ne_nil V (int r.layer.bounds.dx ++ int r.layer.bounds.dy ++ num (2 * C.typ + if alpha r.layer then 1 else 0) ++ nm ++
      propList ps ++ V.off hh) m
  have hlt := hasAt_lt h1 hne
  refine ⟨?_, by omega⟩
  rintro rfl
  have hl : (int r.layer.bounds.dx ++ int r.layer.bounds.dy).length = 8 := by
    rw [List.length_append]; exact congrArg₂ (· + ·) (num_length _) (num_length _)
  have hk := Coding.kind_lt hC (alpha r.layer)
  unfold Coding.kind at hk
  simp only [List.append_assoc] at h1
  rw [← List.append_assoc, ← List.append_assoc] at h1
  exact not_magic h0 hl (by omega) h1

theorem gather_in {D : Bytes} {V : Version} {c : Ctx} {C : Coding} (hC : C.Ok) (hc : (c.compression != 0) = C.rle)
    (hm : c.mode = V.mode) (hb : c.baseType = UInt32.ofNat C.typ) (hpal : c.palette = C.pal) (hfo : c.env.floatOpacity = C.opacity)
    (hP : ∀ d t, C.parses d t → c.env.parseText d = .ok (some t)) {W H : Int} (hW : W ≤ 2 ^ 31) (hH : H ≤ 2 ^ 31)
    (h0 : HasAt (D.take maxString) 0 V.magic) {alpha : Layer → Bool} : ∀ {ptrs : List Nat} {ls : List Placed},
    (∀ r ∈ ls, C.rle = true ∨ (isGroupLayer r.layer = false → bppOf C.typ (alpha r.layer) = 1)) →
    (∀ r ∈ ls, (c.decompress = true ∨ c.compression = 0) ∨ maskOf r.layer.image = none ∧ C.kind (alpha r.layer) ≠ 4) →
    (∀ r ∈ ls, c.baseType = 0 ∨ r.layer.mode = Mode.normal) →
    List.Forall₂ (LayerIn (D.take maxString) V C alpha) ptrs ls → (∀ r ∈ ls, Fits W H r) →
    ∃ ds : List DLayer, gather ((ptrs.map fun p => (UInt32.ofNat p).toUInt64).map (layerAtPtr c D)) = .ok (ds.map fun d => (d, none)) ∧
      List.Forall₂ (LayerGot (C.ImgRead alpha) id) ls (ds.map DLayer.up) ∧ ds.map (·.alpha) = ls.map fun r => alpha r.layer
  | [], _, _, _, _, .nil, _ => ⟨[], rfl, .nil, rfl⟩
  | p :: ptrs, r :: ls, hf, hd, hmo, .cons h1 h2, hs => by
    obtain ⟨ds, e1, e2, e3⟩ := gather_in hC hc hm hb hpal hfo hP hW hH h0 (fun r hr => hf r (List.mem_cons_of_mem _ hr))
      (fun r hr => hd r (List.mem_cons_of_mem _ hr))
      (fun r hr => hmo r (List.mem_cons_of_mem _ hr)) h2 fun r hr => hs r (List.mem_cons_of_mem _ hr)
    obtain ⟨l, r', g1, g2, g3, g4⟩ := readLayer_in hC hc hm hb hpal hfo hP hW hH h0
      (hf r (List.mem_cons_self ..)) (hd r (List.mem_cons_self ..)) (hmo r (List.mem_cons_self ..)) h1 (hs r (List.mem_cons_self ..))
    refine ⟨l :: ds, ?_, .cons g3 e2, by rw [List.map_cons, List.map_cons, g4, e3]⟩
    have : layerAtPtr c D (UInt32.ofNat p).toUInt64 = .ok (l, none) := by
      unfold layerAtPtr
      rw [M.bind_ok (goto_any (D := D) (layerIn_pos hC h0 h1).2 rfl rfl rfl), g1]
      dsimp only
      rw [g2]
    rw [List.map_cons, List.map_cons, this, gather_cons_ok e1]
    rfl

end Limage
