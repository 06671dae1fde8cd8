import Verif.Proofs.Props
import Verif.Props.Decode
import Mathlib.Tactic.Tauto
/-!
# C49: properties are skipped by their stated length
-/
namespace Limage

/-- What the decoder handles: colour maps in indexed images only, no guides, sample points or vectors,
and parasites with names. -/
def Handled (indexed : Bool) (t : UInt32) (body : Bytes) : Prop :=
  body.length ≤ maxString ∧ t ∉ [18, 25, 39] ∧ (t = 1 → indexed = true) ∧
  (t = 21 → ∃ ps : List (Bytes × Nat × Bytes), (∀ p ∈ ps, Spec.Utf8 p.1 ∧ p.1 ≠ []) ∧
    body = ps.flatMap fun p => Spec.parasite p.1 p.2.1 p.2.2)

/-- position after the property, none if decoding does not go on -/
def propEnd (b t : UInt32) (body : Bytes) : Option Nat :=
  match imageProp b t (UInt32.ofNat body.length) ⟨[], 0⟩ (newReader (body ++ List.replicate 100 0)) with
  | .ok (.ok _, r) => if r.err = none then some r.pos else none
  | _ => none

def oneGuide : Bytes := [0, 0, 0, 7, 1]
def oneSample : Bytes := [0, 0, 0, 7, 0, 0, 0, 9]
def oneColor : Bytes := be 4 1 ++ [1, 2, 3]
def namelessParasite : Bytes := Spec.parasite [] 0 [5]
def oneStroke : Bytes := be 4 1 ++ be 4 0 ++ be 4 2 ++ be 4 1 ++ List.replicate 12 0
def onePath : Bytes :=
  Spec.str [97] ++ be 4 0 ++ be 4 0 ++ be 4 0 ++ be 4 0 ++ be 4 1 ++ [] ++ [oneStroke].flatten
def oneVector : Bytes := be 4 1 ++ be 4 0 ++ be 4 1 ++ [onePath].flatten

/-- C49 is false: after a guide (3 bytes too far), a sample point (24 bytes too far), a colour map in an
image without indexed colours (4 bytes too far here: the map is skipped and then read), a path with one
point (3 bytes too few), decoding goes on at the wrong place; a parasite without a name is an error. -/
theorem C49_refuted :
    Spec.Payload 18 oneGuide ∧ propEnd 0 18 oneGuide = some (oneGuide.length + 3) ∧
    Spec.Payload 39 oneSample ∧ propEnd 0 39 oneSample = some (oneSample.length + 24) ∧
    Spec.Payload 1 oneColor ∧ propEnd 0 1 oneColor = some (oneColor.length + 4) ∧
    Spec.Payload 25 oneVector ∧ propEnd 0 25 oneVector = some (oneVector.length - 3) ∧
    Spec.Payload 21 namelessParasite ∧ propEnd 0 21 namelessParasite = none := by
  refine ⟨?_, by decide +kernel, ?_, by decide +kernel, ?_, by decide +kernel, ?_, by decide +kernel, ?_, by decide +kernel⟩
  · exact Spec.Payload.guides [oneGuide] (by decide)
  · exact Spec.Payload.samples [oneSample] (by decide)
  · exact Spec.Payload.colors [(1, 2, 3)]
  · have h := Spec.Payload.vectors (be 4 0) [onePath] rfl (by
      intro v hv
      rw [List.mem_singleton.1 hv]
      have h := Spec.Vector.mk [97] (be 4 0) (be 4 0) (be 4 0) [] [oneStroke] rfl rfl rfl (by
        intro s hs
        rw [List.mem_singleton.1 hs]
        exact Spec.Stroke.mk (be 4 0) (List.replicate 12 0) 2 1 rfl (by decide) (by decide) rfl)
      exact h)
    exact h
  · exact Spec.Payload.parasites [([], 0, [5])] (by intro p hp; rw [List.mem_singleton.1 hp]; exact ⟨[], rfl⟩)


theorem readPalette_consumes (cs : List (UInt8 × UInt8 × UInt8)) :
    Consumes (readPalette cs.length) (cs.flatMap fun c => [c.1, c.2.1, c.2.2]) (cs.map fun c => .lrgb c.1 c.2.1 c.2.2) := by
  induction cs with
  | nil => exact Consumes.pure _
  | cons c cs ih =>
    rw [List.flatMap_cons]
    exact (readUint8_consumes c.1).bind ((readUint8_consumes c.2.1).bind ((readUint8_consumes c.2.2).bind
      (ih.map rfl)))

theorem skip12_consumes (pts : Bytes) (n : Nat) (h : pts.length = 12 * n) (hl : pts.length ≤ maxString) :
    Consumes (skip (12 * UInt32.ofNat n)) pts () := by
  have hm : maxString = 16777216 := rfl
  apply skip_consumes
  have : (12 : UInt32) * UInt32.ofNat n = UInt32.ofNat (12 * n) := by rw [UInt32.ofNat_mul]; rfl
  rw [this, u32_toNat (by omega), h]

/-- the body of the loop of `SkipPaths` -/
def pathBody : M Bool := do
  skipString
  skipBoolProperty
  skipByte
  skipBoolProperty
  let np ← readUint32
  let v ← readUint32
  if v = 1 then
    skip (12 * np)
    return true
  else if v = 2 then
    skipUint32
    skip (12 * np)
    return true
  else if v = 3 then
    skipUint32
    skipUint32
    skip (12 * np)
    return true
  else
    setError .unknownPathsVersion
    return false

theorem pathBody_consumes (e : Bytes) (h : Spec.PathEntry e) (hl : e.length ≤ maxString) : Consumes pathBody e true := by
  have hm : maxString = 16777216 := rfl
  unfold pathBody
  cases h with
  | v1 name a b c pts n ha hb hc hp =>
    simp only [List.length_append, str_length, be_length] at hl
    simp only [List.append_assoc]
    refine (skipString_consumes name (by split at hl <;> simp_all <;> omega)).bind ((skip_consumes 4 a ha).bind
      ((skip_consumes 1 b hb).bind ((skip_consumes 4 c hc).bind ((u32_be n).bind ((u32_be 1).bind ?_)))))
    rw [if_pos (by decide)]
    exact (skip12_consumes pts n hp (by omega)).map rfl
  | v2 name a b c d pts n ha hb hc hd hp =>
    simp only [List.length_append, str_length, be_length] at hl
    simp only [List.append_assoc]
    refine (skipString_consumes name (by split at hl <;> simp_all <;> omega)).bind ((skip_consumes 4 a ha).bind
      ((skip_consumes 1 b hb).bind ((skip_consumes 4 c hc).bind ((u32_be n).bind ((u32_be 2).bind ?_)))))
    rw [if_neg (by decide), if_pos (by decide)]
    exact (skip_consumes 4 d hd).bind ((skip12_consumes pts n hp (by omega)).map rfl)
  | v3 name a b c d e pts n ha hb hc hd he hp =>
    simp only [List.length_append, str_length, be_length] at hl
    simp only [List.append_assoc]
    refine (skipString_consumes name (by split at hl <;> simp_all <;> omega)).bind ((skip_consumes 4 a ha).bind
      ((skip_consumes 1 b hb).bind ((skip_consumes 4 c hc).bind ((u32_be n).bind ((u32_be 3).bind ?_)))))
    rw [if_neg (by decide), if_neg (by decide), if_pos (by decide)]
    exact (skip_consumes 4 d hd).bind ((skip_consumes 4 e he).bind ((skip12_consumes pts n hp (by omega)).map rfl))

theorem str_name_lt (s : Bytes) (h : (Spec.str s).length ≤ maxString) : s.length + 1 < 2 ^ 32 := by
  have hm : maxString = 16777216 := rfl
  rw [str_length] at h
  split at h
  · rename_i hs; subst hs; decide
  · omega

theorem length_le_flatten {bs : List Bytes} {b : Bytes} (h : b ∈ bs) : b.length ≤ bs.flatten.length := by
  induction bs with
  | nil => cases h
  | cons c bs ih =>
    rw [List.flatten_cons, List.length_append]
    rcases List.mem_cons.1 h with rfl | h
    · omega
    · have := ih h; omega

theorem count_le_flatten {bs : List Bytes} (h : ∀ b ∈ bs, b ≠ []) : bs.length ≤ bs.flatten.length := by
  induction bs with
  | nil => exact Nat.le_refl _
  | cons c bs ih =>
    rw [List.flatten_cons, List.length_append, List.length_cons]
    have h1 := ih fun b hb => h b (List.mem_cons_of_mem _ hb)
    have h2 := List.length_pos_iff.2 (h c (List.mem_cons_self ..))
    omega

theorem pathEntry_ne (e : Bytes) (h : Spec.PathEntry e) : e ≠ [] := by
  intro hc
  have := congrArg List.length hc
  cases h <;> simp only [List.length_append, be_length, List.length_nil] at this <;> omega

theorem skipPaths_consumes (active : Bytes) (es : List Bytes) (ha : active.length = 4) (he : ∀ e ∈ es, Spec.PathEntry e)
    (hl : es.flatten.length ≤ maxString) : Consumes skipPaths (active ++ be 4 es.length ++ es.flatten) () := by
  have hm : maxString = 16777216 := rfl
  unfold skipPaths
  rw [List.append_assoc]
  refine (skip_consumes 4 active ha).bind ((u32_be _).bind ?_)
  rw [u32_toNat (by have := count_le_flatten fun e h => pathEntry_ne e (he e h); omega)]
  exact forN_consumes (m := pathBody) es fun e h =>
    pathBody_consumes e (he e h) (by have := length_le_flatten h; omega)

/-- What a property changes: type 1 is the colour map, type 17 the compression; all others change nothing. -/
structure PropEffect (t : UInt32) (body : Bytes) (s s' : IProps) : Prop where
  colors : t = 1 → ∃ cs : List (UInt8 × UInt8 × UInt8), body = be 4 cs.length ++ (cs.flatMap fun c => [c.1, c.2.1, c.2.2]) ∧
    s'.palette = cs.map fun c => .lrgb c.1 c.2.1 c.2.2
  palette : t ≠ 1 → s'.palette = s.palette
  compressed : t = 17 → body = [s'.compression]
  compression : t ≠ 17 → s'.compression = s.compression

theorem PropEffect.same {t : UInt32} {body : Bytes} {s : IProps} (h1 : t ≠ 1) (h17 : t ≠ 17) : PropEffect t body s s where
  colors h := absurd h h1
  palette _ := rfl
  compressed h := absurd h h17
  compression _ := rfl

/-- A well-formed property of a type the decoder handles is read to its end, no more and no less, and has its effect. -/
theorem C49_property_partial (b t : UInt32) (body : Bytes) (s : IProps) (h : Spec.Payload t body)
    (hh : Handled (b == 2) t body) :
    ∃ s', (∀ r, Sees r body → r.pos + body.length < r.limit →
      imageProp b t (UInt32.ofNat body.length) s r = .ok (.ok s', { r with pos := r.pos + body.length })) ∧ PropEffect t body s s' := by
  have hm : maxString = 16777216 := rfl
  suffices h : ∃ s', Eats (imageProp b t (UInt32.ofNat body.length) s) body (.ok s') ∧ PropEffect t body s s' from h
  obtain ⟨hl, ht, h1, h21⟩ := hh
  unfold imageProp
  cases h with
  | colors cs =>
    have hb : b = 2 := by simpa using h1 rfl
    have hcl : (cs.flatMap fun c => [c.1, c.2.1, c.2.2]).length = 3 * cs.length := by
      clear hl h21
      induction cs with
      | nil => rfl
      | cons c cs ih => rw [List.flatMap_cons, List.length_append, ih, List.length_cons]; simp; omega
    rw [List.length_append, be_length, hcl] at hl
    refine ⟨{ s with palette := cs.map fun c => .lrgb c.1 c.2.1 c.2.2 }, Consumes.eats ?_,
      fun _ => ⟨cs, rfl, rfl⟩, fun h => absurd rfl h, fun h => absurd h (by decide), fun _ => rfl⟩
    rw [if_neg (by decide), if_neg (by decide), if_neg (by decide), if_neg (by decide), if_pos rfl,
      if_neg (fun hc => hc hb)]
    refine Consumes.bind (a := []) (skip_consumes 0 [] rfl) ((u32_be _).bind ?_)
    rw [u32_toNat (by omega)]
    exact (readPalette_consumes cs).map rfl
  | opacity n hn =>
    refine ⟨s, Consumes.eats ?_, .same (by decide) (by decide)⟩
    rw [if_neg (by decide), if_pos rfl]
    refine (u32_be _).map ?_
    rw [if_neg]
    intro hc
    have := UInt32.lt_iff_toNat_lt.1 hc
    rw [u32_toNat (by omega)] at this
    have e : (255 : UInt32).toNat = 255 := rfl
    omega
  | flag t n ht' hn =>
    have : t = 9 ∨ t = 28 ∨ t = 8 := by simp at ht'; tauto
    refine ⟨s, Consumes.eats ?_, .same (by rcases this with rfl | rfl | rfl <;> decide) (by rcases this with rfl | rfl | rfl <;> decide)⟩
    rw [if_pos this]
    refine Consumes.map (x := decide (n = 1)) ?_ rfl
    unfold readBoolProperty
    refine (u32_be _).map ?_
    have : n = 0 ∨ n = 1 := by omega
    rcases this with rfl | rfl <;> rfl
  | compression c hc =>
    refine ⟨{ s with compression := c }, Consumes.eats ?_,
      fun h => absurd h (by decide), fun _ => rfl, fun _ => rfl, fun h => absurd rfl h⟩
    rw [if_neg (by decide), if_neg (by decide), if_neg (by decide), if_neg (by decide), if_neg (by decide), if_pos rfl]
    refine (readUint8_consumes c).map ?_
    rw [if_neg]
    intro hc'
    have h1 := UInt8.lt_iff_toNat_lt.1 hc'
    have h2 := UInt8.le_iff_toNat_le.1 hc
    omega
  | guides gs hg => simp at ht
  | resolution x y hx hy =>
    refine ⟨s, Consumes.eats ?_, .same (by decide) (by decide)⟩
    rw [if_neg (by decide), if_neg (by decide), if_neg (by decide), if_neg (by decide), if_neg (by decide),
      if_neg (by decide), if_neg (by decide), if_neg (by decide), if_pos rfl]
    exact (skip_consumes 4 x hx).bind ((skip_consumes 4 y hy).map rfl)
  | tattoo n =>
    refine ⟨s, Consumes.eats ?_, .same (by decide) (by decide)⟩
    rw [if_neg (by decide), if_neg (by decide), if_neg (by decide), if_pos rfl]
    exact (u32_be _).map rfl
  | parasites ps hps =>
    obtain ⟨qs, hq, hbq⟩ := h21 rfl
    rw [hbq] at hl ⊢
    refine ⟨s, ?_, .same (by decide) (by decide)⟩
    rw [if_neg (by decide), if_neg (by decide), if_pos rfl]
    refine Eats.map (x := qs.map fun p => ⟨p.1, UInt32.ofNat p.2.1, p.2.2⟩) ?_ rfl
    intro r hr hlt
    unfold readParasitesAll
    have hql : qs.length ≤ (qs.flatMap fun p => Spec.parasite p.1 p.2.1 p.2.2).length := by
      rw [List.flatMap_def, ← List.length_map (f := fun p : Bytes × Nat × Bytes => Spec.parasite p.1 p.2.1 p.2.2)]
      apply count_le_flatten
      intro b hb hc
      obtain ⟨p, _, rfl⟩ := List.mem_map.1 hb
      have := congrArg List.length hc
      unfold Spec.parasite at this
      simp only [List.length_append, be_length, List.length_nil] at this
      omega
    have := readParasites_eats qs
      ((UInt32.ofNat (qs.flatMap fun p => Spec.parasite p.1 p.2.1 p.2.2).length).toNat + r.data.length + 2) []
      (by rw [u32_toNat (by omega)]; omega) hq hl r hr hlt
    exact this
  | unit n hn =>
    refine ⟨s, Consumes.eats ?_, .same (by decide) (by decide)⟩
    rw [if_neg (by decide), if_neg (by decide), if_neg (by decide), if_neg (by decide), if_neg (by decide),
      if_neg (by decide), if_neg (by decide), if_neg (by decide), if_neg (by decide), if_neg (by decide), if_pos rfl]
    refine (u32_be _).map ?_
    rw [if_neg]
    intro hc
    have := UInt32.lt_iff_toNat_lt.1 hc
    rw [u32_toNat (by omega)] at this
    have e : (4 : UInt32).toNat = 4 := rfl
    omega
  | paths active es ha he =>
    refine ⟨s, Consumes.eats ?_, .same (by decide) (by decide)⟩
    rw [if_neg (by decide), if_neg (by decide), if_neg (by decide), if_neg (by decide), if_neg (by decide),
      if_neg (by decide), if_neg (by decide), if_pos rfl]
    exact (skipPaths_consumes active es ha he (by rw [List.length_append] at hl; omega)).map rfl
  | userUnit f d s1 s2 s3 s4 s5 hf hd =>
    refine ⟨s, Consumes.eats ?_, .same (by decide) (by decide)⟩
    simp only [List.length_append] at hl
    rw [if_neg (by decide), if_neg (by decide), if_neg (by decide), if_neg (by decide), if_neg (by decide),
      if_neg (by decide), if_neg (by decide), if_neg (by decide), if_neg (by decide), if_neg (by decide),
      if_neg (by decide), if_pos rfl]
    simp only [List.append_assoc]
    exact (skip_consumes 4 f hf).bind ((skip_consumes 4 d hd).bind
      ((skipString_consumes s1 (str_name_lt _ (by omega))).bind
      ((skipString_consumes s2 (str_name_lt _ (by omega))).bind
      ((skipString_consumes s3 (str_name_lt _ (by omega))).bind
      ((skipString_consumes s4 (str_name_lt _ (by omega))).bind
      ((skipString_consumes s5 (str_name_lt _ (by omega))).map rfl))))))
  | vectors active vs ha hv => simp at ht
  | samples ss hs => simp at ht
  | other t b ht' h0 =>
    simp only [Spec.imageProps, List.mem_cons, List.not_mem_nil, or_false, not_or] at ht'
    obtain ⟨a1, a2, a3, a4, a5, a6, a7, a8, a9, a10, a11, a12, a13, a14, a15⟩ := ht'
    refine ⟨s, Consumes.eats ?_, .same (by tauto) (by tauto)⟩
    rw [if_neg (by tauto), if_neg (by tauto), if_neg (by tauto), if_neg (by tauto), if_neg (by tauto),
      if_neg (by tauto), if_neg (by tauto), if_neg (by tauto), if_neg (by tauto), if_neg (by tauto),
      if_neg (by tauto), if_neg (by tauto), if_neg (by tauto)]
    refine (skip_consumes _ _ ?_).map rfl
    rw [u32_toNat (by omega)]

example : Spec.Payload 21 (Spec.parasite [97] 1 [5, 6]) ∧ Handled false 21 (Spec.parasite [97] 1 [5, 6]) ∧
    Spec.Payload 40 [1, 2, 3] ∧ Handled false 40 [1, 2, 3] := by
  have hu : Spec.Utf8 [97] := ⟨['a'], rfl⟩
  refine ⟨?_, ⟨by decide, by decide, by decide, fun _ => ⟨[([97], 1, [5, 6])], ?_, rfl⟩⟩, ?_,
    ⟨by decide, by decide, by decide, fun h => absurd h (by decide)⟩⟩
  · exact Spec.Payload.parasites [([97], 1, [5, 6])] (by intro p hp; rw [List.mem_singleton.1 hp]; exact hu)
  · intro p hp
    rw [List.mem_singleton.1 hp]
    exact ⟨hu, by simp⟩
  · exact Spec.Payload.other 40 _ (by decide) (by decide)

/-- A whole list of such properties is read to its end: what follows it (the layer pointers) is found. -/
theorem C49_list_partial (b : UInt32) (L : Bytes) (h : Spec.PropList (Handled (b == 2)) L) (r : R) (hr : Sees r L) :
    ∃ s', readImageProperties b r = .ok (.ok s', { r with pos := r.pos + L.length }) := by
  suffices h : ∀ s, ∃ s', ∀ f, L.length < f → Consumes (imageProps b f s) L (.ok s') by
    obtain ⟨s', h⟩ := h ⟨[], 0⟩
    refine ⟨s', h _ ?_ r hr⟩
    obtain ⟨_, ⟨t, ht⟩, _⟩ := hr
    have := congrArg List.length ht
    rw [List.length_drop, List.length_append] at this
    omega
  clear hr
  induction h with
  | done =>
    intro s
    refine ⟨s, ?_⟩
    intro f hf
    obtain ⟨f, rfl⟩ : ∃ g, f = g + 1 := ⟨f - 1, by omega⟩
    unfold imageProps
    refine (u32_be 0).bind ((u32_be 0).map ?_)
    rfl
  | more t body rest ht hl hp hh hrl ih =>
    intro s
    obtain ⟨s1, h1, _⟩ := C49_property_partial b t body s hp hh
    obtain ⟨s', ih⟩ := ih s1
    refine ⟨s', ?_⟩
    intro f hf
    obtain ⟨f, rfl⟩ : ∃ g, f = g + 1 := ⟨f - 1, by omega⟩
    simp only [List.length_append, be_length] at hf
    unfold imageProps
    rw [List.append_assoc, List.append_assoc]
    refine (readUint32_consumes t).bind ((u32_be _).bind ?_)
    rw [if_neg ht]
    intro r hr
    have h2 := ih f (by omega)
    have hrest : rest ≠ [] := by
      intro hc
      have := congrArg List.length hc
      cases hrl <;> simp only [List.length_append, be_length, List.length_nil] at this <;> omega
    have h3 := hr.right.pos_le hrest
    have hlt : r.pos + body.length < r.limit := by
      have := hr.2.2
      rw [List.length_append] at this
      have := List.length_pos_iff.2 hrest
      omega
    have h4 := h1 r hr.left hlt
    rw [M.bind_ok h4]
    have h5 := h2 _ hr.right
    rw [List.length_append, ← R.adv_adv]
    exact h5

example : Spec.PropList (Handled false) (be 4 6 ++ be 4 4 ++ be 4 128 ++ (be 4 40 ++ be 4 3 ++ [1, 2, 3] ++ (be 4 0 ++ be 4 0))) := by
  refine Spec.PropList.more 6 (be 4 128) _ (by decide) (by decide) (Spec.Payload.opacity 128 (by decide))
    ⟨by decide, by decide, by decide, fun h => absurd h (by decide)⟩ ?_
  exact Spec.PropList.more 40 [1, 2, 3] _ (by decide) (by decide) (Spec.Payload.other 40 _ (by decide) (by decide))
    ⟨by decide, by decide, by decide, fun h => absurd h (by decide)⟩ Spec.PropList.done

/-- Properties of unknown types are skipped by their length whatever they hold, in images and layers. -/
theorem C49_unknown (b t l : UInt32) (s : IProps) (r : R) (h : t ∉ Spec.imageProps) :
    imageProp b t l s r = .ok (.ok s, { r with pos := r.pos + l.toNat }) := by
  unfold imageProp
  simp only [Spec.imageProps, List.mem_cons, List.not_mem_nil, or_false, not_or] at h
  obtain ⟨a1, a2, a3, a4, a5, a6, a7, a8, a9, a10, a11, a12, a13, a14, a15⟩ := h
  rw [if_neg (by tauto), if_neg (by tauto), if_neg (by tauto), if_neg (by tauto), if_neg (by tauto),
    if_neg (by tauto), if_neg (by tauto), if_neg (by tauto), if_neg (by tauto), if_neg (by tauto),
    if_neg (by tauto), if_neg (by tauto), if_neg (by tauto)]
  rfl

example : (40 : UInt32) ∉ Spec.imageProps := by decide

end Limage
