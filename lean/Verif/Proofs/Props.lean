import Verif.Proofs.Reader
import Verif.Proofs.Utf8
import Verif.Model.XcfDecode
import Verif.Spec.XcfProps
/-! Reading well-formed properties. -/
namespace Limage

theorem Consumes.cast {α : Type} {m : M α} {a b : Bytes} {x : α} (h : Consumes m a x) (e : a = b) : Consumes m b x :=
  e ▸ h

theorem Consumes.map {α β : Type} {m : M α} {f : α → M β} {b : Bytes} {x : α} {y : β}
    (h1 : Consumes m b x) (h2 : f x = Pure.pure y) : Consumes (m >>= f) b y := by
  have := h1.bind (f := f) (b := []) (y := y) (by rw [h2]; exact Consumes.pure _)
  rwa [List.append_nil] at this

/-- `Consumes`, for bytes that are followed by something -/
def Eats {α : Type} (m : M α) (bs : Bytes) (v : α) : Prop :=
  ∀ r, Sees r bs → r.pos + bs.length < r.limit → m r = .ok (v, r.adv bs.length)

theorem Consumes.eats {α : Type} {m : M α} {a : Bytes} {x : α} (h : Consumes m a x) : Eats m a x := fun r hr _ => h r hr

theorem Eats.cast {α : Type} {m : M α} {a b : Bytes} {x : α} (h : Eats m a x) (e : a = b) : Eats m b x := e ▸ h

theorem Eats.bind {α β : Type} {m : M α} {f : α → M β} {a b : Bytes} {x : α} {y : β}
    (h1 : Eats m a x) (h2 : Eats (f x) b y) : Eats (m >>= f) (a ++ b) y := by
  intro r hr hl
  rw [List.length_append] at hl
  rw [M.bind_ok (h1 r hr.left (by omega)), h2 _ hr.right (by rw [R.adv_pos, R.adv_limit]; omega), R.adv_adv, List.length_append]

theorem Eats.map {α β : Type} {m : M α} {f : α → M β} {b : Bytes} {x : α} {y : β}
    (h1 : Eats m b x) (h2 : f x = Pure.pure y) : Eats (m >>= f) b y := by
  have := h1.bind (f := f) (b := []) (y := y) (by rw [h2]; exact (Consumes.pure _).eats)
  rwa [List.append_nil] at this

theorem readInto_eats (bs : Bytes) (n : Nat) (h : n = bs.length) : Eats (readInto (List.replicate n 0)) bs bs := by
  intro r hr hl
  exact readInto_consumes _ bs (by rw [List.length_replicate, h]) r hr (by omega)

theorem u32_be (n : Nat) : Consumes readUint32 (be 4 n) (UInt32.ofNat n) := by
  have h := readUint32_consumes (UInt32.ofNat n)
  rw [UInt32.toNat_ofNat'] at h
  refine h.cast ?_
  have h1 := be_fromBE (be 4 n)
  rw [be_length, fromBE_be] at h1
  exact h1

theorem skip_consumes (n : UInt32) (bs : Bytes) (h : bs.length = n.toNat) : Consumes (skip n) bs () := by
  intro r _
  unfold skip
  rw [h]; rfl

theorem u32_toNat {n : Nat} (h : n < 2 ^ 32) : (UInt32.ofNat n).toNat = n := UInt32.toNat_ofNat_of_lt' h

theorem skipString_consumes (s : Bytes) (h : s.length + 1 < 2 ^ 32) : Consumes skipString (Spec.str s) () := by
  unfold skipString Spec.str
  by_cases hs : s = []
  · rw [if_pos hs]
    exact ((u32_be 0).bind (skip_consumes _ [] rfl)).cast (List.append_nil _)
  · rw [if_neg hs, List.append_assoc]
    refine (u32_be _).bind (skip_consumes _ _ ?_)
    rw [u32_toNat h, List.length_append]; rfl

theorem str_length (s : Bytes) : (Spec.str s).length = if s = [] then 4 else s.length + 5 := by
  unfold Spec.str
  split <;> simp [be_length] <;> omega

theorem forN_consumes {m : M Bool} (bs : List Bytes) (h : ∀ b ∈ bs, Consumes m b true) :
    Consumes (forN bs.length m) bs.flatten () := by
  induction bs with
  | nil => exact Consumes.pure _
  | cons b bs ih =>
    exact (h b (List.mem_cons_self ..)).bind (ih fun b hb => h b (List.mem_cons_of_mem _ hb))

theorem readString_consumes (s : Bytes) (h : s.length + 1 ≤ maxString) (hu : Spec.Utf8 s) :
    Consumes readString (Spec.str s) s := by
  have hm : maxString = 16777216 := rfl
  unfold readString Spec.str
  by_cases hs : s = []
  · rw [if_pos hs]
    refine (u32_be 0).map ?_
    rw [hs]; rfl
  · rw [if_neg hs, List.append_assoc]
    refine (u32_be _).bind ?_
    have ht : (UInt32.ofNat (s.length + 1)).toNat = s.length + 1 := u32_toNat (by omega)
    rw [if_neg (fun hc => by rw [hc] at ht; simp at ht), if_neg (by rw [ht]; omega), ht]
    have h1 := readFull_consumes (s ++ [0])
    rw [List.length_append, List.length_singleton] at h1
    intro r hr
    rw [M.bind_ok (h1 r hr)]
    have he : (r.adv (s ++ [0]).length).err = none := hr.1
    have hg : getErr (r.adv (s ++ [0]).length) = .ok (none, r.adv (s ++ [0]).length) := by unfold getErr; rw [he]
    rw [M.bind_ok hg]
    rw [List.getLast?_concat, List.dropLast_concat, (utf8Valid_iff s).2 hu]
    rfl

theorem readParasites_eats (ps : List (Bytes × Nat × Bytes)) :
    ∀ (f : Nat) (acc : List Parasite), ps.length < f →
    (∀ p ∈ ps, Spec.Utf8 p.1 ∧ p.1 ≠ []) →
    (ps.flatMap fun p => Spec.parasite p.1 p.2.1 p.2.2).length ≤ maxString →
    Eats (readParasites f (UInt32.ofNat (ps.flatMap fun p => Spec.parasite p.1 p.2.1 p.2.2).length) acc)
      (ps.flatMap fun p => Spec.parasite p.1 p.2.1 p.2.2)
      (acc ++ ps.map fun p => ⟨p.1, UInt32.ofNat p.2.1, p.2.2⟩) := by
  have hm : maxString = 16777216 := rfl
  induction ps with
  | nil =>
    intro f acc hf _ _
    obtain ⟨f, rfl⟩ : ∃ g, f = g + 1 := ⟨f - 1, by omega⟩
    unfold readParasites
    rw [List.map_nil, List.append_nil]
    exact (Consumes.pure _).eats
  | cons p ps ih =>
    intro f acc hf hp hl
    obtain ⟨f, rfl⟩ : ∃ g, f = g + 1 := ⟨f - 1, by omega⟩
    obtain ⟨name, flags, data⟩ := p
    obtain ⟨hu, hne⟩ := hp (name, flags, data) (List.mem_cons_self ..)
    dsimp only at hu hne
    rw [List.flatMap_cons, List.length_append] at hl
    rw [List.length_cons] at hf
    have hpl : (Spec.parasite name flags data).length = 4 + name.length + 1 + 4 + 4 + data.length := by
      unfold Spec.parasite
      simp only [List.length_append, be_length, str_length, if_neg hne]
      omega
    have ih' := ih f (acc ++ [⟨name, UInt32.ofNat flags, data⟩]) (by omega)
      (fun p h => hp p (List.mem_cons_of_mem _ h)) (by omega)
    rw [List.flatMap_cons, List.length_append]
    generalize hrest : (ps.flatMap fun p => Spec.parasite p.1 p.2.1 p.2.2) = rest at ih' hl ⊢
    dsimp only at hl ⊢
    have ht : (UInt32.ofNat ((Spec.parasite name flags data).length + rest.length)).toNat =
      (Spec.parasite name flags data).length + rest.length := u32_toNat (by omega)
    unfold readParasites
    rw [if_neg (fun hc => by rw [hc, hpl] at ht; simp at ht; omega)]
    have hb : Spec.parasite name flags data ++ rest =
        Spec.str name ++ (be 4 flags ++ (be 4 data.length ++ (data ++ rest))) := by
      simp only [Spec.parasite, List.append_assoc]
    rw [hb]
    refine (readString_consumes name (by omega) hu).eats.bind ((u32_be _).eats.bind ((u32_be _).eats.bind ?_))
    dsimp only
    have hread : (4 + UInt32.ofNat name.length + 1 + 4 + 4 + UInt32.ofNat data.length) =
        UInt32.ofNat (Spec.parasite name flags data).length := by
      rw [hpl]
      simp only [UInt32.ofNat_add]
      rfl
    rw [hread]
    have hnl : ¬ (UInt32.ofNat (Spec.parasite name flags data).length >
        UInt32.ofNat ((Spec.parasite name flags data).length + rest.length)) := by
      intro hc
      have hc' := UInt32.lt_iff_toNat_lt.1 hc
      rw [ht, u32_toNat (by omega)] at hc'
      omega
    rw [if_neg hnl]
    have hsub : UInt32.ofNat ((Spec.parasite name flags data).length + rest.length) -
        UInt32.ofNat (Spec.parasite name flags data).length = UInt32.ofNat rest.length := by
      rw [UInt32.ofNat_add, UInt32.add_comm, UInt32.add_sub_cancel]
    rw [hsub, List.map_cons, u32_toNat (by omega)]
    rw [show acc ++ (⟨name, UInt32.ofNat flags, data⟩ :: ps.map fun p => (⟨p.1, UInt32.ofNat p.2.1, p.2.2⟩ : Parasite)) =
      (acc ++ [⟨name, UInt32.ofNat flags, data⟩]) ++ ps.map fun p => (⟨p.1, UInt32.ofNat p.2.1, p.2.2⟩ : Parasite) by
        rw [List.append_assoc]; rfl]
    exact (readInto_eats data _ rfl).bind ih'

end Limage
