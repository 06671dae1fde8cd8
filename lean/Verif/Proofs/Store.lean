import Verif.Proofs.Cover
/-!
# Contents of the file after `WriteAt` calls
-/
namespace Limage
open Spec

theorem putAt_length (D : Bytes) (off : Nat) (b : Bytes) : (putAt D off b).length = max D.length (off + b.length) := by
  simp [putAt]
  omega

theorem putAt_get_in (D : Bytes) (off : Nat) (b : Bytes) (x : Nat) (h1 : off ≤ x) (h2 : x < off + b.length) :
    (putAt D off b)[x]? = b[x - off]? := by
  have hl : (D.take off ++ List.replicate (off - D.length) 0).length = off := by simp; omega
  unfold putAt
  rw [List.getElem?_append_left (by rw [List.length_append, hl]; omega), List.getElem?_append_right (by omega), hl]

theorem putAt_get_out (D : Bytes) (off : Nat) (b : Bytes) (x : Nat) (h : ¬ (off ≤ x ∧ x < off + b.length)) (hx : x < D.length) :
    (putAt D off b)[x]? = D[x]? := by
  have hl : (D.take off ++ List.replicate (off - D.length) 0).length = off := by simp; omega
  unfold putAt
  by_cases h1 : off ≤ x
  · rw [List.getElem?_append_right (by rw [List.length_append, hl]; omega), List.length_append, hl, List.getElem?_drop]
    congr 1
    omega
  · rw [List.getElem?_append_left (by rw [List.length_append, hl]; omega), List.getElem?_append_left (by omega),
      List.getElem?_append_left (by simp; omega), List.getElem?_take, if_pos (by omega)]

theorem store_cons (D : Bytes) (c : WCall) (l : List WCall) : store D (c :: l) = store (putAt D c.off c.data) l := rfl

theorem store_length_ge (l : List WCall) : ∀ D, D.length ≤ (store D l).length := by
  induction l with
  | nil => exact fun _ => Nat.le_refl _
  | cons c l ih =>
    intro D
    have := ih (putAt D c.off c.data)
    rw [putAt_length] at this
    rw [store_cons]
    omega

/-- a byte no call writes -/
theorem store_get_out (l : List WCall) (x : Nat) : ∀ D : Bytes, writesTo l x = 0 → x < D.length → (store D l)[x]? = D[x]? := by
  induction l with
  | nil => exact fun _ _ _ => rfl
  | cons c l ih =>
    intro D h hx
    rw [show c :: l = [c] ++ l from rfl, writesTo_append, writesTo_one] at h
    have h1 : ind c.off (c.off + c.data.length) x = 0 := by omega
    have h2 : ¬ (c.off ≤ x ∧ x < c.off + c.data.length) := by
      intro h3
      rw [ind, if_pos h3] at h1
      cases h1
    rw [store_cons, ih _ (by omega) (by rw [putAt_length]; omega), putAt_get_out _ _ _ _ h2 hx]

/-- a byte written by one call -/
theorem store_get_in (l : List WCall) (x : Nat) (c : WCall) (hc : c ∈ l) (h1 : c.off ≤ x) (h2 : x < c.off + c.data.length)
    (h : writesTo l x = 1) : ∀ D : Bytes, (store D l)[x]? = c.data[x - c.off]? := by
  induction l with
  | nil => cases hc
  | cons d l ih =>
    intro D
    rw [show d :: l = [d] ++ l from rfl, writesTo_append, writesTo_one] at h
    by_cases hd : d.off ≤ x ∧ x < d.off + d.data.length
    · rw [ind, if_pos hd] at h
      rcases List.mem_cons.1 hc with rfl | hc
      · rw [store_cons, store_get_out _ _ _ (by omega) (by rw [putAt_length]; omega), putAt_get_in _ _ _ _ hd.1 hd.2]
      · exfalso
        have : 0 < writesTo l x := by
          unfold writesTo
          rw [List.countP_pos_iff]
          exact ⟨c, hc, by simp [Covers, h1, h2]⟩
        omega
    · rw [ind, if_neg hd] at h
      rcases List.mem_cons.1 hc with rfl | hc
      · exact absurd ⟨h1, h2⟩ hd
      · rw [store_cons]
        exact ih hc (by omega) _

theorem exists_writer {l : List WCall} {x : Nat} (h : writesTo l x = 1) :
    ∃ c ∈ l, c.off ≤ x ∧ x < c.off + c.data.length := by
  have : 0 < writesTo l x := by omega
  unfold writesTo at this
  rw [List.countP_pos_iff] at this
  obtain ⟨c, hc, h⟩ := this
  exact ⟨c, hc, by simpa [Covers] using h⟩

theorem writesTo_perm {l m : List WCall} (h : l.Perm m) (x : Nat) : writesTo l x = writesTo m x := h.countP_eq _

theorem Spec.ExactlyOnce.length_ge {l : List WCall} {n : Nat} (h : ExactlyOnce l n) (D : Bytes) : n ≤ (store D l).length := by
  apply Classical.byContradiction
  intro hn
  have hx := h (store D l).length
  rw [if_pos (by omega)] at hx
  obtain ⟨c, hc, h1, h2⟩ := exists_writer hx
  have := store_get_in l _ c hc h1 h2 hx D
  rw [List.getElem?_eq_none (Nat.le_refl _), List.getElem?_eq_getElem (by omega)] at this
  cases this

theorem store_length_le (n : Nat) (l : List WCall) : ∀ D : Bytes, D.length ≤ n → (∀ c ∈ l, c.off + c.data.length ≤ n) →
    (store D l).length ≤ n := by
  induction l with
  | nil => exact fun D h _ => h
  | cons c l ih =>
    intro D h hl
    rw [store_cons]
    refine ih _ ?_ fun d hd => hl d (by simp [hd])
    rw [putAt_length]
    have := hl c (by simp)
    omega

theorem Spec.ExactlyOnce.ends {l : List WCall} {n : Nat} (h : ExactlyOnce l n) (c : WCall) (hc : c ∈ l) (hd : c.data ≠ []) :
    c.off + c.data.length ≤ n := by
  have hp : 0 < c.data.length := List.length_pos_iff.2 hd
  apply Classical.byContradiction
  intro hn
  have hx := h (c.off + c.data.length - 1)
  rw [if_neg (by omega)] at hx
  have : 0 < writesTo l (c.off + c.data.length - 1) := by
    unfold writesTo
    rw [List.countP_pos_iff]
    exact ⟨c, hc, by simp [Covers]; omega⟩
  omega

/-- the first bytes do not depend on the order of the calls or the old contents -/
theorem Spec.ExactlyOnce.take {l m : List WCall} {n : Nat} (h : ExactlyOnce l n) (hp : m.Perm l) (D E : Bytes) :
    (store D m).take n = (store E l).take n := by
  apply List.ext_getElem?
  intro x
  rw [List.getElem?_take, List.getElem?_take]
  split
  · rename_i hx
    have h1 := h x
    rw [if_pos hx] at h1
    obtain ⟨c, hc, h2, h3⟩ := exists_writer h1
    rw [store_get_in l x c hc h2 h3 h1, store_get_in m x c (hp.symm.subset hc) h2 h3 (by rw [writesTo_perm hp, h1])]
  · rfl

/-- the data of every call is in the file -/
theorem Spec.ExactlyOnce.hasAt {l : List WCall} {n : Nat} (h : ExactlyOnce l n) (c : WCall) (hc : c ∈ l) (D : Bytes) :
    HasAt (store D l) c.off c.data := by
  unfold HasAt
  apply List.ext_getElem?
  intro x
  rw [List.getElem?_take]
  split
  · rename_i hx
    have he := h.ends c hc (by rintro h; rw [h] at hx; simp at hx)
    rw [List.getElem?_drop, store_get_in l _ c hc (by omega) (by omega) (by rw [h, if_pos (by omega)])]
    congr 1
    omega
  · rw [List.getElem?_eq_none (by omega)]

theorem hasAt_append {D : Bytes} {p : Nat} {a b : Bytes} : HasAt D p (a ++ b) ↔ HasAt D p a ∧ HasAt D (p + a.length) b := by
  unfold HasAt
  rw [List.length_append, List.take_add, List.drop_drop]
  constructor
  · intro h
    have hl := congrArg List.length h
    simp only [List.length_append, List.length_take, List.length_drop] at hl
    refine List.append_inj h ?_
    simp only [List.length_take, List.length_drop]
    omega
  · rintro ⟨h1, h2⟩
    rw [h1, h2]

theorem hasAt_nil (D : Bytes) (p : Nat) : HasAt D p [] := by simp [HasAt]

theorem HasAt.le {D : Bytes} {p : Nat} {b : Bytes} (h : HasAt D p b) (hb : b ≠ []) : p + b.length ≤ D.length := by
  have hl := congrArg List.length h
  have := List.length_pos_iff.2 hb
  simp only [List.length_take, List.length_drop] at hl
  omega

end Limage
