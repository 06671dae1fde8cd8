import Verif.Proofs.Ext
import Verif.Props.Decode
/-!
# C48: truncated input is an error
-/
namespace Limage

theorem newReader_ext (D t : Bytes) : (newReader D).ext t = newReader (D ++ t) := rfl

theorem firstErr_none {errs : List (Option Err)} {is : List Nat} (h : firstErr errs is = none) :
    ∀ i ∈ is, errs.getD i none = none := by
  induction is with
  | nil => intro i hi; cases hi
  | cons k is ih =>
    unfold firstErr at h
    cases hk : errs.getD k none with
    | some e => rw [hk] at h; cases h
    | none =>
      rw [hk] at h
      intro i hi
      rcases List.mem_cons.1 hi with rfl | hi
      · exact hk
      · exact ih h i hi

theorem firstErr_all {errs : List (Option Err)} {is : List Nat} (hp : is.Perm (List.range errs.length))
    (h : firstErr errs is = none) : ∀ e ∈ errs, e = none := by
  intro e he
  obtain ⟨i, hi, rfl⟩ := List.getElem_of_mem he
  have := firstErr_none h i (hp.mem_iff.2 (List.mem_range.2 hi))
  rwa [List.getD_eq_getElem?_getD, List.getElem?_eq_getElem hi] at this

theorem gather_ok {α : Type} {xs : List (Outcome α)} {as : List α} : gather xs = .ok as → xs = as.map .ok := by
  induction xs generalizing as with
  | nil => intro h; cases h; rfl
  | cons x xs ih =>
    intro h
    unfold gather at h
    cases x with
    | panic => cases h
    | hang => cases hg : gather xs <;> rw [hg] at h <;> cases h
    | ok a =>
      cases hg : gather xs with
      | panic => rw [hg] at h; cases h
      | hang => rw [hg] at h; cases h
      | ok as' =>
        rw [hg] at h
        cases h
        rw [ih hg]
        rfl

theorem gather_map_ok {α : Type} (as : List α) : gather (as.map .ok) = .ok as := by
  induction as with
  | nil => rfl
  | cons a as ih =>
    rw [List.map_cons]
    unfold gather
    rw [ih]

theorem layerAtPtr_ext (c : Ctx) (D t : Bytes) (p : UInt64) (l : DLayer) (h : layerAtPtr c D p = .ok (l, none)) :
    layerAtPtr c (D ++ t) p = .ok (l, none) := by
  unfold layerAtPtr at h ⊢
  cases hm : (do goto p; readLayer c : M DLayer) (newReader D) with
  | panic => rw [hm] at h; cases h
  | hang => rw [hm] at h; cases h
  | ok x =>
    obtain ⟨l', r'⟩ := x
    rw [hm] at h
    dsimp only at h
    have he : r'.err = none ∧ l' = l := by
      cases hr : r'.err with
      | none => rw [hr] at h; cases h; exact ⟨rfl, rfl⟩
      | some e => rw [hr] at h; cases h
    have := ((goto_ext (t := t) p).bind fun _ => readLayer_ext c).run _ _ _ hm he.1
    rw [newReader_ext] at this
    rw [this]
    show Outcome.ok (l', (r'.ext t).err) = _
    rw [show (r'.ext t).err = r'.err from rfl, he.1, he.2]

theorem readLayers_noErr {sch : Sched} (hs : sch.Valid) {c : Ctx} {D : Bytes} {ps : List UInt64} {ls : List DLayer}
    (h : readLayers sch c D ps = .ok (ls, none)) : ps.map (layerAtPtr c D) = ls.map fun l => .ok (l, none) := by
  unfold readLayers at h
  cases hg : gather (ps.map (layerAtPtr c D)) with
  | panic => rw [hg] at h; cases h
  | hang => rw [hg] at h; cases h
  | ok xs =>
    rw [hg] at h
    dsimp only at h
    have hx := gather_ok hg
    have hl : xs.length = ps.length := by
      have := congrArg List.length hx
      rwa [List.length_map, List.length_map, eq_comm] at this
    have h2 : ls = xs.map (·.1) ∧ firstErr (xs.map (·.2)) (sch.layers ps.length) = none := by
      cases h' : firstErr (xs.map (·.2)) (sch.layers ps.length) with
      | none => rw [h'] at h; cases h; exact ⟨rfl, rfl⟩
      | some e => rw [h'] at h; cases h
    have hall := firstErr_all (errs := xs.map (·.2)) (by rw [List.length_map, hl]; exact hs.1 _) h2.2
    rw [hx, h2.1, List.map_map]
    apply List.map_congr_left
    intro x hxm
    show Outcome.ok x = Outcome.ok (x.1, none)
    rw [← hall x.2 (List.mem_map.2 ⟨x, hxm, rfl⟩)]

theorem readLayers_ext {sch : Sched} (hs : sch.Valid) {c : Ctx} {D : Bytes} (t : Bytes) {ps : List UInt64}
    {ls : List DLayer} (h : readLayers sch c D ps = .ok (ls, none)) : readLayers sch c (D ++ t) ps = .ok (ls, none) := by
  have h1 := readLayers_noErr hs h
  have h2 : ps.map (layerAtPtr c (D ++ t)) = (ls.map fun l => (l, none)).map .ok := by
    rw [List.map_map]
    have hl : ps.length = ls.length := by
      have := congrArg List.length h1
      rwa [List.length_map, List.length_map] at this
    apply List.ext_getElem
    · rw [List.length_map, List.length_map, hl]
    · intro i hi hi'
      rw [List.getElem_map, List.getElem_map]
      rw [List.length_map] at hi hi'
      apply layerAtPtr_ext
      have := List.getElem_of_eq h1 (i := i) (by rw [List.length_map]; exact hi)
      rwa [List.getElem_map, List.getElem_map] at this
  unfold readLayers
  rw [h2, gather_map_ok]
  dsimp only
  rw [List.map_map, List.map_map]
  have e1 : ((fun x : DLayer × Option Err => x.1) ∘ fun l => (l, none)) = id := rfl
  rw [e1, List.map_id]
  have e2 : firstErr (ls.map ((fun x : DLayer × Option Err => x.2) ∘ fun l => (l, none))) (sch.layers ps.length) = none := by
    generalize sch.layers ps.length = is
    induction is with
    | nil => rfl
    | cons i is ih =>
      unfold firstErr
      have : (ls.map ((fun x : DLayer × Option Err => x.2) ∘ fun l => (l, none))).getD i none = none := by
        rw [List.getD_eq_getElem?_getD, List.getElem?_map]
        cases ls[i]? <;> rfl
      rw [this]
      exact ih
  rw [e2]

theorem readHead_noErr {r r' : R} {h : Head} (e : readHead r = .ok (.ok h, r')) : r'.err = none := by
  unfold readHead at e
  obtain ⟨x, r1, e1, e⟩ := M.bind_inv e
  cases x with
  | error er => cases e
  | ok mode =>
    dsimp only at e
    obtain ⟨w, r2, e2, e⟩ := M.bind_inv e
    obtain ⟨ht, r3, e3, e⟩ := M.bind_inv e
    obtain ⟨b, r4, e4, e⟩ := M.bind_inv e
    obtain ⟨_, r5, e5, e⟩ := M.bind_inv e
    obtain ⟨y, r6, e6, e⟩ := M.bind_inv e
    cases y with
    | error er => cases e
    | ok p =>
      dsimp only at e
      obtain ⟨ps, r7, e7, e⟩ := M.bind_inv e
      obtain ⟨er, r8, e8, e⟩ := M.bind_inv e
      cases e8
      cases he : r7.err with
      | none => rw [he] at e; cases e; exact he
      | some er => rw [he] at e; cases e

/-- An accepted file is accepted, as the same image, whatever is appended to it: nothing decoded was
taken from beyond the end of the file. -/
theorem C48_extends (env : Env) (sch : Sched) (hs : sch.Valid) (decompress : Bool) (D t : Bytes) (im : List Layer)
    (h : decodeImage env sch decompress D = .ok (.ok im)) :
    decodeImage env sch decompress (D ++ t) = .ok (.ok im) := by
  unfold decodeImage at h ⊢
  cases hh : readHead (newReader D) with
  | panic => rw [hh] at h; cases h
  | hang => rw [hh] at h; cases h
  | ok x =>
    obtain ⟨x, r⟩ := x
    rw [hh] at h
    cases x with
    | error e => cases h
    | ok hd =>
      have := (readHead_ext (t := t)).run _ _ _ hh (readHead_noErr hh)
      rw [newReader_ext] at this
      rw [this]
      dsimp only at h ⊢
      unfold decodeLayers at h ⊢
      cases hl : readLayers sch (hd.ctx env decompress) D hd.ptrs with
      | panic => rw [hl] at h; cases h
      | hang => rw [hl] at h; cases h
      | ok y =>
        obtain ⟨ls, e⟩ := y
        rw [hl] at h
        cases e with
        | some e => cases h
        | none =>
          rw [readLayers_ext hs t hl]
          exact h

example : (∃ im, decodeImage exEnv exSched true maskedLayer = .ok (.ok im)) ∧ exSched.Valid := by
  refine ⟨?_, fun _ => List.Perm.refl _, fun _ => List.Perm.refl _⟩
  have : (decodeImage exEnv exSched true maskedLayer).isImage = true := by decide +kernel
  generalize decodeImage exEnv exSched true maskedLayer = x at this
  match x, this with
  | .ok (.ok im), _ => exact ⟨im, rfl⟩

/-- A file that has been cut off does not decode to an image that differs from the one the whole file
decodes to; in particular no pixel, layer or name is made up for the missing part. -/
theorem C48_truncated (env : Env) (sch : Sched) (hs : sch.Valid) (decompress : Bool) (D : Bytes) (n : Nat)
    (im : List Layer) (h : decodeImage env sch decompress (D.take n) = .ok (.ok im)) :
    decodeImage env sch decompress D = .ok (.ok im) := by
  have := C48_extends env sch hs decompress (D.take n) (D.drop n) im h
  rwa [List.take_append_drop] at this

/-- cut before its last byte, a file is rejected -/
def Outcome.isError {α β : Type} : Outcome (Except α β) → Bool
  | .ok (.error _) => true
  | _ => false

example : (decodeImage exEnv exSched true (maskedLayer.take 176)).isError = true ∧
    (decodeImage exEnv exSched true (maskedLayer.take 100)).isError = true ∧
    (decodeImage exEnv exSched true (maskedLayer.take 177)).isImage = true := by
  decide +kernel

/-- A read that asks for more bytes than there are records an error. -/
theorem C48_short_read (r : R) (n : Nat) (h : min r.data.length r.limit < r.pos + n) (hn : 0 < n) :
    (∀ b r', readFull n r = .ok (b, r') → r'.err ≠ none) ∧
    (∀ b r', readInto (List.replicate n 0) r = .ok (b, r') → r.data.length < r.limit → r'.err ≠ none) ∧
    ∀ b r', copyN n r = .ok (b, r') → r'.err ≠ none := by
  have hlen : ((r.data.drop r.pos).take (min n (r.limit - r.pos))).length < n := by
    rw [List.length_take, List.length_drop]; omega
  refine ⟨?_, ?_, ?_⟩
  · intro b r' e he
    have hr := (readFull_keeps n _ _ _ e).none he
    unfold readFull at e
    rw [hr] at e
    dsimp only at e
    rw [if_neg (by omega)] at e
    cases e
    cases he
  · intro b r' e hl he
    have hr := (readInto_keeps _ _ _ _ e).none he
    unfold readInto at e
    rw [hr] at e
    dsimp only at e
    by_cases hl' : r.limit ≤ r.pos
    · rw [if_pos hl'] at e; cases e; cases he
    · rw [if_neg hl'] at e
      cases e
      rw [List.length_replicate] at he
      have : ((r.data.drop r.pos).take (min n (r.limit - r.pos))).length < min n (r.limit - r.pos) := by
        rw [List.length_take, List.length_drop]; omega
      dsimp only at he
      rw [if_pos this] at he
      cases he
  · intro b r' e he
    have hr := (copyN_keeps n _ _ _ e).none he
    unfold copyN at e
    rw [hr] at e
    cases e
    dsimp only at he
    rw [if_pos hlen] at he
    cases he

example : min (newReader [1, 2]).data.length (newReader [1, 2]).limit < (newReader [1, 2]).pos + 4 ∧
    (newReader [1, 2]).data.length < (newReader [1, 2]).limit := by decide

/-- A recorded error is never lost, and with one there is no image: the reader of the head and those of
all layers end without an error. -/
theorem C48_no_error (env : Env) (sch : Sched) (hs : sch.Valid) (decompress : Bool) (D : Bytes) (im : List Layer)
    (h : decodeImage env sch decompress D = .ok (.ok im)) :
    ∃ hd r, readHead (newReader D) = .ok (.ok hd, r) ∧ r.err = none ∧
      ∀ p ∈ hd.ptrs, ∃ l r, (do goto p; readLayer (hd.ctx env decompress) : M DLayer) (newReader D) = .ok (l, r) ∧
        r.err = none := by
  unfold decodeImage at h
  cases hh : readHead (newReader D) with
  | panic => rw [hh] at h; cases h
  | hang => rw [hh] at h; cases h
  | ok x =>
    obtain ⟨x, r⟩ := x
    rw [hh] at h
    cases x with
    | error e => cases h
    | ok hd =>
      refine ⟨hd, r, rfl, readHead_noErr hh, ?_⟩
      dsimp only at h
      unfold decodeLayers at h
      cases hl : readLayers sch (hd.ctx env decompress) D hd.ptrs with
      | panic => rw [hl] at h; cases h
      | hang => rw [hl] at h; cases h
      | ok y =>
        obtain ⟨ls, e⟩ := y
        rw [hl] at h
        cases e with
        | some e => cases h
        | none =>
          intro p hp
          have h1 : layerAtPtr (hd.ctx env decompress) D p ∈ hd.ptrs.map (layerAtPtr (hd.ctx env decompress) D) :=
            List.mem_map.2 ⟨p, hp, rfl⟩
          rw [readLayers_noErr hs hl] at h1
          obtain ⟨l, _, hl⟩ := List.mem_map.1 h1
          unfold layerAtPtr at hl
          cases hm : (do goto p; readLayer (hd.ctx env decompress) : M DLayer) (newReader D) with
          | panic => rw [hm] at hl; cases hl
          | hang => rw [hm] at hl; cases hl
          | ok z =>
            obtain ⟨l', r'⟩ := z
            rw [hm] at hl
            dsimp only at hl
            have : r'.err = none := by
              have := Outcome.ok.inj hl
              exact (congrArg Prod.snd this).symm
            exact ⟨l', r', rfl, this⟩

/-- a file with a masked layer -/
example : (decodeImage exEnv exSched true maskedLayer).isImage = true ∧ exSched.Valid :=
  ⟨by decide +kernel, fun _ => List.Perm.refl _, fun _ => List.Perm.refl _⟩

/-- everything the two programs do keeps the first error -/
theorem C48_sticky (c : Ctx) (p : UInt64) (r r' : R) :
    (∀ l, (do goto p; readLayer c : M DLayer) r = .ok (l, r') → r.err ≠ none → r'.err = r.err) ∧
    (∀ x, readHead r = .ok (x, r') → r.err ≠ none → r'.err = r.err) := by
  constructor
  · intro l e hr
    have := ((goto_ext (t := []) p).bind fun _ => readLayer_ext c).keeps _ _ _ e
    exact this.2.2 (Option.isSome_iff_ne_none.2 hr)
  · intro x e hr
    exact ((readHead_ext (t := [])).keeps _ _ _ e).2.2 (Option.isSome_iff_ne_none.2 hr)

example : (⟨[], maxString, 0, some .eof⟩ : R).err ≠ none ∧
    ∃ x r', readHead ⟨[], maxString, 0, some .eof⟩ = .ok (x, r') := by
  refine ⟨by simp, ?_⟩
  obtain ⟨x, r', h, _⟩ := readHead_total ⟨[], maxString, 0, some .eof⟩
  exact ⟨x, r', h⟩

end Limage
