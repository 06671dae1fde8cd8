import Verif.Proofs.Runs
/-! Reading without an error does not depend on what follows the end of the source. -/
namespace Limage

/-- the same reader over a longer source -/
def R.ext (r : R) (t : Bytes) : R := { r with data := r.data ++ t }

/-- If `m` succeeds and leaves no error, `m'` does the same over the longer source. -/
structure Ext (t : Bytes) {α : Type} (m m' : M α) : Prop where
  keeps : Keeps m
  run : ∀ r a r', m r = .ok (a, r') → r'.err = none → m' (r.ext t) = .ok (a, r'.ext t)

variable {t : Bytes}

theorem Ext.pure {α : Type} (a : α) : Ext t (pure a : M α) (pure a) :=
  ⟨Keeps.pure a, by intro r b r' h _; cases h; rfl⟩
theorem Ext.bind {α β : Type} {m m' : M α} {f f' : α → M β} (h1 : Ext t m m') (h2 : ∀ a, Ext t (f a) (f' a)) :
    Ext t (m >>= f) (m' >>= f') := by
  refine ⟨h1.keeps.bind fun a => (h2 a).keeps, ?_⟩
  intro r b r' h he
  obtain ⟨a, r1, e1, e2⟩ := M.bind_inv h
  have := h1.run _ _ _ e1 (((h2 a).keeps _ _ _ e2).none he)
  rw [M.bind_ok this]
  exact (h2 a).run _ _ _ e2 he
theorem Ext.ite {α : Type} {p : Prop} [Decidable p] {m m' n n' : M α} (h1 : Ext t m m') (h2 : Ext t n n') :
    Ext t (if p then m else n) (if p then m' else n') := by
  by_cases h : p
  · rw [if_pos h, if_pos h]; exact h1
  · rw [if_neg h, if_neg h]; exact h2
theorem Ext.panic {α : Type} (m' : M α) : Ext t (M.panic : M α) m' := ⟨Keeps.panic, by intro r a r' h; cases h⟩
theorem Ext.hang {α : Type} (m' : M α) : Ext t (M.hang : M α) m' := ⟨Keeps.hang, by intro r a r' h; cases h⟩

theorem getErr_ext : Ext t getErr getErr := ⟨getErr_keeps, by intro r a r' h _; cases h; rfl⟩
theorem setError_ext (e : Err) : Ext t (setError e) (setError e) :=
  ⟨setError_keeps e, by intro r a r' h _; cases h; rfl⟩
theorem setErr?_ext (e : Option Err) : Ext t (setErr? e) (setErr? e) := by
  cases e with
  | none => exact Ext.pure _
  | some e => exact setError_ext e
theorem goto_ext (n : UInt64) : Ext t (goto n) (goto n) := by
  refine ⟨goto_keeps n, ?_⟩
  intro r a r' h _
  unfold goto at h ⊢
  cases h
  split <;> rfl
theorem skip_ext (n : UInt32) : Ext t (skip n) (skip n) := ⟨skip_keeps n, by intro r a r' h _; cases h; rfl⟩

theorem take_ext {d t : Bytes} {p m : Nat} (h : m ≤ ((d.drop p).take m).length) :
    ((d ++ t).drop p).take m = (d.drop p).take m := by
  rw [List.length_take, List.length_drop] at h
  rcases Nat.eq_zero_or_pos m with h0 | h0
  · rw [h0, List.take_zero, List.take_zero]
  · rw [List.drop_append_of_le_length (by omega), List.take_append_of_le_length (by rw [List.length_drop]; omega)]

theorem readFull_ext (n : Nat) : Ext t (readFull n) (readFull n) := by
  refine ⟨readFull_keeps n, ?_⟩
  intro r a r' h he
  have hr := (readFull_keeps n _ _ _ h).none he
  unfold readFull at h ⊢
  have hr' : (r.ext t).err = none := hr
  rw [hr] at h
  rw [hr']
  dsimp only at h ⊢
  split at h
  · rename_i hl
    have hx : ((r.ext t).data.drop (r.ext t).pos).take (min n ((r.ext t).limit - (r.ext t).pos)) =
        (r.data.drop r.pos).take (min n (r.limit - r.pos)) :=
      take_ext (by show min n (r.limit - r.pos) ≤ ((r.data.drop r.pos).take (min n (r.limit - r.pos))).length; omega)
    rw [hx, if_pos hl]
    cases h
    rfl
  · cases h
    cases he

theorem readInto_ext (p : Bytes) : Ext t (readInto p) (readInto p) := by
  refine ⟨readInto_keeps p, ?_⟩
  intro r a r' h he
  have hr := (readInto_keeps p _ _ _ h).none he
  unfold readInto at h ⊢
  have hr' : (r.ext t).err = none := hr
  rw [hr] at h
  rw [hr']
  dsimp only at h ⊢
  by_cases hl : r.limit ≤ r.pos
  · rw [if_pos hl] at h; cases h; cases he
  · have hl' : ¬ (r.ext t).limit ≤ (r.ext t).pos := hl
    rw [if_neg hl] at h
    rw [if_neg hl']
    cases h
    have hm : ¬ ((r.data.drop r.pos).take (min p.length (r.limit - r.pos))).length < min p.length (r.limit - r.pos) := by
      intro hc; rw [if_pos hc] at he; cases he
    have hx : ((r.ext t).data.drop (r.ext t).pos).take (min p.length ((r.ext t).limit - (r.ext t).pos)) =
        (r.data.drop r.pos).take (min p.length (r.limit - r.pos)) :=
      take_ext (by
        show min p.length (r.limit - r.pos) ≤ ((r.data.drop r.pos).take (min p.length (r.limit - r.pos))).length; omega)
    rw [hx]
    rfl

theorem copyN_ext (n : Nat) : Ext t (copyN n) (copyN n) := by
  refine ⟨copyN_keeps n, ?_⟩
  intro r a r' h he
  have hr := (copyN_keeps n _ _ _ h).none he
  unfold copyN at h ⊢
  have hr' : (r.ext t).err = none := hr
  rw [hr] at h
  rw [hr']
  dsimp only at h ⊢
  cases h
  have hm : ¬ ((r.data.drop r.pos).take (min n (r.limit - r.pos))).length < n := by
    intro hc; rw [if_pos hc] at he; cases he
  have hx : ((r.ext t).data.drop (r.ext t).pos).take (min n ((r.ext t).limit - (r.ext t).pos)) =
      (r.data.drop r.pos).take (min n (r.limit - r.pos)) :=
    take_ext (by show min n (r.limit - r.pos) ≤ ((r.data.drop r.pos).take (min n (r.limit - r.pos))).length; omega)
  rw [hx]
  rfl

theorem readUint8_ext : Ext t readUint8 readUint8 := (readFull_ext _).bind fun _ => Ext.pure _
theorem readUint16_ext : Ext t readUint16 readUint16 := (readFull_ext _).bind fun _ => Ext.pure _
theorem readUint32_ext : Ext t readUint32 readUint32 := (readFull_ext _).bind fun _ => Ext.pure _
theorem readUint64_ext : Ext t readUint64 readUint64 := (readFull_ext _).bind fun _ => Ext.pure _
theorem readPtr_ext (mode : UInt32) : Ext t (readPtr mode) (readPtr mode) := by
  unfold readPtr
  exact Ext.ite (readUint32_ext.bind fun _ => Ext.pure _) readUint64_ext
theorem readString_ext : Ext t readString readString := by
  unfold readString
  refine readUint32_ext.bind fun n => Ext.ite (Ext.pure _) (Ext.ite ?_ ?_)
  · exact (setError_ext _).bind fun _ => Ext.pure _
  · refine (readFull_ext _).bind fun b => getErr_ext.bind fun e => Ext.ite (Ext.pure _) (Ext.ite ?_ (Ext.pure _))
    exact (setError_ext _).bind fun _ => Ext.pure _
theorem skipString_ext : Ext t skipString skipString := readUint32_ext.bind fun n => skip_ext n
theorem skipParasite_ext : Ext t skipParasite skipParasite :=
  skipString_ext.bind fun _ => (skip_ext _).bind fun _ => readUint32_ext.bind fun n => skip_ext n

theorem forN_ext {m : M Bool} (h : Ext t m m) : ∀ n, Ext t (forN n m) (forN n m) := by
  intro n
  induction n with
  | zero => exact Ext.pure _
  | succ n ih => exact h.bind fun _ => Ext.ite ih (Ext.pure _)
theorem forN'_ext {m : M Bool} (h : Ext t m m) : ∀ n, Ext t (forN' n m) (forN' n m) := by
  intro n
  induction n with
  | zero => exact Ext.pure _
  | succ n ih => exact h.bind fun _ => Ext.ite ih (Ext.pure _)

theorem skipPaths_ext : Ext t skipPaths skipPaths := by
  unfold skipPaths
  refine (skip_ext _).bind fun _ => readUint32_ext.bind fun n => forN_ext ?_ _
  refine skipString_ext.bind fun _ => (skip_ext _).bind fun _ => (skip_ext _).bind fun _ => (skip_ext _).bind fun _ =>
    readUint32_ext.bind fun np => readUint32_ext.bind fun v => Ext.ite ?_ (Ext.ite ?_ (Ext.ite ?_ ?_))
  · exact (skip_ext _).bind fun _ => Ext.pure _
  · exact (skip_ext _).bind fun _ => (skip_ext _).bind fun _ => Ext.pure _
  · exact (skip_ext _).bind fun _ => (skip_ext _).bind fun _ => (skip_ext _).bind fun _ => Ext.pure _
  · exact (setError_ext _).bind fun _ => Ext.pure _

theorem skipVectors_ext : Ext t skipVectors skipVectors := by
  unfold skipVectors
  refine readUint32_ext.bind fun v => Ext.ite (setError_ext _) ?_
  refine (skip_ext _).bind fun _ => readUint32_ext.bind fun n => forN_ext ?_ _
  refine skipString_ext.bind fun _ => (skip_ext _).bind fun _ => (skip_ext _).bind fun _ => (skip_ext _).bind fun _ =>
    readUint32_ext.bind fun m => readUint32_ext.bind fun k => (forN_ext ?_ _).bind fun _ => forN'_ext ?_ _
  · exact skipParasite_ext.bind fun _ => Ext.pure _
  · refine readUint32_ext.bind fun x => Ext.ite ?_ ?_
    · exact (setError_ext _).bind fun _ => Ext.pure _
    · refine (skip_ext _).bind fun _ => readUint32_ext.bind fun nf => readUint32_ext.bind fun np => Ext.ite ?_ ?_
      · exact (skip_ext _).bind fun _ => Ext.pure _
      · exact (setError_ext _).bind fun _ => Ext.pure _

theorem readBoolProperty_ext : Ext t readBoolProperty readBoolProperty := by
  unfold readBoolProperty
  refine readUint32_ext.bind fun x => Ext.ite (Ext.pure _) (Ext.ite (Ext.pure _) ?_)
  exact (setError_ext _).bind fun _ => Ext.pure _

/-- programs whose fuel depends on the length of the source -/
theorem ext_fuel {α : Type} {g : Nat → M α} (h : ∀ f f', f ≤ f' → Ext t (g f) (g f')) (k : Nat) :
    Ext t (fun r => g (k + r.data.length + 2) r) (fun r => g (k + r.data.length + 2) r) := by
  constructor
  · intro r a r' e
    exact (h _ _ (Nat.le_refl _)).keeps _ _ _ e
  · intro r a r' e he
    exact (h (k + r.data.length + 2) (k + (r.ext t).data.length + 2)
      (by show _ ≤ k + (r.data ++ t).length + 2; rw [List.length_append]; omega)).run _ _ _ e he

theorem ext_fuel0 {α : Type} {g : Nat → M α} (h : ∀ f f', f ≤ f' → Ext t (g f) (g f')) :
    Ext t (fun r => g (r.data.length + 2) r) (fun r => g (r.data.length + 2) r) := by
  have := ext_fuel h 0
  simpa using this

theorem readParasites_ext : ∀ (f f' : Nat), f ≤ f' → ∀ (l : UInt32) (ps : List Parasite),
    Ext t (readParasites f l ps) (readParasites f' l ps) := by
  intro f
  induction f with
  | zero => intro f' _ l ps; exact Ext.hang _
  | succ f ih =>
    intro f' hf l ps
    obtain ⟨f', rfl⟩ : ∃ g, f' = g + 1 := ⟨f' - 1, by omega⟩
    unfold readParasites
    refine Ext.ite (Ext.pure _) ?_
    refine readString_ext.bind fun name => readUint32_ext.bind fun flags => readUint32_ext.bind fun pl => Ext.ite ?_ ?_
    · exact (setError_ext _).bind fun _ => Ext.pure _
    · exact (readInto_ext _).bind fun d => ih f' (by omega) _ _

theorem readParasitesAll_ext (l : UInt32) : Ext t (readParasitesAll l) (readParasitesAll l) :=
  ext_fuel (g := fun f => readParasites f l []) (fun f f' h => readParasites_ext f f' h l []) l.toNat

theorem readPalette_ext : ∀ n, Ext t (readPalette n) (readPalette n) := by
  intro n
  induction n with
  | zero => exact Ext.pure _
  | succ n ih =>
    exact readUint8_ext.bind fun _ => readUint8_ext.bind fun _ => readUint8_ext.bind fun _ => ih.bind fun _ => Ext.pure _

theorem imageProp_ext (b ty l : UInt32) (s : IProps) : Ext t (imageProp b ty l s) (imageProp b ty l s) := by
  unfold imageProp
  refine Ext.ite ?_ (Ext.ite ?_ (Ext.ite ?_ (Ext.ite ?_ (Ext.ite ?_ (Ext.ite ?_ (Ext.ite ?_ (Ext.ite ?_ (Ext.ite ?_
    (Ext.ite ?_ (Ext.ite ?_ (Ext.ite ?_ (Ext.ite ?_ ?_))))))))))))
  · exact readBoolProperty_ext.bind fun _ => Ext.pure _
  · exact readUint32_ext.bind fun _ => Ext.ite (Ext.pure _) (Ext.pure _)
  · exact (readParasitesAll_ext _).bind fun _ => Ext.pure _
  · exact readUint32_ext.bind fun _ => Ext.pure _
  · exact (skip_ext _).bind fun _ => readUint32_ext.bind fun _ => (readPalette_ext _).bind fun _ => Ext.pure _
  · exact readUint8_ext.bind fun _ => Ext.ite (Ext.pure _) (Ext.pure _)
  · refine Ext.ite (Ext.pure _) ((forN_ext ?_ _).bind fun _ => Ext.pure _)
    exact (skip_ext _).bind fun _ => (skip_ext _).bind fun _ => Ext.pure _
  · exact skipPaths_ext.bind fun _ => Ext.pure _
  · exact (skip_ext _).bind fun _ => (skip_ext _).bind fun _ => Ext.pure _
  · refine Ext.ite (Ext.pure _) ((forN_ext ?_ _).bind fun _ => Ext.pure _)
    exact (skip_ext _).bind fun _ => (skip_ext _).bind fun _ => Ext.pure _
  · exact readUint32_ext.bind fun _ => Ext.ite (Ext.pure _) (Ext.pure _)
  · exact (skip_ext _).bind fun _ => (skip_ext _).bind fun _ => skipString_ext.bind fun _ => skipString_ext.bind fun _ =>
      skipString_ext.bind fun _ => skipString_ext.bind fun _ => skipString_ext.bind fun _ => Ext.pure _
  · exact skipVectors_ext.bind fun _ => Ext.pure _
  · exact (skip_ext _).bind fun _ => Ext.pure _

theorem imageProps_ext (b : UInt32) : ∀ (f f' : Nat), f ≤ f' → ∀ (s : IProps),
    Ext t (imageProps b f s) (imageProps b f' s) := by
  intro f
  induction f with
  | zero => intro f' _ s; exact Ext.hang _
  | succ f ih =>
    intro f' hf s
    obtain ⟨f', rfl⟩ : ∃ g, f' = g + 1 := ⟨f' - 1, by omega⟩
    unfold imageProps
    refine readUint32_ext.bind fun ty => readUint32_ext.bind fun l => Ext.ite (Ext.ite (Ext.pure _) (Ext.pure _)) ?_
    refine (imageProp_ext _ _ _ _).bind fun x => ?_
    cases x with
    | error e => exact Ext.pure _
    | ok s => exact ih f' (by omega) s

theorem readImageProperties_ext (b : UInt32) : Ext t (readImageProperties b) (readImageProperties b) :=
  ext_fuel0 (g := fun f => imageProps b f ⟨[], 0⟩) fun f f' h => imageProps_ext b f f' h _

theorem layerPointers_ext (mode : UInt32) : ∀ (f f' : Nat), f ≤ f' → ∀ (ps : List UInt64),
    Ext t (layerPointers mode f ps) (layerPointers mode f' ps) := by
  intro f
  induction f with
  | zero => intro f' _ s; exact Ext.hang _
  | succ f ih =>
    intro f' hf s
    obtain ⟨f', rfl⟩ : ∃ g, f' = g + 1 := ⟨f' - 1, by omega⟩
    unfold layerPointers
    exact (readPtr_ext _).bind fun p => Ext.ite (Ext.pure _) (ih f' (by omega) _)

theorem readLayerPointers_ext (mode : UInt32) : Ext t (readLayerPointers mode) (readLayerPointers mode) :=
  ext_fuel0 (g := fun f => layerPointers mode f []) fun f f' h => layerPointers_ext mode f f' h _

theorem readUint32s_ext : ∀ n, Ext t (readUint32s n) (readUint32s n) := by
  intro n
  induction n with
  | zero => exact Ext.pure _
  | succ n ih => exact readUint32_ext.bind fun _ => ih.bind fun _ => Ext.pure _

theorem layerProp_ext (c : Ctx) (ty l : UInt32) (s : LProps) : Ext t (layerProp c ty l s) (layerProp c ty l s) := by
  unfold layerProp
  refine Ext.ite ?_ (Ext.ite ?_ (Ext.ite ?_ (Ext.ite ?_ (Ext.ite ?_ (Ext.ite ?_ (Ext.ite ?_ (Ext.ite ?_ (Ext.ite ?_
    (Ext.ite ?_ (Ext.ite ?_ ?_))))))))))
  · exact (skip_ext _).bind fun _ => Ext.pure _
  · exact readUint32_ext.bind fun _ => (setErr?_ext _).bind fun _ => Ext.pure _
  · exact (readParasitesAll_ext _).bind fun _ => Ext.pure _
  · exact (skip_ext _).bind fun _ => Ext.pure _
  · exact readBoolProperty_ext.bind fun _ => Ext.pure _
  · exact Ext.pure _
  · exact Ext.pure _
  · exact Ext.bind ((setErr?_ext _).bind fun _ => readUint32s_ext _) fun _ => Ext.pure _
  · exact readUint32_ext.bind fun _ => Ext.pure _
  · exact readUint32_ext.bind fun _ => readUint32_ext.bind fun _ => Ext.pure _
  · exact readUint32_ext.bind fun _ => Ext.pure _
  · exact (skip_ext _).bind fun _ => Ext.pure _

theorem layerProps_ext (c : Ctx) : ∀ (f f' : Nat), f ≤ f' → ∀ (s : LProps),
    Ext t (layerProps c f s) (layerProps c f' s) := by
  intro f
  induction f with
  | zero => intro f' _ s; exact Ext.hang _
  | succ f ih =>
    intro f' hf s
    obtain ⟨f', rfl⟩ : ∃ g, f' = g + 1 := ⟨f' - 1, by omega⟩
    unfold layerProps
    refine readUint32_ext.bind fun ty => readUint32_ext.bind fun l => Ext.ite ?_ ?_
    · exact (setErr?_ext _).bind fun _ => Ext.pure _
    · exact (layerProp_ext _ _ _ _).bind fun x => ih f' (by omega) x

theorem readLayerProperties_ext (c : Ctx) : Ext t (readLayerProperties c) (readLayerProperties c) :=
  ext_fuel0 (g := fun f => layerProps c f LProps.start) fun f f' h => layerProps_ext c f f' h _

theorem skipProperties_ext : ∀ (f f' : Nat), f ≤ f' → Ext t (skipProperties f) (skipProperties f') := by
  intro f
  induction f with
  | zero => intro f' _; exact Ext.hang _
  | succ f ih =>
    intro f' hf
    obtain ⟨f', rfl⟩ : ∃ g, f' = g + 1 := ⟨f' - 1, by omega⟩
    unfold skipProperties
    refine readUint32_ext.bind fun ty => readUint32_ext.bind fun l => Ext.ite (setErr?_ext _) (Ext.ite ?_ ?_)
    · exact readUint32_ext.bind fun o => (setErr?_ext _).bind fun _ => ih f' (by omega)
    · exact (skip_ext _).bind fun _ => ih f' (by omega)

theorem skipPropertiesAll_ext : Ext t skipPropertiesAll skipPropertiesAll :=
  ext_fuel0 (g := skipProperties) skipProperties_ext

theorem readPtrs_ext (mode : UInt32) : ∀ n, Ext t (readPtrs mode n) (readPtrs mode n) := by
  intro n
  induction n with
  | zero => exact Ext.pure _
  | succ n ih => exact (readPtr_ext mode).bind fun _ => ih.bind fun _ => Ext.pure _

theorem allocate_ext (n s : Nat) : Ext t (allocate n s) (allocate n s) := by
  unfold allocate; exact Ext.ite (Ext.panic _) (Ext.pure _)

theorem readLevel_ext (c : Ctx) (w h k : UInt32) : Ext t (readLevel c w h k) (readLevel c w h k) := by
  unfold readLevel
  have fail : Ext t (do setError .inconsistentData; return none : M (Option (UInt32 × List UInt64)))
    (do setError .inconsistentData; return none) := (setError_ext _).bind fun _ => Ext.pure _
  refine readUint32_ext.bind fun tw => readUint32_ext.bind fun th => Ext.ite fail ?_
  refine readUint32_ext.bind fun bpp => Ext.ite fail ?_
  refine (readPtr_ext _).bind fun lp => (goto_ext _).bind fun _ => readUint32_ext.bind fun w' =>
    readUint32_ext.bind fun h' => Ext.ite fail ?_
  refine Ext.bind ?_ fun ts => readUint32_ext.bind fun z => Ext.ite fail (Ext.pure _)
  exact (allocate_ext _ _).bind fun _ => readPtrs_ext _ _

theorem rleHead_ext (s : Rle) (m : UInt8) : Ext t (rleHead s m) (rleHead s m) := by
  unfold rleHead
  refine Ext.ite ?_ (Ext.ite ?_ (Ext.ite ?_ (Ext.pure _)))
  · exact readUint8_ext.bind fun _ => Ext.pure _
  · exact readUint16_ext.bind fun _ => readUint8_ext.bind fun _ => Ext.pure _
  · exact readUint16_ext.bind fun _ => Ext.pure _

theorem rleOp_ext (s : Rle) : Ext t (rleOp s) (rleOp s) := by
  refine ⟨rleOp_keeps s, ?_⟩
  intro r a r' h he
  unfold rleOp at h ⊢
  obtain ⟨m, r1, e1, h⟩ := M.bind_inv h
  obtain ⟨x, r2, e2, h⟩ := M.bind_inv h
  cases e2
  cases hx : r1.err with
  | some e => rw [hx] at h; cases h; rw [hx] at he; cases he
  | none =>
    rw [hx] at h
    dsimp only at h
    obtain ⟨s', r3, e3, h⟩ := M.bind_inv h
    obtain ⟨y, r4, e4, h⟩ := M.bind_inv h
    cases e4
    cases hy : r3.err with
    | some e =>
      rw [hy] at h
      dsimp only at h
      obtain ⟨_, r5, e5, h⟩ := M.bind_inv h
      cases e5; cases h; cases he
    | none =>
      rw [hy] at h
      dsimp only at h
      have hh : a = (s', none) ∧ r' = r3 := by cases h; exact ⟨rfl, rfl⟩
      obtain ⟨rfl, rfl⟩ := hh
      rw [M.bind_ok (readUint8_ext.run _ _ _ e1 hx)]
      have g1 : getErr (r1.ext t) = .ok (none, r1.ext t) := by unfold getErr; show _ = _; rw [show (r1.ext t).err = none from hx]
      rw [M.bind_ok g1]
      dsimp only
      rw [M.bind_ok ((rleHead_ext _ _).run _ _ _ e3 hy)]
      have g2 : getErr (r'.ext t) = .ok (none, r'.ext t) := by unfold getErr; show _ = _; rw [show (r'.ext t).err = none from hy]
      rw [M.bind_ok g2]
      rfl

theorem rleCopy_ext (s : Rle) (c : Nat) (p : Bytes) : Ext t (rleCopy s c p) (rleCopy s c p) := by
  unfold rleCopy
  exact Ext.ite (Ext.pure _) (readInto_ext _)

theorem rleRead_ext : ∀ (f f' : Nat), f ≤ f' → ∀ (s : Rle) (p : Bytes), Ext t (rleRead f s p) (rleRead f' s p) := by
  intro f
  induction f with
  | zero => intro f' _ s p; exact Ext.hang _
  | succ f ih =>
    intro f' hf s p
    obtain ⟨f', rfl⟩ : ∃ g, f' = g + 1 := ⟨f' - 1, by omega⟩
    unfold rleRead
    refine getErr_ext.bind fun e => Ext.ite (Ext.ite (Ext.pure _) (Ext.pure _)) ?_
    have hj : ∀ x : Rle × Option Err, Ext t
        (match x with
          | (s, e) => match e with
            | some e => pure (p, s, some e)
            | none => do
              let w ← rleCopy s (min s.count.toNat p.length) p
              let (rest, s, e) ← rleRead f { s with count := s.count - UInt16.ofNat (min s.count.toNat p.length) }
                (p.drop (min s.count.toNat p.length))
              return (w ++ rest, s, e))
        (match x with
          | (s, e) => match e with
            | some e => pure (p, s, some e)
            | none => do
              let w ← rleCopy s (min s.count.toNat p.length) p
              let (rest, s, e) ← rleRead f' { s with count := s.count - UInt16.ofNat (min s.count.toNat p.length) }
                (p.drop (min s.count.toNat p.length))
              return (w ++ rest, s, e)) := by
      intro ⟨s', e'⟩
      cases e' with
      | some e => exact Ext.pure _
      | none => exact (rleCopy_ext _ _ _).bind fun w => (ih f' (by omega) _ _).bind fun x => Ext.pure _
    exact Ext.ite ((rleOp_ext s).bind hj) ((Ext.pure _).bind hj)

theorem rleReadAll_ext (s : Rle) (p : Bytes) : Ext t (rleReadAll s p) (rleReadAll s p) :=
  ext_fuel (g := fun f => rleRead f s p) (fun f f' h => rleRead_ext f f' h s p) p.length

theorem copyOp_ext (c : UInt8) : Ext t (copyOp c) (copyOp c) := by
  unfold copyOp
  refine Ext.ite ?_ (Ext.ite ?_ (Ext.ite ?_ ?_))
  · exact readUint8_ext.bind fun _ => Ext.pure _
  · exact readUint16_ext.bind fun _ => readUint8_ext.bind fun _ => Ext.pure _
  · exact readUint16_ext.bind fun _ => (copyN_ext _).bind fun _ => Ext.pure _
  · exact (copyN_ext _).bind fun _ => Ext.pure _

theorem readRLE_ext : ∀ (f f' : Nat), f ≤ f' → ∀ (n : Int), Ext t (readRLE f n) (readRLE f' n) := by
  intro f
  induction f with
  | zero => intro f' _ n; exact Ext.hang _
  | succ f ih =>
    intro f' hf n
    obtain ⟨f', rfl⟩ : ∃ g, f' = g + 1 := ⟨f' - 1, by omega⟩
    unfold readRLE
    refine Ext.ite (Ext.pure _) ?_
    exact readUint8_ext.bind fun c => (copyOp_ext c).bind fun x => (ih f' (by omega) _).bind fun y => Ext.pure _

theorem readRLEAll_ext (n : Nat) : Ext t (readRLEAll n) (readRLEAll n) :=
  ext_fuel (g := fun f => readRLE f n) (fun f f' h => readRLE_ext f f' h n) n

theorem readChannels_ext (n : Nat) : ∀ k, Ext t (readChannels n k) (readChannels n k) := by
  intro k
  induction k with
  | zero => exact Ext.pure _
  | succ k ih =>
    unfold readChannels
    exact (readRLEAll_ext n).bind fun x => (setErr?_ext _).bind fun _ => ih.bind fun _ => Ext.pure _

theorem tileLoop_ext {σ : Type} (w h : Nat) (ts : List UInt64) (s : σ) (body : Tile → σ → M σ)
    (hb : ∀ ti s, Ext t (body ti s) (body ti s)) : Ext t (tileLoop w h ts s body) (tileLoop w h ts s body) := by
  unfold tileLoop
  refine Ext.ite (Ext.ite (Ext.hang _) (Ext.pure _)) (Ext.ite (Ext.pure _) (Ext.ite (Ext.panic _) ?_))
  generalize tileGrid w h = g
  induction g generalizing ts s with
  | nil => unfold tileLoop.go; exact Ext.pure _
  | cons ti g ih =>
    cases ts with
    | nil => unfold tileLoop.go; exact Ext.panic _
    | cons p ps =>
      unfold tileLoop.go
      exact (goto_ext p).bind fun _ => (hb ti s).bind fun s => ih ps s

theorem eagerTile_ext (c : Ctx) (bpp : Nat) (ti : Tile) (s : EagerState) :
    Ext t (eagerTile c bpp ti s) (eagerTile c bpp ti s) := by
  unfold eagerTile
  refine Ext.ite ((readInto_ext _).bind fun _ => Ext.pure _) ((rleReadAll_ext _ _).bind fun x => ?_)
  exact (setErr?_ext _).bind fun _ => Ext.pure _

theorem readEager_ext (c : Ctx) (k bpp w h : Nat) (ts : List UInt64) :
    Ext t (readEager c k bpp w h ts) (readEager c k bpp w h ts) := by
  unfold readEager
  refine Ext.ite ?_ ?_
  · exact (allocate_ext _ _).bind fun _ => (tileLoop_ext _ _ _ _ _ (eagerTile_ext c bpp)).bind fun _ => Ext.pure _
  · exact (tileLoop_ext _ _ _ _ _ (fun _ _ => Ext.panic _)).bind fun _ => Ext.pure _

theorem readLazy_ext (c : Ctx) (k bpp w h : Nat) (ts : List UInt64) :
    Ext t (readLazy c k bpp w h ts) (readLazy c k bpp w h ts) := by
  unfold readLazy
  refine (allocate_ext _ _).bind fun _ => (tileLoop_ext _ _ _ _ _ fun t ts => ?_).bind fun _ =>
    Ext.ite (Ext.pure _) (Ext.pure _)
  exact (readChannels_ext _ _).bind fun _ => Ext.pure _

theorem readImage_ext (c : Ctx) (w h k : UInt32) : Ext t (readImage c w h k) (readImage c w h k) := by
  unfold readImage
  refine (readLevel_ext c w h k).bind fun x => ?_
  cases x with
  | none => exact Ext.pure _
  | some x =>
    refine Ext.ite ((readEager_ext _ _ _ _ _ _).bind fun _ => Ext.pure _) ?_
    exact (readLazy_ext _ _ _ _ _ _).bind fun _ => Ext.pure _

theorem readChannel_ext (c : Ctx) : Ext t (readChannel c) (readChannel c) := by
  unfold readChannel
  refine readUint32_ext.bind fun w => readUint32_ext.bind fun h => skipString_ext.bind fun _ =>
    skipPropertiesAll_ext.bind fun _ => (readPtr_ext _).bind fun p => (goto_ext _).bind fun _ =>
    (readImage_ext _ _ _ _).bind fun x => ?_
  cases x with
  | none => exact Ext.pure _
  | some d =>
    cases d with
    | eager im => exact Ext.pure _
    | lazy im => exact Ext.panic _

theorem readMask_ext (c : Ctx) (b : Rect) (im : Img) : Ext t (readMask c b im) (readMask c b im) := by
  unfold readMask
  refine (readChannel_ext c).bind fun x => ?_
  cases x with
  | none => exact Ext.pure _
  | some m => exact Ext.ite (Ext.pure _) ((setError_ext _).bind fun _ => Ext.pure _)

theorem layerText_ext (c : Ctx) (ps : List Parasite) (im : Img) : Ext t (layerText c ps im) (layerText c ps im) := by
  unfold layerText
  split
  · exact Ext.pure _
  · split
    · exact Ext.panic _
    · exact Ext.hang _
    · exact (setError_ext _).bind fun _ => Ext.pure _
    · exact Ext.pure _

theorem readLayer_ext (c : Ctx) : Ext t (readLayer c) (readLayer c) := by
  unfold readLayer
  refine readUint32_ext.bind fun w => readUint32_ext.bind fun h => readUint32_ext.bind fun ty => Ext.ite ?_ ?_
  · exact (setError_ext _).bind fun _ => Ext.pure _
  refine readString_ext.bind fun name => (readLayerProperties_ext c).bind fun s => (readPtr_ext _).bind fun hp =>
    (readPtr_ext _).bind fun mp => (goto_ext _).bind fun _ => ?_
  refine Ext.bind ?_ fun o => ?_
  · unfold layerImage
    refine Ext.ite (Ext.pure _) ((readImage_ext _ _ _ _).bind fun x => ?_)
    cases x <;> exact Ext.pure _
  · cases o with
    | none => exact Ext.pure _
    | some im =>
      refine (layerText_ext _ _ _).bind fun o => ?_
      cases o with
      | none => exact Ext.pure _
      | some im =>
        exact Ext.ite ((goto_ext _).bind fun _ => (readMask_ext _ _ _).bind fun _ => Ext.pure _) (Ext.pure _)

theorem readHeader_ext : Ext t readHeader readHeader := by
  unfold readHeader
  refine (readInto_ext _).bind fun hd => getErr_ext.bind fun e => ?_
  cases e with
  | some e => exact Ext.pure _
  | none =>
    refine Ext.ite (Ext.pure _) ?_
    cases versions.find? fun v => v.1 = (hd.drop 9).take 4 with
    | none => exact Ext.pure _
    | some v => exact Ext.ite (Ext.pure _) (Ext.pure _)

theorem readPrecision_ext (b : Bool) : Ext t (readPrecision b) (readPrecision b) := by
  unfold readPrecision
  exact Ext.ite readUint32_ext (Ext.pure _)

theorem readHead_ext : Ext t readHead readHead := by
  unfold readHead
  refine readHeader_ext.bind fun x => ?_
  cases x with
  | error e => exact Ext.pure _
  | ok mode =>
    refine readUint32_ext.bind fun w => readUint32_ext.bind fun h => readUint32_ext.bind fun b =>
      (readPrecision_ext _).bind fun _ => (readImageProperties_ext _).bind fun y => ?_
    cases y with
    | error e => exact Ext.pure _
    | ok p =>
      refine (readLayerPointers_ext _).bind fun ps => getErr_ext.bind fun e => ?_
      cases e with
      | some e => exact Ext.pure _
      | none => exact Ext.pure _

end Limage
