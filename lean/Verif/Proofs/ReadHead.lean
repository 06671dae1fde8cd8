import Verif.Proofs.ReadLayers
/-! Reading the start of a file. -/
namespace Limage
open Spec

theorem readHeader_consumes : Consumes readHeader fileMagic (.ok 0) := by
  intro r hr
  unfold readHeader
  by_cases hl : r.pos < r.limit
  · rw [M.bind_ok (readInto_consumes (List.replicate 14 0) fileMagic (by decide) r hr hl)]
    have hg : getErr (r.adv fileMagic.length) = .ok (none, r.adv fileMagic.length) := by
      unfold getErr
      rw [show (r.adv fileMagic.length).err = none from hr.1]
    rw [M.bind_ok hg]
    rfl
  · have h1 := hr.2.2
    have : fileMagic.length = 14 := rfl
    omega

theorem palette_consumes : ∀ p : List (UInt8 × UInt8 × UInt8), Consumes (readPalette p.length)
    (p.flatMap fun c => [c.1, c.2.1, c.2.2]) (p.map fun c => .lrgb c.1 c.2.1 c.2.2)
  | [] => Consumes.pure _
  | c :: p => by
    rw [List.flatMap_cons]
    have h1 : ∀ x : UInt8, Consumes readUint8 [x] x := readUint8_consumes
    show Consumes (readPalette (p.length + 1)) ([c.1] ++ ([c.2.1] ++ ([c.2.2] ++ _))) _
    unfold readPalette
    refine (h1 _).bind ((h1 _).bind ((h1 _).bind ((palette_consumes p).map ?_)))
    rfl

theorem imageProps_consumes {F : Fmt} (hF : FmtOk F) (hl : ∀ p, F.palette = some p → p.length < 2 ^ 32) (f : Nat) :
    Consumes (imageProps (UInt32.ofNat F.typ) (f + 3) ⟨[], 0⟩) (colorMap F.palette ++ (prop 17 [1] ++ (num 0 ++ num 0)))
      (.ok ⟨paletteBack F, 1⟩) := by
  have hend : ∀ (f : Nat) (s : IProps), Consumes (imageProps (UInt32.ofNat F.typ) (f + 1) s) (num 0 ++ num 0) (.ok s) := by
    intro f s
    unfold imageProps
    refine (num_consumes _).bind ((num_consumes _).map ?_)
    rfl
  have hcomp : ∀ (f : Nat) (s : IProps), Consumes (imageProps (UInt32.ofNat F.typ) (f + 2) s) (prop 17 [1] ++ (num 0 ++ num 0)) (.ok { s with compression := 1 }) := by
    intro f s
    unfold imageProps prop
    rw [List.append_assoc, List.append_assoc]
    refine (num_consumes _).bind ((num_consumes _).bind ?_)
    rw [if_neg (by decide)]
    refine Consumes.bind (a := [1]) (x := (Except.ok { s with compression := 1 } : Except Err IProps)) ?_ (hend f { s with compression := 1 })
    unfold imageProp
    rw [if_neg (by decide), if_neg (by decide), if_neg (by decide), if_neg (by decide), if_neg (by decide), if_pos (by decide)]
    refine ((readUint8_consumes 1).cast (b := [1]) (by decide)).map ?_
    rfl
  cases hp : F.palette with
  | none =>
    have e : paletteBack F = [] := by unfold paletteBack; rw [hp]; rfl
    rw [e]
    exact hcomp (f + 1) _
  | some p =>
    have e : paletteBack F = p.map fun c => .lrgb c.1 c.2.1 c.2.2 := by unfold paletteBack; rw [hp]; rfl
    rw [e]
    have hpal := palette_consumes p
    generalize (p.map fun c => Color.lrgb c.1 c.2.1 c.2.2) = q at hpal
    have ht : F.typ = 2 := hF.palette (by rw [hp]; rfl)
    unfold colorMap
    unfold imageProps
    have : prop 1 (num p.length ++ p.flatMap fun c => [c.1, c.2.1, c.2.2]) ++ (prop 17 [1] ++ (num 0 ++ num 0)) =
      num 1 ++ (num (num p.length ++ p.flatMap fun c => [c.1, c.2.1, c.2.2]).length ++ ((num p.length ++ p.flatMap fun c => [c.1, c.2.1, c.2.2]) ++ (prop 17 [1] ++ (num 0 ++ num 0)))) := by
      rw [prop]; simp only [List.append_assoc]
    rw [this]
    refine (num_consumes _).bind ((num_consumes _).bind ?_)
    rw [if_neg (by decide)]
    refine Consumes.bind (x := (Except.ok ⟨q, 0⟩ : Except Err IProps)) ?_ (hcomp f ⟨q, 0⟩)
    unfold imageProp
    rw [if_neg (by decide), if_neg (by decide), if_neg (by decide), if_neg (by decide), if_pos (by decide), ht, if_neg (by decide)]
    refine Consumes.bind_nil (x := ()) (fun r _ => rfl) ?_
    refine (num_consumes _).bind ?_
    rw [u32_toNat (hl p hp)]
    refine hpal.map ?_
    rfl

theorem layerPointers_consumes : ∀ (ps : List Nat) (acc : List UInt64) (f : Nat), (∀ p ∈ ps, p ≠ 0 ∧ p < 2 ^ 32) →
    Consumes (layerPointers 0 (f + ps.length + 1) acc) (ps.flatMap num ++ num 0) (acc ++ ps.map fun p => (UInt32.ofNat p).toUInt64)
  | [], acc, f, _ => by
    unfold layerPointers
    refine (readPtr_consumes 0).map ?_
    rw [if_pos (by decide), List.map_nil, List.append_nil]
  | p :: ps, acc, f, h => by
    unfold layerPointers
    rw [List.flatMap_cons, List.append_assoc]
    refine (readPtr_consumes p).bind ?_
    obtain ⟨h1, h2⟩ := h p (List.mem_cons_self ..)
    rw [if_neg]
    · have := layerPointers_consumes ps (acc ++ [(UInt32.ofNat p).toUInt64]) f fun q hq => h q (List.mem_cons_of_mem _ hq)
      rw [List.append_assoc] at this
      exact this
    · intro h
      have h := congrArg UInt64.toNat h
      rw [UInt32.toNat_toUInt64, u32_toNat h2] at h
      exact h1 h

theorem readHead_at {D : Bytes} {F : Fmt} (hF : FmtOk F) {b : Rect} {ptrs : List Nat}
    (hat : HasAt (D.take maxString) 0 (fileHead F b ++ ptrs.flatMap num ++ num 0 ++ num 0)) (hp : ∀ p ∈ ptrs, p ≠ 0 ∧ p < 2 ^ 32) :
    ∃ r', readHead (newReader D) = .ok (.ok ⟨0, u32 b.dx, u32 b.dy, UInt32.ofNat F.typ, ⟨paletteBack F, 1⟩,
      ptrs.map fun p => (UInt32.ofNat p).toUInt64⟩, r') := by
  have hmax : maxString = 16777216 := rfl
  have hne : fileHead F b ++ ptrs.flatMap num ++ num 0 ++ num 0 ≠ [] := by
    intro h0
    have := congrArg List.length h0
    rw [List.length_append, num_length, List.length_nil] at this
    omega
  have s := sees_at hat hne
  have hlt := hasAt_lt hat hne
  have hle := HasAt.le hat hne
  unfold fileHead at s hlt hle
  simp only [List.append_assoc] at s hlt hle
  simp only [List.length_append, num_length, flatMap_num_length, List.length_take] at hlt hle
  have hl : ∀ p, F.palette = some p → p.length < 2 ^ 32 := by
    intro p hp
    have h1 : p.length ≤ (colorMap F.palette).length := by
      rw [hp]
      unfold colorMap prop
      have : p.length ≤ (p.flatMap fun c => [c.1, c.2.1, c.2.2]).length := by
        generalize p = l
        induction l with
        | nil => simp
        | cons a l ih => rw [List.flatMap_cons, List.length_append, List.length_cons]; simp; omega
      simp only [List.length_append]
      omega
    omega
  show ∃ r', readHead (readerAt D 0) = _
  unfold readHead
  rw [M.bind_ok (readHeader_consumes _ s.left)]
  have s := s.right
  dsimp only
  rw [M.bind_ok (int_consumes _ _ s.left)]
  have s := s.right
  rw [M.bind_ok (int_consumes _ _ s.left)]
  have s := s.right
  rw [M.bind_ok (num_consumes _ _ s.left)]
  have s := s.right
  have hpr : ∀ r, readPrecision ((0 : UInt32) > 0) r = .ok (0, r) := fun r => rfl
  rw [M.bind_ok (hpr _)]
  have e : ∀ x : Bytes, colorMap F.palette ++ (prop 17 [1] ++ (num 0 ++ (num 0 ++ x))) =
      (colorMap F.palette ++ (prop 17 [1] ++ (num 0 ++ num 0))) ++ x := by
    intro x; simp only [List.append_assoc]
  rw [e] at s
  have hprops : ∀ r : R, Sees r (colorMap F.palette ++ (prop 17 [1] ++ (num 0 ++ num 0))) → 1 ≤ r.data.length →
      readImageProperties (UInt32.ofNat F.typ) r = .ok (.ok ⟨paletteBack F, 1⟩, r.adv (colorMap F.palette ++ (prop 17 [1] ++ (num 0 ++ num 0))).length) := by
    intro r hr h1
    unfold readImageProperties
    have := imageProps_consumes hF hl (r.data.length - 1) r hr
    rwa [show r.data.length - 1 + 3 = r.data.length + 2 by omega] at this
  rw [M.bind_ok (hprops _ s.left (show 1 ≤ D.length by omega))]
  have s := s.right
  dsimp only
  rw [← List.append_assoc (ptrs.flatMap num)] at s
  have hptrs : ∀ r : R, Sees r (ptrs.flatMap num ++ num 0) → ptrs.length ≤ r.data.length →
      readLayerPointers 0 r = .ok (ptrs.map fun p => (UInt32.ofNat p).toUInt64, r.adv (ptrs.flatMap num ++ num 0).length) := by
    intro r hr h1
    unfold readLayerPointers
    have := layerPointers_consumes ptrs [] (r.data.length + 1 - ptrs.length) hp r hr
    rwa [show r.data.length + 1 - ptrs.length + ptrs.length + 1 = r.data.length + 2 by omega] at this
  rw [M.bind_ok (hptrs _ s.left (show ptrs.length ≤ D.length by omega))]
  have s := s.right
  have hg : ∀ r : R, r.err = none → getErr r = .ok (none, r) := by
    intro r hr; unfold getErr; rw [hr]
  rw [M.bind_ok (hg _ s.1)]
  exact ⟨_, rfl⟩

end Limage
