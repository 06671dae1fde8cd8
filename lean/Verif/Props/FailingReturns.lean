import Verif.Proofs.FailTotal
import Verif.Props.ReadFailures
import Verif.Props.TextRead
/-!
# C155: a source that fails does not crash the decoder
-/
namespace Limage.Failing

theorem layerAtPtr_runs (pan : Prop) (c : Ctx) (D : Bytes) (plan : Nat → Option (Nat × Err)) (p : UInt64) (hn : NoWrap D)
    (hh : ∀ b, Spec.TextIn D b → c.env.parseText b ≠ .hang)
    (hf : pan ∨ ((∀ b, Spec.TextIn D b → c.env.parseText b ≠ .panic) ∧ FineSizes D ∧ (c.decompress = true ∨ c.compression = 0) ∧
      c.baseType.toNat ≤ 2)) : layerAtPtr c D plan p ≠ .hang ∧ (layerAtPtr c D plan p = .panic → pan) := by
  have := ((goto_runs p).bind fun _ => readLayer_runs (pan := pan) c hn hh hf) (newReader plan D) rfl
  unfold layerAtPtr
  revert this
  cases (goto p >>= fun _ => readLayer c : M DLayer) (newReader plan D) with
  | ok x => intro _; exact ⟨(by intro h; cases h), (by intro h; cases h)⟩
  | panic => intro h; exact ⟨(by intro h; cases h), fun _ => h⟩
  | hang => intro h; exact absurd h id

theorem decodeLayers_runs (pan : Prop) (env : Env) (sch : Sched) (hs : sch.Valid) (decompress : Bool) (D : Bytes)
    (plans : Nat → Nat → Option (Nat × Err)) (h : Head)
    (hn : NoWrap D) (hh : ∀ b, Spec.TextIn D b → env.parseText b ≠ .hang)
    (hf : pan ∨ ((∀ b, Spec.TextIn D b → env.parseText b ≠ .panic) ∧ FineSizes D ∧ (decompress = true ∨ h.props.compression = 0) ∧
      h.baseType.toNat ≤ 2)) :
    decodeLayers env sch decompress D plans h ≠ .hang ∧ (decodeLayers env sch decompress D plans h = .panic → pan) := by
  have hg := gather_runs pan (h.ptrs.mapIdx fun i p => layerAtPtr (h.ctx env decompress) D (plans i) p) (by
    intro x hx
    obtain ⟨i, hi, rfl⟩ := List.mem_mapIdx.1 hx
    exact layerAtPtr_runs pan _ D _ _ hn hh hf)
  unfold decodeLayers readLayers
  revert hg
  cases gather (h.ptrs.mapIdx fun i p => layerAtPtr (h.ctx env decompress) D (plans i) p) with
  | hang => intro hg; exact absurd rfl hg.1
  | panic => intro hg; exact ⟨(by intro h; cases h), fun _ => hg.2 rfl⟩
  | ok ls =>
    intro _
    dsimp only
    cases firstErr (ls.map (·.2)) (sch.layers h.ptrs.length) with
    | some e => exact ⟨(by intro h; cases h), (by intro h; cases h)⟩
    | none =>
      dsimp only
      cases hm : makeGroups (sizeRect h.width.toNat h.height.toNat) (ls.map (·.1)) GState.start with
      | error e => exact ⟨(by intro h; cases h), (by intro h; cases h)⟩
      | ok s =>
        dsimp only
        rw [makeImage_tree (makeGroups_inv ginv_start hm) _ (hs.2 _)]
        exact ⟨(by intro h; cases h), (by intro h; cases h)⟩

end Limage.Failing

namespace Limage
open Spec

/-- Whatever calls to the source fail, after however many bytes and with whatever errors, `DecodeConfig` returns. -/
theorem C155_config (D : Bytes) (plan : Nat → Option (Nat × Err)) : ∃ c e, Failing.decodeConfig D plan = .ok (c, e) := by
  obtain ⟨⟨c, e⟩, r, h, _⟩ := Failing.decodeConfigM_total (Failing.newReader plan D)
  unfold Failing.decodeConfig
  rw [h]
  exact ⟨c, e, rfl⟩

/-- a call that fails after a part of what was asked for -/
example : ∃ c e, Failing.decodeConfig maskedLayer (fun i => if i = 2 then some (3, .eof) else none) = .ok (c, some e) :=
  ⟨_, _, rfl⟩

/-- Whatever calls fail, `Decode` and `DecodeCompressed` do not run forever on a file in which no image of zero width has a height
above 0xffffffc0 and on whose descriptions of texts the parser does not run forever. -/
theorem C155_terminates (env : Env) (sch : Sched) (hs : sch.Valid) (decompress : Bool) (D : Bytes)
    (head : Nat → Option (Nat × Err)) (plans : Nat → Nat → Option (Nat × Err))
    (hh : ∀ b, Spec.TextIn D b → env.parseText b ≠ .hang) (hn : NoWrap D) :
    Failing.decodeImage env sch decompress D head plans ≠ .hang := by
  unfold Failing.decodeImage
  obtain ⟨x, r, e, _⟩ := Failing.readHead_total (Failing.newReader head D)
  rw [e]
  cases x with
  | error e => intro h; cases h
  | ok h => exact (Failing.decodeLayers_runs True env sch hs decompress D plans h hn hh (Or.inl trivial)).1

example : NoWrap hugeLayer ∧ exSched.Valid ∧ (∀ b, Spec.TextIn hugeLayer b → exEnv.parseText b ≠ .hang) :=
  ⟨noWrapB (by decide +kernel), ⟨fun _ => List.Perm.refl _, fun _ => List.Perm.refl _⟩, by intro b _ h; cases h⟩

/-- Whatever calls fail, `Decode` returns, with a picture or an error, on a file of a known base type with images of sizes that
can be handled and descriptions of texts that the parser returns from. -/
theorem C155_returns (env : Env) (sch : Sched) (hs : sch.Valid) (D : Bytes)
    (head : Nat → Option (Nat × Err)) (plans : Nat → Nat → Option (Nat × Err))
    (hh : ∀ b, Spec.TextIn D b → ∃ t, env.parseText b = .ok t) (hn : NoWrap D) (hf : FineSizes D)
    (hb : fromBE ((D.drop 22).take 4) ≤ 2) :
    (∃ im, Failing.decodeImage env sch true D head plans = .ok (.ok im)) ∨
    (∃ e, Failing.decodeImage env sch true D head plans = .ok (.error e)) := by
  have key : Failing.decodeImage env sch true D head plans ≠ .hang ∧ Failing.decodeImage env sch true D head plans ≠ .panic := by
    unfold Failing.decodeImage
    obtain ⟨x, r, e, _⟩ := Failing.readHead_total (Failing.newReader head D)
    rw [e]
    cases x with
    | error e => exact ⟨(by intro h; cases h), (by intro h; cases h)⟩
    | ok h =>
      have he := Failing.readHead_tells _ _ _ e ⟨h, rfl⟩
      have hr := (Failing.Agrees.readHead.good _ _ _ e he).2
      change Limage.readHead (Limage.newReader D) = _ at hr
      have := Failing.decodeLayers_runs False env sch hs true D plans h hn
        (by intro b hi hb; obtain ⟨t, ht⟩ := hh b hi; rw [ht] at hb; cases hb)
        (Or.inr ⟨(by intro b hi hb; obtain ⟨t, ht⟩ := hh b hi; rw [ht] at hb; cases hb), hf, Or.inl rfl,
          by rw [← readHead_baseType D h _ hr]; exact hb⟩)
      exact ⟨this.1, fun h => this.2 h⟩
  cases h : Failing.decodeImage env sch true D head plans with
  | ok x =>
    cases x with
    | ok im => exact Or.inl ⟨im, rfl⟩
    | error e => exact Or.inr ⟨e, rfl⟩
  | panic => exact absurd h key.2
  | hang => exact absurd h key.1

/-- a file it holds for, with a call of the layer that fails in the middle of a tile -/
example : (NoWrap maskedLayer ∧ FineSizes maskedLayer ∧ fromBE ((maskedLayer.drop 22).take 4) ≤ 2 ∧
      (∀ b, Spec.TextIn maskedLayer b → ∃ t, exEnv.parseText b = .ok t)) ∧
    Failing.isError (Failing.decodeImage exEnv exSched true maskedLayer (fun _ => none)
      fun _ i => if i = 20 then some (0, .unexpectedEOF) else none) = true :=
  ⟨⟨noWrapB (by decide +kernel), fineSizesB (by decide +kernel), by decide +kernel, fun _ _ => ⟨_, rfl⟩⟩, by decide +kernel⟩

/-- The same with the parser of text.go, for files whose descriptions of texts have only characters that can be read. -/
theorem C155_clean (e : TextEnv) (xml : Bytes → List XmlTok × Bool) (hxml : ∀ s, Balanced 0 (xml s).1)
    (env : Env) (he : env.parseText = parseTextData e xml) (sch : Sched) (hs : sch.Valid) (decompress : Bool) (D : Bytes)
    (head : Nat → Option (Nat × Err)) (plans : Nat → Nat → Option (Nat × Err))
    (hc : ∀ b, Spec.TextIn D b → Spec.Clean .outside b) (hn : NoWrap D) :
    Failing.decodeImage env sch decompress D head plans ≠ .hang := by
  refine C155_terminates env sch hs decompress D head plans (fun b hb hh => ?_) hn
  rw [he] at hh
  rcases C76_reads_partial e xml hxml b (hc b hb) with ⟨r, h⟩ | ⟨_, _, _, h⟩
  · rw [h] at hh; cases hh
  · rw [h] at hh; cases hh

/-- a file without texts -/
example : NoWrap maskedLayer ∧ ∀ b, Spec.TextIn maskedLayer b → Spec.Clean .outside b :=
  ⟨noWrapB (by decide +kernel), fun b hb => by rw [textIn_none (by decide +kernel) hb]; trivial⟩

/-- `zeroWidth` with a number behind its tile pointers, where a zero is expected -/
def zeroWidthTail : Bytes :=
  fileTypeID ++ [118, 48, 48, 51, 0] ++ be 4 1 ++ be 4 1 ++ be 4 0 ++ be 4 0 ++ be 4 0 ++ be 4 42 ++ be 4 0 ++
  be 4 0 ++ be 4 0xffffffff ++ be 4 1 ++ be 4 0 ++ be 4 0 ++ be 4 0 ++ be 4 74 ++ be 4 0 ++
  be 4 0 ++ be 4 0xffffffff ++ be 4 4 ++ be 4 90 ++ be 4 0 ++ be 4 0xffffffff ++ be 4 1

set_option maxRecDepth 100000 in
/-- The condition on sizes is needed, and is about failing reads too: there is a file that is refused with an error, but that is
read forever when a certain call fails (what was not read is taken for a zero then). -/
theorem C155_sizes_needed : ∃ D plans, ∀ env sch decompress, sch.Valid →
    Failing.isError (Limage.decodeImage env sch decompress D) = true ∧
    Failing.decodeImage env sch decompress D (fun _ => none) plans = .hang := by
  refine ⟨zeroWidthTail, fun _ i => if i = 14 then some (0, .eof) else none, fun env sch decompress hs => ⟨?_, ?_⟩⟩
  · obtain ⟨l, g⟩ := sch
    have hl : l 1 = [0] := List.perm_singleton.1 (hs.1 1)
    cases decompress
    · cbv
      rw [hl]
      rfl
    · cbv
      rw [hl]
      rfl
  · rw [← Outcome.isHang_iff]
    cases decompress
    · cbv
    · cbv

end Limage
