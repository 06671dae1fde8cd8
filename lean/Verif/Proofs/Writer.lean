import Verif.Model.XcfEncode
/-!
# WRuns of the encoder: what is true of every run
-/
namespace Limage

theorem W.bind_some {α β : Type} {m : W α} {f : α → W β} {env : WEnv} {s s' : WS} {b : β} {l : List WCall} :
    (m >>= f) env s = some (b, s', l) ↔
      ∃ a s1 l1 l2, l = l1 ++ l2 ∧ m env s = some (a, s1, l1) ∧ f a env s1 = some (b, s', l2) := by
  show W.bind m f env s = _ ↔ _
  unfold W.bind
  constructor
  · intro h
    cases hm : m env s with
    | none => rw [hm] at h; cases h
    | some x =>
      obtain ⟨a, s1, l1⟩ := x
      rw [hm] at h
      simp only at h
      cases hf : f a env s1 with
      | none => rw [hf] at h; cases h
      | some y =>
        obtain ⟨b', s2, l2⟩ := y
        rw [hf] at h
        cases h
        exact ⟨a, s1, l1, l2, rfl, rfl, hf⟩
  · rintro ⟨a, s1, l1, l2, rfl, hm, hf⟩
    rw [hm]
    simp only
    rw [hf]

/-- inversion of a `bind` in hypothesis `h`: the first part ran as stated in `e`, `h` is about the rest -/
macro "wstep " h:ident " as " a:ident s:ident l:ident k:ident e:ident : tactic =>
  `(tactic| (have hb := W.bind_some.1 $h; clear $h; obtain ⟨$a:ident, $s:ident, $l:ident, $k:ident, hl, $e:ident, $h:ident⟩ := hb; subst hl))

theorem W.pure_some {α : Type} {a b : α} {env : WEnv} {s s' : WS} {l : List WCall} :
    (Pure.pure a : W α) env s = some (b, s', l) ↔ a = b ∧ s = s' ∧ l = [] := by
  show some (a, s, ([] : List WCall)) = _ ↔ _
  simp [eq_comm]

theorem W.get_some {α : Type} {o : Option α} {b : α} {env : WEnv} {s s' : WS} {l : List WCall} :
    W.get o env s = some (b, s', l) ↔ o = some b ∧ s' = s ∧ l = [] := by
  cases o <;> simp [W.get, eq_comm]

theorem currentPos_some {b : UInt32} {env : WEnv} {s s' : WS} {l : List WCall} :
    currentPos env s = some (b, s', l) ↔ b = UInt32.ofNat s.pos ∧ s' = s ∧ l = [] := by
  simp [currentPos, eq_comm]

theorem reservePointers_some {n : UInt32} {pw : PW} {env : WEnv} {s s' : WS} {l : List WCall} :
    reservePointers n env s = some (pw, s', l) ↔
      pw = ⟨s.pos, none, n⟩ ∧ s' = { s with pos := s.pos + n.toNat * 4 } ∧ l = [] := by
  simp [reservePointers, eq_comm]

theorem pixelAt_some {i : Img} {p : Pt} {c : Color} {env : WEnv} {s s' : WS} {l : List WCall} :
    pixelAt i p env s = some (c, s', l) ↔
      i.at env.ρ p s.draws = some (c, s'.draws) ∧ s' = { s with draws := s'.draws } ∧ l = [] := by
  unfold pixelAt
  cases h : i.at env.ρ p s.draws with
  | none => simp
  | some x =>
    obtain ⟨c', n⟩ := x
    simp only [Option.some.injEq, Prod.mk.injEq]
    constructor
    · rintro ⟨rfl, rfl, rfl⟩
      simp
    · rintro ⟨⟨rfl, hn⟩, h2, rfl⟩
      subst hn
      exact ⟨rfl, h2.symm, rfl⟩

/-! ### Failures -/

/-- What holds between the states before and after a piece of the program that made the calls `l`:
the error is set if it was set before or one of the calls failed; it stems from a failed call;
nothing is written sequentially once it is set. -/
structure WRun (env : WEnv) (s s' : WS) (l : List WCall) : Prop where
  calls : s'.calls = s.calls + l.length
  err : s'.err ≠ none ↔ s.err ≠ none ∨ ∃ c ∈ l, c.failed ≠ none
  src : ∀ k, s'.err = some k → (env.sink k ≠ none ∧ k < s'.calls) ∨ s.err = some k
  mark : ∀ i (h : i < l.length), l[i].failed ≠ none ↔ env.sink (s.calls + i) ≠ none
  stop : s.err ≠ none → ∀ c ∈ l, c.seq = false
  pair : l.Pairwise fun c d => c.failed ≠ none → d.seq = false

theorem WRun.refl {env : WEnv} {s s' : WS} (h : s'.err = s.err) (hc : s'.calls = s.calls) : WRun env s s' [] :=
  ⟨by simp [hc], by simp [h], by intro k hk; rw [h] at hk; exact .inr hk, by simp, by simp, by simp⟩

theorem WRun.trans {env : WEnv} {s s1 s2 : WS} {l1 l2 : List WCall} (a : WRun env s s1 l1) (b : WRun env s1 s2 l2) :
    WRun env s s2 (l1 ++ l2) where
  calls := by rw [b.calls, a.calls, List.length_append, Nat.add_assoc]
  err := by
    rw [b.err, a.err]
    simp only [List.mem_append]
    constructor
    · rintro ((h | ⟨c, hc, h⟩) | ⟨c, hc, h⟩)
      · exact .inl h
      · exact .inr ⟨c, .inl hc, h⟩
      · exact .inr ⟨c, .inr hc, h⟩
    · rintro (h | ⟨c, hc | hc, h⟩)
      · exact .inl (.inl h)
      · exact .inl (.inr ⟨c, hc, h⟩)
      · exact .inr ⟨c, hc, h⟩
  src := by
    intro k hk
    rcases b.src k hk with h | h
    · exact .inl h
    · rcases a.src k h with ⟨h1, h2⟩ | h
      · exact .inl ⟨h1, by have := b.calls; omega⟩
      · exact .inr h
  mark := by
    intro i hi
    rw [List.length_append] at hi
    by_cases h : i < l1.length
    · rw [List.getElem_append_left h]
      exact a.mark i h
    · rw [List.getElem_append_right (by omega), b.mark (i - l1.length) (by omega), a.calls]
      rw [show s.calls + l1.length + (i - l1.length) = s.calls + i by omega]
  stop := by
    intro h c hc
    rcases List.mem_append.1 hc with hc | hc
    · exact a.stop h c hc
    · exact b.stop (a.err.2 (.inl h)) c hc
  pair := by
    rw [List.pairwise_append]
    exact ⟨a.pair, b.pair, fun c hc d hd h => b.stop (a.err.2 (.inr ⟨c, hc, h⟩)) d hd⟩

/-- programs all of whose runs are as described by `WRun` -/
def WRuns (m : W α) : Prop := ∀ env s a s' l, m env s = some (a, s', l) → WRun env s s' l

theorem WRuns.bind {α β : Type} {m : W α} {f : α → W β} (hm : WRuns m) (hf : ∀ a, WRuns (f a)) : WRuns (m >>= f) := by
  intro env s b s' l h
  obtain ⟨a, s1, l1, l2, rfl, h1, h2⟩ := W.bind_some.1 h
  exact (hm _ _ _ _ _ h1).trans (hf a _ _ _ _ _ h2)

theorem WRuns.pure {α : Type} (a : α) : WRuns (Pure.pure a : W α) := by
  intro env s b s' l h
  obtain ⟨-, rfl, rfl⟩ := W.pure_some.1 h
  exact .refl rfl rfl

theorem WRuns.get {α : Type} (o : Option α) : WRuns (W.get o) := by
  intro env s b s' l h
  obtain ⟨-, rfl, rfl⟩ := W.get_some.1 h
  exact .refl rfl rfl

theorem WRuns.currentPos : WRuns currentPos := by
  intro env s b s' l h
  obtain ⟨-, rfl, rfl⟩ := currentPos_some.1 h
  exact .refl rfl rfl

theorem WRuns.pixelAt (i : Img) (p : Pt) : WRuns (pixelAt i p) := by
  intro env s b s' l h
  obtain ⟨-, h2, rfl⟩ := pixelAt_some.1 h
  exact .refl (by rw [h2]) (by rw [h2])

theorem WRuns.write (p : Bytes) : WRuns (write p) := by
  intro env s a s' l h
  unfold Limage.write at h
  cases he : s.err with
  | some k =>
    rw [he] at h
    cases h
    exact .refl rfl rfl
  | none =>
    rw [he] at h
    simp only [writeCall] at h
    cases hk : env.sink s.calls with
    | none =>
      rw [hk] at h
      cases h
      refine ⟨by simp, by simp [he], by simp, ?_, by simp [he], by simp⟩
      intro i hi
      obtain rfl : i = 0 := by simpa using hi
      simp [hk]
    | some n =>
      rw [hk] at h
      cases h
      refine ⟨by simp, by simp, ?_, ?_, by simp [he], by simp⟩
      · rintro k hk'
        simp only [Option.some.injEq] at hk'
        subst hk'
        exact .inl ⟨by simp [hk], by simp⟩
      · intro i hi
        obtain rfl : i = 0 := by simpa using hi
        simp [hk]

theorem WRuns.writeUint32 (x : UInt32) : WRuns (writeUint32 x) := .write _
theorem WRuns.writeUint8 (x : UInt8) : WRuns (writeUint8 x) := .write _

theorem WRuns.writeAll (ps : List Bytes) : WRuns (writeAll ps) := by
  induction ps with
  | nil => exact .pure ()
  | cons p ps ih => exact .bind (.write p) fun _ => ih

theorem WRuns.writeUint32s (ps : List UInt32) : WRuns (writeUint32s ps) := by
  induction ps with
  | nil => exact .pure ()
  | cons p ps ih => exact .bind (.write _) fun _ => ih

theorem WRuns.writeString (s : GoString) : WRuns (writeString s) :=
  .bind (.write _) fun _ => .bind (.write _) fun _ => .write _

/-- the error of a pointer writer stems from a failed call and is known to the main writer -/
def PwOk (env : WEnv) (s : WS) (pw : PW) : Prop :=
  ∀ k, pw.err = some k → (env.sink k ≠ none ∧ k < s.calls) ∧ s.err ≠ none

theorem PwOk.mono {env : WEnv} {s s' : WS} {l : List WCall} {pw : PW} (h : PwOk env s pw) (r : WRun env s s' l) :
    PwOk env s' pw := by
  intro k hk
  obtain ⟨⟨h1, h2⟩, h3⟩ := h k hk
  exact ⟨⟨h1, by have := r.calls; omega⟩, r.err.2 (.inl h3)⟩

theorem WRun.reserve {env : WEnv} {s s' : WS} {n : UInt32} {pw : PW} {l : List WCall}
    (h : reservePointers n env s = some (pw, s', l)) : WRun env s s' l ∧ PwOk env s' pw := by
  obtain ⟨rfl, rfl, rfl⟩ := reservePointers_some.1 h
  exact ⟨.refl rfl rfl, by simp [PwOk]⟩

theorem WRun.reserveList {env : WEnv} {s s' : WS} {n : UInt32} {pw : PW} {l : List WCall}
    (h : reservePointerList n env s = some (pw, s', l)) : WRun env s s' l ∧ PwOk env s' pw := by
  unfold reservePointerList at h
  obtain ⟨p, s1, l1, l2, rfl, h1, h2⟩ := W.bind_some.1 h
  obtain ⟨_, s2, l3, l4, rfl, h3, h4⟩ := W.bind_some.1 h2
  obtain ⟨rfl, rfl, rfl⟩ := W.pure_some.1 h4
  obtain ⟨r1, p1⟩ := WRun.reserve h1
  have r2 := WRuns.writeUint32 0 _ _ _ _ _ h3
  rw [List.append_nil]
  exact ⟨r1.trans r2, p1.mono r2⟩

theorem WRun.pointer {env : WEnv} {s s' : WS} {p : PW} {x : UInt32} {pw : PW} {l : List WCall} (ok : PwOk env s p)
    (h : writePointer p x env s = some (pw, s', l)) : WRun env s s' l ∧ PwOk env s' pw := by
  unfold writePointer at h
  split at h
  · cases he : p.err with
    | some k =>
      obtain ⟨⟨h1, h2⟩, h3⟩ := ok k he
      rw [he] at h
      simp only [Option.some.injEq, Prod.mk.injEq] at h
      obtain ⟨rfl, rfl, rfl⟩ := h
      refine ⟨⟨by simp, by simp [h3], ?_, by simp, by simp, by simp⟩, ?_⟩
      · intro j hj
        simp only [Option.some.injEq] at hj
        subst hj
        exact .inl ⟨h1, h2⟩
      · intro j hj
        simp only [Option.some.injEq] at hj
        subst hj
        exact ⟨⟨h1, h2⟩, by simp⟩
    | none =>
      rw [he] at h
      simp only [writeCall] at h
      cases hk : env.sink s.calls with
      | none =>
        rw [hk] at h
        simp only [Option.some.injEq, Prod.mk.injEq] at h
        obtain ⟨rfl, rfl, rfl⟩ := h
        refine ⟨⟨by simp, by simp, fun k hk => .inr hk, ?_, by simp, by simp⟩, by simp [PwOk]⟩
        intro i hi
        obtain rfl : i = 0 := by simpa using hi
        simp [hk]
      | some n =>
        rw [hk] at h
        simp only [Option.some.injEq, Prod.mk.injEq] at h
        obtain ⟨rfl, rfl, rfl⟩ := h
        refine ⟨⟨by simp, by simp, ?_, ?_, by simp, by simp⟩, ?_⟩
        · rintro k hk'
          simp only [Option.some.injEq] at hk'
          subst hk'
          exact .inl ⟨by simp [hk], by simp⟩
        · intro i hi
          obtain rfl : i = 0 := by simpa using hi
          simp [hk]
        · rintro k hk'
          simp only [Option.some.injEq] at hk'
          subst hk'
          exact ⟨⟨by simp [hk], by simp⟩, by simp⟩
  · cases h
    exact ⟨.refl rfl rfl, ok⟩

/-! ### The encoder -/

theorem WRuns.pixelsAt (i : Img) (ps : List Pt) : WRuns (pixelsAt i ps) := by
  induction ps with
  | nil => exact .pure _
  | cons p ps ih => exact .bind (.pixelAt i p) fun _ => .bind ih fun _ => .pure _

theorem WRuns.encodeRLE (d : Bytes) : WRuns (encodeRLE d) := .bind (.get _) fun ws => .writeAll ws

theorem WRuns.writeChannels (px : List Bytes) (k : Nat) : ∀ n, WRuns (writeChannels px k n) := by
  induction k with
  | zero => exact fun _ => .pure _
  | succ k ih => exact fun n => .bind (.encodeRLE _) fun _ => ih _

theorem WRun.tiles (i : Img) (f : Color → Bytes) (ch : Nat) (b : Rect) (env : WEnv) : ∀ (os : List Pt) (pw : PW) (s s' : WS)
    (l : List WCall), PwOk env s pw → writeTiles i f ch b os pw env s = some ((), s', l) → WRun env s s' l
  | [], pw, s, s', l, _, h => by
    obtain ⟨-, rfl, rfl⟩ := W.pure_some.1 h
    exact .refl rfl rfl
  | o :: os, pw, s, s', l, ok, h => by
    unfold writeTiles at h
    wstep h as cs s1 l1 k1 h1
    wstep h as p s2 l2 k2 h2
    wstep h as pw' s3 l3 k3 h3
    wstep h as us4 s4 l4 k4 h4
    have r1 := WRuns.pixelsAt _ _ _ _ _ _ _ h1
    have r2 := WRuns.currentPos _ _ _ _ _ h2
    obtain ⟨r3, ok3⟩ := WRun.pointer ((ok.mono r1).mono r2) h3
    have r4 := WRuns.writeChannels _ _ _ _ _ _ _ _ h4
    exact r1.trans (r2.trans (r3.trans (r4.trans (WRun.tiles i f ch b env os pw' s4 s' _ (ok3.mono r4) h))))

theorem WRuns.writeImage (i : Img) (f : Color → Bytes) (ch : Nat) : WRuns (writeImage i f ch) := by
  refine .bind (.get _) fun b => .bind (.write _) fun _ => .bind (.write _) fun _ => .bind (.write _) fun _ =>
    .bind .currentPos fun p => .bind (.write _) fun _ => .bind (.write _) fun _ => .bind (.write _) fun _ =>
    .bind (.write _) fun _ => ?_
  intro env s a s' l h
  wstep h as pw s1 l1 k1 h1
  obtain ⟨r1, ok1⟩ := WRun.reserveList h1
  exact r1.trans (WRun.tiles i f ch b env _ _ _ _ _ ok1 h)

theorem WRuns.writeChannel (m : GrayImg) : WRuns (writeChannel m) :=
  .bind (.write _) fun _ => .bind (.write _) fun _ => .bind (.writeString _) fun _ => .bind (.write _) fun _ =>
    .bind (.write _) fun _ => .bind .currentPos fun _ => .bind (.write _) fun _ => .writeImage _ _ _

theorem WRuns.writeText (t : TextData) (dx dy : UInt32) : WRuns (writeText t dx dy) := by
  intro env s a s' l h
  unfold Limage.writeText at h
  split at h
  · cases h
  · refine WRuns.bind (.write _) (fun _ => .bind (.write _) fun _ => .bind (.write _) fun _ => .bind (.write _) fun _ =>
      .bind (.write _) fun _ => .bind (.writeString _) fun _ => .bind (.write _) fun _ => .bind (.write _) fun _ =>
      .write _) _ _ _ _ _ h

theorem WRuns.writePath (g : List UInt32) : WRuns (writePath g) := by
  unfold Limage.writePath
  split
  · exact .bind (.write _) fun _ => .bind (.write _) fun _ => .writeUint32s _
  · exact .pure _

theorem WRuns.writeTextProp (t : TextData) (dx dy : UInt32) : WRuns (writeTextProp t dx dy) := by
  unfold Limage.writeTextProp
  split
  · exact .writeText _ _ _
  · exact .pure _

theorem WRuns.writeGroupProp (g : Bool) : WRuns (writeGroupProp g) := by
  unfold Limage.writeGroupProp
  split
  · exact .bind (.write _) fun _ => .write _
  · exact .pure _

theorem WRuns.writeProperties (e : Enc) (l : Layer) (ox oy : UInt32) (groups : List UInt32) :
    WRuns (writeProperties e l ox oy groups) :=
  .bind (.write _) fun _ => .bind (.write _) fun _ => .bind (.write _) fun _ => .bind (.writeString _) fun _ =>
  .bind (.write _) fun _ => .bind (.write _) fun _ => .bind (.write _) fun _ => .bind (.write _) fun _ =>
  .bind (.write _) fun _ => .bind (.write _) fun _ => .bind (.write _) fun _ => .bind (.write _) fun _ =>
  .bind (.write _) fun _ => .bind (.write _) fun _ => .bind (.writePath _) fun _ => .bind (.writeTextProp _ _ _) fun _ =>
  .bind (.writeGroupProp _) fun _ => .bind (.write _) fun _ => .bind (.write _) fun _ => .bind (.write _) fun _ => .write _

theorem WRuns.writeLayerData (e : Enc) (i : Img) (m : Option GrayImg) : WRuns (writeLayerData e i m) := by
  intro env s a s' l h
  unfold Limage.writeLayerData at h
  wstep h as ptrs s1 l1 k1 h1
  wstep h as p s2 l2 k2 h2
  wstep h as ptrs' s3 l3 k3 h3
  wstep h as us4 s4 l4 k4 h4
  obtain ⟨r1, ok1⟩ := WRun.reserve h1
  have r2 := WRuns.currentPos _ _ _ _ _ h2
  obtain ⟨r3, ok3⟩ := WRun.pointer (ok1.mono r2) h3
  have r4 := WRuns.writeImage _ _ _ _ _ _ _ _ h4
  refine r1.trans (r2.trans (r3.trans (r4.trans ?_)))
  unfold writeMask at h
  cases m with
  | none =>
    wstep h as pw s5 l5 k5 h5
    obtain ⟨-, rfl, rfl⟩ := W.pure_some.1 h
    exact (WRun.pointer (ok3.mono r4) h5).1.trans (.refl rfl rfl)
  | some m =>
    wstep h as p5 s5 l5 k5 h5
    wstep h as pw s6 l6 k6 h6
    have r5 := WRuns.currentPos _ _ _ _ _ h5
    exact r5.trans ((WRun.pointer ((ok3.mono r4).mono r5) h6).1.trans (WRuns.writeChannel _ _ _ _ _ _ h))

theorem WRun.own {e : Enc} {l : Layer} {ox oy : UInt32} {groups : List UInt32} {env : WEnv} {pw pw' : PW} {s s' : WS}
    {k : List WCall} (ok : PwOk env s pw) (h : writeOwn e l ox oy groups pw env s = some (pw', s', k)) :
    WRun env s s' k ∧ PwOk env s' pw' := by
  unfold writeOwn at h
  wstep h as p s1 l1 k1 h1
  wstep h as pw1 s2 l2 k2 h2
  wstep h as us3 s3 l3 k3 h3
  wstep h as us4 s4 l4 k4 h4
  wstep h as us5 s5 l5 k5 h5
  obtain ⟨rfl, rfl, rfl⟩ := W.pure_some.1 h
  have r1 := WRuns.currentPos _ _ _ _ _ h1
  obtain ⟨r2, ok2⟩ := WRun.pointer (ok.mono r1) h2
  have r3 := WRuns.writeProperties _ _ _ _ _ _ _ _ _ _ h3
  have r4 := WRuns.write _ _ _ _ _ _ h4
  have r5 := WRuns.writeLayerData _ _ _ _ _ _ _ _ h5
  rw [List.append_nil]
  exact ⟨r1.trans (r2.trans (r3.trans (r4.trans r5))), ((ok2.mono r3).mono r4).mono r5⟩

mutual
theorem WRun.sub (e : Enc) (env : WEnv) (i : Img) (ox oy : UInt32) (groups : List UInt32) (pw pw' : PW) (s s' : WS) (k : List WCall)
    (ok : PwOk env s pw) (h : writeSub e i ox oy groups pw env s = some (pw', s', k)) :
    WRun env s s' k ∧ PwOk env s' pw' := by
  match i with
  | .group g =>
    unfold writeSub at h
    exact WRun.layers e env g 0 ox oy groups pw pw' s s' k ok h
  | .leaf _ | .nil | .text _ _ | .masked _ _ =>
    unfold writeSub at h
    obtain ⟨rfl, rfl, rfl⟩ := W.pure_some.1 h
    exact ⟨.refl rfl rfl, ok⟩
termination_by structural i

theorem WRun.layers (e : Enc) (env : WEnv) (g : List Layer) (n : Nat) (ox oy : UInt32) (groups : List UInt32) (pw pw' : PW)
    (s s' : WS) (k : List WCall)
    (ok : PwOk env s pw) (h : writeLayers e g n ox oy groups pw env s = some (pw', s', k)) :
    WRun env s s' k ∧ PwOk env s' pw' := by
  match g with
  | [] =>
    unfold writeLayers at h
    obtain ⟨rfl, rfl, rfl⟩ := W.pure_some.1 h
    exact ⟨.refl rfl rfl, ok⟩
  | ⟨name, b, mode, inv, tr, im⟩ :: rest =>
    unfold writeLayers at h
    wstep h as pw1 s1 l1 k1 h1
    wstep h as pw2 s2 l2 k2 h2
    obtain ⟨r1, ok1⟩ := WRun.own ok h1
    obtain ⟨r2, ok2⟩ := WRun.sub e env im _ _ _ _ _ _ _ _ ok1 h2
    obtain ⟨r3, ok3⟩ := WRun.layers e env rest _ _ _ _ _ _ _ _ _ ok2 h
    exact ⟨r1.trans (r2.trans r3), ok3⟩
termination_by structural g
end

theorem WRuns.writeColors (p : List Color) : WRuns (writeColors p) := by
  induction p with
  | nil => exact .pure _
  | cons c cs ih => exact .bind (.write _) fun _ => .bind (.write _) fun _ => .bind (.write _) fun _ => ih

theorem WRuns.writeColorMap (p : Option (List Color)) : WRuns (writeColorMap p) := by
  cases p with
  | none => exact .pure _
  | some p => exact .bind (.write _) fun _ => .bind (.write _) fun _ => .bind (.write _) fun _ => .writeColors p

theorem WRuns.writeContent (e : Enc) (i : Img) : WRuns (writeContent e i) := by
  intro env s a s' l h
  unfold Limage.writeContent at h
  split at h
  all_goals
    wstep h as pw1 s1 l1 k1 h1
    wstep h as us2 s2 l2 k2 h2
    wstep h as pw3 s3 l3 k3 h3
    obtain ⟨-, rfl, rfl⟩ := W.pure_some.1 h
    obtain ⟨r1, ok1⟩ := WRun.reserveList h1
    have r2 := WRuns.write _ _ _ _ _ _ h2
  · exact r1.trans (r2.trans ((WRun.layers _ _ _ _ _ _ _ _ _ _ _ _ (ok1.mono r2) h3).1.trans (.refl rfl rfl)))
  · exact r1.trans (r2.trans ((WRun.own (ok1.mono r2) h3).1.trans (.refl rfl rfl)))

theorem WRuns.encode (i : Img) : WRuns (encode i) :=
  .bind (.write _) fun _ => .bind (.get _) fun _ => .bind (.write _) fun _ => .bind (.write _) fun _ =>
  .bind (.get _) fun _ => .bind (.write _) fun _ => .bind (.writeColorMap _) fun _ => .bind (.write _) fun _ =>
  .bind (.write _) fun _ => .bind (.write _) fun _ => .bind (.write _) fun _ => .bind (.write _) fun _ => .writeContent _ _

end Limage
