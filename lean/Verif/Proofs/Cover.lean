import Verif.Proofs.Writer
import Verif.Spec.Write
/-!
# Which bytes the encoder writes
-/
namespace Limage
open Spec

/-- 1 for the bytes from `a` up to `b` -/
def ind (a b x : Nat) : Nat := if a ≤ x ∧ x < b then 1 else 0

theorem ind_add {a b c x : Nat} (h1 : a ≤ b) (h2 : b ≤ c) : ind a b x + ind b c x = ind a c x := by
  unfold ind
  repeat' split
  all_goals omega

theorem ind_self (a x : Nat) : ind a a x = 0 := by
  unfold ind
  split
  · omega
  · rfl

theorem writesTo_append (l m : List WCall) (x : Nat) : writesTo (l ++ m) x = writesTo l x + writesTo m x := by
  simp [writesTo]

theorem writesTo_nil (x : Nat) : writesTo [] x = 0 := rfl

theorem writesTo_one (c : WCall) (x : Nat) : writesTo [c] x = ind c.off (c.off + c.data.length) x := by
  simp [writesTo, ind, List.countP_cons, Covers]

/-- all calls succeeded -/
def AllOk (l : List WCall) : Prop := ∀ c ∈ l, c.failed = none

theorem AllOk.left {l m : List WCall} (h : AllOk (l ++ m)) : AllOk l := fun c hc => h c (by simp [hc])
theorem AllOk.right {l m : List WCall} (h : AllOk (l ++ m)) : AllOk m := fun c hc => h c (by simp [hc])

theorem WRun.fine {env : WEnv} {s s' : WS} {l : List WCall} (r : WRun env s s' l) (h : s.err = none) (ok : AllOk l) :
    s'.err = none := by
  apply Classical.byContradiction
  intro hn
  rcases r.err.1 hn with h' | ⟨c, hc, h'⟩
  · exact h' h
  · exact h' (ok c hc)

/-- from `s` to `s'`, writing everything in between once -/
structure Covd (s s' : WS) (l : List WCall) : Prop where
  err : s'.err = none
  le : s.pos ≤ s'.pos
  once : ∀ x, writesTo l x = ind s.pos s'.pos x

theorem Covd.trans {s s1 s2 : WS} {l1 l2 : List WCall} (a : Covd s s1 l1) (b : Covd s1 s2 l2) : Covd s s2 (l1 ++ l2) :=
  ⟨b.err, Nat.le_trans a.le b.le, fun x => by rw [writesTo_append, a.once, b.once, ind_add a.le b.le]⟩

/-- programs that write sequentially -/
def Seqs {α : Type} (m : W α) : Prop :=
  ∀ env s a s' l, m env s = some (a, s', l) → s.err = none → AllOk l → Covd s s' l

theorem Seqs.bind {α β : Type} {m : W α} {f : α → W β} (hm : Seqs m) (hf : ∀ a, Seqs (f a)) : Seqs (m >>= f) := by
  intro env s b s' l h he ok
  obtain ⟨a, s1, l1, l2, rfl, h1, h2⟩ := W.bind_some.1 h
  have c1 := hm _ _ _ _ _ h1 he ok.left
  exact c1.trans (hf a _ _ _ _ _ h2 c1.err ok.right)

theorem Covd.refl {s s' : WS} (he : s.err = none) (h : s'.err = s.err) (hp : s'.pos = s.pos) : Covd s s' [] :=
  ⟨h.trans he, by omega, fun x => by rw [hp, ind_self, writesTo_nil]⟩

theorem Seqs.pure {α : Type} (a : α) : Seqs (Pure.pure a : W α) := by
  intro env s b s' l h he _
  obtain ⟨-, rfl, rfl⟩ := W.pure_some.1 h
  exact .refl he rfl rfl

theorem Seqs.get {α : Type} (o : Option α) : Seqs (W.get o) := by
  intro env s b s' l h he _
  obtain ⟨-, rfl, rfl⟩ := W.get_some.1 h
  exact .refl he rfl rfl

theorem Seqs.currentPos : Seqs currentPos := by
  intro env s b s' l h he _
  obtain ⟨-, rfl, rfl⟩ := currentPos_some.1 h
  exact .refl he rfl rfl

theorem Seqs.pixelAt (i : Img) (p : Pt) : Seqs (pixelAt i p) := by
  intro env s b s' l h he _
  obtain ⟨-, h2, rfl⟩ := pixelAt_some.1 h
  exact .refl he (by rw [h2]) (by rw [h2])

/-- a successful write -/
theorem write_ok {p : Bytes} {env : WEnv} {s s' : WS} {l : List WCall} (h : write p env s = some ((), s', l))
    (he : s.err = none) (ok : AllOk l) :
    l = [⟨s.pos, p, none, true⟩] ∧ s' = { s with pos := s.pos + p.length, calls := s.calls + 1 } := by
  unfold write at h
  rw [he] at h
  simp only [writeCall] at h
  cases hk : env.sink s.calls with
  | none =>
    rw [hk] at h
    simp only [Option.some.injEq, Prod.mk.injEq, true_and] at h
    obtain ⟨rfl, rfl⟩ := h
    exact ⟨rfl, by rw [← he]⟩
  | some n =>
    rw [hk] at h
    simp only [Option.some.injEq, Prod.mk.injEq, true_and] at h
    obtain ⟨rfl, rfl⟩ := h
    have := ok _ List.mem_cons_self
    cases this

theorem Seqs.write (p : Bytes) : Seqs (write p) := by
  intro env s a s' l h he ok
  obtain ⟨rfl, rfl⟩ := write_ok h he ok
  exact ⟨he, by simp, fun x => by rw [writesTo_one]⟩

/-- a successful pointer -/
theorem writePointer_ok {p pw : PW} {v : UInt32} {env : WEnv} {s s' : WS} {l : List WCall}
    (h : writePointer p v env s = some (pw, s', l)) (hp : p.err = none) (hw : 0 < p.toWrite.toNat) (ok : AllOk l) :
    l = [⟨p.pos, be 4 v.toNat, none, false⟩] ∧ s' = { s with calls := s.calls + 1 } ∧
      pw.pos = p.pos + 4 ∧ pw.err = none ∧ pw.toWrite.toNat = p.toWrite.toNat - 1 := by
  have hw' : p.toWrite > 0 := hw
  unfold writePointer at h
  rw [if_pos hw', hp] at h
  simp only [writeCall] at h
  cases hk : env.sink s.calls with
  | none =>
    rw [hk] at h
    simp only [Option.some.injEq, Prod.mk.injEq] at h
    obtain ⟨rfl, rfl, rfl⟩ := h
    refine ⟨rfl, rfl, rfl, rfl, ?_⟩
    simp only
    rw [UInt32.toNat_sub_of_le _ _ (by rw [UInt32.le_iff_toNat_le]; exact hw)]
    rfl
  | some n =>
    rw [hk] at h
    simp only [Option.some.injEq, Prod.mk.injEq] at h
    obtain ⟨rfl, rfl, rfl⟩ := h
    have := ok _ List.mem_cons_self
    cases this

/-- sequential writes together with `n` pointers -/
structure CovP (n : Nat) (pw pw' : PW) (s s' : WS) (l : List WCall) : Prop where
  err : s'.err = none
  le : s.pos ≤ s'.pos
  perr : pw'.err = none
  ppos : pw'.pos = pw.pos + 4 * n
  left : pw'.toWrite.toNat = pw.toWrite.toNat - n
  once : ∀ x, writesTo l x = ind s.pos s'.pos x + ind pw.pos pw'.pos x

theorem CovP.trans {n m : Nat} {pw pw1 pw2 : PW} {s s1 s2 : WS} {l1 l2 : List WCall} (a : CovP n pw pw1 s s1 l1)
    (b : CovP m pw1 pw2 s1 s2 l2) : CovP (n + m) pw pw2 s s2 (l1 ++ l2) :=
  ⟨b.err, Nat.le_trans a.le b.le, b.perr, by have := a.ppos; have := b.ppos; omega,
    by have := a.left; have := b.left; omega,
    fun x => by
      rw [writesTo_append, a.once, b.once, ← ind_add a.le b.le,
        ← ind_add (a := pw.pos) (b := pw1.pos) (c := pw2.pos) (by have := a.ppos; omega) (by have := b.ppos; omega)]
      omega⟩

theorem CovP.ofSeq {pw : PW} {s s' : WS} {l : List WCall} (a : Covd s s' l) (h : pw.err = none) : CovP 0 pw pw s s' l :=
  ⟨a.err, a.le, h, by simp, by simp, fun x => by rw [a.once, ind_self, Nat.add_zero]⟩

theorem CovP.pointer {p pw : PW} {v : UInt32} {env : WEnv} {s s' : WS} {l : List WCall}
    (h : writePointer p v env s = some (pw, s', l)) (he : s.err = none) (hp : p.err = none)
    (hw : 0 < p.toWrite.toNat) (ok : AllOk l) : CovP 1 p pw s s' l := by
  obtain ⟨rfl, rfl, h1, h2, h3⟩ := writePointer_ok h hp hw ok
  refine ⟨he, Nat.le_refl _, h2, by omega, h3, fun x => ?_⟩
  rw [writesTo_one, ind_self, h1]
  simp [be]

theorem Seqs.writeAll (ps : List Bytes) : Seqs (writeAll ps) := by
  induction ps with
  | nil => exact .pure ()
  | cons p ps ih => exact .bind (.write p) fun _ => ih

theorem Seqs.writeUint32s (ps : List UInt32) : Seqs (writeUint32s ps) := by
  induction ps with
  | nil => exact .pure ()
  | cons p ps ih => exact .bind (.write _) fun _ => ih

theorem Seqs.writeString (s : GoString) : Seqs (writeString s) :=
  .bind (.write _) fun _ => .bind (.write _) fun _ => .write _

theorem Seqs.pixelsAt (i : Img) (ps : List Pt) : Seqs (pixelsAt i ps) := by
  induction ps with
  | nil => exact .pure _
  | cons p ps ih => exact .bind (.pixelAt i p) fun _ => .bind ih fun _ => .pure _

theorem Seqs.encodeRLE (d : Bytes) : Seqs (encodeRLE d) := .bind (.get _) fun ws => .writeAll ws

theorem Seqs.writeChannels (px : List Bytes) (k : Nat) : ∀ n, Seqs (writeChannels px k n) := by
  induction k with
  | zero => exact fun _ => .pure _
  | succ k ih => exact fun n => .bind (.encodeRLE _) fun _ => ih _

theorem CovP.tiles (i : Img) (f : Color → Bytes) (ch : Nat) (b : Rect) (env : WEnv) : ∀ (os : List Pt) (pw : PW) (s s' : WS)
    (l : List WCall), writeTiles i f ch b os pw env s = some ((), s', l) → s.err = none → pw.err = none →
    os.length ≤ pw.toWrite.toNat → AllOk l → ∃ pw', CovP os.length pw pw' s s' l
  | [], pw, s, s', l, h, he, hp, _, _ => by
    obtain ⟨-, rfl, rfl⟩ := W.pure_some.1 h
    exact ⟨pw, .ofSeq (.refl he rfl rfl) hp⟩
  | o :: os, pw, s, s', l, h, he, hp, hn, ok => by
    unfold writeTiles at h
    wstep h as cs s1 l1 k1 h1
    wstep h as p s2 l2 k2 h2
    wstep h as pw' s3 l3 k3 h3
    wstep h as us4 s4 l4 k4 h4
    rw [List.length_cons] at hn ⊢
    have r1 := Seqs.pixelsAt _ _ _ _ _ _ _ h1 he ok.left
    have r2 := Seqs.currentPos _ _ _ _ _ h2 r1.err ok.right.left
    have r3 := CovP.pointer h3 r2.err hp (by omega) ok.right.right.left
    have r4 := Seqs.writeChannels _ _ _ _ _ _ _ _ h4 r3.err ok.right.right.right.left
    obtain ⟨pw2, r5⟩ := CovP.tiles i f ch b env os pw' s4 s' _ h r4.err r3.perr
      (by have := r3.left; omega) ok.right.right.right.right
    have := (CovP.ofSeq r1 hp).trans ((CovP.ofSeq r2 hp).trans (r3.trans ((CovP.ofSeq r4 r3.perr).trans r5)))
    exact ⟨pw2, by rwa [show 0 + (0 + (1 + (0 + os.length))) = os.length + 1 by omega] at this⟩

theorem tileNum_eq (n : Int) : tileNum n = (n + 63) / 64 := by
  unfold tileNum
  split <;> omega

theorem sum_const (n k : Nat) : ((List.range n).map fun _ => k).sum = n * k := by
  rw [List.map_const', List.sum_replicate_nat, List.length_range]

theorem tileOrigins_length (b : Rect) : (tileOrigins b).length = steps64 b.y0 b.y1 * steps64 b.x0 b.x1 := by
  simp [tileOrigins, List.length_flatMap, sum_const]

theorem tiles_reserved {b : Rect} (h : SizeOk b) :
    (u32 (tileNum b.dx * tileNum b.dy)).toNat = (tileOrigins b).length := by
  obtain ⟨h1, h2, h3⟩ := h
  have e1 : tileNum b.dx = (tilesAlong b.dx : Int) := by
    rw [tileNum_eq]
    unfold tilesAlong Rect.dx
    omega
  have e2 : tileNum b.dy = (tilesAlong b.dy : Int) := by
    rw [tileNum_eq]
    unfold tilesAlong Rect.dy
    omega
  have e3 : steps64 b.x0 b.x1 = tilesAlong b.dx := rfl
  have e4 : steps64 b.y0 b.y1 = tilesAlong b.dy := rfl
  rw [tileOrigins_length, e1, e2, e3, e4, Nat.mul_comm (tilesAlong b.dy), u32]
  rw [← Int.natCast_mul]
  generalize tilesAlong b.dx * tilesAlong b.dy = n at *
  have : ((n : Int) % 2 ^ 32).toNat = n := by omega
  rw [this, UInt32.toNat_ofNat']
  exact Nat.mod_eq_of_lt h3

theorem tilePoints_length (b : Rect) (o : Pt) : (tilePoints b o).length ≤ 4096 := by
  have e : (tilePoints b o).length = (min 64 (b.y1 - o.y)).toNat * (min 64 (b.x1 - o.x)).toNat := by
    simp [tilePoints, List.length_flatMap, sum_const]
  rw [e]
  have h1 : (min 64 (b.y1 - o.y)).toNat ≤ 64 := by omega
  have h2 : (min 64 (b.x1 - o.x)).toNat ≤ 64 := by omega
  exact Nat.mul_le_mul h1 h2

/-- the reserved space and the zero behind it -/
theorem reserveList_ok {n : UInt32} {pw : PW} {env : WEnv} {s s' : WS} {l : List WCall}
    (h : reservePointerList n env s = some (pw, s', l)) (he : s.err = none) (ok : AllOk l) :
    l = [⟨s.pos + 4 * n.toNat, be 4 0, none, true⟩] ∧ s'.pos = s.pos + 4 * n.toNat + 4 ∧ s'.err = none ∧
      s'.draws = s.draws ∧ pw = ⟨s.pos, none, n⟩ := by
  unfold reservePointerList at h
  obtain ⟨p, s1, l1, l2, rfl, h1, h2⟩ := W.bind_some.1 h
  obtain ⟨_, s2, l3, l4, rfl, h3, h4⟩ := W.bind_some.1 h2
  obtain ⟨rfl, rfl, rfl⟩ := W.pure_some.1 h4
  obtain ⟨rfl, rfl, rfl⟩ := reservePointers_some.1 h1
  obtain ⟨rfl, rfl⟩ := write_ok h3 he (by simpa using ok)
  simp [he, Nat.mul_comm, be]

theorem Seqs.writeImage (i : Img) (f : Color → Bytes) (ch : Nat) (hb : ∀ b, i.bounds = some b → SizeOk b) :
    Seqs (writeImage i f ch) := by
  intro env s a s' l h he ok
  unfold Limage.writeImage at h
  obtain ⟨b, s0, l0, k0, rfl, h0, h'⟩ := W.bind_some.1 h
  obtain ⟨hb', rfl, rfl⟩ := W.get_some.1 h0
  have hs := hb b hb'
  refine Covd.trans (.refl he rfl rfl) ?_
  refine Seqs.bind (.write _) (fun _ => .bind (.write _) fun _ => .bind (.write _) fun _ =>
    .bind .currentPos fun p => .bind (.write _) fun _ => .bind (.write _) fun _ => .bind (.write _) fun _ =>
    .bind (.write _) fun _ => ?_) _ _ _ _ _ h' he ok.right
  clear h0 h' h ok he hb
  intro env s a s' l h he ok
  wstep h as pw s1 l1 k1 h1
  obtain ⟨rfl, hpos, herr, -, rfl⟩ := reserveList_ok h1 he ok.left
  obtain ⟨pw', c⟩ := CovP.tiles i f ch b env _ _ _ _ _ h herr rfl (by rw [tiles_reserved hs]; exact Nat.le_refl _) ok.right
  have e1 := tiles_reserved hs
  have e2 := c.ppos
  have e3 := c.le
  refine ⟨c.err, by omega, fun x => ?_⟩
  rw [writesTo_append, writesTo_one, c.once]
  simp only [] at e2 ⊢
  rw [← ind_add (a := s.pos) (b := s1.pos) (c := s'.pos) (by omega) e3,
    ← ind_add (a := s.pos) (b := pw'.pos) (c := s1.pos) (by omega) (by omega)]
  have : (be 4 0).length = 4 := by simp [be]
  rw [this, show s.pos + 4 * (u32 (tileNum b.dx * tileNum b.dy)).toNat = pw'.pos by omega, show pw'.pos + 4 = s1.pos by omega]
  omega

theorem Seqs.writeChannel (m : GrayImg) (h : SizeOk m.rect) : Seqs (writeChannel m) :=
  .bind (.write _) fun _ => .bind (.write _) fun _ => .bind (.writeString _) fun _ => .bind (.write _) fun _ =>
    .bind (.write _) fun _ => .bind .currentPos fun _ => .bind (.write _) fun _ => .writeImage _ _ _ (by
      intro b hb
      cases hb
      exact h)

theorem Seqs.writeText (t : TextData) (dx dy : UInt32) : Seqs (writeText t dx dy) := by
  intro env s a s' l h
  unfold Limage.writeText at h
  split at h
  · cases h
  · refine Seqs.bind (.write _) (fun _ => .bind (.write _) fun _ => .bind (.write _) fun _ => .bind (.write _) fun _ =>
      .bind (.write _) fun _ => .bind (.writeString _) fun _ => .bind (.write _) fun _ => .bind (.write _) fun _ =>
      .write _) _ _ _ _ _ h

theorem Seqs.writePath (g : List UInt32) : Seqs (writePath g) := by
  unfold Limage.writePath
  split
  · exact .bind (.write _) fun _ => .bind (.write _) fun _ => .writeUint32s _
  · exact .pure _

theorem Seqs.writeTextProp (t : TextData) (dx dy : UInt32) : Seqs (writeTextProp t dx dy) := by
  unfold Limage.writeTextProp
  split
  · exact .writeText _ _ _
  · exact .pure _

theorem Seqs.writeGroupProp (g : Bool) : Seqs (writeGroupProp g) := by
  unfold Limage.writeGroupProp
  split
  · exact .bind (.write _) fun _ => .write _
  · exact .pure _

theorem Seqs.writeProperties (e : Enc) (l : Layer) (ox oy : UInt32) (groups : List UInt32) :
    Seqs (writeProperties e l ox oy groups) :=
  .bind (.write _) fun _ => .bind (.write _) fun _ => .bind (.write _) fun _ => .bind (.writeString _) fun _ =>
  .bind (.write _) fun _ => .bind (.write _) fun _ => .bind (.write _) fun _ => .bind (.write _) fun _ =>
  .bind (.write _) fun _ => .bind (.write _) fun _ => .bind (.write _) fun _ => .bind (.write _) fun _ =>
  .bind (.write _) fun _ => .bind (.write _) fun _ => .bind (.writePath _) fun _ => .bind (.writeTextProp _ _ _) fun _ =>
  .bind (.writeGroupProp _) fun _ => .bind (.write _) fun _ => .bind (.write _) fun _ => .bind (.write _) fun _ => .write _

theorem Seqs.writeLayerData (e : Enc) (i : Img) (m : Option GrayImg) (hb : ∀ b, i.bounds = some b → SizeOk b)
    (hm : ∀ x, m = some x → SizeOk x.rect) : Seqs (writeLayerData e i m) := by
  intro env s a s' l h he ok
  unfold Limage.writeLayerData at h
  wstep h as ptrs s1 l1 k1 h1
  wstep h as p s2 l2 k2 h2
  wstep h as ptrs' s3 l3 k3 h3
  wstep h as us4 s4 l4 k4 h4
  obtain ⟨rfl, rfl, rfl⟩ := reservePointers_some.1 h1
  obtain ⟨rfl, rfl, rfl⟩ := currentPos_some.1 h2
  simp only [List.nil_append] at ok ⊢
  have c3 := CovP.pointer h3 (by exact he) rfl (show 0 < (2 : UInt32).toNat by decide) ok.left
  have c4 := CovP.ofSeq (Seqs.writeImage _ _ _ hb _ _ _ _ _ h4 c3.err ok.right.left) c3.perr
  have hl : 0 < ptrs'.toWrite.toNat := by rw [c3.left]; exact (show 0 < (2 : UInt32).toNat - 1 by decide)
  have c34 := c3.trans c4
  suffices ∃ pw', CovP 2 ⟨s.pos, none, 2⟩ pw' { s with pos := s.pos + (2 : UInt32).toNat * 4 } s' (l3 ++ (l4 ++ k4)) by
    obtain ⟨pw', c⟩ := this
    have e1 := c.ppos
    have e2 := c.le
    simp only [show (2 : UInt32).toNat = 2 from rfl] at e1 e2 c
    refine ⟨c.err, by omega, fun x => ?_⟩
    rw [c.once, ← ind_add (a := s.pos) (b := s.pos + 2 * 4) (c := s'.pos) (by omega) e2, e1,
      show s.pos + 4 * 2 = s.pos + 2 * 4 by omega]
    exact Nat.add_comm _ _
  unfold writeMask at h
  cases m with
  | none =>
    wstep h as pw s5 l5 k5 h5
    obtain ⟨-, rfl, rfl⟩ := W.pure_some.1 h
    have c5 := CovP.pointer h5 c4.err c4.perr hl ok.right.right.left
    rw [List.append_nil]
    exact ⟨pw, by rw [← List.append_assoc]; exact c34.trans c5⟩
  | some m =>
    wstep h as p5 s5 l5 k5 h5
    wstep h as pw s6 l6 k6 h6
    obtain ⟨rfl, rfl, rfl⟩ := currentPos_some.1 h5
    simp only [List.nil_append] at ok ⊢
    have c6 := CovP.pointer h6 c4.err c4.perr hl ok.right.right.left
    have c7 := CovP.ofSeq (Seqs.writeChannel m (hm m rfl) _ _ _ _ _ h c6.err ok.right.right.right) c6.perr
    exact ⟨pw, by rw [← List.append_assoc l3]; exact c34.trans (c6.trans c7)⟩

theorem layerContent_eq (i : Img) : layerContent i = (pixelsOf i, maskOf i) := by cases i <;> rfl

theorem CovP.own {e : Enc} {l : Layer} {ox oy : UInt32} {groups : List UInt32} {env : WEnv} {pw pw' : PW} {s s' : WS}
    {k : List WCall} (h : writeOwn e l ox oy groups pw env s = some (pw', s', k)) (he : s.err = none) (hp : pw.err = none)
    (hn : 0 < pw.toWrite.toNat) (hl : LayerSizeOk l.image) (ok : AllOk k) : CovP 1 pw pw' s s' k := by
  unfold writeOwn at h
  rw [layerContent_eq] at h
  wstep h as p s1 l1 k1 h1
  wstep h as pw1 s2 l2 k2 h2
  wstep h as us3 s3 l3 k3 h3
  wstep h as us4 s4 l4 k4 h4
  wstep h as us5 s5 l5 k5 h5
  obtain ⟨rfl, rfl, rfl⟩ := W.pure_some.1 h
  have r1 := Seqs.currentPos _ _ _ _ _ h1 he ok.left
  have r2 := CovP.pointer h2 r1.err hp hn ok.right.left
  have r3 := Seqs.writeProperties _ _ _ _ _ _ _ _ _ _ h3 r2.err ok.right.right.left
  have r4 := Seqs.write _ _ _ _ _ _ h4 r3.err ok.right.right.right.left
  have r5 := Seqs.writeLayerData _ _ _ hl.1 hl.2 _ _ _ _ _ h5 r4.err ok.right.right.right.right.left
  rw [List.append_nil]
  have q := r2.perr
  exact (CovP.ofSeq r1 hp).trans (r2.trans (.ofSeq (r3.trans (r4.trans r5)) q))

mutual
theorem CovP.sub (e : Enc) (env : WEnv) (i : Img) (ox oy : UInt32) (groups : List UInt32) (pw pw' : PW) (s s' : WS) (k : List WCall)
    (h : writeSub e i ox oy groups pw env s = some (pw', s', k)) (he : s.err = none) (hp : pw.err = none)
    (hn : totalIn i ≤ pw.toWrite.toNat) (hl : EveryIn LayerSizeOk i) (ok : AllOk k) : CovP (totalIn i) pw pw' s s' k := by
  match i with
  | .group g =>
    unfold writeSub at h
    unfold totalIn at hn ⊢
    unfold EveryIn at hl
    exact CovP.layers e env g 0 ox oy groups pw pw' s s' k h he hp hn hl ok
  | .leaf _ | .nil | .text _ _ | .masked _ _ =>
    unfold writeSub at h
    obtain ⟨rfl, rfl, rfl⟩ := W.pure_some.1 h
    exact .ofSeq (.refl he rfl rfl) hp
termination_by structural i

theorem CovP.layers (e : Enc) (env : WEnv) (g : List Layer) (n : Nat) (ox oy : UInt32) (groups : List UInt32) (pw pw' : PW)
    (s s' : WS) (k : List WCall)
    (h : writeLayers e g n ox oy groups pw env s = some (pw', s', k)) (he : s.err = none) (hp : pw.err = none)
    (hn : total g ≤ pw.toWrite.toNat) (hl : EveryLayer LayerSizeOk g) (ok : AllOk k) : CovP (total g) pw pw' s s' k := by
  match g with
  | [] =>
    unfold writeLayers at h
    obtain ⟨rfl, rfl, rfl⟩ := W.pure_some.1 h
    exact .ofSeq (.refl he rfl rfl) hp
  | ⟨name, b, mode, inv, tr, im⟩ :: rest =>
    unfold writeLayers at h
    unfold total at hn ⊢
    unfold EveryLayer at hl
    obtain ⟨hl1, hl2, hl3⟩ := hl
    wstep h as pw1 s1 l1 k1 h1
    wstep h as pw2 s2 l2 k2 h2
    have c1 := CovP.own h1 he hp (by omega) hl1 ok.left
    have c2 := CovP.sub e env im _ _ _ _ _ _ _ _ h2 c1.err c1.perr (by have := c1.left; omega) hl2 ok.right.left
    have c3 := CovP.layers e env rest _ _ _ _ _ _ _ _ _ h c2.err c2.perr
      (by have := c1.left; have := c2.left; omega) hl3 ok.right.right
    rw [Nat.add_assoc]
    exact c1.trans (c2.trans c3)
termination_by structural g
end

mutual
theorem layerCountIn_eq (i : Img) : layerCountIn i = UInt32.ofNat (totalIn i) := by
  match i with
  | .group g => unfold layerCountIn totalIn; exact layerCount_eq g
  | .leaf _ | .nil | .text _ _ | .masked _ _ => rfl
termination_by structural i

theorem layerCount_eq (g : List Layer) : layerCount g = UInt32.ofNat (total g) := by
  match g with
  | [] => rfl
  | ⟨name, b, mode, inv, tr, im⟩ :: rest =>
    unfold layerCount total
    rw [layerCountIn_eq im, layerCount_eq rest, UInt32.ofNat_add, UInt32.ofNat_add]
    rfl
termination_by structural g
end

theorem Seqs.writeColors (p : List Color) : Seqs (writeColors p) := by
  induction p with
  | nil => exact .pure _
  | cons c cs ih => exact .bind (.write _) fun _ => .bind (.write _) fun _ => .bind (.write _) fun _ => ih

theorem Seqs.writeColorMap (p : Option (List Color)) : Seqs (writeColorMap p) := by
  cases p with
  | none => exact .pure _
  | some p => exact .bind (.write _) fun _ => .bind (.write _) fun _ => .bind (.write _) fun _ => .writeColors p

/-- the list of pointers, with what comes behind it, writes everything once -/
theorem Covd.list {n : UInt32} {s s1 s2 s' : WS} {l1 l2 k : List WCall} {pw pw' : PW} {env : WEnv}
    (h1 : reservePointerList n env s = some (pw, s1, l1)) (he : s.err = none) (ok : AllOk l1)
    (c2 : Covd s1 s2 l2) (c : CovP n.toNat pw pw' s2 s' k) : Covd s s' (l1 ++ (l2 ++ k)) := by
  obtain ⟨rfl, hpos, herr, -, rfl⟩ := reserveList_ok h1 he ok
  have e2 := c.ppos
  have e3 := c.le
  have e4 := c2.le
  simp only [] at e2
  refine ⟨c.err, by omega, fun x => ?_⟩
  rw [writesTo_append, writesTo_append, writesTo_one, c.once, c2.once,
    ← ind_add (a := s.pos) (b := s1.pos) (c := s'.pos) (by omega) (by omega),
    ← ind_add (a := s1.pos) (b := s2.pos) (c := s'.pos) (by omega) (by omega),
    ← ind_add (a := s.pos) (b := pw'.pos) (c := s1.pos) (by omega) (by omega)]
  have : (be 4 0).length = 4 := by simp [be]
  simp only [this]
  rw [show s.pos + 4 * n.toNat = pw'.pos by omega, show pw'.pos + 4 = s1.pos by omega]
  omega

theorem Seqs.writeContent (e : Enc) (i : Img) (hi : Encodable i) : Seqs (writeContent e i) := by
  intro env s a s' l h he ok
  unfold Limage.writeContent at h
  split at h
  · rename_i g
    obtain ⟨hi1, hi2⟩ := hi
    wstep h as pw1 s1 l1 k1 h1
    wstep h as us2 s2 l2 k2 h2
    wstep h as pw3 s3 l3 k3 h3
    obtain ⟨-, rfl, rfl⟩ := W.pure_some.1 h
    have e1 : (layerCount g).toNat = total g := by
      rw [layerCount_eq, UInt32.toNat_ofNat']
      exact Nat.mod_eq_of_lt hi2
    obtain ⟨-, -, herr, -, rfl⟩ := reserveList_ok h1 he ok.left
    have c2 := Seqs.write _ _ _ _ _ _ h2 herr ok.right.left
    have c3 := CovP.layers _ _ _ _ _ _ _ _ _ _ _ _ h3 c2.err rfl (by rw [e1]; exact Nat.le_refl _) hi1 ok.right.right.left
    rw [← e1] at c3
    rw [List.append_nil]
    exact Covd.list h1 he ok.left c2 c3
  · rename_i hg
    have hi' : LayerSizeOk i := by
      cases i with
      | group g => exact absurd rfl (hg g)
      | _ => exact hi
    wstep h as pw1 s1 l1 k1 h1
    wstep h as us2 s2 l2 k2 h2
    wstep h as pw3 s3 l3 k3 h3
    obtain ⟨-, rfl, rfl⟩ := W.pure_some.1 h
    obtain ⟨-, -, herr, -, rfl⟩ := reserveList_ok h1 he ok.left
    have c2 := Seqs.write _ _ _ _ _ _ h2 herr ok.right.left
    have c3 := CovP.own h3 c2.err rfl (show 0 < (1 : UInt32).toNat by decide) hi' ok.right.right.left
    rw [List.append_nil]
    exact Covd.list h1 he ok.left c2 c3

theorem Seqs.encode (i : Img) (hi : Encodable i) : Seqs (encode i) :=
  .bind (.write _) fun _ => .bind (.get _) fun _ => .bind (.write _) fun _ => .bind (.write _) fun _ =>
  .bind (.get _) fun _ => .bind (.write _) fun _ => .bind (.writeColorMap _) fun _ => .bind (.write _) fun _ =>
  .bind (.write _) fun _ => .bind (.write _) fun _ => .bind (.write _) fun _ => .bind (.write _) fun _ =>
  .writeContent _ _ hi

end Limage
