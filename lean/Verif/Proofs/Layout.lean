import Verif.Proofs.Store
import Verif.Proofs.RleWrite
import Verif.Proofs.Reader
import Verif.Spec.XcfFile
/-!
# What the encoder leaves in the file
-/
namespace Limage
open Spec

theorem be_mod (k n : Nat) : be k (n % 256 ^ k) = be k n := by
  have h := be_fromBE (be k n)
  rwa [be_length, fromBE_be] at h

theorem num_ofNat (n : Nat) : be 4 (UInt32.ofNat n).toNat = num n := by
  rw [UInt32.toNat_ofNat']
  exact be_mod 4 n

theorem num_length (n : Nat) : (num n).length = 4 := be_length 4 n

theorem num_u32 (x : Int) : be 4 (u32 x).toNat = int x := by
  unfold u32 int
  rw [num_ofNat]

theorem u32_add (x y : Int) : u32 x + u32 y = u32 (x + y) := by
  unfold u32
  rw [← UInt32.ofNat_add]
  apply UInt32.toNat_inj.1
  rw [UInt32.toNat_ofNat', UInt32.toNat_ofNat']
  omega

/-- the calls succeeded, and what they wrote is in the file -/
def Made (D : Bytes) (l : List WCall) : Prop := ∀ c ∈ l, c.failed = none ∧ HasAt D c.off c.data

theorem Made.left {D : Bytes} {l m : List WCall} (h : Made D (l ++ m)) : Made D l := fun c hc => h c (by simp [hc])
theorem Made.right {D : Bytes} {l m : List WCall} (h : Made D (l ++ m)) : Made D m := fun c hc => h c (by simp [hc])
theorem Made.ok {D : Bytes} {l : List WCall} (h : Made D l) : AllOk l := fun c hc => (h c hc).1

/-- the computation leaves `bs` at its position and moves behind them -/
def Puts {α : Type} (D : Bytes) (env : WEnv) (m : W α) (bs : Bytes) : Prop :=
  ∀ s a s' l, m env s = some (a, s', l) → s.err = none → Made D l →
    HasAt D s.pos bs ∧ s'.err = none ∧ s'.pos = s.pos + bs.length

theorem Puts.pure {α : Type} {D : Bytes} {env : WEnv} (a : α) : Puts D env (Pure.pure a : W α) [] := by
  intro s b s' l h he _
  obtain ⟨-, rfl, rfl⟩ := W.pure_some.1 h
  exact ⟨hasAt_nil _ _, he, rfl⟩

theorem Puts.bind {α β : Type} {D : Bytes} {env : WEnv} {m : W α} {f : α → W β} {x y : Bytes} (hm : Puts D env m x)
    (hf : ∀ a, Puts D env (f a) y) : Puts D env (m >>= f) (x ++ y) := by
  intro s b s' l h he hd
  wstep h as a s1 l1 k1 h1
  obtain ⟨p1, e1, q1⟩ := hm _ _ _ _ h1 he hd.left
  obtain ⟨p2, e2, q2⟩ := hf a _ _ _ _ h e1 hd.right
  rw [q1] at p2 q2
  exact ⟨hasAt_append.2 ⟨p1, p2⟩, e2, by rw [q2, List.length_append]; omega⟩

theorem Puts.cast {α : Type} {D : Bytes} {env : WEnv} {m : W α} {x y : Bytes} (h : Puts D env m x) (e : x = y) :
    Puts D env m y := e ▸ h

theorem Puts.write {D : Bytes} {env : WEnv} (p : Bytes) : Puts D env (write p) p := by
  intro s a s' l h he hd
  obtain ⟨rfl, rfl⟩ := write_ok h he hd.ok
  exact ⟨(hd _ List.mem_cons_self).2, he, rfl⟩

theorem Puts.num {D : Bytes} {env : WEnv} (n : Nat) : Puts D env (writeUint32 (UInt32.ofNat n)) (num n) :=
  (Puts.write _).cast (num_ofNat n)

theorem Puts.int {D : Bytes} {env : WEnv} (x : Int) : Puts D env (writeUint32 (u32 x)) (int x) :=
  (Puts.write _).cast (num_u32 x)

theorem Puts.u32 {D : Bytes} {env : WEnv} (x : UInt32) : Puts D env (writeUint32 x) (Spec.num x.toNat) := Puts.write _

theorem Puts.byte {D : Bytes} {env : WEnv} (x : UInt8) : Puts D env (writeUint8 x) [x] :=
  (Puts.write _).cast (by simp [be])

theorem Puts.writeAll {D : Bytes} {env : WEnv} : ∀ ps, Puts D env (writeAll ps) ps.flatten
  | [] => Puts.pure ()
  | p :: ps => Puts.bind (Puts.write p) fun _ => Puts.writeAll ps

theorem Puts.nums {D : Bytes} {env : WEnv} : ∀ ps : List Nat, Puts D env (writeUint32s (ps.map UInt32.ofNat)) (ps.flatMap Spec.num)
  | [] => Puts.pure ()
  | p :: ps => Puts.bind (Puts.num p) fun _ => Puts.nums ps

theorem Puts.string {D : Bytes} {env : WEnv} (s : GoString) : Puts D env (writeString s) (text s) := by
  refine (Puts.bind (x := Spec.num (s.length + 1)) ?_ fun _ => Puts.bind (Puts.write s) fun _ => Puts.byte 0).cast ?_
  · rw [show UInt32.ofNat s.length + 1 = UInt32.ofNat (s.length + 1) by rw [UInt32.ofNat_add]; rfl]
    exact Puts.num _
  · simp [text]

/-! ### Pixels -/

theorem pixelsAt_shows {env : WEnv} {i : Img} {f : Color → Bytes} : ∀ (ps : List Pt) (s s' : WS) (cs : List Color) (l : List WCall),
    pixelsAt i ps env s = some (cs, s', l) → l = [] ∧ s'.pos = s.pos ∧ s'.err = s.err ∧
      List.Forall₂ (fun q bs => ∃ n n' c, i.at env.ρ q n = some (c, n') ∧ bs = f c) ps (cs.map f)
  | [], s, s', cs, l, h => by
    obtain ⟨rfl, rfl, rfl⟩ := W.pure_some.1 h
    exact ⟨rfl, rfl, rfl, .nil⟩
  | p :: ps, s, s', cs, l, h => by
    unfold pixelsAt at h
    wstep h as c s1 l1 k1 h1
    wstep h as cs' s2 l2 k2 h2
    obtain ⟨rfl, rfl, rfl⟩ := W.pure_some.1 h
    obtain ⟨h3, h4, rfl⟩ := pixelAt_some.1 h1
    obtain ⟨rfl, h6, h7, h8⟩ := pixelsAt_shows ps s1 s2 cs' l2 h2
    refine ⟨rfl, by rw [h6, h4], by rw [h7, h4], .cons ⟨_, _, _, h3, rfl⟩ h8⟩

theorem Puts.rle {D : Bytes} {env : WEnv} (d : Bytes) (hd : d.length < 65536) :
    ∃ code, Encodes code d ∧ Puts D env (encodeRLE d) code := by
  obtain ⟨ws, hw, he, _⟩ := writeRLE_spec d
  refine ⟨ws.flatten, he hd, ?_⟩
  intro s a s' l h he hm
  unfold encodeRLE at h
  wstep h as ws' s1 l1 k1 h1
  obtain ⟨h2, rfl, rfl⟩ := W.get_some.1 h1
  rw [hw] at h2
  cases h2
  exact Puts.writeAll ws _ _ _ _ h he hm.right

theorem Puts.channels {D : Bytes} {env : WEnv} (px : List Bytes) (hpx : px.length < 65536) : ∀ k n, ∃ codes : List Bytes,
    codes.length = k ∧ (∀ j, j < k → Encodes (codes.getD j []) (px.map fun p => p.getD (n + j) 0)) ∧
      Puts D env (writeChannels px k n) codes.flatten
  | 0, _ => ⟨[], rfl, fun _ h => absurd h (Nat.not_lt_zero _), Puts.pure ()⟩
  | k + 1, n => by
    obtain ⟨code, h1, h2⟩ := Puts.rle (D := D) (env := env) (px.map fun p => p.getD n 0) (by simpa using hpx)
    obtain ⟨codes, h3, h4, h5⟩ := Puts.channels (D := D) (env := env) px hpx k (n + 1)
    refine ⟨code :: codes, by simp [h3], ?_, Puts.bind h2 fun _ => h5⟩
    intro j hj
    cases j with
    | zero => exact h1
    | succ j =>
      have := h4 j (by omega)
      rwa [show n + 1 + j = n + (j + 1) by omega] at this

/-- the pixels `px` at `t`, up to `e` -/
def TileEnd (D : Bytes) (t bpp : Nat) (px : List Bytes) (e : Nat) : Prop :=
  ∃ codes : List Bytes, codes.length = bpp ∧ HasAt D t codes.flatten ∧
    (∀ k, k < bpp → Encodes (codes.getD k []) (px.map fun p => p.getD k 0)) ∧ t + codes.flatten.length = e

theorem forall₂_nil {α β : Type} {R : α → β → Prop} {xs : List α} {ys : List β} (h : List.Forall₂ R xs ys) (he : ys = []) : xs = [] := by
  subst he
  cases h
  rfl

/-- tiles are written where their pointers say, the last of them last -/
theorem tiles_at {D : Bytes} {env : WEnv} (i : Img) (f : Color → Bytes) (ch : Nat) (b : Rect) : ∀ (os : List Pt) (pw : PW) (s s' : WS)
    (l : List WCall), writeTiles i f ch b os pw env s = some ((), s', l) → s.err = none → pw.err = none →
    os.length ≤ pw.toWrite.toNat → Made D l → s'.err = none ∧ ∃ ts : List Nat, HasAt D pw.pos (ts.flatMap num) ∧
      List.Forall₂ (fun t o => ∃ px, TileAt D t ch px ∧
        List.Forall₂ (fun q bs => ∃ n n' c, i.at env.ρ q n = some (c, n') ∧ bs = f c) (tilePoints b o) px) ts os ∧
      ∀ o, os.getLast? = some o → ∃ t px, ts.getLast? = some t ∧ TileEnd D t ch px s'.pos ∧
        List.Forall₂ (fun q bs => ∃ n n' c, i.at env.ρ q n = some (c, n') ∧ bs = f c) (tilePoints b o) px
  | [], pw, s, s', l, h, he, hp, _, _ => by
    obtain ⟨-, rfl, rfl⟩ := W.pure_some.1 h
    exact ⟨he, [], hasAt_nil _ _, .nil, fun o h => by cases h⟩
  | o :: os, pw, s, s', l, h, he, hp, hn, hd => by
    unfold writeTiles at h
    wstep h as cs s1 l1 k1 h1
    wstep h as p s2 l2 k2 h2
    wstep h as pw' s3 l3 k3 h3
    wstep h as us4 s4 l4 k4 h4
    rw [List.length_cons] at hn
    obtain ⟨rfl, p1, e1, q1⟩ := pixelsAt_shows (f := f) _ _ _ _ _ h1
    obtain ⟨rfl, rfl, rfl⟩ := currentPos_some.1 h2
    obtain ⟨rfl, rfl, w1, w2, w3⟩ := writePointer_ok h3 hp (by omega) hd.right.right.left.ok
    have hlen : (cs.map f).length < 65536 := by
      have := q1.length_eq
      have := tilePoints_length b o
      omega
    obtain ⟨codes, c1, c2, c3⟩ := Puts.channels (D := D) (env := env) (cs.map f) hlen ch 0
    obtain ⟨d1, d2, d3⟩ := c3 _ _ _ _ h4 (by rw [← he, ← e1]) hd.right.right.right.left
    obtain ⟨r1, ts, r2, r3, r4⟩ := tiles_at i f ch b os pw' s4 s' _ h d2 w2 (by omega) hd.right.right.right.right
    have c2' : ∀ k, k < ch → Encodes (codes.getD k []) ((cs.map f).map fun p => p.getD k 0) := by
      intro k hk
      have := c2 k hk
      rwa [Nat.zero_add] at this
    refine ⟨r1, s2.pos :: ts, ?_, .cons ⟨_, ⟨codes, c1, d1, c2'⟩, q1⟩ r3, fun o' ho' => ?_⟩
    · rw [List.flatMap_cons]
      refine hasAt_append.2 ⟨?_, ?_⟩
      · have := (hd.right.right.left _ List.mem_cons_self).2
        simpa only [num_ofNat] using this
      · rw [num_length, ← w1]
        exact r2
    · cases os with
      | nil =>
        obtain ⟨-, rfl, rfl⟩ := W.pure_some.1 h
        cases r3
        cases ho'
        exact ⟨s2.pos, _, rfl, ⟨codes, c1, d1, c2', d3.symm⟩, q1⟩
      | cons o2 os =>
        obtain ⟨t, px, x1, x2, x3⟩ := r4 o' (by rwa [List.getLast?_cons_cons] at ho')
        refine ⟨t, px, ?_, x2, x3⟩
        cases ts with
        | nil => cases x1
        | cons t2 ts => rwa [List.getLast?_cons_cons]

theorem tileOrigins_eq (b : Rect) : tileOrigins b =
    (tileList (tilesAlong b.dx) (tilesAlong b.dy)).map fun ij => ⟨b.x0 + 64 * ij.1, b.y0 + 64 * ij.2⟩ := by
  unfold tileOrigins tileList
  rw [List.map_flatMap]
  simp only [List.map_map]
  rfl

theorem tilePoints_eq (b : Rect) (i j : Nat) : tilePoints b ⟨b.x0 + 64 * i, b.y0 + 64 * j⟩ = pointsOf b i j := by
  unfold tilePoints pointsOf Rect.dx Rect.dy
  simp only [show ∀ a c d : Int, a - (c + d) = a - c - d from fun a c d => by omega]

theorem Puts.seq {α : Type} {m : W α} (h : Seqs m) {env : WEnv} {s s' : WS} {a : α} {l : List WCall}
    (hr : m env s = some (a, s', l)) (he : s.err = none) (ok : AllOk l) : s'.err = none ∧ s.pos ≤ s'.pos :=
  ⟨(h _ _ _ _ _ hr he ok).err, (h _ _ _ _ _ hr he ok).le⟩

/-- pixels at `p`, the last tile of which goes up to `e` -/
def PixelsEnd (D : Bytes) (p : Nat) (b : Rect) (bpp : Nat) (Shows : Pt → Bytes → Prop) (e : Nat) : Prop :=
  ∃ (level : Nat) (tiles : List Nat),
    HasAt D p (Spec.int b.dx ++ Spec.int b.dy ++ num bpp ++ num level ++ num 0) ∧
    HasAt D level (Spec.int b.dx ++ Spec.int b.dy ++ tiles.flatMap num ++ num 0) ∧
    List.Forall₂ (fun t ij => ∃ px, TileAt D t bpp px ∧ List.Forall₂ Shows (pointsOf b ij.1 ij.2) px)
      tiles (tileList (tilesAlong b.dx) (tilesAlong b.dy)) ∧
    ∀ ij, (tileList (tilesAlong b.dx) (tilesAlong b.dy)).getLast? = some ij → ∃ t px, tiles.getLast? = some t ∧ TileEnd D t bpp px e ∧
      List.Forall₂ Shows (pointsOf b ij.1 ij.2) px

theorem PixelsEnd.at {D : Bytes} {p : Nat} {b : Rect} {bpp : Nat} {Shows : Pt → Bytes → Prop} {e : Nat} (h : PixelsEnd D p b bpp Shows e) :
    PixelsAt D p b bpp Shows := by
  obtain ⟨level, tiles, h1, h2, h3, -⟩ := h
  exact ⟨level, tiles, h1, h2, h3⟩

theorem image_at {D : Bytes} {env : WEnv} (i : Img) (f : Color → Bytes) (ch : Nat) (b : Rect) (hb : i.bounds = some b)
    (hs : SizeOk b) (s s' : WS) (l : List WCall) (h : writeImage i f ch env s = some ((), s', l)) (he : s.err = none)
    (hd : Made D l) :
    PixelsEnd D s.pos b ch (fun q bs => ∃ n n' c, i.at env.ρ q n = some (c, n') ∧ bs = f c) s'.pos := by
  unfold writeImage at h
  wstep h as b' s0 l0 k0 h0
  obtain ⟨hb', rfl, rfl⟩ := W.get_some.1 h0
  rw [hb] at hb'
  cases hb'
  replace hd := hd.right
  wstep h as u1 s1 l1 k1 h1
  wstep h as u2 s2 l2 k2 h2
  wstep h as u3 s3 l3 k3 h3
  wstep h as p s4 l4 k4 h4
  wstep h as u5 s5 l5 k5 h5
  wstep h as u6 s6 l6 k6 h6
  wstep h as u7 s7 l7 k7 h7
  wstep h as u8 s8 l8 k8 h8
  wstep h as pw s9 l9 k9 h9
  obtain ⟨a1, e1, p1⟩ := Puts.int _ _ _ _ _ h1 he hd.left
  obtain ⟨a2, e2, p2⟩ := Puts.int _ _ _ _ _ h2 e1 hd.right.left
  obtain ⟨a3, e3, p3⟩ := Puts.num _ _ _ _ _ h3 e2 hd.right.right.left
  obtain ⟨rfl, rfl, rfl⟩ := currentPos_some.1 h4
  rw [show UInt32.ofNat s4.pos + 8 = UInt32.ofNat (s4.pos + 8) by rw [UInt32.ofNat_add]; rfl] at h5
  replace hd := hd.right.right.right.right
  obtain ⟨a5, e5, p5⟩ := Puts.num _ _ _ _ _ h5 e3 hd.left
  obtain ⟨a6, e6, p6⟩ := Puts.num 0 _ _ _ _ h6 e5 hd.right.left
  obtain ⟨a7, e7, p7⟩ := Puts.int _ _ _ _ _ h7 e6 hd.right.right.left
  obtain ⟨a8, e8, p8⟩ := Puts.int _ _ _ _ _ h8 e7 hd.right.right.right.left
  replace hd := hd.right.right.right.right
  obtain ⟨rfl, e9, f9, -, rfl⟩ := reserveList_ok h9 e8 hd.left.ok
  have a9 := (hd.left _ List.mem_cons_self).2
  obtain ⟨-, ts, t1, t2, t3⟩ := tiles_at i f ch b _ _ _ _ _ h f9 rfl (by rw [tiles_reserved hs]; exact Nat.le_refl _) hd.right
  have hlen : ts.length = (u32 (tileNum b.dx * tileNum b.dy)).toNat := by rw [tiles_reserved hs]; exact t2.length_eq
  have hil : ∀ x, (Spec.int x).length = 4 := fun x => num_length _
  have hts : (ts.flatMap num).length = 4 * ts.length := by
    clear t1 t2 t3 hlen
    induction ts with
    | nil => rfl
    | cons t ts ih => rw [List.flatMap_cons, List.length_append, num_length, ih, List.length_cons]; omega
  simp only [num_length, hil] at p1 p2 p3 p5 p6 p7 p8
  refine ⟨s4.pos + 8, ts, ?_, ?_, ?_, ?_⟩
  · simp only [hasAt_append, List.length_append, num_length, hil]
    refine ⟨⟨⟨⟨a1, ?_⟩, ?_⟩, ?_⟩, ?_⟩
    · rwa [p1] at a2
    · rwa [p2, p1] at a3
    · rwa [show s0.pos + (4 + 4 + 4) = s4.pos by omega]
    · rwa [p5, p3, p2, p1] at a6
  · simp only [hasAt_append, List.length_append, hil, hts]
    refine ⟨⟨⟨?_, ?_⟩, ?_⟩, ?_⟩
    · rwa [p6, p5] at a7
    · rwa [p7, p6, p5] at a8
    · rw [show s4.pos + 8 + (4 + 4) = s8.pos by omega]
      exact t1
    · rw [show s4.pos + 8 + (4 + 4 + 4 * ts.length) = s8.pos + 4 * (u32 (tileNum b.dx * tileNum b.dy)).toNat by omega]
      exact a9
  · rw [tileOrigins_eq, List.forall₂_map_right_iff] at t2
    refine t2.imp ?_
    rintro t ⟨x, y⟩ ⟨px, h1, h2⟩
    rw [tilePoints_eq] at h2
    exact ⟨px, h1, h2⟩
  · intro ij hij
    obtain ⟨t, px, x1, x2, x3⟩ := t3 _ (by rw [tileOrigins_eq, List.getLast?_map, hij]; rfl)
    rw [tilePoints_eq] at x3
    exact ⟨t, px, x1, x2, x3⟩

/-- a mask at `p`, the pixels of which go up to `e` -/
def MaskEnd (D : Bytes) (p : Nat) (m : GrayImg) (e : Nat) : Prop :=
  ∃ h : Nat, HasAt D p (Spec.int m.rect.dx ++ Spec.int m.rect.dy ++ Spec.text [] ++ num 0 ++ num 0 ++ num h) ∧
    PixelsEnd D h m.rect 1 (fun q bs => bs = [m.grayAt q]) e

theorem channel_at {D : Bytes} {env : WEnv} (m : GrayImg) (hs : SizeOk m.rect) (s s' : WS) (l : List WCall)
    (h : writeChannel m env s = some ((), s', l)) (he : s.err = none) (hd : Made D l) : MaskEnd D s.pos m s'.pos := by
  unfold writeChannel at h
  wstep h as u1 s1 l1 k1 h1
  wstep h as u2 s2 l2 k2 h2
  wstep h as u3 s3 l3 k3 h3
  wstep h as u4 s4 l4 k4 h4
  wstep h as u5 s5 l5 k5 h5
  wstep h as p s6 l6 k6 h6
  wstep h as u7 s7 l7 k7 h7
  obtain ⟨a1, e1, p1⟩ := Puts.int _ _ _ _ _ h1 he hd.left
  obtain ⟨a2, e2, p2⟩ := Puts.int _ _ _ _ _ h2 e1 hd.right.left
  obtain ⟨a3, e3, p3⟩ := Puts.string _ _ _ _ _ h3 e2 hd.right.right.left
  replace hd := hd.right.right.right
  obtain ⟨a4, e4, p4⟩ := Puts.num 0 _ _ _ _ h4 e3 hd.left
  obtain ⟨a5, e5, p5⟩ := Puts.num 0 _ _ _ _ h5 e4 hd.right.left
  obtain ⟨rfl, rfl, rfl⟩ := currentPos_some.1 h6
  rw [show UInt32.ofNat s6.pos + 4 = UInt32.ofNat (s6.pos + 4) by rw [UInt32.ofNat_add]; rfl] at h7
  replace hd := hd.right.right.right
  obtain ⟨a7, e7, p7⟩ := Puts.num _ _ _ _ _ h7 e5 hd.left
  have im := image_at m.img grayToBuf 1 m.rect rfl hs _ _ _ h e7 hd.right
  have hil : ∀ x, (Spec.int x).length = 4 := fun x => num_length _
  have htl : (text []).length = 5 := rfl
  simp only [num_length, hil, htl] at p1 p2 p3 p4 p5 p7
  refine ⟨s6.pos + 4, ?_, ?_⟩
  · simp only [hasAt_append, List.length_append, num_length, hil, htl]
    refine ⟨⟨⟨⟨⟨a1, ?_⟩, ?_⟩, ?_⟩, ?_⟩, ?_⟩
    · rwa [p1] at a2
    · rwa [p2, p1] at a3
    · rwa [p3, p2, p1] at a4
    · rwa [p4, p3, p2, p1] at a5
    · rwa [show s.pos + (4 + 4 + 5 + 4 + 4) = s6.pos by omega]
  · rw [p7] at im
    obtain ⟨lv, ts, x1, x2, x3, x4⟩ := im
    have hsh : ∀ q bs, (∃ n n' c, m.img.at env.ρ q n = some (c, n') ∧ bs = grayToBuf c) → bs = [m.grayAt q] := by
      rintro q bs ⟨n, n', c, z1, rfl⟩
      simp only [GrayImg.img, Img.at, Option.map_some, Option.some.injEq, Prod.mk.injEq] at z1
      obtain ⟨rfl, -⟩ := z1
      rfl
    refine ⟨lv, ts, x1, x2, x3.imp ?_, fun ij hij => ?_⟩
    · rintro t ij ⟨px, y1, y2⟩
      exact ⟨px, y1, y2.imp fun q bs => hsh q bs⟩
    · obtain ⟨t, px, y1, y2, y3⟩ := x4 ij hij
      exact ⟨t, px, y1, y2, y3.imp fun q bs => hsh q bs⟩

/-! ### Layers -/

/-- the representation the encoder uses for images with colour model `cm` -/
def fmtOf (env : WEnv) (cm : ColorModel) : Fmt :=
  ⟨(encFor cm).typ.toNat, (encFor cm).channels, (encFor cm).func, (encFor cm).palette.map fun p => p.map rgbModel,
    fun m => (modeID m).toNat, fun t dx dy => env.text t (u32 dx) (u32 dy), env.ρ⟩

theorem Puts.ite {α : Type} {D : Bytes} {env : WEnv} {c : Prop} [Decidable c] {m n : W α} {x y : Bytes}
    (h1 : c → Puts D env m x) (h2 : ¬ c → Puts D env n y) : Puts D env (if c then m else n) (if c then x else y) := by
  split
  · exact h1 ‹_›
  · exact h2 ‹_›

theorem flatMap_num_length (ps : List Nat) : (ps.flatMap num).length = 4 * ps.length := by
  induction ps with
  | nil => rfl
  | cons t ts ih => rw [List.flatMap_cons, List.length_append, num_length, ih, List.length_cons]; omega

theorem Puts.path {D : Bytes} {env : WEnv} (path : List Nat) : Puts D env (writePath (path.map UInt32.ofNat))
    (if 1 < path.length then prop 30 (path.flatMap Spec.num) else []) := by
  unfold writePath
  rw [List.length_map]
  refine Puts.ite (fun _ => ?_) (fun _ => Puts.pure ())
  refine (Puts.bind (Puts.num 30) fun _ => Puts.bind (x := Spec.num (4 * path.length)) ?_ fun _ => Puts.nums path).cast ?_
  · rw [show (4 : UInt32) * UInt32.ofNat path.length = UInt32.ofNat (4 * path.length) by rw [UInt32.ofNat_mul]; rfl]
    exact Puts.num _
  · unfold prop
    rw [flatMap_num_length, List.append_assoc]

theorem Puts.group {D : Bytes} {env : WEnv} (g : Bool) : Puts D env (writeGroupProp g) (if g then prop 29 [] else []) := by
  unfold writeGroupProp
  refine Puts.ite (fun _ => ?_) (fun _ => Puts.pure ())
  exact (Puts.bind (Puts.num 29) fun _ => Puts.num 0).cast (by simp [prop])

/-- the text of a layer -/
theorem Puts.text {D : Bytes} {env : WEnv} (t : TextData) (dx dy : UInt32) (d : Bytes) (hd : env.text t dx dy = some d) :
    Puts D env (writeText t dx dy) (textProps d) := by
  intro s a s' l h
  unfold writeText at h
  rw [hd] at h
  refine ((Puts.bind (Puts.num 26) fun _ => Puts.bind (Puts.num 4) fun _ => Puts.bind (Puts.num 1) fun _ =>
    Puts.bind (Puts.num 21) fun _ => Puts.bind (Puts.num _) fun _ => Puts.bind (Puts.string _) fun _ =>
    Puts.bind (Puts.num 0) fun _ => Puts.bind (Puts.num _) fun _ => Puts.write _).cast ?_) s a s' l h
  unfold textProps prop
  simp only [List.append_assoc, num_length]
  have : (Spec.text textName ++ (Spec.num 0 ++ (Spec.num d.length ++ d))).length = 4 + 15 + 1 + 4 + 4 + d.length := by
    simp only [List.length_append, num_length, Spec.text, textName, List.length_cons, List.length_nil]
    omega
  rw [this]
  rfl

theorem properties_at {D : Bytes} {env : WEnv} (cm : ColorModel) (l : Layer) (ox oy : Int) (path : List Nat) (s s' : WS)
    (k : List WCall) (h : (do writeProperties (encFor cm) l (u32 ox) (u32 oy) (path.map UInt32.ofNat); writeUint32 0 : W Unit)
      env s = some ((), s', k)) (he : s.err = none) (hd : Made D k) :
    ∃ t : Option Bytes, (textOf l = none ∧ t = none ∨ ∃ td, textOf l = some td ∧ t.isSome ∧
        t = (fmtOf env cm).text td l.bounds.dx l.bounds.dy) ∧
      HasAt D s.pos (layerHead (fmtOf env cm) ⟨l, ox, oy, path⟩ t) ∧ s'.err = none ∧
      s'.pos = s.pos + (layerHead (fmtOf env cm) ⟨l, ox, oy, path⟩ t).length := by
  -- the text
  obtain ⟨t, ht, hp⟩ : ∃ t : Option Bytes, (textOf l = none ∧ t = none ∨ ∃ td, textOf l = some td ∧ t.isSome ∧
        t = (fmtOf env cm).text td l.bounds.dx l.bounds.dy) ∧
      Puts D env (writeTextProp (layerTextData l.image) (u32 l.bounds.dx) (u32 l.bounds.dy))
        (match t with | none => [] | some d => textProps d) := by
    by_cases hx : ∃ td, textOf l = some td
    · obtain ⟨td, hx⟩ := hx
      have h1 : layerTextData l.image = td ∧ td ≠ [] := by
        unfold textOf at hx
        cases hi : l.image with
        | text j t' =>
          rw [hi] at hx
          simp only at hx
          split at hx
          · cases hx
          · cases hx
            exact ⟨rfl, by assumption⟩
        | _ => rw [hi] at hx; cases hx
      cases hd' : env.text td (u32 l.bounds.dx) (u32 l.bounds.dy) with
      | some d =>
        refine ⟨some d, .inr ⟨td, hx, rfl, hd'.symm⟩, ?_⟩
        unfold writeTextProp
        rw [h1.1, if_pos (List.length_pos_iff.2 h1.2)]
        exact Puts.text _ _ _ _ hd'
      | none =>
        -- the encoder panics
        exfalso
        unfold writeProperties at h
        wstep h as u0 sx lx kx h0
        iterate 15 (wstep h0 as u1 s1 l1 k1 h1')
        wstep h0 as u2 s2 l2 k2 h2
        unfold writeTextProp at h2
        rw [h1.1, if_pos (List.length_pos_iff.2 h1.2)] at h2
        unfold writeText at h2
        rw [hd'] at h2
        cases h2
    · have hn : textOf l = none := by
        cases hx' : textOf l with
        | none => rfl
        | some td => exact absurd ⟨td, hx'⟩ hx
      refine ⟨none, .inl ⟨hn, rfl⟩, ?_⟩
      unfold writeTextProp
      have : layerTextData l.image = [] := by
        unfold textOf at hn
        cases hi : l.image with
        | text j t' =>
          rw [hi] at hn
          simp only at hn
          split at hn
          · assumption
          · cases hn
        | _ => rfl
      rw [this]
      exact Puts.pure ()
  refine ⟨t, ht, ?_⟩
  have hg : isGroup l.image = isGroupLayer l := by
    unfold isGroupLayer isGroup
    cases l.image <;> rfl
  refine (Puts.bind (α := Unit) (Puts.bind (Puts.int _) fun _ => Puts.bind (Puts.int _) fun _ => Puts.bind (x := Spec.num (2 * (fmtOf env cm).typ + 1)) ?_ fun _ =>
    Puts.bind (Puts.string _) fun _ => Puts.bind (Puts.num 6) fun _ => Puts.bind (Puts.num 4) fun _ =>
    Puts.bind (x := Spec.num (255 - l.transparency.toNat)) ?_ fun _ => Puts.bind (Puts.num 8) fun _ => Puts.bind (Puts.num 4) fun _ =>
    Puts.bind (x := Spec.num (if l.invisible then 0 else 1)) ?_ fun _ => Puts.bind (Puts.num 15) fun _ => Puts.bind (Puts.num 8) fun _ =>
    Puts.bind (Puts.int _) fun _ => Puts.bind (Puts.int _) fun _ => Puts.bind (Puts.path _) fun _ => Puts.bind hp fun _ =>
    Puts.bind (Puts.group _) fun _ => Puts.bind (Puts.num 7) fun _ => Puts.bind (Puts.num 4) fun _ =>
    Puts.bind (Puts.u32 _) fun _ => Puts.num 0) fun _ => Puts.num 0).cast ?_ _ _ _ _ h he hd
  · refine (Puts.u32 _).cast ?_
    have : (encFor cm).typ = 0 ∨ (encFor cm).typ = 1 ∨ (encFor cm).typ = 2 := by cases cm <;> simp [encFor]
    show _ = Spec.num (2 * (encFor cm).typ.toNat + 1)
    rcases this with h | h | h <;> rw [h] <;> rfl
  · refine (Puts.u32 _).cast ?_
    have : l.transparency.toUInt32.toNat = l.transparency.toNat := by simp
    have hlt := l.transparency.toNat_lt
    rw [UInt32.toNat_sub_of_le _ _ (by rw [UInt32.le_iff_toNat_le, this]; show _ ≤ 255; omega), this]
    rfl
  · refine (Puts.u32 _).cast ?_
    cases l.invisible <;> rfl
  · unfold layerHead kindProps
    rw [hg]
    simp only [prop, List.append_assoc, num_length, List.length_append, show ∀ x, (Spec.int x).length = 4 from fun x => num_length _]
    rfl

/-- pixels at `p` and a mask at `q` if there is one, the last of which goes up to `e` -/
def ContentEnd (D : Bytes) (p q : Nat) (b : Rect) (bpp : Nat) (Shows : Pt → Bytes → Prop) (e : Nat) : Option GrayImg → Prop
  | none => q = 0 ∧ PixelsEnd D p b bpp Shows e
  | some m => MaskEnd D q m e ∧ PixelsAt D p b bpp Shows

theorem ContentEnd.mask {D : Bytes} {p q : Nat} {b : Rect} {bpp : Nat} {Shows : Pt → Bytes → Prop} {e : Nat} {m : Option GrayImg}
    (h : ContentEnd D p q b bpp Shows e m) : OptMaskAt D q m := by
  cases m with
  | none => exact h.1
  | some m =>
    obtain ⟨⟨h, h1, h2⟩, -⟩ := h
    exact ⟨h, h1, h2.at⟩

theorem ContentEnd.pixels {D : Bytes} {p q : Nat} {b : Rect} {bpp : Nat} {Shows : Pt → Bytes → Prop} {e : Nat} {m : Option GrayImg}
    (h : ContentEnd D p q b bpp Shows e m) : PixelsAt D p b bpp Shows := by
  cases m with
  | none => exact h.2.at
  | some m => exact h.2

theorem layerData_at {D : Bytes} {env : WEnv} (e : Enc) (i : Img) (m : Option GrayImg) (hb : ∀ b, i.bounds = some b → SizeOk b)
    (hm : ∀ x, m = some x → SizeOk x.rect) (s s' : WS) (l : List WCall)
    (h : writeLayerData e i m env s = some ((), s', l)) (he : s.err = none) (hd : Made D l) :
    ∃ hp mp : Nat, HasAt D s.pos (num hp ++ num mp) ∧
      ∃ b, i.bounds = some b ∧ ContentEnd D hp mp b e.channels
        (fun q bs => ∃ n n' c, i.at env.ρ q n = some (c, n') ∧ bs = e.func c) s'.pos m := by
  unfold writeLayerData at h
  wstep h as ptrs s1 l1 k1 h1
  wstep h as p s2 l2 k2 h2
  wstep h as ptrs' s3 l3 k3 h3
  wstep h as us4 s4 l4 k4 h4
  obtain ⟨rfl, rfl, rfl⟩ := reservePointers_some.1 h1
  obtain ⟨rfl, rfl, rfl⟩ := currentPos_some.1 h2
  simp only [List.nil_append] at hd
  obtain ⟨rfl, rfl, w1, w2, w3⟩ := writePointer_ok h3 rfl (show 0 < (2 : UInt32).toNat by decide) hd.left.ok
  have hi : ∃ b, i.bounds = some b := by
    unfold writeImage at h4
    wstep h4 as b s0 l0 k0 h0
    exact ⟨b, (W.get_some.1 h0).1⟩
  obtain ⟨b, hi⟩ := hi
  have ha := (hd.left _ List.mem_cons_self).2
  simp only [num_ofNat] at ha w1
  have im := image_at i e.func e.channels b hi (hb b hi) _ _ _ h4 he hd.right.left
  have e4 := (Seqs.writeImage _ _ _ hb _ _ _ _ _ h4 he hd.right.left.ok).err
  have hl : 0 < ptrs'.toWrite.toNat := by rw [w3]; exact (show 0 < (2 : UInt32).toNat - 1 by decide)
  replace hd := hd.right.right
  unfold writeMask at h
  cases m with
  | none =>
    wstep h as pw s5 l5 k5 h5
    obtain ⟨-, rfl, rfl⟩ := W.pure_some.1 h
    obtain ⟨rfl, rfl, -⟩ := writePointer_ok h5 w2 hl hd.left.ok
    have hz := (hd.left _ List.mem_cons_self).2
    rw [w1] at hz
    exact ⟨_, 0, hasAt_append.2 ⟨ha, by rw [num_length]; exact hz⟩, b, hi, rfl, im⟩
  | some m =>
    wstep h as p5 s5 l5 k5 h5
    wstep h as pw s6 l6 k6 h6
    obtain ⟨rfl, rfl, rfl⟩ := currentPos_some.1 h5
    obtain ⟨rfl, rfl, -⟩ := writePointer_ok h6 w2 hl hd.right.left.ok
    have hz := (hd.right.left _ List.mem_cons_self).2
    simp only [num_ofNat] at hz
    rw [w1] at hz
    have hc := channel_at m (hm m rfl) _ _ _ h e4 hd.right.right
    exact ⟨_, s5.pos, hasAt_append.2 ⟨ha, by rw [num_length]; exact hz⟩, b, hi, hc, im.at⟩

/-- a layer at `p`, the last pixels or mask of which go up to `e` -/
def LayerEnd (D : Bytes) (F : Fmt) (p : Nat) (r : Placed) (e : Nat) : Prop :=
  ∃ (t : Option Bytes) (h m : Nat),
    (textOf r.layer = none ∧ t = none ∨
      ∃ td, textOf r.layer = some td ∧ t.isSome ∧ t = F.text td r.layer.bounds.dx r.layer.bounds.dy) ∧
    HasAt D p (layerHead F r t ++ num h ++ num m) ∧
    ∃ b, (pixelsOf r.layer.image).bounds = some b ∧ ContentEnd D h m b F.bpp (Sampled F (pixelsOf r.layer.image)) e (maskOf r.layer.image)

theorem LayerEnd.at {D : Bytes} {F : Fmt} {p : Nat} {r : Placed} {e : Nat} (h : LayerEnd D F p r e) : LayerAt D F p r := by
  obtain ⟨t, h, m, h1, h2, b, h3, h4⟩ := h
  exact ⟨t, h, m, h1, h2, ⟨b, h3, h4.pixels⟩, h4.mask⟩

/-- a layer is written where its pointer says -/
theorem own_at {D : Bytes} {env : WEnv} (cm : ColorModel) (l : Layer) (ox oy : Int) (path : List Nat) (pw pw' : PW) (s s' : WS)
    (k : List WCall) (h : writeOwn (encFor cm) l (u32 ox) (u32 oy) (path.map UInt32.ofNat) pw env s = some (pw', s', k))
    (he : s.err = none) (hp : pw.err = none) (hn : 0 < pw.toWrite.toNat) (hl : LayerSizeOk l.image) (hd : Made D k) :
    HasAt D pw.pos (num s.pos) ∧ LayerEnd D (fmtOf env cm) s.pos ⟨l, ox, oy, path⟩ s'.pos := by
  unfold writeOwn at h
  rw [layerContent_eq] at h
  wstep h as p s1 l1 k1 h1
  wstep h as pw1 s2 l2 k2 h2
  wstep h as us3 s3 l3 k3 h3
  wstep h as us4 s4 l4 k4 h4
  wstep h as us5 s5 l5 k5 h5
  obtain ⟨rfl, rfl, rfl⟩ := currentPos_some.1 h1
  obtain ⟨rfl, rfl, -⟩ := writePointer_ok h2 hp hn hd.right.left.ok
  have ha := (hd.right.left _ List.mem_cons_self).2
  simp only [num_ofNat] at ha
  refine ⟨ha, ?_⟩
  replace hd := hd.right.right
  have h34 : (do writeProperties (encFor cm) l (u32 ox) (u32 oy) (path.map UInt32.ofNat); writeUint32 0 : W Unit) env _ =
      some ((), s4, l3 ++ l4) := W.bind_some.2 ⟨us3, s3, l3, l4, rfl, h3, h4⟩
  rw [← List.append_assoc] at hd
  obtain ⟨t, ht, hh, e4, p4⟩ := properties_at cm l ox oy path _ _ _ h34 he hd.left
  obtain ⟨hp', mp, x1, x2⟩ := layerData_at _ _ _ hl.1 hl.2 _ _ _ h5 e4 hd.right.left
  obtain ⟨-, rfl, -⟩ := W.pure_some.1 h
  refine ⟨t, hp', mp, ht, ?_, x2⟩
  rw [List.append_assoc]
  refine hasAt_append.2 ⟨hh, ?_⟩
  rw [p4] at x1
  exact x1

/-- the last of the layers goes up to the last position -/
def LastEnd (D : Bytes) (F : Fmt) (ps : List Nat) (rs : List Placed) (s s' : WS) : Prop :=
  (rs = [] → s'.pos = s.pos) ∧ ∀ r, rs.getLast? = some r → ∃ p, ps.getLast? = some p ∧ LayerEnd D F p r s'.pos

theorem LastEnd.append {D : Bytes} {F : Fmt} {ps qs : List Nat} {rs ts : List Placed} {s s1 s2 : WS} (h1 : LastEnd D F ps rs s s1)
    (h2 : LastEnd D F qs ts s1 s2) (hq : ts = [] → qs = []) : LastEnd D F (ps ++ qs) (rs ++ ts) s s2 := by
  refine ⟨fun h => ?_, fun r hr => ?_⟩
  · obtain ⟨ha, hb⟩ := List.append_eq_nil_iff.1 h
    rw [h2.1 hb, h1.1 ha]
  · cases hx : ts.getLast? with
    | none =>
      rw [List.getLast?_eq_none_iff] at hx
      rw [hx, List.append_nil] at hr
      obtain ⟨p, x1, x2⟩ := h1.2 r hr
      exact ⟨p, by rw [hq hx, List.append_nil, x1], by rw [h2.1 hx]; exact x2⟩
    | some r' =>
      rw [List.getLast?_append, hx] at hr
      obtain ⟨p, x1, x2⟩ := h2.2 r' hx
      cases hr
      exact ⟨p, by rw [List.getLast?_append, x1]; rfl, x2⟩

mutual
theorem sub_at {D : Bytes} {env : WEnv} (cm : ColorModel) (i : Img) (ox oy : Int) (path : List Nat) (pw pw' : PW) (s s' : WS)
    (k : List WCall) (h : writeSub (encFor cm) i (u32 ox) (u32 oy) (path.map UInt32.ofNat) pw env s = some (pw', s', k))
    (he : s.err = none) (hp : pw.err = none) (hn : totalIn i ≤ pw.toWrite.toNat) (hl : EveryIn LayerSizeOk i) (hd : Made D k) :
    ∃ ps : List Nat, HasAt D pw.pos (ps.flatMap num) ∧ List.Forall₂ (LayerAt D (fmtOf env cm)) ps (placedIn i ox oy path) ∧
      ps.length = totalIn i ∧ LastEnd D (fmtOf env cm) ps (placedIn i ox oy path) s s' := by
  match i with
  | .group g =>
    unfold writeSub at h
    unfold totalIn at hn
    unfold EveryIn at hl
    unfold placedIn totalIn
    exact layers_at cm g 0 ox oy path pw pw' s s' k h he hp hn hl hd
  | .leaf _ | .nil | .text _ _ | .masked _ _ =>
    obtain ⟨-, rfl, -⟩ := W.pure_some.1 h
    exact ⟨[], hasAt_nil _ _, .nil, rfl, fun _ => rfl, fun r h => by cases h⟩
termination_by structural i

theorem layers_at {D : Bytes} {env : WEnv} (cm : ColorModel) (g : List Layer) (n : Nat) (ox oy : Int) (path : List Nat)
    (pw pw' : PW) (s s' : WS) (k : List WCall)
    (h : writeLayers (encFor cm) g n (u32 ox) (u32 oy) (path.map UInt32.ofNat) pw env s = some (pw', s', k))
    (he : s.err = none) (hp : pw.err = none) (hn : total g ≤ pw.toWrite.toNat) (hl : EveryLayer LayerSizeOk g) (hd : Made D k) :
    ∃ ps : List Nat, HasAt D pw.pos (ps.flatMap num) ∧ List.Forall₂ (LayerAt D (fmtOf env cm)) ps (placed g n ox oy path) ∧
      ps.length = total g ∧ LastEnd D (fmtOf env cm) ps (placed g n ox oy path) s s' := by
  match g with
  | [] =>
    obtain ⟨-, rfl, -⟩ := W.pure_some.1 h
    exact ⟨[], hasAt_nil _ _, .nil, rfl, fun _ => rfl, fun r h => by cases h⟩
  | ⟨name, b, mode, inv, tr, im⟩ :: rest =>
    unfold writeLayers at h
    unfold total at hn
    unfold EveryLayer at hl
    unfold placed total
    obtain ⟨hl1, hl2, hl3⟩ := hl
    rw [u32_add, u32_add, show path.map UInt32.ofNat ++ [UInt32.ofNat n] = (path ++ [n]).map UInt32.ofNat by simp] at h
    wstep h as pw1 s1 l1 k1 h1
    wstep h as pw2 s2 l2 k2 h2
    have c1 := CovP.own h1 he hp (by omega) hl1 hd.left.ok
    have c2 := CovP.sub _ _ im _ _ _ _ _ _ _ _ h2 c1.err c1.perr (by have := c1.left; omega) hl2 hd.right.left.ok
    obtain ⟨x1, x2⟩ := own_at cm ⟨name, b, mode, inv, tr, im⟩ _ _ _ _ _ _ _ _ h1 he hp (by omega) hl1 hd.left
    obtain ⟨ps, y1, y2, y3, y4⟩ := sub_at cm im _ _ _ _ _ _ _ _ h2 c1.err c1.perr (by have := c1.left; omega) hl2 hd.right.left
    obtain ⟨qs, z1, z2, z3, z4⟩ := layers_at cm rest _ _ _ _ _ _ _ _ _ h c2.err c2.perr
      (by have := c1.left; have := c2.left; omega) hl3 hd.right.right
    have e1 := c1.ppos
    have e2 := c2.ppos
    refine ⟨s.pos :: (ps ++ qs), ?_, .cons x2.at (List.rel_append y2 z2), by
      simp only [List.length_cons, List.length_append, y3, z3]; omega, ?_⟩
    rotate_left
    · have x4 : LastEnd D (fmtOf env cm) [s.pos] [⟨⟨name, b, mode, inv, tr, im⟩, ox + b.x0, oy + b.y0, path ++ [n]⟩] s s1 :=
        ⟨fun h => (by cases h), fun r hr => by cases hr; exact ⟨s.pos, rfl, x2⟩⟩
      exact x4.append (y4.append z4 fun he => forall₂_nil z2 he) fun he => forall₂_nil (List.rel_append y2 z2) he
    rw [List.flatMap_cons, List.flatMap_append]
    refine hasAt_append.2 ⟨x1, hasAt_append.2 ⟨?_, ?_⟩⟩
    · rw [num_length]
      rwa [show pw1.pos = pw.pos + 4 by omega] at y1
    · rw [num_length, flatMap_num_length, y3]
      rwa [e2, e1] at z1
termination_by structural g
end

/-! ### Files -/

theorem Puts.colors {D : Bytes} {env : WEnv} : ∀ p : List Color, Puts D env (writeColors p)
    ((p.map rgbModel).flatMap fun c => [c.1, c.2.1, c.2.2])
  | [] => Puts.pure ()
  | c :: cs => by
    rw [List.map_cons, List.flatMap_cons]
    exact (Puts.bind (Puts.byte _) fun _ => Puts.bind (Puts.byte _) fun _ => Puts.bind (Puts.byte _) fun _ =>
      Puts.colors cs).cast (by simp; exact ⟨rfl, rfl, rfl⟩)

theorem Puts.colorMap {D : Bytes} {env : WEnv} (p : Option (List Color)) :
    Puts D env (writeColorMap p) (colorMap (p.map fun p => p.map rgbModel)) := by
  cases p with
  | none => exact Puts.pure ()
  | some p =>
    have h3 : ∀ q : List (UInt8 × UInt8 × UInt8), (q.flatMap fun c => [c.1, c.2.1, c.2.2]).length = 3 * q.length := by
      intro q
      induction q with
      | nil => rfl
      | cons c q ih => rw [List.flatMap_cons, List.length_append, ih]; simp only [List.length_cons, List.length_nil]; omega
    simp only [writeColorMap]
    rw [show (3 : UInt32) * UInt32.ofNat p.length + 4 = UInt32.ofNat (3 * p.length + 4) by
      rw [UInt32.ofNat_add, UInt32.ofNat_mul]; rfl]
    refine (Puts.bind (Puts.num 1) fun _ => Puts.bind (Puts.num _) fun _ => Puts.bind (Puts.num _) fun _ =>
      Puts.colors p).cast ?_
    unfold Spec.colorMap
    simp only [Option.map_some, prop, List.length_append, num_length, h3, List.length_map, List.append_assoc, Nat.add_comm]

theorem content_at {D : Bytes} {env : WEnv} (cm : ColorModel) (i : Img) (hi : Encodable i) (s s' : WS) (l : List WCall)
    (h : writeContent (encFor cm) i env s = some ((), s', l)) (he : s.err = none) (hd : Made D l) :
    ∃ ptrs : List Nat, HasAt D s.pos (ptrs.flatMap num ++ num 0 ++ num 0) ∧
      List.Forall₂ (LayerAt D (fmtOf env cm)) ptrs (layersOf i) ∧
      ∀ r, (layersOf i).getLast? = some r → ∃ p, ptrs.getLast? = some p ∧ LayerEnd D (fmtOf env cm) p r s'.pos := by
  have key : ∀ (n : UInt32) (f : PW → W PW) (k : List Placed), 
      (∀ pw pw' s s' l, f pw env s = some (pw', s', l) → s.err = none → pw.err = none → pw.toWrite = n → Made D l →
        ∃ ps : List Nat, HasAt D pw.pos (ps.flatMap num) ∧ List.Forall₂ (LayerAt D (fmtOf env cm)) ps k ∧
          ps.length = n.toNat ∧
          ∀ r, k.getLast? = some r → ∃ p, ps.getLast? = some p ∧ LayerEnd D (fmtOf env cm) p r s'.pos) →
      (do let pw ← reservePointerList n; writeUint32 0; let _ ← f pw : W Unit) env s = some ((), s', l) →
      ∃ ptrs : List Nat, HasAt D s.pos (ptrs.flatMap num ++ num 0 ++ num 0) ∧
        List.Forall₂ (LayerAt D (fmtOf env cm)) ptrs k ∧
        ∀ r, k.getLast? = some r → ∃ p, ptrs.getLast? = some p ∧ LayerEnd D (fmtOf env cm) p r s'.pos := by
    intro n f k hf h'
    wstep h' as pw s1 l1 k1 h1
    wstep h' as u2 s2 l2 k2 h2
    wstep h' as u3 s3 l3 k3 h3
    obtain ⟨rfl, p1, e1, -, rfl⟩ := reserveList_ok h1 he hd.left.ok
    have a1 := (hd.left _ List.mem_cons_self).2
    obtain ⟨a2, e2, p2⟩ := Puts.num 0 _ _ _ _ h2 e1 hd.right.left
    obtain ⟨ps, b1, b2, b3, b4⟩ := hf _ _ _ _ _ h3 e2 rfl rfl hd.right.right.left
    obtain ⟨-, rfl, -⟩ := W.pure_some.1 h'
    refine ⟨ps, ?_, b2, b4⟩
    simp only [hasAt_append, List.length_append, num_length, flatMap_num_length, b3]
    refine ⟨⟨b1, a1⟩, ?_⟩
    rwa [p1] at a2
  cases i with
  | group g =>
    obtain ⟨h1, h2⟩ := hi
    refine key (layerCount g) _ _ ?_ h
    intro pw pw' s s' l h he hp hn hd
    have hc : (layerCount g).toNat = total g := by
      rw [layerCount_eq]
      exact UInt32.toNat_ofNat_of_lt' h2
    obtain ⟨ps, x1, x2, x3, x4⟩ := layers_at cm g 0 0 0 [] pw pw' s s' l h he hp (by rw [hn, hc]; exact Nat.le_refl _) h1 hd
    exact ⟨ps, x1, x2, by rw [x3, hc], x4.2⟩
  | _ =>
    refine key 1 _ _ ?_ h
    intro pw pw' s s' l h he hp hn hd
    obtain ⟨x1, x2⟩ := own_at cm ⟨_, _, _, _, _, _⟩ 0 0 [] pw pw' s s' l h he hp (by rw [hn]; decide) (by exact hi) hd
    exact ⟨[s.pos], by simpa using x1, .cons x2.at .nil, rfl, fun r hr => by cases hr; exact ⟨s.pos, rfl, x2⟩⟩

/-- a file that ends with the last pixels or mask of the last layer, at `e` -/
def FileEnd (D : Bytes) (F : Fmt) (i : Img) (e : Nat) : Prop :=
  ∃ b, i.bounds = some b ∧ ∃ ptrs : List Nat, HasAt D 0 (fileHead F b ++ ptrs.flatMap num ++ num 0 ++ num 0) ∧
    List.Forall₂ (LayerAt D F) ptrs (layersOf i) ∧
    ∀ r, (layersOf i).getLast? = some r → ∃ p, ptrs.getLast? = some p ∧ LayerEnd D F p r e

theorem FileEnd.at {D : Bytes} {F : Fmt} {i : Img} {e : Nat} (h : FileEnd D F i e) : FileAt D F i := by
  obtain ⟨b, h1, ptrs, h2, h3, -⟩ := h
  exact ⟨b, h1, ptrs, h2, h3⟩

theorem encode_at {D : Bytes} {env : WEnv} (i : Img) (hi : Encodable i) (s : WS) (l : List WCall)
    (h : encode i env WS.start = some ((), s, l)) (hd : Made D l) :
    ∃ cm, i.colorModel = some cm ∧ FileEnd D (fmtOf env cm) i s.pos := by
  unfold encode at h
  wstep h as u0 s0 l0 k0 h0
  wstep h as b s1 l1 k1 h1
  wstep h as u2 s2 l2 k2 h2
  wstep h as u3 s3 l3 k3 h3
  wstep h as cm s4 l4 k4 h4
  wstep h as u5 s5 l5 k5 h5
  wstep h as u6 s6 l6 k6 h6
  wstep h as u7 s7 l7 k7 h7
  wstep h as u8 s8 l8 k8 h8
  wstep h as u9 s9 l9 k9 h9
  wstep h as u10 s10 l10 k10 h10
  wstep h as u11 s11 l11 k11 h11
  obtain ⟨a0, e0, p0⟩ := Puts.write _ _ _ _ _ h0 rfl hd.left
  obtain ⟨hb, rfl, rfl⟩ := W.get_some.1 h1
  replace hd := hd.right.right
  obtain ⟨a2, e2, p2⟩ := Puts.int _ _ _ _ _ h2 e0 hd.left
  obtain ⟨a3, e3, p3⟩ := Puts.int _ _ _ _ _ h3 e2 hd.right.left
  obtain ⟨hm, rfl, rfl⟩ := W.get_some.1 h4
  replace hd := hd.right.right.right
  obtain ⟨a5, e5, p5⟩ := Puts.u32 _ _ _ _ _ h5 e3 hd.left
  obtain ⟨a6, e6, p6⟩ := Puts.colorMap _ _ _ _ _ h6 e5 hd.right.left
  replace hd := hd.right.right
  obtain ⟨a7, e7, p7⟩ := Puts.num 17 _ _ _ _ h7 e6 hd.left
  obtain ⟨a8, e8, p8⟩ := Puts.num 1 _ _ _ _ h8 e7 hd.right.left
  obtain ⟨a9, e9, p9⟩ := Puts.byte 1 _ _ _ _ h9 e8 hd.right.right.left
  replace hd := hd.right.right.right
  obtain ⟨a10, e10, p10⟩ := Puts.num 0 _ _ _ _ h10 e9 hd.left
  obtain ⟨a11, e11, p11⟩ := Puts.num 0 _ _ _ _ h11 e10 hd.right.left
  obtain ⟨ptrs, c1, c2, c3⟩ := content_at cm i hi _ _ _ h e11 hd.right.right
  refine ⟨cm, hm, b, hb, ptrs, ?_, c2, c3⟩
  have hil : ∀ x, (Spec.int x).length = 4 := fun x => num_length _
  have hty : (encFor cm).typ.toUInt32.toNat = (encFor cm).typ.toNat := by simp
  rw [hty] at a5
  simp only [num_length, hil, List.length_cons, List.length_nil] at p2 p3 p5 p6 p7 p8 p9 p10 p11
  have hz : WS.start.pos = 0 := rfl
  rw [hz] at a0 p0
  have hx : fileMagic.length = xcfHeader.length := rfl
  unfold fileHead prop
  simp only [List.append_assoc]
  simp only [List.append_assoc] at c1
  refine hasAt_append.2 ⟨a0, ?_⟩
  rw [hx, ← p0]
  refine hasAt_append.2 ⟨a2, ?_⟩
  rw [hil, ← p2]
  refine hasAt_append.2 ⟨a3, ?_⟩
  rw [hil, ← p3]
  refine hasAt_append.2 ⟨a5, ?_⟩
  rw [num_length, ← p5]
  refine hasAt_append.2 ⟨a6, ?_⟩
  rw [show (fmtOf env cm).palette = (encFor cm).palette.map fun p => p.map rgbModel from rfl, ← p6]
  refine hasAt_append.2 ⟨a7, ?_⟩
  rw [num_length, ← p7]
  refine hasAt_append.2 ⟨a8, ?_⟩
  rw [num_length, ← p8]
  refine hasAt_append.2 ⟨a9, ?_⟩
  rw [List.length_singleton, show s8.pos + 1 = s9.pos by omega]
  refine hasAt_append.2 ⟨a10, ?_⟩
  rw [num_length, ← p10]
  refine hasAt_append.2 ⟨a11, ?_⟩
  rw [num_length, ← p11]
  exact c1

end Limage
