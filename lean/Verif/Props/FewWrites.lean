import Verif.Props.Files
/-!
# C159: how many calls `Encode` makes
-/
namespace Limage
open Spec

/-- the bytes that calls were given -/
def Spec.bytesGiven (l : List WCall) : Nat := (l.map fun c => c.data.length).sum

theorem bytesGiven_append (l l' : List WCall) : bytesGiven (l ++ l') = bytesGiven l + bytesGiven l' := by
  simp [bytesGiven]

/-- programs that make no more calls than they write bytes -/
def Thrifty {α : Type} (m : W α) : Prop := ∀ env s a s' l, m env s = some (a, s', l) → l.length ≤ bytesGiven l

theorem Thrifty.bind {α β : Type} {m : W α} {f : α → W β} (hm : Thrifty m) (hf : ∀ a, Thrifty (f a)) : Thrifty (m >>= f) := by
  intro env s b s' l h
  obtain ⟨a, s1, l1, l2, rfl, h1, h2⟩ := W.bind_some.1 h
  have h3 := hm _ _ _ _ _ h1
  have h4 := hf a _ _ _ _ _ h2
  rw [bytesGiven_append, List.length_append]
  omega

/-- programs that make no calls -/
theorem Thrifty.silent {α : Type} {m : W α} (h : ∀ env s a s' l, m env s = some (a, s', l) → l = []) : Thrifty m := by
  intro env s a s' l hl
  rw [h _ _ _ _ _ hl]
  exact Nat.le_refl _

theorem Thrifty.pure {α : Type} (a : α) : Thrifty (Pure.pure a : W α) := .silent fun _ _ _ _ _ h => (W.pure_some.1 h).2.2
theorem Thrifty.get {α : Type} (o : Option α) : Thrifty (W.get o) := .silent fun _ _ _ _ _ h => (W.get_some.1 h).2.2
theorem Thrifty.pos : Thrifty currentPos := .silent fun _ _ _ _ _ h => (currentPos_some.1 h).2.2
theorem Thrifty.pixel (i : Img) (p : Pt) : Thrifty (pixelAt i p) := .silent fun _ _ _ _ _ h => (pixelAt_some.1 h).2.2
theorem Thrifty.reserve (n : UInt32) : Thrifty (reservePointers n) := .silent fun _ _ _ _ _ h => by
  unfold reservePointers at h
  cases h
  rfl

/-- a write makes no call after an error, and one otherwise -/
theorem write_calls {p : Bytes} {env : WEnv} {s s' : WS} {l : List WCall} (h : write p env s = some ((), s', l)) :
    (s.err ≠ none ∧ s' = s ∧ l = []) ∨ l.length = 1 ∧ bytesGiven l = p.length := by
  unfold write at h
  cases he : s.err with
  | some e =>
    rw [he] at h
    cases h
    exact .inl ⟨nofun, rfl, rfl⟩
  | none =>
    rw [he] at h
    unfold writeCall at h
    dsimp only at h
    cases hk : env.sink s.calls with
    | none => rw [hk] at h; cases h; exact .inr ⟨rfl, by simp [bytesGiven]⟩
    | some n => rw [hk] at h; cases h; exact .inr ⟨rfl, by simp [bytesGiven]⟩

theorem Thrifty.write {p : Bytes} (hp : p ≠ []) : Thrifty (write p) := by
  intro env s a s' l h
  rcases write_calls h with ⟨-, -, rfl⟩ | ⟨h1, h2⟩
  · exact Nat.le_refl _
  · have := List.length_pos_iff.2 hp
    omega

theorem Thrifty.u32 (x : UInt32) : Thrifty (writeUint32 x) := .write (by intro h; have := be_length 4 x.toNat; rw [h] at this; cases this)
theorem Thrifty.u8 (x : UInt8) : Thrifty (writeUint8 x) := .write (by intro h; have := be_length 1 x.toNat; rw [h] at this; cases this)

/-- a number and what may be no bytes, and perhaps one byte behind -/
theorem Thrifty.counted (n : UInt32) (p : Bytes) : Thrifty (do writeUint32 n; Limage.write p) := by
  intro env s a s' l h
  obtain ⟨a, s1, l1, l2, rfl, h1, h2⟩ := W.bind_some.1 h
  rw [bytesGiven_append, List.length_append]
  unfold writeUint32 at h1
  have e := be_length 4 n.toNat
  rcases write_calls h1 with ⟨he, rfl, rfl⟩ | ⟨h3, h4⟩
  · rcases write_calls h2 with ⟨-, -, rfl⟩ | ⟨h5, h6⟩
    · exact Nat.le_refl _
    · unfold Limage.write at h2
      cases hs : s1.err with
      | none => exact absurd hs he
      | some x => rw [hs] at h2; cases h2; exact Nat.le_refl _
  · rcases write_calls h2 with ⟨-, -, rfl⟩ | ⟨h5, h6⟩ 
    · rw [List.length_nil, show bytesGiven [] = 0 from rfl]; omega
    · omega

theorem Thrifty.string (x : GoString) : Thrifty (writeString x) := by
  intro env s a s' l h
  obtain ⟨a, s1, l1, l2, rfl, h1, h2⟩ := W.bind_some.1 h
  obtain ⟨b, s2, l3, l4, rfl, h3, h4⟩ := W.bind_some.1 h2
  have h5 := Thrifty.counted _ _ _ _ _ _ _ (W.bind_some.2 ⟨a, s1, l1, l3, rfl, h1, h3⟩)
  have h6 := Thrifty.u8 _ _ _ _ _ _ h4
  rw [bytesGiven_append, List.length_append] at h5
  rw [bytesGiven_append, List.length_append, bytesGiven_append, List.length_append]
  omega

theorem Thrifty.writeAll {ps : List Bytes} (h : ∀ p ∈ ps, p ≠ []) : Thrifty (writeAll ps) := by
  induction ps with
  | nil => exact .pure _
  | cons p ps ih => exact (Thrifty.write (h p List.mem_cons_self)).bind fun _ => ih fun q hq => h q (List.mem_cons_of_mem _ hq)

theorem Thrifty.u32s (ps : List UInt32) : Thrifty (writeUint32s ps) := by
  induction ps with
  | nil => exact .pure _
  | cons p ps ih => exact (Thrifty.u32 _).bind fun _ => ih

theorem Thrifty.pointer (pw : PW) (x : UInt32) : Thrifty (writePointer pw x) := by
  intro env s a s' l h
  unfold writePointer at h
  split at h
  · cases he : pw.err with
    | some e => rw [he] at h; cases h; exact Nat.le_refl _
    | none =>
      rw [he] at h
      unfold writeCall at h
      dsimp only at h
      cases hk : env.sink s.calls with
      | none => rw [hk] at h; cases h; simp [bytesGiven, be_length]
      | some n => rw [hk] at h; cases h; simp [bytesGiven, be_length]
  · cases h; exact Nat.le_refl _

theorem Thrifty.reserveList (n : UInt32) : Thrifty (reservePointerList n) :=
  (Thrifty.reserve _).bind fun _ => (Thrifty.u32 _).bind fun _ => .pure _

theorem Thrifty.pixels (i : Img) (ps : List Pt) : Thrifty (pixelsAt i ps) := by
  induction ps with
  | nil => exact .pure _
  | cons p ps ih => exact (Thrifty.pixel _ _).bind fun _ => ih.bind fun _ => .pure _

/-! ### What is written of a run or a literal is never empty -/

theorem be_ne_nil {k v : Nat} (hk : k ≠ 0) : be k v ≠ [] := by
  intro h
  have := be_length k v
  rw [h] at this
  exact hk this.symm

theorem rleRun_full (run : Nat) (last : UInt8) : ∀ p ∈ rleRun run last, p ≠ [] := by
  intro p hp
  unfold rleRun at hp
  split at hp <;> simp only [List.mem_cons, List.not_mem_nil, or_false] at hp
  · rcases hp with rfl | rfl
    · exact be_ne_nil nofun
    · exact List.cons_ne_nil _ _
  · rcases hp with rfl | rfl | rfl
    · exact be_ne_nil nofun
    · exact be_ne_nil nofun
    · exact List.cons_ne_nil _ _

theorem rleLit_full {data : Bytes} (h : data ≠ []) : ∀ p ∈ rleLit data, p ≠ [] := by
  intro p hp
  unfold rleLit at hp
  split at hp <;> simp only [List.mem_cons, List.not_mem_nil, or_false] at hp
  · rcases hp with rfl | rfl
    · exact be_ne_nil nofun
    · exact h
  · rcases hp with rfl | rfl | rfl
    · exact be_ne_nil nofun
    · exact be_ne_nil nofun
    · exact h

theorem writeRLEData_full (data : Bytes) (run : Nat) (last : UInt8) : ∀ p ∈ writeRLEData data run last, p ≠ [] := by
  intro p hp
  unfold writeRLEData at hp
  rcases List.mem_append.1 hp with hp | hp
  · cases data with
    | nil => cases hp
    | cons b bs =>
      dsimp only at hp
      split at hp
      · exact rleRun_full _ _ p hp
      · exact rleLit_full (List.cons_ne_nil _ _) p hp
  · split at hp
    · exact rleRun_full _ _ p hp
    · cases hp

theorem rleScan_full (data : Bytes) : ∀ (rest : Bytes) (n run written : Nat) (last : UInt8) (ws : List Bytes) (x : Nat × Nat × UInt8),
    rleScan data rest n run written last = some (ws, x) → ∀ p ∈ ws, p ≠ []
  | [], _, _, _, _, ws, x, h, p, hp => by
    unfold rleScan at h
    cases h
    cases hp
  | b :: rest, n, run, written, last, ws, x, h, p, hp => by
    unfold rleScan at h
    split at h
    · exact rleScan_full data rest _ _ _ _ _ _ h p hp
    · split at h
      · obtain ⟨lit, -, h⟩ := Option.bind_eq_some_iff.1 h
        obtain ⟨⟨ws', x'⟩, h1, h⟩ := Option.bind_eq_some_iff.1 h
        cases h
        rcases List.mem_append.1 hp with hp | hp
        · exact writeRLEData_full _ _ _ p hp
        · exact rleScan_full data rest _ _ _ _ _ _ h1 p hp
      · exact rleScan_full data rest _ _ _ _ _ _ h p hp

theorem writeRLE_full {data : Bytes} {ws : List Bytes} (h : writeRLE data = some ws) : ∀ p ∈ ws, p ≠ [] := by
  intro p hp
  unfold writeRLE at h
  cases data with
  | nil => cases h; cases hp
  | cons b bs =>
    obtain ⟨⟨ws', run, written, last⟩, h1, h⟩ := Option.bind_eq_some_iff.1 h
    obtain ⟨lit, -, h⟩ := Option.bind_eq_some_iff.1 h
    cases h
    rcases List.mem_append.1 hp with hp | hp
    · exact rleScan_full _ _ _ _ _ _ _ _ h1 p hp
    · exact writeRLEData_full _ _ _ p hp

theorem Thrifty.rle (d : Bytes) : Thrifty (encodeRLE d) := by
  intro env s a s' l h
  obtain ⟨ws, s1, l1, l2, rfl, h1, h2⟩ := W.bind_some.1 h
  obtain ⟨h3, rfl, rfl⟩ := W.get_some.1 h1
  exact Thrifty.writeAll (writeRLE_full h3) _ _ _ _ _ h2

theorem Thrifty.channels (px : List Bytes) (k : Nat) : ∀ n, Thrifty (writeChannels px k n) := by
  induction k with
  | zero => exact fun _ => .pure _
  | succ k ih => exact fun n => (Thrifty.rle _).bind fun _ => ih _

theorem Thrifty.tiles (i : Img) (f : Color → Bytes) (ch : Nat) (b : Rect) : ∀ (os : List Pt) (pw : PW), Thrifty (writeTiles i f ch b os pw)
  | [], _ => .pure _
  | _ :: os, _ => (Thrifty.pixels _ _).bind fun _ => Thrifty.pos.bind fun _ => (Thrifty.pointer _ _).bind fun _ => (Thrifty.channels _ _ _).bind fun _ =>
    Thrifty.tiles i f ch b os _

theorem Thrifty.image (i : Img) (f : Color → Bytes) (ch : Nat) : Thrifty (writeImage i f ch) :=
  (Thrifty.get _).bind fun _ => (Thrifty.u32 _).bind fun _ => (Thrifty.u32 _).bind fun _ => (Thrifty.u32 _).bind fun _ => Thrifty.pos.bind fun _ =>
    (Thrifty.u32 _).bind fun _ => (Thrifty.u32 _).bind fun _ => (Thrifty.u32 _).bind fun _ => (Thrifty.u32 _).bind fun _ =>
    (Thrifty.reserveList _).bind fun _ => .tiles _ _ _ _ _ _

theorem Thrifty.channel (m : GrayImg) : Thrifty (writeChannel m) :=
  (Thrifty.u32 _).bind fun _ => (Thrifty.u32 _).bind fun _ => (Thrifty.string _).bind fun _ => (Thrifty.u32 _).bind fun _ =>
    (Thrifty.u32 _).bind fun _ => Thrifty.pos.bind fun _ => (Thrifty.u32 _).bind fun _ => .image _ _ _

theorem Thrifty.text (t : TextData) (dx dy : UInt32) : Thrifty (writeText t dx dy) := by
  intro env s a s' l h
  unfold writeText at h
  split at h
  · cases h
  · exact (Thrifty.u32 _).bind (fun _ => (Thrifty.u32 _).bind fun _ => (Thrifty.u32 _).bind fun _ => (Thrifty.u32 _).bind fun _ => (Thrifty.u32 _).bind fun _ =>
      (Thrifty.string _).bind fun _ => (Thrifty.u32 _).bind fun _ => Thrifty.counted _ _) _ _ _ _ _ h

theorem Thrifty.path (g : List UInt32) : Thrifty (writePath g) := by
  unfold writePath
  split
  · exact (Thrifty.u32 _).bind fun _ => (Thrifty.u32 _).bind fun _ => .u32s _
  · exact .pure _

theorem Thrifty.textProp (t : TextData) (dx dy : UInt32) : Thrifty (writeTextProp t dx dy) := by
  unfold writeTextProp
  split
  · exact .text _ _ _
  · exact .pure _

theorem Thrifty.groupProp (g : Bool) : Thrifty (writeGroupProp g) := by
  unfold writeGroupProp
  split
  · exact (Thrifty.u32 _).bind fun _ => .u32 _
  · exact .pure _

theorem Thrifty.properties (e : Enc) (l : Layer) (ox oy : UInt32) (groups : List UInt32) : Thrifty (writeProperties e l ox oy groups) :=
  (Thrifty.u32 _).bind fun _ => (Thrifty.u32 _).bind fun _ => (Thrifty.u32 _).bind fun _ => (Thrifty.string _).bind fun _ =>
  (Thrifty.u32 _).bind fun _ => (Thrifty.u32 _).bind fun _ => (Thrifty.u32 _).bind fun _ => (Thrifty.u32 _).bind fun _ =>
  (Thrifty.u32 _).bind fun _ => (Thrifty.u32 _).bind fun _ => (Thrifty.u32 _).bind fun _ => (Thrifty.u32 _).bind fun _ =>
  (Thrifty.u32 _).bind fun _ => (Thrifty.u32 _).bind fun _ => (Thrifty.path _).bind fun _ => (Thrifty.textProp _ _ _).bind fun _ =>
  (Thrifty.groupProp _).bind fun _ => (Thrifty.u32 _).bind fun _ => (Thrifty.u32 _).bind fun _ => (Thrifty.u32 _).bind fun _ => .u32 _

theorem Thrifty.mask (m : Option GrayImg) (pw : PW) : Thrifty (writeMask m pw) := by
  cases m with
  | none => exact (Thrifty.pointer _ _).bind fun _ => .pure _
  | some m => exact Thrifty.pos.bind fun _ => (Thrifty.pointer _ _).bind fun _ => .channel m

theorem Thrifty.own (e : Enc) (l : Layer) (ox oy : UInt32) (groups : List UInt32) (pw : PW) : Thrifty (writeOwn e l ox oy groups pw) :=
  Thrifty.pos.bind fun _ => (Thrifty.pointer _ _).bind fun _ => (Thrifty.properties _ _ _ _ _).bind fun _ => (Thrifty.u32 _).bind fun _ =>
    Thrifty.bind ((Thrifty.reserve _).bind fun _ => Thrifty.pos.bind fun _ => (Thrifty.pointer _ _).bind fun _ => (Thrifty.image _ _ _).bind fun _ => .mask _ _)
      fun _ => .pure _

mutual
theorem Thrifty.sub (e : Enc) (i : Img) (ox oy : UInt32) (groups : List UInt32) (pw : PW) : Thrifty (writeSub e i ox oy groups pw) := by
  match i with
  | .group g => unfold writeSub; exact Thrifty.layers e g 0 ox oy groups pw
  | .leaf _ | .nil | .text _ _ | .masked _ _ => unfold writeSub; exact .pure _
termination_by structural i

theorem Thrifty.layers (e : Enc) (g : List Layer) (n : Nat) (ox oy : UInt32) (groups : List UInt32) (pw : PW) : Thrifty (writeLayers e g n ox oy groups pw) := by
  match g with
  | [] => unfold writeLayers; exact .pure _
  | ⟨name, b, mode, inv, tr, im⟩ :: rest =>
    unfold writeLayers
    exact (Thrifty.own _ _ _ _ _ _).bind fun _ => (Thrifty.sub e im _ _ _ _).bind fun _ => Thrifty.layers e rest _ _ _ _ _
termination_by structural g
end

theorem Thrifty.colors (p : List Color) : Thrifty (writeColors p) := by
  induction p with
  | nil => exact .pure _
  | cons c cs ih => exact (Thrifty.u8 _).bind fun _ => (Thrifty.u8 _).bind fun _ => (Thrifty.u8 _).bind fun _ => ih

theorem Thrifty.colorMap (p : Option (List Color)) : Thrifty (writeColorMap p) := by
  cases p with
  | none => exact .pure _
  | some p => exact (Thrifty.u32 _).bind fun _ => (Thrifty.u32 _).bind fun _ => (Thrifty.u32 _).bind fun _ => .colors p

theorem Thrifty.content (e : Enc) (i : Img) : Thrifty (writeContent e i) := by
  unfold writeContent
  split
  · exact (Thrifty.reserveList _).bind fun _ => (Thrifty.u32 _).bind fun _ => (Thrifty.layers _ _ _ _ _ _ _).bind fun _ => .pure _
  · exact (Thrifty.reserveList _).bind fun _ => (Thrifty.u32 _).bind fun _ => (Thrifty.own _ _ _ _ _ _).bind fun _ => .pure _

theorem Thrifty.encode (i : Img) : Thrifty (encode i) :=
  (Thrifty.write (by decide)).bind fun _ => (Thrifty.get _).bind fun _ => (Thrifty.u32 _).bind fun _ => (Thrifty.u32 _).bind fun _ =>
  (Thrifty.get _).bind fun _ => (Thrifty.u32 _).bind fun _ => (Thrifty.colorMap _).bind fun _ => (Thrifty.u32 _).bind fun _ =>
  (Thrifty.u32 _).bind fun _ => (Thrifty.u8 _).bind fun _ => (Thrifty.u32 _).bind fun _ => (Thrifty.u32 _).bind fun _ => .content _ _

/-- **C159**: `Encode` makes no more calls than it hands bytes to them, whatever the picture and whatever the writer does. -/
theorem C159_calls (env : WEnv) (i : Img) (l : List WCall) (e : Option Nat) (h : runEncode env i = some (l, e)) : l.length ≤ bytesGiven l := by
  obtain ⟨s, h, -⟩ := runEncode_some h
  exact Thrifty.encode i _ _ _ _ _ h

/-- a writer that fails from the third call on -/
example : ∃ l e, runEncode badSink samplePicture = some (l, e) ∧ l.length ≤ bytesGiven l := by
  obtain ⟨l, e, h⟩ := C74_encode_total badSink samplePicture samplePicture_whole fun _ _ _ _ _ _ => rfl
  exact ⟨l, e, h, C159_calls _ _ _ _ h⟩

/-! ### The bytes handed over are those of the file -/

theorem covered_count (c : WCall) : ∀ N, ((List.range N).map fun x => if Covers c x then 1 else 0).sum = min N (c.off + c.data.length) - min N c.off
  | 0 => by simp
  | N + 1 => by
    rw [List.range_succ, List.map_append, List.sum_append, covered_count c N]
    simp only [List.map_cons, List.map_nil, List.sum_cons, List.sum_nil, Covers, Bool.and_eq_true, decide_eq_true_eq]
    split <;> omega

theorem writes_sum (N : Nat) : ∀ l : List WCall, (∀ c ∈ l, c.data = [] ∨ c.off + c.data.length ≤ N) → ((List.range N).map (writesTo l)).sum = bytesGiven l
  | [], _ => by
    show ((List.range N).map fun _ => 0).sum = 0
    simp
  | c :: l, h => by
    have h1 : writesTo (c :: l) = fun x => writesTo l x + if Covers c x then 1 else 0 := by
      funext x
      unfold writesTo
      rw [List.countP_cons]
    have h2 : ∀ (xs : List Nat) (f g : Nat → Nat), (xs.map fun x => f x + g x).sum = (xs.map f).sum + (xs.map g).sum := by
      intro xs f g
      induction xs with
      | nil => rfl
      | cons x xs ih => simp only [List.map_cons, List.sum_cons, ih]; omega
    rw [h1, h2, writes_sum N l fun d hd => h d (List.mem_cons_of_mem _ hd), covered_count]
    show _ = (((c :: l).map fun c => c.data.length).sum)
    rw [List.map_cons, List.sum_cons]
    have : bytesGiven l = ((l.map fun c => c.data.length).sum) := rfl
    rcases h c List.mem_cons_self with h0 | h0
    · rw [h0, List.length_nil]; omega
    · omega

/-- **C159**: so an `Encode` that succeeds makes at most as many calls as the file has bytes, and hands over every byte of it just once. -/
theorem C159_file (env : WEnv) (i : Img) (l : List WCall) (h : runEncode env i = some (l, none)) (size : Nat) (hs : ExactlyOnce l size) :
    bytesGiven l = size ∧ l.length ≤ size := by
  have h1 : bytesGiven l = size := by
    rw [← writes_sum size l]
    · have : ∀ n, n ≤ size → ((List.range n).map (writesTo l)).sum = n := by
        intro n hn
        induction n with
        | zero => rfl
        | succ n ih =>
          rw [List.range_succ, List.map_append, List.sum_append, ih (by omega)]
          simp only [List.map_cons, List.map_nil, List.sum_cons, List.sum_nil]
          rw [hs, if_pos (by omega)]
          rfl
      exact this size (Nat.le_refl _)
    · intro c hc
      by_cases h0 : c.data = []
      · exact .inl h0
      · right
        have hp := List.length_pos_iff.2 h0
        have h2 : 0 < writesTo l (c.off + (c.data.length - 1)) := by
          unfold writesTo
          rw [List.countP_pos_iff]
          exact ⟨c, hc, by simp [Covers]; omega⟩
        rw [hs] at h2
        split at h2
        · omega
        · omega
  exact ⟨h1, h1 ▸ C159_calls env i l none h⟩

/-- a small picture: its file is handed over once -/
example : ∃ l size, runEncode goodSink samplePicture = some (l, none) ∧ ExactlyOnce l size ∧ bytesGiven l = size := by
  obtain ⟨l, h⟩ := C74_encode_succeeds goodSink samplePicture samplePicture_whole (fun _ _ _ _ _ _ => rfl) fun _ => rfl
  obtain ⟨size, hs⟩ := C34_once _ _ samplePicture_encodable l h
  exact ⟨l, size, h, hs, (C159_file _ _ l h size hs).1⟩

/-- **C159**: and the number of calls is at most the number of bytes that C106 gives for the size of the file. -/
theorem C159_bound (env : WEnv) (i : Img) (hi : Encodable i) (cm : ColorModel) (hcm : i.colorModel = some cm) (l : List WCall)
    (h : runEncode env i = some (l, none)) : l.length ≤ fileBytes (fmtOf env cm) i := by
  obtain ⟨size, hs⟩ := C34_once env i hi l h
  exact Nat.le_trans (C159_file env i l h size hs).2 (encode_size env i hi l h cm hcm size hs)

/-- the picture above is written with at most 54438 calls -/
example : ∃ l, runEncode goodSink samplePicture = some (l, none) ∧ l.length ≤ 54438 := by
  obtain ⟨l, h⟩ := C74_encode_succeeds goodSink samplePicture samplePicture_whole (fun _ _ _ _ _ _ => rfl) fun _ => rfl
  have hb : fileBytes (fmtOf goodSink .other) samplePicture = 54438 := by decide +kernel
  exact ⟨l, h, hb ▸ C159_bound _ _ samplePicture_encodable .other sample_model l h⟩

end Limage
