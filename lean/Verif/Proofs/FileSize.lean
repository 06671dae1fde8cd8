import Verif.Proofs.Layout
import Verif.Spec.FileSize
import Verif.Props.Rle
import Mathlib.Tactic.Ring
/-! The size of the files written. -/
namespace Limage
open Spec

/-- the position advances by at most `n` -/
def AtMost {α : Type} (env : WEnv) (m : W α) (n : Nat) : Prop :=
  ∀ s a s' l, m env s = some (a, s', l) → s'.pos ≤ s.pos + n

variable {env : WEnv}

theorem AtMost.mono {α : Type} {m : W α} {n k : Nat} (h : AtMost env m n) (hk : n ≤ k) : AtMost env m k :=
  fun s a s' l e => Nat.le_trans (h s a s' l e) (by omega)

theorem AtMost.bind {α β : Type} {m : W α} {f : α → W β} {n k : Nat} (hm : AtMost env m n) (hf : ∀ a, AtMost env (f a) k) :
    AtMost env (m >>= f) (n + k) := by
  intro s a s' l h
  wstep h as x s1 l1 k1 h1
  have := hm _ _ _ _ h1
  have := hf _ _ _ _ _ h
  omega

/-- as `bind`, when the result of the first part is known -/
theorem AtMost.get {α β : Type} {o : Option α} {f : α → W β} {n : Nat} (hf : ∀ a, o = some a → AtMost env (f a) n) :
    AtMost env (W.get o >>= f) n := by
  intro s a s' l h
  wstep h as x s1 l1 k1 h1
  obtain ⟨e, rfl, rfl⟩ := W.get_some.1 h1
  exact hf _ e _ _ _ _ h

theorem AtMost.pure {α : Type} (a : α) : AtMost env (Pure.pure a : W α) 0 := by
  intro s b s' l h
  obtain ⟨-, rfl, -⟩ := W.pure_some.1 h
  exact Nat.le_refl _

theorem AtMost.write (p : Bytes) : AtMost env (write p) p.length := by
  intro s a s' l h
  unfold Limage.write at h
  cases he : s.err with
  | some e => rw [he] at h; cases h; omega
  | none =>
    rw [he] at h
    simp only [writeCall] at h
    cases hs : env.sink s.calls with
    | none => rw [hs] at h; cases h; simp
    | some n => rw [hs] at h; cases h; simp

theorem AtMost.u32 (x : UInt32) : AtMost env (writeUint32 x) 4 := (AtMost.write _).mono (by rw [be_length])
theorem AtMost.byte (x : UInt8) : AtMost env (writeUint8 x) 1 := (AtMost.write _).mono (by rw [be_length])

theorem AtMost.all : ∀ ps, AtMost env (writeAll ps) ps.flatten.length
  | [] => .pure _
  | p :: ps => ((AtMost.write p).bind fun _ => AtMost.all ps).mono (by simp)

theorem AtMost.u32s : ∀ ps : List UInt32, AtMost env (writeUint32s ps) (4 * ps.length)
  | [] => .pure _
  | p :: ps => ((AtMost.u32 p).bind fun _ => AtMost.u32s ps).mono (by simp; omega)

theorem AtMost.string (s : GoString) : AtMost env (writeString s) (s.length + 5) :=
  ((AtMost.u32 _).bind fun _ => (AtMost.write _).bind fun _ => AtMost.byte _).mono (by omega)

theorem AtMost.pos : AtMost env currentPos 0 := by
  intro s b s' l h
  obtain ⟨-, rfl, -⟩ := currentPos_some.1 h
  exact Nat.le_refl _

theorem AtMost.pointer (p : PW) (x : UInt32) : AtMost env (writePointer p x) 0 := by
  intro s b s' l h
  unfold writePointer at h
  split at h
  · cases he : p.err with
    | some e => rw [he] at h; cases h; exact Nat.le_refl _
    | none => rw [he] at h; cases h; exact Nat.le_refl _
  · cases h; exact Nat.le_refl _

theorem AtMost.reserve (n : UInt32) : AtMost env (reservePointers n) (4 * n.toNat) := by
  intro s b s' l h
  obtain ⟨-, rfl, -⟩ := reservePointers_some.1 h
  dsimp only; omega

theorem AtMost.reserveList (n : UInt32) : AtMost env (reservePointerList n) (4 * n.toNat + 4) :=
  (AtMost.reserve n).bind fun _ => ((AtMost.u32 _).bind fun _ => AtMost.pure _).mono (by omega)

theorem AtMost.rle (d : Bytes) (hd : d.length ≤ 4096) : AtMost env (encodeRLE d) 4130 := by
  refine AtMost.get fun ws hw => ?_
  obtain ⟨ws', h1, h2, -⟩ := C30_size d
  rw [hw] at h1
  cases h1
  exact (AtMost.all ws).mono (by omega)

theorem AtMost.channels (px : List Bytes) (hpx : px.length ≤ 4096) : ∀ k n, AtMost env (writeChannels px k n) (4130 * k)
  | 0, _ => .pure _
  | k + 1, n => ((AtMost.rle _ (by simpa using hpx)).bind fun _ => AtMost.channels px hpx k (n + 1)).mono (by omega)

theorem AtMost.tiles (i : Img) (f : Color → Bytes) (ch : Nat) (b : Rect) : ∀ (os : List Pt) (pw : PW),
    AtMost env (writeTiles i f ch b os pw) (os.length * (4130 * ch))
  | [], _ => (AtMost.pure _).mono (Nat.zero_le _)
  | o :: os, pw => by
    intro s a s' l h
    unfold writeTiles at h
    wstep h as cs s1 l1 k1 h1
    obtain ⟨-, p1, -, q⟩ := pixelsAt_shows (f := f) _ _ _ _ _ h1
    have hl : (cs.map f).length ≤ 4096 := by
      have := q.length_eq
      have := tilePoints_length b o
      omega
    have := ((AtMost.pos (env := env)).bind fun p => (AtMost.pointer pw p).bind fun pw' => (AtMost.channels _ hl ch 0).bind fun _ =>
      AtMost.tiles i f ch b os pw') _ _ _ _ h
    rw [List.length_cons, Nat.add_mul]
    omega

theorem AtMost.image (i : Img) (f : Color → Bytes) (ch : Nat) (hs : ∀ b, i.bounds = some b → SizeOk b) :
    AtMost env (writeImage i f ch) (pixelBytes ch i.bounds) := by
  refine AtMost.get fun b hb => ?_
  rw [hb]
  refine ((AtMost.u32 _).bind fun _ => (AtMost.u32 _).bind fun _ => (AtMost.u32 _).bind fun _ => AtMost.pos.bind fun _ =>
    (AtMost.u32 _).bind fun _ => (AtMost.u32 _).bind fun _ => (AtMost.u32 _).bind fun _ => (AtMost.u32 _).bind fun _ =>
    (AtMost.reserveList _).bind fun _ => AtMost.tiles i f ch b _ _).mono ?_
  rw [tiles_reserved (hs b hb)]
  have : (tileOrigins b).length = tilesAlong b.dx * tilesAlong b.dy := by
    rw [tileOrigins_eq, List.length_map]
    unfold tileList
    simp [List.length_flatMap, Nat.mul_comm]
  rw [this]
  unfold pixelBytes
  dsimp only
  rw [Nat.mul_add]
  generalize tilesAlong b.dx * tilesAlong b.dy = t
  omega

theorem AtMost.channel (m : GrayImg) (hs : SizeOk m.rect) : AtMost env (writeChannel m) (maskBytes (some m)) := by
  refine ((AtMost.u32 _).bind fun _ => (AtMost.u32 _).bind fun _ => (AtMost.string _).bind fun _ => (AtMost.u32 _).bind fun _ =>
    (AtMost.u32 _).bind fun _ => AtMost.pos.bind fun _ => (AtMost.u32 _).bind fun _ =>
    AtMost.image m.img grayToBuf 1 (fun b hb => by cases hb; exact hs)).mono ?_
  unfold maskBytes
  show _ ≤ 25 + pixelBytes 1 m.img.bounds
  simp only [List.length_nil]
  omega

theorem AtMost.path (g : List UInt32) : AtMost env (writePath g) (8 + 4 * g.length) := by
  unfold writePath
  split
  · exact ((AtMost.u32 _).bind fun _ => (AtMost.u32 _).bind fun _ => AtMost.u32s _).mono (by omega)
  · exact (AtMost.pure _).mono (Nat.zero_le _)

theorem AtMost.group (g : Bool) : AtMost env (writeGroupProp g) 8 := by
  unfold writeGroupProp
  split
  · exact (AtMost.u32 _).bind fun _ => AtMost.u32 _
  · exact (AtMost.pure _).mono (Nat.zero_le _)

theorem AtMost.text (cm : ColorModel) (l : Layer) :
    AtMost env (writeTextProp (layerTextData l.image) (Limage.u32 l.bounds.dx) (Limage.u32 l.bounds.dy)) (48 + textBytes (fmtOf env cm) l) := by
  unfold writeTextProp
  split
  · rename_i ht
    have hx : textOf l = some (layerTextData l.image) := by
      unfold textOf
      unfold layerTextData at ht ⊢
      cases hi : l.image with
      | text j t =>
        rw [hi] at ht
        dsimp only at ht ⊢
        rw [if_neg (List.length_pos_iff.1 ht)]
      | _ => rw [hi] at ht; cases ht
    intro s a s' k h
    unfold writeText at h
    cases hd : env.text (layerTextData l.image) (Limage.u32 l.bounds.dx) (Limage.u32 l.bounds.dy) with
    | none => rw [hd] at h; cases h
    | some d =>
      rw [hd] at h
      have := ((AtMost.u32 _).bind fun _ => (AtMost.u32 _).bind fun _ => (AtMost.u32 _).bind fun _ => (AtMost.u32 _).bind fun _ =>
        (AtMost.u32 _).bind fun _ => (AtMost.string _).bind fun _ => (AtMost.u32 _).bind fun _ => (AtMost.u32 _).bind fun _ =>
        AtMost.write d) _ _ _ _ h
      have ht : textBytes (fmtOf env cm) l = d.length := by
        unfold textBytes
        rw [hx]
        show ((env.text (layerTextData l.image) (Limage.u32 l.bounds.dx) (Limage.u32 l.bounds.dy)).getD []).length = _
        rw [hd]; rfl
      simp only [List.length_cons, List.length_nil] at this
      omega
  · exact (AtMost.pure _).mono (Nat.zero_le _)

theorem AtMost.properties (cm : ColorModel) (e : Enc) (l : Layer) (ox oy : UInt32) (g : List UInt32) :
    AtMost env (writeProperties e l ox oy g) (137 + l.name.length + 4 * g.length + textBytes (fmtOf env cm) l) := by
  refine ((AtMost.u32 _).bind fun _ => (AtMost.u32 _).bind fun _ => (AtMost.u32 _).bind fun _ => (AtMost.string _).bind fun _ =>
    (AtMost.u32 _).bind fun _ => (AtMost.u32 _).bind fun _ => (AtMost.u32 _).bind fun _ => (AtMost.u32 _).bind fun _ =>
    (AtMost.u32 _).bind fun _ => (AtMost.u32 _).bind fun _ => (AtMost.u32 _).bind fun _ => (AtMost.u32 _).bind fun _ =>
    (AtMost.u32 _).bind fun _ => (AtMost.u32 _).bind fun _ => (AtMost.path _).bind fun _ => (AtMost.text cm l).bind fun _ =>
    (AtMost.group _).bind fun _ => (AtMost.u32 _).bind fun _ => (AtMost.u32 _).bind fun _ => (AtMost.u32 _).bind fun _ =>
    AtMost.u32 _).mono ?_
  omega

theorem AtMost.mask (m : Option GrayImg) (hs : ∀ x, m = some x → SizeOk x.rect) (pw : PW) : AtMost env (writeMask m pw) (maskBytes m) := by
  unfold writeMask
  cases m with
  | none => exact ((AtMost.pointer _ _).bind fun _ => AtMost.pure _).mono (Nat.zero_le _)
  | some m => exact (AtMost.pos.bind fun _ => (AtMost.pointer _ _).bind fun _ => AtMost.channel m (hs m rfl)).mono (by omega)

/-- bytes for a layer and its pointer, if `cost` of them are for its pixels, its mask and the pointers to them -/
def layerBytesBy (cost : Layer → Nat) (F : Fmt) (r : Placed) : Nat :=
  152 + r.layer.name.length + 4 * r.path.length + textBytes F r.layer + cost r.layer

/-- what `cost` is to be -/
def Costs (env : WEnv) (cm : ColorModel) (cost : Layer → Nat) : Prop :=
  ∀ l : Layer, LayerSizeOk l.image → AtMost env (writeLayerData (encFor cm) (pixelsOf l.image) (maskOf l.image)) (cost l)

theorem AtMost.own {cost : Layer → Nat} (cm : ColorModel) (hc : Costs env cm cost) (l : Layer) (ox oy : UInt32) (ox' oy' : Int) (path : List Nat)
    (hl : LayerSizeOk l.image) (pw : PW) :
    AtMost env (writeOwn (encFor cm) l ox oy (path.map UInt32.ofNat) pw) (layerBytesBy cost (fmtOf env cm) ⟨l, ox', oy', path⟩ - 4) := by
  unfold writeOwn
  rw [layerContent_eq]
  refine (AtMost.pos.bind fun _ => (AtMost.pointer _ _).bind fun _ => (AtMost.properties cm _ _ _ _ _).bind fun _ => (AtMost.u32 _).bind fun _ =>
    ((hc l hl).bind fun _ => AtMost.pure _)).mono ?_
  unfold layerBytesBy
  show _ ≤ 152 + l.name.length + 4 * path.length + textBytes (fmtOf env cm) l + cost l - 4
  rw [List.length_map]
  omega

/-- pixels and masks as large as they can be -/
theorem costs_most (env : WEnv) (cm : ColorModel) :
    Costs env cm fun l => 8 + pixelBytes (encFor cm).channels (pixelsOf l.image).bounds + maskBytes (maskOf l.image) := by
  intro l hl
  unfold writeLayerData
  exact ((AtMost.reserve _).bind fun _ => AtMost.pos.bind fun _ => (AtMost.pointer _ _).bind fun _ => (AtMost.image _ _ _ hl.1).bind fun _ =>
    AtMost.mask _ hl.2 _).mono (by show 4 * 2 + _ ≤ 8 + pixelBytes (encFor cm).channels (pixelsOf l.image).bounds + maskBytes (maskOf l.image); omega)

mutual
theorem AtMost.sub {cost : Layer → Nat} (cm : ColorModel) (hc : Costs env cm cost) (i : Img) (ox oy : UInt32) (ox' oy' : Int) (path : List Nat) (hl : EveryIn LayerSizeOk i) (pw : PW) :
    AtMost env (writeSub (encFor cm) i ox oy (path.map UInt32.ofNat) pw)
      (((placedIn i ox' oy' path).map fun r => layerBytesBy cost (fmtOf env cm) r - 4).sum) := by
  match i with
  | .group g =>
    unfold writeSub placedIn
    unfold EveryIn at hl
    exact AtMost.layers cm hc g 0 ox oy ox' oy' path hl pw
  | .leaf _ | .nil | .text _ _ | .masked _ _ => exact (AtMost.pure _).mono (Nat.zero_le _)
termination_by structural i

theorem AtMost.layers {cost : Layer → Nat} (cm : ColorModel) (hc : Costs env cm cost) (g : List Layer) (n : Nat) (ox oy : UInt32) (ox' oy' : Int) (path : List Nat)
    (hl : EveryLayer LayerSizeOk g) (pw : PW) :
    AtMost env (writeLayers (encFor cm) g n ox oy (path.map UInt32.ofNat) pw)
      (((placed g n ox' oy' path).map fun r => layerBytesBy cost (fmtOf env cm) r - 4).sum) := by
  match g with
  | [] => exact (AtMost.pure _).mono (Nat.zero_le _)
  | ⟨name, b, mode, inv, tr, im⟩ :: rest =>
    unfold writeLayers placed
    unfold EveryLayer at hl
    obtain ⟨hl1, hl2, hl3⟩ := hl
    rw [show path.map UInt32.ofNat ++ [UInt32.ofNat n] = (path ++ [n]).map UInt32.ofNat by simp]
    refine ((AtMost.own cm hc ⟨name, b, mode, inv, tr, im⟩ _ _ (ox' + b.x0) (oy' + b.y0) _ hl1 _).bind fun _ =>
      (AtMost.sub cm hc im _ _ (ox' + b.x0) (oy' + b.y0) _ hl2 _).bind fun _ =>
      AtMost.layers cm hc rest _ _ _ ox' oy' _ hl3 _).mono ?_
    rw [List.map_cons, List.sum_cons, List.map_append, List.sum_append]
termination_by structural g
end

theorem AtMost.colors : ∀ p : List Color, AtMost env (writeColors p) (3 * p.length)
  | [] => .pure _
  | c :: cs => by
    unfold writeColors
    exact ((AtMost.byte _).bind fun _ => (AtMost.byte _).bind fun _ => (AtMost.byte _).bind fun _ => AtMost.colors cs).mono
      (by rw [List.length_cons]; omega)

theorem AtMost.colorMap (p : Option (List Color)) : AtMost env (writeColorMap p) (12 + 3 * ((p.map fun p => p.map rgbModel).getD []).length) := by
  cases p with
  | none => exact (AtMost.pure _).mono (Nat.zero_le _)
  | some p =>
    exact ((AtMost.u32 _).bind fun _ => (AtMost.u32 _).bind fun _ => (AtMost.u32 _).bind fun _ => AtMost.colors p).mono
      (by simp; omega)

mutual
theorem placedIn_length (i : Img) (ox oy : Int) (path : List Nat) : (placedIn i ox oy path).length = totalIn i := by
  match i with
  | .group g => unfold placedIn totalIn; exact placed_length g 0 ox oy path
  | .leaf _ | .nil | .text _ _ | .masked _ _ => rfl
termination_by structural i

theorem placed_length (g : List Layer) (n : Nat) (ox oy : Int) (path : List Nat) : (placed g n ox oy path).length = total g := by
  match g with
  | [] => rfl
  | ⟨name, b, mode, inv, tr, im⟩ :: rest =>
    unfold placed total
    rw [List.length_cons, List.length_append, placedIn_length im, placed_length rest]
    omega
termination_by structural g
end

theorem sum_layerBytes (cost : Layer → Nat) (F : Fmt) (ls : List Placed) :
    (ls.map fun r => layerBytesBy cost F r - 4).sum + 4 * ls.length = (ls.map (layerBytesBy cost F)).sum := by
  induction ls with
  | nil => rfl
  | cons r ls ih =>
    rw [List.map_cons, List.map_cons, List.sum_cons, List.sum_cons, List.length_cons, ← ih]
    have : 4 ≤ layerBytesBy cost F r := by unfold layerBytesBy; omega
    omega

theorem AtMost.content {cost : Layer → Nat} (cm : ColorModel) (hc : Costs env cm cost) (i : Img) (hi : Encodable i) :
    AtMost env (writeContent (encFor cm) i) (8 + ((layersOf i).map (layerBytesBy cost (fmtOf env cm))).sum) := by
  have key : ∀ i, LayerSizeOk i → AtMost env (do
      let pw ← reservePointerList 1
      writeUint32 0
      let _ ← writeOwn (encFor cm) ⟨[], Rect.zero, 0, false, 0, i⟩ 0 0 [] pw : W Unit)
        (8 + ([(⟨⟨[], Rect.zero, 0, false, 0, i⟩, 0, 0, []⟩ : Placed)].map (layerBytesBy cost (fmtOf env cm))).sum) := by
    intro i hi
    refine ((AtMost.reserveList _).bind fun _ => (AtMost.u32 _).bind fun _ => (AtMost.own cm hc ⟨[], Rect.zero, 0, false, 0, i⟩ 0 0 0 0 [] hi _).bind
      fun _ => AtMost.pure _).mono ?_
    rw [← sum_layerBytes]
    show 4 * 1 + 4 + (4 + (layerBytesBy cost (fmtOf env cm) ⟨⟨[], Rect.zero, 0, false, 0, i⟩, 0, 0, []⟩ - 4 + 0)) ≤ _
    simp only [List.map_cons, List.map_nil, List.sum_cons, List.sum_nil, List.length_cons, List.length_nil]
    omega
  match i with
  | .group g =>
    obtain ⟨h1, h2⟩ := hi
    refine ((AtMost.reserveList _).bind fun _ => (AtMost.u32 _).bind fun _ => (AtMost.layers cm hc g 0 0 0 0 0 [] h1 _).bind
      fun _ => AtMost.pure _).mono ?_
    rw [← sum_layerBytes]
    show _ ≤ 8 + (((placed g 0 0 0 []).map fun r => layerBytesBy cost (fmtOf env cm) r - 4).sum + 4 * (placed g 0 0 0 []).length)
    rw [placed_length, layerCount_eq, UInt32.toNat_ofNat_of_lt' h2]
    omega
  | .leaf _ => exact key _ hi
  | .nil => exact key _ hi
  | .text _ _ => exact key _ hi
  | .masked _ _ => exact key _ hi

/-- the size of a file, if `cost` is what layers need -/
theorem encode_bytes_by {cost : Layer → Nat} (i : Img) (hi : Encodable i) {s : WS} {l : List WCall} (h : encode i env WS.start = some ((), s, l))
    {cm : ColorModel} (hcm : i.colorModel = some cm)
    (hc : Costs env cm cost) : s.pos ≤ 80 + 3 * ((fmtOf env cm).palette.getD []).length + ((layersOf i).map (layerBytesBy cost (fmtOf env cm))).sum := by
  unfold encode at h
  rw [hcm] at h
  have := ((AtMost.write _).bind fun _ => AtMost.get fun b hb => (AtMost.u32 _).bind fun _ => (AtMost.u32 _).bind fun _ => AtMost.get
    (n := 45 + 3 * (((encFor cm).palette.map fun p => p.map rgbModel).getD []).length + ((layersOf i).map (layerBytesBy cost (fmtOf env cm))).sum)
    fun cm' hcc => by
      cases hcc
      refine ((AtMost.u32 _).bind fun _ => (AtMost.colorMap _).bind fun _ => (AtMost.u32 _).bind fun _ => (AtMost.u32 _).bind fun _ =>
        (AtMost.byte _).bind fun _ => (AtMost.u32 _).bind fun _ => (AtMost.u32 _).bind fun _ => AtMost.content cm hc i hi).mono ?_
      omega) _ _ _ _ h
  show _ ≤ 80 + 3 * (((encFor cm).palette.map fun p => p.map rgbModel).getD []).length + _
  have hl : xcfHeader.length = 14 := rfl
  simp only [WS.start, hl] at this
  omega

theorem encode_bytes (i : Img) (hi : Encodable i) {s : WS} {l : List WCall} (h : encode i env WS.start = some ((), s, l))
    {cm : ColorModel} (hcm : i.colorModel = some cm) : s.pos ≤ fileBytes (fmtOf env cm) i := by
  have := encode_bytes_by i hi h hcm (costs_most env cm)
  unfold fileBytes
  refine Nat.le_trans this (Nat.le_of_eq ?_)
  congr 3
  funext r
  unfold layerBytesBy layerBytes
  show _ = 160 + r.layer.name.length + 4 * r.path.length + textBytes (fmtOf env cm) r.layer +
    pixelBytes (encFor cm).channels (pixelsOf r.layer.image).bounds + maskBytes (maskOf r.layer.image)
  dsimp only
  omega

end Limage
