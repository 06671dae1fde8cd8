import Verif.Proofs.Layout
import Verif.Props.Encode
/-!
# C36: the structure of the files written
-/
namespace Limage
open Spec

theorem hasAt_take {D : Bytes} {p n : Nat} {b : Bytes} (h : HasAt D p b) (hn : b = [] ∨ p + b.length ≤ n) :
    HasAt (D.take n) p b := by
  rcases hn with rfl | hn
  · exact hasAt_nil _ _
  · unfold HasAt at h ⊢
    rw [List.drop_take, List.take_take, show min b.length (n - p) = b.length by omega]
    exact h

theorem runEncode_made {env : WEnv} {i : Img} (hi : Encodable i) {l : List WCall} (h : runEncode env i = some (l, none))
    (D : Bytes) : ∃ size s, encode i env WS.start = some ((), s, l) ∧ ExactlyOnce l size ∧ Made ((store D l).take size) l := by
  obtain ⟨size, hs⟩ := C34_once env i hi l h
  obtain ⟨s, h', he⟩ := runEncode_some h
  refine ⟨size, s, h', hs, fun c hc => ⟨?_, hasAt_take (hs.hasAt c hc D) ?_⟩⟩
  · exact (C35_errors env i l none h).1.1 rfl c hc
  · by_cases hd : c.data = []
    · exact .inl hd
    · exact .inr (hs.ends c hc hd)

/-- C36.  The `size` bytes that a successful `Encode` leaves in the destination — whatever was there before — are a file
in which the header is followed by the pointers to the layers in the order of the tree, every pointer to a layer is the
offset of that layer, every hierarchy pointer the offset of the pixels of the layer, every mask pointer the offset of its
mask (zero if it has none), every level pointer the offset of a level, every tile pointer the offset of the encoding of
that tile. -/
theorem C36_layout (env : WEnv) (i : Img) (hi : Encodable i) (l : List WCall) (h : runEncode env i = some (l, none))
    (D : Bytes) : ∃ size cm, ExactlyOnce l size ∧ i.colorModel = some cm ∧ FileAt ((store D l).take size) (fmtOf env cm) i := by
  obtain ⟨size, s, h', hs, hm⟩ := runEncode_made hi h D
  obtain ⟨cm, h1, h2⟩ := encode_at i hi s l h' hm
  exact ⟨size, cm, hs, h1, h2.at⟩

example : ∃ l, Encodable samplePicture ∧ runEncode goodSink samplePicture = some (l, none) := by
  obtain ⟨l, h⟩ := C74_encode_succeeds goodSink _ samplePicture_whole (fun _ _ _ _ _ _ => rfl) fun _ => rfl
  exact ⟨l, samplePicture_encodable, h⟩

/-- C36.  In a file of at most 4 GiB the number stored for the offset of something is that offset. -/
theorem C36_pointer_value (D : Bytes) (p : Nat) (b : Bytes) (h : HasAt D p b) (hb : b ≠ []) (hD : D.length ≤ 2 ^ 32) :
    fromBE (num p) = p := by
  have h1 := HasAt.le h hb
  have h2 := List.length_pos_iff.2 hb
  unfold num
  rw [fromBE_be]
  exact Nat.mod_eq_of_lt (by omega)

example : HasAt [7, 8, 9] 1 [8, 9] ∧ fromBE (num 1) = 1 := ⟨rfl, by decide⟩

end Limage
