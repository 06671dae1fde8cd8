import Verif.Props.Config
import Verif.Props.Image
import Verif.Props.Registered
import Verif.Props.OraConfig
/-! # Loaded pictures stay on the canvas (C169, C65) -/
namespace Limage
open Spec

/-! ## Specification -/

/-- the canvas of a file: width and height are in bytes 14 to 21 -/
def Spec.canvasOf (D : Bytes) : Rect := ⟨0, 0, fromBE ((D.drop 14).take 4), fromBE ((D.drop 18).take 4)⟩

/-! ## Proofs -/

/-- the size is read from bytes 14 to 21 -/
theorem readHead_canvas (D : Bytes) (h : Head) (r : R) (e : readHead (newReader D) = .ok (.ok h, r)) :
    canvasOf D = sizeRect h.width.toNat h.height.toNat := by
  unfold readHead at e
  obtain ⟨x, r1, e1, e⟩ := M.bind_inv e
  cases x with
  | error er => cases e
  | ok mode =>
    dsimp only at e
    obtain ⟨m, r', hr, hm⟩ := readHeader_fault D
    have hf : Spec.headerFault D = none := by
      cases hf : Spec.headerFault D with
      | none => rfl
      | some er => rw [hf, e1] at hr; cases hr
    rw [hf, e1] at hr
    cases hr
    obtain ⟨rfl, _⟩ := hm hf
    obtain ⟨w, r2, e2, e⟩ := M.bind_inv e
    obtain ⟨ht, r3, e3, e⟩ := M.bind_inv e
    obtain ⟨b, r4, e4, e⟩ := M.bind_inv e
    obtain ⟨_, r5, e5, e⟩ := M.bind_inv e
    obtain ⟨y, r6, e6, e⟩ := M.bind_inv e
    cases y with
    | error er => cases e
    | ok props =>
      dsimp only at e
      obtain ⟨ptrs, r7, e7, e⟩ := M.bind_inv e
      obtain ⟨er, r8, e8, e⟩ := M.bind_inv e
      cases e8
      cases her : r7.err with
      | some er => rw [her] at e; cases e
      | none =>
        rw [her] at e
        cases e
        have k4 : r4.err = none :=
          ((readPrecision_total _).keeps _ _ _ e5).none
            (((readImageProperties_total _).keeps _ _ _ e6).none (((readLayerPointers_total _).keeps _ _ _ e7).none her))
        obtain ⟨_, ⟨t, ht'⟩, _⟩ := three_seen e2 e3 e4 k4
        have h0 : D.drop 14 = be 4 w.toNat ++ (be 4 ht.toNat ++ (be 4 b.toNat ++ t)) := by
          have : D.drop 14 = be 4 w.toNat ++ be 4 ht.toNat ++ be 4 b.toNat ++ t := ht'
          rw [this]
          simp
        have h1 : D.drop 18 = be 4 ht.toNat ++ (be 4 b.toNat ++ t) := by
          rw [show 18 = 14 + 4 from rfl, ← List.drop_drop, h0, List.drop_left' (be_length _ _)]
        unfold canvasOf sizeRect
        have := w.toNat_lt
        have := ht.toNat_lt
        rw [h0, h1, List.take_left' (be_length _ _), List.take_left' (be_length _ _), fromBE_be, fromBE_be, Nat.mod_eq_of_lt (by omega), Nat.mod_eq_of_lt (by omega)]

theorem decode_canvas {env : Env} {sch : Sched} (hv : sch.Valid) {dec : Bool} {D : Bytes} {g : List Layer}
    (h : decodeImage env sch dec D = .ok (.ok g)) : ∀ l ∈ g, inside l.bounds (canvasOf D) := by
  unfold decodeImage at h
  cases hh : readHead (newReader D) with
  | panic => rw [hh] at h; cases h
  | hang => rw [hh] at h; cases h
  | ok x =>
  obtain ⟨hd, r⟩ := x
  rw [hh] at h
  cases hd with
  | error e => cases h
  | ok hd =>
  rw [readHead_canvas D hd r hh]
  dsimp only at h
  unfold decodeLayers at h
  split at h
  · cases h
  · cases h
  · cases h
  · rename_i ls hl
    cases hmg : makeGroups (sizeRect hd.width.toNat hd.height.toNat) ls GState.start with
    | error e => rw [hmg] at h; cases h
    | ok s =>
      rw [hmg] at h
      dsimp only at h
      have hi := makeGroups_inv ginv_start hmg
      rw [makeImage_tree hi _ (hv.2 _)] at h
      have hb0 := makeGroups_canvas ginv_start (by intro g hg; cases hg; exact ⟨rfl, rfl⟩)
        (by intro l hl; cases hl) hmg
      cases h
      have htree : ∀ f, ∀ l ∈ groupTree s (s.map.map (·.2)) f 0, Spec.inside l.bounds (sizeRect hd.width.toNat hd.height.toNat) := by
        intro f
        cases f with
        | zero => intro l hl; cases hl
        | succ f =>
          intro l hl
          unfold groupTree at hl
          obtain ⟨k, hk, rfl⟩ := List.mem_mapIdx.1 hl
          exact hb0 _ (List.getElem_mem hk)
      intro l hl
      unfold fixBottom at hl
      split at hl
      · exact htree _ l hl
      · rename_i x hx
        split at hl
        · exact htree _ l hl
        · rcases List.mem_append.1 hl with hl | hl
          · exact htree _ l (List.dropLast_subset _ hl)
          · rw [List.mem_singleton.1 hl]
            exact htree _ x (List.mem_of_getLast? hx)

/-- **C169**: the bounds of a loaded picture lie within the canvas of its file, and every pixel outside is fully transparent. -/
theorem C169_canvas (env : Env) (sch : Sched) (hv : sch.Valid) (dec : Bool) (D : Bytes) (g : List Layer)
    (h : decodeImage env sch dec D = .ok (.ok g)) :
    (∃ b, (Img.group g).bounds = some b ∧ inside b (canvasOf D)) ∧
    ∀ ρ p n, ¬ inRect (canvasOf D) p → (Img.group g).at ρ p n = some (.alpha 0, n) := by
  have hl := decode_canvas hv h
  exact ⟨C24_smallest g _ hl, fun ρ p n hp => C25_nothing_shows ρ g p n fun l hm hs => hp (hl l hm p hs.2)⟩

/-- an accepted file, with a canvas of one pixel -/
example : (∃ g, decodeImage exEnv exSched true onePixelFile = .ok (.ok g)) ∧ canvasOf onePixelFile = ⟨0, 0, 1, 1⟩ ∧ exSched.Valid ∧
    ¬ inRect (canvasOf onePixelFile) ⟨1, 0⟩ := by
  have : canvasOf onePixelFile = ⟨0, 0, 1, 1⟩ := by decide +kernel
  refine ⟨onePixelFile_accepted, this, ⟨fun _ => List.Perm.refl _, fun _ => List.Perm.refl _⟩, ?_⟩
  rw [this]
  simp [inRect]

/-- **C65**: a picture loaded from an OpenRaster file is fully transparent outside the canvas whose size `DecodeConfig` returns. -/
theorem C65_outside (env : OraEnv) (files : List ZipEntry) (g : List Layer) (h : oraDecode env files = .ok g) :
    ∃ w h, oraDecodeConfig env files = .ok (w, h) ∧ (∃ b, (Img.group g).bounds = some b ∧ inside b ⟨0, 0, w, h⟩) ∧
      ∀ ρ p n, ¬ inRect ⟨0, 0, w, h⟩ p → (Img.group g).at ρ p n = some (.alpha 0, n) := by
  obtain ⟨w, h', hc, hon⟩ := C65_canvas env files g h
  have hl : ∀ l ∈ g, inside l.bounds ⟨0, 0, w, h'⟩ := fun l hl p hp => by
    have := hon l hl p (by unfold inRect at hp; simp [Rect.mem]; omega)
    unfold inRect; dsimp only; omega
  exact ⟨w, h', hc, C24_smallest g _ hl, fun ρ p n hp => C25_nothing_shows ρ g p n fun l hm hs => hp (hl l hm p hs.2)⟩

/-- an archive that is read, and a point outside its canvas -/
example : ∃ g w h, oraDecode exampleEnv exampleFiles = .ok g ∧ g ≠ [] ∧ oraDecodeConfig exampleEnv exampleFiles = .ok (w, h) ∧
    ¬ inRect ⟨0, 0, w, h⟩ ⟨-1, 0⟩ :=
  ⟨_, _, _, rfl, nofun, rfl, by simp [inRect]⟩

end Limage
