import Verif.Proofs.Store
import Verif.Spec.XcfFile
import Verif.Proofs.RleWrite
import Verif.Props.Composite
/-!
# The encoder does not panic
-/
namespace Limage
open Spec

/-- the computation never panics -/
def Goes {α : Type} (env : WEnv) (m : W α) : Prop := ∀ s, (m env s).isSome

theorem Goes.pure {α : Type} {env : WEnv} (a : α) : Goes env (pure a : W α) := fun _ => rfl

theorem Goes.bind {α β : Type} {env : WEnv} {m : W α} {f : α → W β} (hm : Goes env m) (hf : ∀ a, Goes env (f a)) :
    Goes env (m >>= f) := by
  intro s
  show (W.bind m f env s).isSome
  unfold W.bind
  have h := hm s
  cases e : m env s with
  | none => rw [e] at h; cases h
  | some x =>
    obtain ⟨a, s', l⟩ := x
    have h' := hf a s'
    cases e' : f a env s' with
    | none => rw [e'] at h'; cases h'
    | some y => simp only [e', Option.isSome]

theorem Goes.get {α β : Type} {env : WEnv} {o : Option α} {f : α → W β} (ho : o.isSome)
    (hf : ∀ a, o = some a → Goes env (f a)) : Goes env (W.get o >>= f) := by
  cases o with
  | none => cases ho
  | some a =>
    intro s
    show (W.bind (W.get (some a)) f env s).isSome
    unfold W.bind
    have h' := hf a rfl s
    simp only [W.get, Option.map]
    cases e' : f a env s with
    | none => rw [e'] at h'; cases h'
    | some y => simp only [Option.isSome]

theorem Goes.write {env : WEnv} (p : Bytes) : Goes env (write p) := by
  intro s
  unfold Limage.write
  cases s.err <;> rfl

theorem Goes.u32 {env : WEnv} (x : UInt32) : Goes env (writeUint32 x) := Goes.write _
theorem Goes.u8 {env : WEnv} (x : UInt8) : Goes env (writeUint8 x) := Goes.write _

theorem Goes.writeAll {env : WEnv} : ∀ ps, Goes env (writeAll ps)
  | [] => Goes.pure _
  | p :: ps => Goes.bind (Goes.write p) fun _ => Goes.writeAll ps

theorem Goes.u32s {env : WEnv} : ∀ ps, Goes env (writeUint32s ps)
  | [] => Goes.pure _
  | p :: ps => Goes.bind (Goes.u32 p) fun _ => Goes.u32s ps

theorem Goes.string {env : WEnv} (s : GoString) : Goes env (writeString s) :=
  Goes.bind (Goes.u32 _) fun _ => Goes.bind (Goes.write _) fun _ => Goes.u8 _

theorem Goes.pos {env : WEnv} : Goes env currentPos := fun _ => rfl

theorem Goes.pointer {env : WEnv} (pw : PW) (x : UInt32) : Goes env (writePointer pw x) := by
  intro s
  unfold writePointer
  split
  · cases pw.err <;> rfl
  · rfl

theorem Goes.reserve {env : WEnv} (n : UInt32) : Goes env (reservePointers n) := fun _ => rfl

theorem Goes.reserveList {env : WEnv} (n : UInt32) : Goes env (reservePointerList n) :=
  Goes.bind (Goes.reserve n) fun _ => Goes.bind (Goes.u32 _) fun _ => Goes.pure _

theorem Goes.pixels {env : WEnv} {i : Img} (h : ∀ p n, (i.at env.ρ p n).isSome) : ∀ ps, Goes env (pixelsAt i ps)
  | [] => Goes.pure _
  | p :: ps => by
    refine Goes.bind ?_ fun _ => Goes.bind (Goes.pixels h ps) fun _ => Goes.pure _
    intro s
    have := h p s.draws
    unfold pixelAt
    cases e : i.at env.ρ p s.draws with
    | none => rw [e] at this; cases this
    | some x => rfl

theorem Goes.rle {env : WEnv} (d : Bytes) : Goes env (encodeRLE d) := by
  obtain ⟨ws, h, _⟩ := writeRLE_spec d
  exact Goes.get (by rw [h]; rfl) fun _ _ => Goes.writeAll _

theorem Goes.channels {env : WEnv} (px : List Bytes) : ∀ k n, Goes env (writeChannels px k n)
  | 0, _ => Goes.pure _
  | k + 1, n => Goes.bind (Goes.rle _) fun _ => Goes.channels px k (n + 1)

theorem Goes.tiles {env : WEnv} {i : Img} (h : ∀ p n, (i.at env.ρ p n).isSome) (f : Color → Bytes) (ch : Nat) (b : Rect) :
    ∀ os pw, Goes env (writeTiles i f ch b os pw)
  | [], _ => Goes.pure _
  | _ :: os, _ => Goes.bind (Goes.pixels h _) fun _ => Goes.bind Goes.pos fun _ => Goes.bind (Goes.pointer _ _) fun _ =>
      Goes.bind (Goes.channels _ _ _) fun _ => Goes.tiles h f ch b os _

theorem Goes.image {env : WEnv} {i : Img} (hb : i.bounds.isSome) (h : ∀ p n, (i.at env.ρ p n).isSome) (f : Color → Bytes)
    (ch : Nat) : Goes env (writeImage i f ch) :=
  Goes.get hb fun _ _ => Goes.bind (Goes.u32 _) fun _ => Goes.bind (Goes.u32 _) fun _ => Goes.bind (Goes.u32 _) fun _ =>
    Goes.bind Goes.pos fun _ => Goes.bind (Goes.u32 _) fun _ => Goes.bind (Goes.u32 _) fun _ =>
    Goes.bind (Goes.u32 _) fun _ => Goes.bind (Goes.u32 _) fun _ => Goes.bind (Goes.reserveList _) fun _ =>
    Goes.tiles h f ch _ _ _

theorem Goes.channel {env : WEnv} (m : GrayImg) : Goes env (writeChannel m) :=
  Goes.bind (Goes.u32 _) fun _ => Goes.bind (Goes.u32 _) fun _ => Goes.bind (Goes.string _) fun _ =>
    Goes.bind (Goes.u32 _) fun _ => Goes.bind (Goes.u32 _) fun _ => Goes.bind Goes.pos fun _ =>
    Goes.bind (Goes.u32 _) fun _ => Goes.image (by rfl) (fun _ _ => by rfl) _ _

theorem Goes.text {env : WEnv} (t : TextData) (dx dy : UInt32) (h : (env.text t dx dy).isSome) :
    Goes env (writeText t dx dy) := by
  intro s
  unfold writeText
  cases e : env.text t dx dy with
  | none => rw [e] at h; cases h
  | some d =>
    exact Goes.bind (Goes.u32 _) (fun _ => Goes.bind (Goes.u32 _) fun _ => Goes.bind (Goes.u32 _) fun _ =>
      Goes.bind (Goes.u32 _) fun _ => Goes.bind (Goes.u32 _) fun _ => Goes.bind (Goes.string _) fun _ =>
      Goes.bind (Goes.u32 _) fun _ => Goes.bind (Goes.u32 _) fun _ => Goes.write _) s

theorem Goes.path {env : WEnv} (g : List UInt32) : Goes env (writePath g) := by
  unfold writePath
  split
  · exact Goes.bind (Goes.u32 _) fun _ => Goes.bind (Goes.u32 _) fun _ => Goes.u32s _
  · exact Goes.pure _

theorem Goes.textProp {env : WEnv} (t : TextData) (dx dy : UInt32) (h : t ≠ [] → (env.text t dx dy).isSome) :
    Goes env (writeTextProp t dx dy) := by
  unfold writeTextProp
  split
  · exact Goes.text _ _ _ (h (by intro h'; subst h'; simp at *))
  · exact Goes.pure _

theorem Goes.groupProp {env : WEnv} (g : Bool) : Goes env (writeGroupProp g) := by
  unfold writeGroupProp
  split
  · exact Goes.bind (Goes.u32 _) fun _ => Goes.u32 _
  · exact Goes.pure _

theorem Goes.mask {env : WEnv} (m : Option GrayImg) (pw : PW) : Goes env (writeMask m pw) := by
  cases m with
  | none => exact Goes.bind (Goes.pointer _ _) fun _ => Goes.pure _
  | some m => exact Goes.bind Goes.pos fun _ => Goes.bind (Goes.pointer _ _) fun _ => Goes.channel _

mutual
/-- an image without missing parts can be read everywhere -/
theorem whole_at (i : Img) (h : Whole i) : i.bounds.isSome ∧ i.colorModel.isSome ∧ ∀ ρ p n, (i.at ρ p n).isSome := by
  match i, h with
  | .leaf l, h => exact ⟨rfl, rfl, fun ρ p n => by unfold Img.at; rw [Option.isSome_map]; exact h p⟩
  | .text i t, h => exact whole_at i h
  | .masked i m, h =>
    obtain ⟨h, hm⟩ := h
    obtain ⟨h1, h2, h3⟩ := whole_at i h
    refine ⟨h1, h2, fun ρ p n => ?_⟩
    obtain ⟨m, rfl⟩ := Option.isSome_iff_exists.1 hm
    obtain ⟨x, hx⟩ := Option.isSome_iff_exists.1 (h3 ρ p n)
    unfold Img.at
    rw [hx]
    rfl
  | .group g, h =>
    obtain ⟨h1, h2⟩ := whole_layers g h
    refine ⟨rfl, h1, fun ρ p n => ?_⟩
    obtain ⟨cm, hcm⟩ := Option.isSome_iff_exists.1 h1
    unfold Img.at
    rw [hcm]
    exact h2 ρ cm p n
termination_by structural i

theorem whole_layers (g : List Layer) (h : WholeLayers g) : (groupModel g).isSome ∧
    ∀ ρ cm p n, (layersAt ρ (some cm) g p n).isSome := by
  match g, h with
  | [], _ => exact ⟨rfl, fun _ _ _ _ => rfl⟩
  | ⟨a, b, c, d, e, f⟩ :: g, h =>
    obtain ⟨hf, hg⟩ := h
    obtain ⟨f1, f2, f3⟩ := whole_at f hf
    obtain ⟨g1, g2⟩ := whole_layers g hg
    refine ⟨f2, fun ρ cm p n => ?_⟩
    obtain ⟨⟨x, n1⟩, hx⟩ := Option.isSome_iff_exists.1 (g2 ρ cm p n)
    obtain ⟨⟨y, n2⟩, hy⟩ := Option.isSome_iff_exists.1 (f3 ρ ⟨p.x - b.x0, p.y - b.y0⟩ n1)
    unfold layersAt
    rw [hx, Option.bind_eq_bind, Option.bind_some]
    dsimp only
    rw [hy]
    simp only [Option.bind_eq_bind, Option.bind_some]
    have hcomp : ∀ dr m b t, ∃ z, composite dr m b t = some z := fun dr m b t =>
      Option.isSome_iff_exists.1 (C04_never_panics dr m b t)
    split
    · rfl
    split
    · rfl
    split
    · split <;> rfl
    split
    · obtain ⟨z, hz⟩ := hcomp (ρ n2) c x (Limage.transparency y (255 - e))
      rw [hz]; rfl
    · obtain ⟨z, hz⟩ := hcomp 0 c x (Limage.transparency y (255 - e))
      rw [hz]; rfl
termination_by structural g
end

/-- what the encoder asks of the image of a layer -/
def LayerGoes (env : WEnv) (i : Img) : Prop :=
  ((pixelsOf i).bounds.isSome ∧ ∀ p n, ((pixelsOf i).at env.ρ p n).isSome) ∧ ∀ j t, i = .text j t → t ≠ [] → ∀ dx dy, (env.text t dx dy).isSome

theorem Goes.own {env : WEnv} (e : Enc) (l : Layer) (h : LayerGoes env l.image) (ox oy : UInt32) (g : List UInt32) (pw : PW) :
    Goes env (writeOwn e l ox oy g pw) := by
  have hp : (layerContent l.image).1 = pixelsOf l.image := by cases l.image <;> rfl
  refine Goes.bind Goes.pos fun _ => Goes.bind (Goes.pointer _ _) fun _ => Goes.bind ?_ fun _ =>
    Goes.bind (Goes.u32 _) fun _ => Goes.bind ?_ fun _ => Goes.pure _
  · refine Goes.bind (Goes.u32 _) fun _ => Goes.bind (Goes.u32 _) fun _ => Goes.bind (Goes.u32 _) fun _ =>
      Goes.bind (Goes.string _) fun _ => Goes.bind (Goes.u32 _) fun _ => Goes.bind (Goes.u32 _) fun _ =>
      Goes.bind (Goes.u32 _) fun _ => Goes.bind (Goes.u32 _) fun _ => Goes.bind (Goes.u32 _) fun _ =>
      Goes.bind (Goes.u32 _) fun _ => Goes.bind (Goes.u32 _) fun _ => Goes.bind (Goes.u32 _) fun _ =>
      Goes.bind (Goes.u32 _) fun _ => Goes.bind (Goes.u32 _) fun _ => Goes.bind (Goes.path _) fun _ =>
      Goes.bind ?_ fun _ => Goes.bind (Goes.groupProp _) fun _ => Goes.bind (Goes.u32 _) fun _ =>
      Goes.bind (Goes.u32 _) fun _ => Goes.bind (Goes.u32 _) fun _ => Goes.u32 _
    apply Goes.textProp
    intro ht
    have h2 := h.2
    cases hi : l.image with
    | text j t => rw [hi] at ht; exact h2 j t hi ht _ _
    | _ => rw [hi] at ht; exact absurd rfl ht
  · refine Goes.bind (Goes.reserve _) fun _ => Goes.bind Goes.pos fun _ => Goes.bind (Goes.pointer _ _) fun _ =>
      Goes.bind ?_ fun _ => Goes.mask _ _
    rw [hp]
    exact Goes.image h.1.1 h.1.2 _ _

mutual
theorem Goes.sub {env : WEnv} (e : Enc) (i : Img) (h : EveryIn (LayerGoes env) i) (ox oy : UInt32) (g : List UInt32)
    (pw : PW) : Goes env (writeSub e i ox oy g pw) := by
  match i, h with
  | .group gl, h => exact Goes.layers e gl h 0 ox oy g pw
  | .leaf _, _ | .nil, _ | .text _ _, _ | .masked _ _, _ => exact Goes.pure _
termination_by structural i

theorem Goes.layers {env : WEnv} (e : Enc) (gl : List Layer) (h : EveryLayer (LayerGoes env) gl) (n : Nat) (ox oy : UInt32)
    (g : List UInt32) (pw : PW) : Goes env (writeLayers e gl n ox oy g pw) := by
  match gl, h with
  | [], _ => exact Goes.pure _
  | ⟨name, b, mode, inv, tr, im⟩ :: rest, h =>
    obtain ⟨h1, h2, h3⟩ := h
    exact Goes.bind (Goes.own e _ h1 _ _ _ _) fun _ => Goes.bind (Goes.sub e im h2 _ _ _ _) fun _ =>
      Goes.layers e rest h3 _ _ _ _ _
termination_by structural gl
end

theorem Goes.colors {env : WEnv} : ∀ p, Goes env (writeColors p)
  | [] => Goes.pure _
  | _ :: p => Goes.bind (Goes.u8 _) fun _ => Goes.bind (Goes.u8 _) fun _ => Goes.bind (Goes.u8 _) fun _ => Goes.colors p

/-- what the encoder asks of an image -/
def ImgGoes (env : WEnv) : Img → Prop
  | .group g => EveryLayer (LayerGoes env) g
  | i => LayerGoes env i

theorem Goes.encode {env : WEnv} (i : Img) (hb : i.bounds.isSome) (hm : i.colorModel.isSome)
    (h : ImgGoes env i) : Goes env (encode i) := by
  refine Goes.bind (Goes.write _) fun _ => Goes.get hb fun _ _ => Goes.bind (Goes.u32 _) fun _ =>
    Goes.bind (Goes.u32 _) fun _ => Goes.get hm fun _ _ => Goes.bind (Goes.u32 _) fun _ => Goes.bind ?_ fun _ =>
    Goes.bind (Goes.u32 _) fun _ => Goes.bind (Goes.u32 _) fun _ => Goes.bind (Goes.u8 _) fun _ =>
    Goes.bind (Goes.u32 _) fun _ => Goes.bind (Goes.u32 _) fun _ => ?_
  · generalize (encFor _).palette = p
    cases p with
    | none => exact Goes.pure _
    | some p => exact Goes.bind (Goes.u32 _) fun _ => Goes.bind (Goes.u32 _) fun _ => Goes.bind (Goes.u32 _) fun _ =>
        Goes.colors p
  · cases i with
    | group g => exact Goes.bind (Goes.reserveList _) fun _ => Goes.bind (Goes.u32 _) fun _ =>
        Goes.bind (Goes.layers _ _ h _ _ _ _ _) fun _ => Goes.pure _
    | _ => exact Goes.bind (Goes.reserveList _) fun _ => Goes.bind (Goes.u32 _) fun _ =>
        Goes.bind (Goes.own _ ⟨_, _, _, _, _, _⟩ (by exact h) _ _ _ _) fun _ => Goes.pure _

theorem Spec.Whole.goes {i : Img} (h : Whole i) (env : WEnv)
    (ht : ∀ t dx dy, (env.text t dx dy).isSome) : LayerGoes env i := by
  have hp : Whole (pixelsOf i) := by
    match i, h with
    | .leaf _, h | .text _ _, h | .group _, h => exact h
    | .masked _ _, h => exact h.1
  obtain ⟨h1, -, h3⟩ := whole_at _ hp
  exact ⟨⟨h1, h3 _⟩, fun _ t _ _ => ht t⟩

theorem textOf_image {l : Layer} {j : Img} {t : TextData} (h : l.image = .text j t) (ht : t ≠ []) : textOf l = some t := by
  unfold textOf
  rw [h]
  exact if_neg ht

/-- a layer whose text can be formatted -/
theorem goes_text (env : WEnv) (l : Layer) (h : Whole l.image) (ht : ∀ t, textOf l = some t → ∀ dx dy, (env.text t dx dy).isSome) :
    LayerGoes env l.image := by
  have := h.goes ⟨env.sink, env.ρ, fun _ _ _ => some []⟩ fun _ _ _ => rfl
  exact ⟨this.1, fun j t hi hn => ht t (textOf_image hi hn)⟩

mutual
theorem goes_textIn (env : WEnv) (i : Img) (h : Whole i) (ox oy : Int) (path : List Nat)
    (ht : ∀ r ∈ placedIn i ox oy path, ∀ t, textOf r.layer = some t → ∀ dx dy, (env.text t dx dy).isSome) : EveryIn (LayerGoes env) i := by
  match i, h with
  | .group g, h => unfold placedIn at ht; exact goes_texts env g h 0 ox oy path ht
  | .leaf _, _ | .nil, _ | .text _ _, _ | .masked _ _, _ => exact trivial
termination_by structural i

theorem goes_texts (env : WEnv) (g : List Layer) (h : WholeLayers g) (n : Nat) (ox oy : Int) (path : List Nat)
    (ht : ∀ r ∈ placed g n ox oy path, ∀ t, textOf r.layer = some t → ∀ dx dy, (env.text t dx dy).isSome) : EveryLayer (LayerGoes env) g := by
  match g, h with
  | [], _ => exact trivial
  | ⟨name, b, mode, inv, tr, im⟩ :: g, h =>
    unfold placed at ht
    refine ⟨goes_text env ⟨name, b, mode, inv, tr, im⟩ h.1 (ht _ (List.mem_cons_self ..)),
      goes_textIn env im h.1 _ _ _ fun r hr => ht r (List.mem_cons_of_mem _ (List.mem_append_left _ hr)),
      goes_texts env g h.2 _ _ _ _ fun r hr => ht r (List.mem_cons_of_mem _ (List.mem_append_right _ hr))⟩
termination_by structural g
end

end Limage
