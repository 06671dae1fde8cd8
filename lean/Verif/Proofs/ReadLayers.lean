import Verif.Proofs.ReadLazy
import Verif.Spec.RoundTrip
import Verif.Props.Color
/-! Reading layers that are where they should be. -/
namespace Limage
open Spec

/-! ### Properties -/

/-- the properties `ps` change `s` to `s'` -/
inductive PropRun (c : Ctx) : LProps → List (Nat × Bytes) → LProps → Prop
  | nil (s : LProps) : PropRun c s [] s
  | cons {s s1 s2 : LProps} {t : Nat} {body : Bytes} {ps : List (Nat × Bytes)} : t ≠ 0 → t < 2 ^ 32 →
      Eats (layerProp c (UInt32.ofNat t) (UInt32.ofNat body.length) s) body s1 → PropRun c s1 ps s2 →
      PropRun c s ((t, body) :: ps) s2

theorem PropRun.append {c : Ctx} {s s1 s2 : LProps} {ps qs : List (Nat × Bytes)} (h1 : PropRun c s ps s1) (h2 : PropRun c s1 qs s2) :
    PropRun c s (ps ++ qs) s2 := by
  induction h1 with
  | nil => exact h2
  | cons a b d _ ih => exact .cons a b d (ih h2)

theorem layerProps_eats {c : Ctx} {s s' : LProps} {ps : List (Nat × Bytes)} (h : PropRun c s ps s') : ∀ f, ps.length < f →
    Eats (layerProps c f s) ((ps.flatMap fun p => prop p.1 p.2) ++ (num 0 ++ num 0)) s' := by
  induction h with
  | nil s =>
    intro f hf
    obtain ⟨f, rfl⟩ : ∃ g, f = g + 1 := ⟨f - 1, by simp at hf; omega⟩
    unfold layerProps
    rw [List.flatMap_nil, List.nil_append]
    refine (num_consumes 0).eats.bind ((num_consumes 0).map ?_).eats
    rfl
  | cons h0 h1 h2 _ ih =>
    rename_i t body ps _
    intro f hf
    obtain ⟨f, rfl⟩ : ∃ g, f = g + 1 := ⟨f - 1, by simp at hf; omega⟩
    unfold layerProps
    rw [List.flatMap_cons]
    dsimp only
    unfold prop
    rw [List.append_assoc, List.append_assoc, List.append_assoc]
    refine (num_consumes t).eats.bind ((num_consumes _).eats.bind ?_)
    have : UInt32.ofNat t ≠ 0 := by
      intro h
      have := congrArg UInt32.toNat h
      rw [u32_toNat h1] at this
      exact h0 this
    rw [if_neg this]
    exact h2.bind (ih f (by simp at hf; omega))

theorem eats_opacity {c : Ctx} {s : LProps} {n : Nat} (hn : n ≤ 255) {l : UInt32} :
    Eats (layerProp c (UInt32.ofNat 6) l s) (num n) { s with transparency := 255 - (UInt32.ofNat n).toUInt8 } := by
  unfold layerProp
  rw [if_neg (by decide), if_pos (by decide)]
  refine ((num_consumes n).map ?_).eats
  rw [if_neg]
  · rfl
  · intro h
    have := UInt32.lt_iff_toNat_lt.1 h
    rw [u32_toNat (by omega)] at this
    simp at this
    omega

theorem eats_visible {c : Ctx} {s : LProps} (b : Bool) {l : UInt32} :
    Eats (layerProp c (UInt32.ofNat 8) l s) (num (if b then 0 else 1)) { s with invisible := b } := by
  unfold layerProp
  rw [if_neg (by decide), if_neg (by decide), if_neg (by decide), if_neg (by decide), if_pos (by decide)]
  have : Consumes readBoolProperty (num (if b then 0 else 1)) (!b) := by
    unfold readBoolProperty
    refine (num_consumes _).map ?_
    cases b <;> rfl
  refine (this.map ?_).eats
  simp

theorem eats_offsets {c : Ctx} {s : LProps} (x y : Int) {l : UInt32} :
    Eats (layerProp c (UInt32.ofNat 15) l s) (int x ++ int y) { s with off := ⟨s.off.x + toInt32 (u32 x), s.off.y + toInt32 (u32 y)⟩ } := by
  unfold layerProp
  rw [if_neg (by decide), if_neg (by decide), if_neg (by decide), if_neg (by decide), if_neg (by decide), if_neg (by decide),
    if_neg (by decide), if_neg (by decide), if_neg (by decide), if_pos (by decide)]
  refine ((int_consumes x).bind ((int_consumes y).map ?_)).eats
  rfl

theorem eats_mode {c : Ctx} {s : LProps} (n : Nat) {l : UInt32} :
    Eats (layerProp c (UInt32.ofNat 7) l s) (num n)
      { s with mode := if c.baseType ≠ 0 then (if UInt32.ofNat n = 2 then Mode.behind else Mode.normal) else modeOf (UInt32.ofNat n) } := by
  unfold layerProp
  rw [if_neg (by decide), if_neg (by decide), if_neg (by decide), if_neg (by decide), if_neg (by decide), if_neg (by decide),
    if_neg (by decide), if_neg (by decide), if_pos (by decide)]
  refine ((num_consumes n).map ?_).eats
  rfl

theorem eats_group {c : Ctx} {s : LProps} {l : UInt32} : Eats (layerProp c (UInt32.ofNat 29) l s) [] { s with group := true } := by
  unfold layerProp
  rw [if_neg (by decide), if_neg (by decide), if_neg (by decide), if_neg (by decide), if_neg (by decide), if_neg (by decide),
    if_pos (by decide)]
  exact (Consumes.pure _).eats

theorem eats_textFlags {c : Ctx} {s : LProps} {l : UInt32} (n : Nat) : Eats (layerProp c (UInt32.ofNat 26) l s) (num n) s := by
  unfold layerProp
  rw [if_neg (by decide), if_neg (by decide), if_neg (by decide), if_pos (by decide)]
  unfold skipUint32
  refine ((skip_consumes 4 (num n) (num_length n)).map ?_).eats
  rfl

theorem readUint32s_consumes : ∀ ps : List Nat, Consumes (readUint32s ps.length) (ps.flatMap num) (ps.map UInt32.ofNat)
  | [] => Consumes.pure _
  | p :: ps => by
    rw [List.flatMap_cons]
    exact (num_consumes p).bind ((readUint32s_consumes ps).map rfl)

theorem eats_path {c : Ctx} {s : LProps} (ps : List Nat) (hp : (ps.flatMap num).length < 2 ^ 32) :
    Eats (layerProp c (UInt32.ofNat 30) (UInt32.ofNat (ps.flatMap num).length) s) (ps.flatMap num)
      { s with itemPath := ps.map UInt32.ofNat } := by
  have h4 := flatMap_num_length ps
  unfold layerProp
  rw [if_neg (by decide), if_neg (by decide), if_neg (by decide), if_neg (by decide), if_neg (by decide), if_neg (by decide),
    if_neg (by decide), if_pos (by decide)]
  refine Eats.map (x := ps.map UInt32.ofNat) ?_ rfl
  unfold readItemPath
  have e1 : UInt32.ofNat (ps.flatMap num).length &&& 3 = 0 := by
    apply UInt32.toNat_inj.1
    rw [UInt32.toNat_and, u32_toNat hp]
    show (ps.flatMap num).length &&& 2 ^ 2 - 1 = 0
    rw [Nat.and_two_pow_sub_one_eq_mod, h4]
    omega
  have e2 : (UInt32.ofNat (ps.flatMap num).length >>> 2).toNat = ps.length := by
    rw [UInt32.toNat_shiftRight, u32_toNat hp, h4]
    show (4 * ps.length) >>> 2 = _
    rw [Nat.shiftRight_eq_div_pow]
    omega
  rw [e1, if_neg (by simp), e2]
  exact (Consumes.bind_nil (fun r _ => rfl) (readUint32s_consumes ps)).eats

theorem text_eq_str {s : Bytes} (h : s ≠ []) : Spec.text s = str s := by
  unfold Spec.text str
  rw [if_neg h]
  rfl

theorem textName_utf8 : Utf8 textName := ⟨"gimp-text-layer".toList, by decide⟩

theorem textName_ne : textName ≠ [] := by decide

theorem eats_parasite {c : Ctx} {s : LProps} (d : Bytes) (hd : (Spec.text textName ++ num 0 ++ num d.length ++ d).length ≤ maxString) :
    Eats (layerProp c (UInt32.ofNat 21) (UInt32.ofNat (Spec.text textName ++ num 0 ++ num d.length ++ d).length) s)
      (Spec.text textName ++ num 0 ++ num d.length ++ d) { s with parasites := [⟨textName, 0, d⟩] } := by
  unfold layerProp
  rw [if_neg (by decide), if_neg (by decide), if_pos (by decide)]
  refine Eats.map (x := [⟨textName, 0, d⟩]) ?_ rfl
  have e : Spec.text textName ++ num 0 ++ num d.length ++ d = parasite textName 0 d := by
    unfold parasite
    rw [text_eq_str (by decide)]
    rfl
  have e' : parasite textName 0 d = ([(textName, 0, d)] : List (Bytes × Nat × Bytes)).flatMap fun p => parasite p.1 p.2.1 p.2.2 := by
    rw [List.flatMap_cons, List.flatMap_nil, List.append_nil]
  rw [e] at hd ⊢
  intro r hr hl
  unfold readParasitesAll
  rw [e'] at hd hr hl ⊢
  exact readParasites_eats [(textName, 0, d)] _ [] (by simp) (by
    intro p hp
    rw [List.mem_singleton.1 hp]
    exact ⟨textName_utf8, textName_ne⟩) hd r hr hl

theorem readText_consumes (s : Bytes) (h : s.length + 1 ≤ maxString) (hu : Utf8 s) : Consumes readString (Spec.text s) s := by
  by_cases hs : s = []
  · subst hs
    unfold readString Spec.text
    rw [List.append_nil]
    refine (num_consumes _).bind ?_
    rw [if_neg (by decide), if_neg (by decide)]
    intro r hr
    rw [M.bind_ok (show readFull (UInt32.ofNat (([] : Bytes).length + 1)).toNat r = _ from readFull_consumes [0] r hr)]
    have he : (r.adv ([0] : Bytes).length).err = none := hr.1
    have hg : getErr (r.adv ([0] : Bytes).length) = .ok (none, r.adv ([0] : Bytes).length) := by unfold getErr; rw [he]
    rw [M.bind_ok hg]
    rfl
  · rw [text_eq_str hs]
    exact readString_consumes s h hu

/-- the properties of a text layer -/
def textPropList : Option Bytes → List (Nat × Bytes)
  | none => []
  | some d => [(26, num 1), (21, Spec.text textName ++ num 0 ++ num d.length ++ d)]

/-- the parasites -/
def parasitesBack : Option Bytes → List Parasite
  | none => []
  | some d => [⟨textName, 0, d⟩]

/-- the properties of a layer -/
def layerPropList (F : Fmt) (r : Placed) (t : Option Bytes) : List (Nat × Bytes) :=
  [(6, num (255 - r.layer.transparency.toNat)), (8, num (if r.layer.invisible then 0 else 1)), (15, int r.ox ++ int r.oy)] ++
  (if 1 < r.path.length then [(30, r.path.flatMap num)] else []) ++
  textPropList t ++
  (if isGroupLayer r.layer then [(29, [])] else []) ++ [(7, num (F.mode r.layer.mode))]

theorem layerHead_eq (F : Fmt) (r : Placed) (t : Option Bytes) : layerHead F r t =
    int r.layer.bounds.dx ++ (int r.layer.bounds.dy ++ (num (2 * F.typ + 1) ++ (Spec.text r.layer.name ++
      (((layerPropList F r t).flatMap fun p => prop p.1 p.2) ++ (num 0 ++ num 0))))) := by
  unfold layerHead layerPropList kindProps
  cases t <;> by_cases h1 : 1 < r.path.length <;> cases isGroupLayer r.layer <;>
    simp [h1, textProps, textPropList, List.append_assoc]

/-- the mode read for a number -/
def modeBack (F : Fmt) (m : Mode) : Mode :=
  if F.typ ≠ 0 then (if UInt32.ofNat (F.mode m) = 2 then Mode.behind else Mode.normal) else modeOf (UInt32.ofNat (F.mode m))

/-- what is read from them -/
def propsBack (F : Fmt) (r : Placed) (t : Option Bytes) : LProps :=
  ⟨⟨toInt32 (u32 r.ox), toInt32 (u32 r.oy)⟩, r.layer.transparency, r.layer.invisible, isGroupLayer r.layer,
    if 1 < r.path.length then r.path.map UInt32.ofNat else [], modeBack F r.layer.mode, parasitesBack t⟩

theorem toInt32_u32 {x : Int} (h1 : 0 ≤ x) (h2 : x < 2 ^ 31) : toInt32 (u32 x) = x := by
  unfold toInt32 u32
  have : (x % 2 ^ 32).toNat < 2 ^ 32 := by omega
  rw [u32_toNat this, if_pos (by omega)]
  omega

theorem le_sum_of_mem {l : List Nat} {n : Nat} (h : n ∈ l) : n ≤ l.sum := by
  induction l with
  | nil => cases h
  | cons a l ih =>
    rw [List.sum_cons]
    rcases List.mem_cons.1 h with h | h
    · omega
    · have := ih h; omega

/-- transparency survives -/
theorem opacity_back (t : UInt8) : (255 : UInt8) - (UInt32.ofNat (255 - t.toNat)).toUInt8 = t := by
  apply UInt8.toNat_inj.1
  have h1 := t.toNat_lt
  have h2 : (UInt32.ofNat (255 - t.toNat)).toUInt8.toNat = 255 - t.toNat := by
    rw [UInt32.toNat_toUInt8, u32_toNat (by omega)]
    omega
  rw [UInt8.toNat_sub_of_le _ _ (by rw [UInt8.le_iff_toNat_le, h2]; simp), h2]
  simp
  omega

theorem run_base {c : Ctx} {t : UInt8} {inv : Bool} {x y : Int} :
    PropRun c LProps.start [(6, num (255 - t.toNat)), (8, num (if inv then 0 else 1)), (15, int x ++ int y)]
      ⟨⟨toInt32 (u32 x), toInt32 (u32 y)⟩, t, inv, false, [], 0, []⟩ := by
  have e : (⟨⟨toInt32 (u32 x), toInt32 (u32 y)⟩, t, inv, false, [], 0, []⟩ : LProps) =
      ⟨⟨0 + toInt32 (u32 x), 0 + toInt32 (u32 y)⟩, 255 - (UInt32.ofNat (255 - t.toNat)).toUInt8, inv, false, [], 0, []⟩ := by
    rw [opacity_back, Int.zero_add, Int.zero_add]
  rw [e]
  exact .cons (by decide) (by decide) (eats_opacity (by omega)) (.cons (by decide) (by decide) (eats_visible _)
      (.cons (by decide) (by decide) (eats_offsets _ _) (.nil _)))

theorem run_path {c : Ctx} {s : LProps} (hs : s.itemPath = []) {path : List Nat} (h : 1 < path.length → (path.flatMap num).length < 2 ^ 32) :
    PropRun c s (if 1 < path.length then [(30, path.flatMap num)] else [])
      { s with itemPath := if 1 < path.length then path.map UInt32.ofNat else [] } := by
  by_cases h1 : 1 < path.length
  · rw [if_pos h1, if_pos h1]
    exact .cons (by decide) (by decide) (eats_path _ (h h1)) (.nil _)
  · rw [if_neg h1, if_neg h1]
    obtain ⟨a, b, d, e, f, g, i⟩ := s
    dsimp only at hs
    subst hs
    exact .nil _

theorem run_text {c : Ctx} {s : LProps} (hs : s.parasites = []) {t : Option Bytes}
    (h : ∀ p ∈ textPropList t, p.2.length ≤ maxString) :
    PropRun c s (textPropList t) { s with parasites := parasitesBack t } := by
  cases t with
  | none =>
    obtain ⟨a, b, d, e, f, g, i⟩ := s
    dsimp only at hs
    subst hs
    exact .nil _
  | some d =>
    have := h (21, Spec.text textName ++ num 0 ++ num d.length ++ d) (by simp [textPropList])
    unfold textPropList
    exact .cons (by decide) (by decide) (eats_textFlags 1) (.cons (by decide) (by decide) (eats_parasite d this) (.nil _))

theorem run_group {c : Ctx} {s : LProps} (hs : s.group = false) (g : Bool) :
    PropRun c s (if g then [(29, [])] else []) { s with group := g } := by
  cases g with
  | true => exact .cons (by decide) (by decide) eats_group (.nil _)
  | false =>
    obtain ⟨a, b, d, e, f, g, i⟩ := s
    dsimp only at hs
    subst hs
    exact .nil _

theorem run_mode {c : Ctx} {F : Fmt} (hF : F.typ < 3) (hb : c.baseType = UInt32.ofNat F.typ) {s : LProps} (m : Mode) :
    PropRun c s [(7, num (F.mode m))] { s with mode := modeBack F m } := by
  have htyp : (c.baseType ≠ 0) ↔ F.typ ≠ 0 := by
    rw [hb]
    have : F.typ = 0 ∨ F.typ = 1 ∨ F.typ = 2 := by omega
    rcases this with h | h | h <;> rw [h] <;> decide
  have e : modeBack F m = if c.baseType ≠ 0 then (if UInt32.ofNat (F.mode m) = 2 then Mode.behind else Mode.normal)
      else modeOf (UInt32.ofNat (F.mode m)) := by
    unfold modeBack
    simp only [htyp]
  rw [e]
  exact .cons (by decide) (by decide) (eats_mode _) (.nil _)

theorem layerProps_run {c : Ctx} {F : Fmt} (hF : F.typ < 3) (hb : c.baseType = UInt32.ofNat F.typ) {r : Placed} {t : Option Bytes}
    (hlen : (layerHead F r t).length ≤ maxString) :
    PropRun c LProps.start (layerPropList F r t) (propsBack F r t) := by
  have hm : maxString = 16777216 := rfl
  rw [layerHead_eq] at hlen
  simp only [List.length_append, List.length_flatMap] at hlen
  have hsum : ∀ p ∈ layerPropList F r t, p.2.length ≤ maxString := by
    intro p hp
    have h1 : (prop p.1 p.2).length ≤ ((layerPropList F r t).map fun p => (prop p.1 p.2).length).sum :=
      le_sum_of_mem (List.mem_map.2 ⟨p, hp, rfl⟩)
    have h2 : p.2.length ≤ (prop p.1 p.2).length := by
      unfold prop; rw [List.length_append]; omega
    omega
  unfold layerPropList at hsum ⊢
  refine PropRun.append (PropRun.append (PropRun.append (PropRun.append run_base
    (run_path rfl ?_)) (run_text rfl ?_)) (run_group rfl _)) (run_mode hF hb _)
  · intro h
    have := hsum (30, r.path.flatMap num) (by simp [h])
    dsimp only at this
    omega
  · intro p hp
    exact hsum p (by simp only [List.mem_append]; exact .inl (.inl (.inr hp)))

/-! ### Layers -/

/-- formats that can be read: alpha is always stored -/
structure FmtOk (F : Fmt) : Prop where
  kind : F.typ = 0 ∧ F.bpp = 4 ∨ F.typ = 1 ∧ F.bpp = 2 ∨ F.typ = 2 ∧ F.bpp = 2
  conv : ∀ c, (F.conv c).length = F.bpp
  palette : F.palette.isSome = true → F.typ = 2

theorem FmtOk.typ {F : Fmt} (h : FmtOk F) : F.typ < 3 := by
  rcases h.kind with ⟨h, _⟩ | ⟨h, _⟩ | ⟨h, _⟩ <;> omega

/-- the colours of a palette -/
def paletteBack (F : Fmt) : List Color := (F.palette.getD []).map fun c => .lrgb c.1 c.2.1 c.2.2

/-- the rest of `readLayer`, after the pointers -/
def layerRest (c : Ctx) (width height typ : UInt32) (name : Bytes) (s : LProps) (mptr : UInt64) : M DLayer := do
    let bounds : Rect := (⟨0, 0, width.toNat, height.toNat⟩ : Rect).add s.off
    let mk (im : Img) : DLayer :=
      ⟨⟨name, bounds, s.mode, s.invisible, s.transparency, im⟩, typ &&& 1 = 1, s.group, s.itemPath⟩
    match ← layerImage c s.group width height typ with
    | none => return mk .nil
    | some im =>
      match ← layerText c s.parasites im with
      | none => return mk im
      | some im =>
        if mptr ≠ 0 then
          goto mptr
          let im ← readMask c bounds im
          return mk im
        else return mk im

theorem readLayerProperties_ok {c : Ctx} {s' : LProps} {ps : List (Nat × Bytes)} (h : PropRun c LProps.start ps s') {r : R}
    (hs : Sees r ((ps.flatMap fun p => prop p.1 p.2) ++ (num 0 ++ num 0)))
    (hl : r.pos + ((ps.flatMap fun p => prop p.1 p.2) ++ (num 0 ++ num 0)).length < r.limit) (hd : ps.length < r.data.length + 2) :
    readLayerProperties c r = .ok (s', r.adv ((ps.flatMap fun p => prop p.1 p.2) ++ (num 0 ++ num 0)).length) := by
  unfold readLayerProperties
  exact layerProps_eats h _ hd r hs hl

theorem readLayer_head {D : Bytes} {c : Ctx} {F : Fmt} (hF : FmtOk F) (hb : c.baseType = UInt32.ofNat F.typ) (hm : c.mode = 0)
    {r : Placed} {t : Option Bytes} {p h m : Nat} (hat : HasAt (D.take maxString) p (layerHead F r t ++ num h ++ num m))
    (hu : Utf8 r.layer.name) (hh : h < 2 ^ 32) :
    readLayer c (readerAt D p) = layerRest c (u32 r.layer.bounds.dx) (u32 r.layer.bounds.dy) (UInt32.ofNat (2 * F.typ + 1))
      r.layer.name (propsBack F r t) (UInt32.ofNat m).toUInt64 (readerAt D h) := by
  have hmax : maxString = 16777216 := rfl
  have hne : layerHead F r t ++ num h ++ num m ≠ [] := by
    intro h0
    have := congrArg List.length h0
    rw [List.length_append, num_length, List.length_nil] at this
    omega
  have hlt := hasAt_lt hat hne
  have hlen : (layerHead F r t).length ≤ maxString := by
    simp only [List.length_append] at hlt; omega
  have hrun := layerProps_run (c := c) hF.typ hb hlen
  have s := sees_at hat hne
  rw [layerHead_eq] at s hlt
  have hD : p + (layerHead F r t ++ num h ++ num m).length ≤ (D.take maxString).length := by
    exact HasAt.le hat hne
  rw [layerHead_eq] at hD
  simp only [List.append_assoc] at s hlt hD
  simp only [List.length_append, num_length] at hlt hD
  have hil : ∀ x, (int x).length = 4 := fun x => num_length _
  simp only [hil] at hlt hD
  unfold readLayer
  rw [M.bind_ok (int_consumes _ _ s.left)]
  have s := s.right
  rw [M.bind_ok (int_consumes _ _ s.left)]
  have s := s.right
  rw [M.bind_ok (num_consumes _ _ s.left)]
  have s := s.right
  have hty : UInt32.ofNat (2 * F.typ + 1) >>> 1 = c.baseType := by
    rw [hb]
    rcases hF.kind with ⟨h, _⟩ | ⟨h, _⟩ | ⟨h, _⟩ <;> rw [h] <;> rfl
  rw [if_neg (by rw [hty]; simp)]
  have htl : (Spec.text r.layer.name).length = r.layer.name.length + 5 := by
    simp [Spec.text, num_length]; omega
  rw [htl] at hlt hD
  rw [M.bind_ok (readText_consumes r.layer.name (by omega) hu _ s.left)]
  have s := s.right
  have e : ∀ x : Bytes, ((layerPropList F r t).flatMap fun p => prop p.1 p.2) ++ (num 0 ++ (num 0 ++ x)) =
      (((layerPropList F r t).flatMap fun p => prop p.1 p.2) ++ (num 0 ++ num 0)) ++ x := by
    intro x; simp only [List.append_assoc]
  rw [e] at s
  have hps : (layerPropList F r t).length ≤ ((layerPropList F r t).flatMap fun p => prop p.1 p.2).length := by
    generalize layerPropList F r t = l
    induction l with
    | nil => simp
    | cons a l ih =>
      rw [List.flatMap_cons, List.length_append, List.length_cons]
      have : 1 ≤ (prop a.1 a.2).length := by unfold prop; simp [num_length]; omega
      omega
  rw [List.length_take] at hD
  rw [M.bind_ok (readLayerProperties_ok hrun s.left (by
    simp only [R.adv_pos, R.adv_limit, readerAt, List.length_append, num_length, hil, htl]
    omega) (show _ < D.length + 2 by omega))]
  have s := s.right
  rw [hm, M.bind_ok (readPtr_consumes _ _ s.left)]
  have s := s.right
  rw [M.bind_ok (readPtr_consumes _ _ s)]
  rw [M.bind_ok (goto_any (D := D) hh rfl rfl rfl)]
  rfl

theorem widen_high (x : UInt8) : (widen32 x >>> 8).toUInt8 = x := by
  apply UInt8.toNat_inj.1
  have := x.toNat_lt
  rw [UInt32.toNat_toUInt8, UInt32.toNat_shiftRight, widen32_nat]
  show (257 * x.toNat) >>> 8 % 256 = _
  rw [Nat.shiftRight_eq_div_pow, show 257 * x.toNat / 2 ^ 8 = x.toNat by omega]
  omega

theorem eagerColor_back {F : Fmt} (hF : FmtOk F) {bs : Bytes} (hl : bs.length = F.bpp) :
    eagerColor (2 * F.typ + 1) (paletteBack F) bs = colorOf F bs := by
  unfold colorOf
  rcases hF.kind with ⟨h, h'⟩ | ⟨h, h'⟩ | ⟨h, h'⟩ <;> rw [h'] at hl
  · obtain ⟨a, b, c, d, rfl⟩ : ∃ a b c d, bs = [a, b, c, d] := by
      match bs, hl with
      | [a, b, c, d], _ => exact ⟨a, b, c, d, rfl⟩
    rw [h]; rfl
  · obtain ⟨a, b, rfl⟩ : ∃ a b, bs = [a, b] := by
      match bs, hl with
      | [a, b], _ => exact ⟨a, b, rfl⟩
    rw [h]; rfl
  · obtain ⟨a, b, rfl⟩ : ∃ a b, bs = [a, b] := by
      match bs, hl with
      | [a, b], _ => exact ⟨a, b, rfl⟩
    rw [h]
    show IdxPix.toColor (paletteBack F) ⟨a, b⟩ = _
    unfold IdxPix.toColor paletteBack
    rw [List.getElem?_map]
    show _ = ((F.palette.getD [])[a.toNat]?).map fun c => Color.nrgba c.1 c.2.1 c.2.2 b
    cases (F.palette.getD [])[a.toNat]? with
    | none => rfl
    | some c => simp [Color.rgba32, widen_high]


theorem kindModel_back {F : Fmt} (hF : FmtOk F) : kindModel (2 * F.typ + 1) (paletteBack F) = modelOf F := by
  unfold modelOf
  rcases hF.kind with ⟨h, _⟩ | ⟨h, _⟩ | ⟨h, _⟩ <;> rw [h] <;> rfl

theorem mem_sizeRect {p : Pt} {w h : Nat} : Rect.mem p (sizeRect w h) = true ↔ 0 ≤ p.x ∧ p.x < w ∧ 0 ≤ p.y ∧ p.y < h := by
  unfold Rect.mem sizeRect
  simp [and_assoc]

theorem paletteBack_rgb (F : Fmt) : RGBPalette (paletteBack F) := by
  intro c hc
  obtain ⟨x, _, rfl⟩ := List.mem_map.1 hc
  exact ⟨_, _, _, rfl⟩

/-- the pixels of a layer -/
theorem layerImage_at {D : Bytes} {c : Ctx} {F : Fmt} (hF : FmtOk F) (hc : c.compression ≠ 0) (hm : c.mode = 0)
    (hpal : c.palette = paletteBack F) {i : Img} {b : Rect} {h : Nat} (hb : i.bounds = some b)
    (hat : PixelsAt (D.take maxString) h b F.bpp (Sampled F i)) {x y : Nat} (hx : b.dx = x) (hy : b.dy = y)
    (hx0 : 0 < x) (hy0 : 0 < y) (hx2 : x < 2 ^ 32) (hy2 : y < 2 ^ 32) :
    ∃ L r', layerImage c false (UInt32.ofNat x) (UInt32.ofNat y) (UInt32.ofNat (2 * F.typ + 1)) (readerAt D h) =
      .ok (some (.leaf L), r') ∧ r'.data = D ∧ r'.limit = maxString ∧ r'.err = none ∧ PixelsBack F i L := by
  have hk : (UInt32.ofNat (2 * F.typ + 1)).toNat = 2 * F.typ + 1 := u32_toNat (by have := hF.typ; omega)
  obtain ⟨_, d, r', e, h1, h2, h3, _, h4, h5, h7, h6⟩ := readImage_any hc hm (by rw [hpal]; exact paletteBack_rgb F) hat (by
      rintro q bs ⟨_, _, c, _, rfl⟩
      exact hF.conv c) hx hy hx0 hy0 hx2 hy2 (UInt32.ofNat (2 * F.typ + 1)) (by rw [hk]; have := hF.typ; omega)
    (by rcases hF.kind with ⟨_, h⟩ | ⟨_, h⟩ | ⟨_, h⟩ <;> omega) (by rcases hF.kind with ⟨_, h⟩ | ⟨_, h⟩ | ⟨_, h⟩ <;> omega)
    (by rcases hF.kind with ⟨h, h'⟩ | ⟨h, h'⟩ | ⟨h, h'⟩ <;> rw [h, h'] <;> decide)
  refine ⟨d.leaf, r', ?_, h1, h2, h3, b, hb, ?_, ?_, fun ht => h7 (by
      rw [hk, hpal]
      intro h4 h0
      exact ht (by have := hF.typ; omega) (by unfold paletteBack at h0; simpa using h0)), ?_⟩
  · unfold layerImage
    rw [if_neg (by decide), M.bind_ok e]
    rfl
  · rw [h4, hx, hy]; rfl
  · rw [h5, hk, hpal, kindModel_back hF]
  · intro p hp
    rw [h4, mem_sizeRect] at hp
    obtain ⟨px, ⟨n, n', col, g1, g2⟩, g3⟩ := h6 (by rw [hk]; omega) p.x.toNat p.y.toNat (by omega) (by omega)
    rw [Int.toNat_of_nonneg hp.1, Int.toNat_of_nonneg hp.2.2.1] at g1 g3
    refine ⟨n, n', col, g1, ?_⟩
    rw [show p = ⟨p.x, p.y⟩ from rfl, g3, hk, hpal, g2]
    exact eagerColor_back hF (hF.conv col)

theorem skipPropertiesAll_consumes : Consumes skipPropertiesAll (num 0 ++ num 0) () := by
  intro r hr
  unfold skipPropertiesAll
  have hsk : ∀ n, Consumes (skipProperties (n + 1)) (num 0 ++ num 0) () := by
    intro n
    unfold skipProperties
    refine (num_consumes _).bind ((num_consumes _).map ?_)
    rfl
  exact hsk (r.data.length + 1) r hr

theorem skipText_consumes : Consumes skipString (Spec.text []) () := by
  unfold skipString Spec.text
  rw [List.append_nil]
  refine (num_consumes _).bind (skip_consumes _ _ ?_)
  rfl

/-- a mask -/
theorem readChannel_at {D : Bytes} {c : Ctx} (hc : c.compression ≠ 0) (hd : c.decompress = true) (hm : c.mode = 0) {p : Nat} {m : GrayImg}
    (hat : MaskAt (D.take maxString) p m) {x y : Nat} (hx : m.rect.dx = x) (hy : m.rect.dy = y)
    (hx0 : 0 < x) (hy0 : 0 < y) (hx2 : x < 2 ^ 32) (hy2 : y < 2 ^ 32) :
    p < maxString ∧ ∃ m' r', readChannel c (readerAt D p) = .ok (some m', r') ∧ r'.err = none ∧ m'.rect = sizeRect x y ∧ MaskBack m m' := by
  have hmax : maxString = 16777216 := rfl
  obtain ⟨h, h1, h2⟩ := hat
  have hne : int m.rect.dx ++ int m.rect.dy ++ Spec.text [] ++ num 0 ++ num 0 ++ num h ≠ [] := by
    intro h0
    have := congrArg List.length h0
    rw [List.length_append, num_length, List.length_nil] at this
    omega
  have s := sees_at h1 hne
  have hlt := hasAt_lt h1 hne
  have hil : ∀ x, (int x).length = 4 := fun x => num_length _
  simp only [List.append_assoc] at s hlt
  simp only [List.length_append, num_length, hil] at hlt
  obtain ⟨hh, im, r', e, e1, e2, e3, e4, e5, e6, e7, e8⟩ := readImage_at hc hd hm h2 (by
      rintro q bs rfl
      rfl) hx hy hx0 hy0 hx2 hy2 2 (by decide) (by omega) (by omega) (by decide)
  refine ⟨by omega, im.gray, r', ?_, e3, ?_, ?_, ?_⟩
  · unfold readChannel
    rw [M.bind_ok (int_consumes _ _ s.left)]
    have s := s.right
    rw [M.bind_ok (int_consumes _ _ s.left)]
    have s := s.right
    rw [M.bind_ok (skipText_consumes _ s.left)]
    have s := s.right
    rw [← List.append_assoc] at s
    rw [M.bind_ok (skipPropertiesAll_consumes _ s.left)]
    have s := s.right
    rw [hm, M.bind_ok (readPtr_consumes _ _ s)]
    rw [M.bind_ok (goto_any (D := D) (by omega) rfl rfl rfl)]
    rw [hx, hy, u32_nat, u32_nat, M.bind_ok e]
    rfl
  · show sizeRect im.width im.height = _
    rw [e5, e6]
  · show sizeRect im.width im.height = _
    rw [e5, e6, hx, hy]; rfl
  · intro p hp
    have hp : Rect.mem p (sizeRect im.width im.height) = true := hp
    have e : im.gray.grayAt p = (im.px p.x.toNat p.y.toNat).getD 0 0 := by
      unfold GrayImg.grayAt
      rw [if_pos (show Rect.mem p im.gray.rect = true from hp)]
      rfl
    rw [e5, e6, mem_sizeRect] at hp
    have := e8 p.x.toNat p.y.toNat (by omega) (by omega)
    rw [e, this, Int.toNat_of_nonneg hp.1, Int.toNat_of_nonneg hp.2.2.1]
    rfl

/-- a layer as read: its image is related to the one it had by `P`, its mode is changed by `M` -/
structure LayerGot (P : Layer → Img → Prop) (M : Mode → Mode) (r : Placed) (l : DLayer) : Prop where
  name : l.layer.name = r.layer.name
  bounds : l.layer.bounds = ⟨r.ox, r.oy, r.ox + r.layer.bounds.dx, r.oy + r.layer.bounds.dy⟩
  mode : l.layer.mode = M r.layer.mode
  invisible : l.layer.invisible = r.layer.invisible
  transparency : l.layer.transparency = r.layer.transparency
  alpha : l.alpha = true
  group : l.group = isGroupLayer r.layer
  itemPath : l.itemPath = if 1 < r.path.length then r.path.map UInt32.ofNat else []
  image : isGroupLayer r.layer = false → P r.layer l.layer.image

/-- a layer as read from a file of version 3 -/
abbrev LayerBack (F : Fmt) (Parses : Bytes → TextData → Prop) : Placed → DLayer → Prop := LayerGot (ImgBack F Parses) (modeBack F)

/-- a layer inside the canvas -/
structure OnCanvas (W H : Int) (r : Placed) : Prop where
  x : 0 ≤ r.ox ∧ 0 < r.layer.bounds.dx ∧ r.ox + r.layer.bounds.dx ≤ W
  y : 0 ≤ r.oy ∧ 0 < r.layer.bounds.dy ∧ r.oy + r.layer.bounds.dy ≤ H
  path : ∀ n ∈ r.path, n < 0xd800

theorem maskAt_ne_zero {D : Bytes} {m : GrayImg} (h0 : HasAt D 0 fileMagic) (hat : MaskAt D 0 m) : False := by
  obtain ⟨h, h1, _⟩ := hat
  unfold HasAt at h0 h1
  rw [List.drop_zero] at h0 h1
  have e : int m.rect.dx ++ int m.rect.dy ++ Spec.text [] ++ num 0 ++ num 0 ++ num h =
    (int m.rect.dx ++ int m.rect.dy) ++ (Spec.text [] ++ num 0 ++ num 0 ++ num h) := by simp only [List.append_assoc]
  rw [e] at h1
  have hl : (int m.rect.dx ++ int m.rect.dy).length = 8 := by
    rw [List.length_append]; exact congrArg₂ (· + ·) (num_length _) (num_length _)
  have a1 : D[8]? = some 32 := by
    have := congrArg (fun l : Bytes => l[8]?) h0
    simpa [fileMagic] using this
  have a2 : D[8]? = some 0 := by
    have := congrArg (fun l : Bytes => l[8]?) h1
    rw [List.getElem?_append_right (by omega), hl] at this
    rw [List.getElem?_take_of_lt (by simp only [List.length_append, hl]; simp [Spec.text])] at this
    rw [this]
    rfl
  rw [a1] at a2
  cases a2

theorem readLayer_at {D : Bytes} {c : Ctx} {F : Fmt} (hF : FmtOk F) (hc : c.compression ≠ 0) (hm : c.mode = 0)
    (hb : c.baseType = UInt32.ofNat F.typ) (hpal : c.palette = paletteBack F) {Parses : Bytes → TextData → Prop}
    (hP : ∀ d t, Parses d t → c.env.parseText d = .ok (some t)) {W H : Int} (hW : W ≤ 2 ^ 31) (hH : H ≤ 2 ^ 31)
    (h0 : HasAt (D.take maxString) 0 fileMagic)
    {p : Nat} {r : Placed} (hd : c.decompress = true ∨ maskOf r.layer.image = none)
    (hat : LayerAt (D.take maxString) F p r) (hs : Storable F Parses W H r) :
    ∃ l r', readLayer c (readerAt D p) = .ok (l, r') ∧ r'.err = none ∧ LayerBack F Parses r l := by
  have hmax : maxString = 16777216 := rfl
  obtain ⟨t, h, m, ht, h1, ⟨b, hbd, hpx⟩, hmask⟩ := hat
  have hh : h < 2 ^ 32 := by
    obtain ⟨level, tiles, g, _⟩ := hpx
    have := hasAt_lt g (by
      intro h0
      have := congrArg List.length h0
      rw [List.length_append, num_length, List.length_nil] at this
      omega)
    omega
  rw [readLayer_head hF hb hm h1 hs.name hh]
  obtain ⟨x1, x2, x3⟩ := hs.x
  obtain ⟨y1, y2, y3⟩ := hs.y
  obtain ⟨w, hw⟩ := Int.eq_ofNat_of_zero_le (Int.le_of_lt x2)
  obtain ⟨ht', hht'⟩ := Int.eq_ofNat_of_zero_le (Int.le_of_lt y2)
  rw [hw, hht', u32_nat, u32_nat]
  have hw2 : w < 2 ^ 32 := by omega
  have hh2 : ht' < 2 ^ 32 := by omega
  have hbounds : (⟨0, 0, (UInt32.ofNat w).toNat, (UInt32.ofNat ht').toNat⟩ : Rect).add (propsBack F r t).off =
      ⟨r.ox, r.oy, r.ox + r.layer.bounds.dx, r.oy + r.layer.bounds.dy⟩ := by
    rw [u32_toNat hw2, u32_toNat hh2]
    show (⟨0 + toInt32 (u32 r.ox), 0 + toInt32 (u32 r.oy), w + toInt32 (u32 r.ox), ht' + toInt32 (u32 r.oy)⟩ : Rect) = _
    rw [toInt32_u32 x1 (by omega), toInt32_u32 y1 (by omega), hw, hht']
    simp [Int.add_comm]
  have halpha : decide (UInt32.ofNat (2 * F.typ + 1) &&& 1 = 1) = true := by
    rcases hF.kind with ⟨h, _⟩ | ⟨h, _⟩ | ⟨h, _⟩ <;> rw [h] <;> decide
  have mk : ∀ im : Img, (isGroupLayer r.layer = false → ImgBack F Parses r.layer im) →
      LayerBack F Parses r ⟨⟨r.layer.name, (⟨0, 0, (UInt32.ofNat w).toNat, (UInt32.ofNat ht').toNat⟩ : Rect).add (propsBack F r t).off,
        (propsBack F r t).mode, (propsBack F r t).invisible, (propsBack F r t).transparency, im⟩,
        decide (UInt32.ofNat (2 * F.typ + 1) &&& 1 = 1), (propsBack F r t).group, (propsBack F r t).itemPath⟩ := by
    intro im him
    exact ⟨rfl, hbounds, rfl, rfl, rfl, halpha, rfl, rfl, him⟩
  unfold layerRest
  have hgr : (propsBack F r t).group = isGroupLayer r.layer := rfl
  have hpar : (propsBack F r t).parasites = parasitesBack t := rfl
  cases hg : isGroupLayer r.layer with
  | true =>
    have htn : t = none := by
      rcases ht with h | ⟨td, h, _⟩
      · exact h.2
      · unfold isGroupLayer at hg
        unfold textOf at h
        split at hg
        · rename_i he; rw [he] at h; cases h
        · cases hg
    have hmn : m = 0 := by
      unfold isGroupLayer at hg
      split at hg
      · rename_i he; rw [he] at hmask; exact hmask
      · cases hg
    subst htn hmn
    refine ⟨_, readerAt D h, ?_, rfl, mk .nil (by rw [hg]; intro h; cases h)⟩
    rw [hgr, hg]
    unfold layerImage
    rw [if_pos rfl]
    rfl
  | false =>
    obtain ⟨hsx, hsy⟩ := hs.size hg b hbd
    obtain ⟨L, r', e, e1, e2, e3, e4⟩ := layerImage_at hF hc hm hpal hbd hpx (hsx.trans hw) (hsy.trans hht') (by omega) (by omega) hw2 hh2
    have hgf : (propsBack F r t).group = false := hgr.trans hg
    rw [← hgf] at e
    rw [hpar, M.bind_ok e]
    dsimp only
    have hz : (UInt32.ofNat 0).toUInt64 = 0 := rfl
    rcases ht with ⟨hto, rfl⟩ | ⟨td, hto, hti, htt⟩
    · have et : layerText c (parasitesBack none) (.leaf L) r' = .ok (some (.leaf L), r') := rfl
      rw [M.bind_ok et]
      dsimp only
      cases hmo : maskOf r.layer.image with
      | none =>
        rw [hmo] at hmask
        have hmask : m = 0 := hmask
        subst hmask
        rw [if_neg (by rw [hz]; simp)]
        exact ⟨_, r', rfl, e3, mk _ fun _ => ⟨L, e4, .inl ⟨hto, hmo, rfl⟩⟩⟩
      | some mk' =>
        rw [hmo] at hmask
        have hmask : MaskAt (D.take maxString) m mk' := hmask
        obtain ⟨o1, o2, o3, o4⟩ := hs.mask mk' hmo
        have hd : c.decompress = true := by
          rcases hd with h | h
          · exact h
          · rw [hmo] at h; cases h
        obtain ⟨g0, m', r'', g1, g2, g3, g4⟩ := readChannel_at hc hd hm hmask (o3.trans hw) (o4.trans hht') (by omega) (by omega) hw2 hh2
        have hm0 : (UInt32.ofNat m).toUInt64 ≠ 0 := by
          intro h
          have h := congrArg UInt64.toNat h
          rw [UInt32.toNat_toUInt64, u32_toNat (by omega)] at h
          have h : m = 0 := h
          subst h
          exact maskAt_ne_zero h0 hmask
        rw [if_pos hm0, M.bind_ok (goto_any (by omega) e1 e2 e3)]
        have er : readMask c ((⟨0, 0, (UInt32.ofNat w).toNat, (UInt32.ofNat ht').toNat⟩ : Rect).add (propsBack F r none).off) (.leaf L)
            (readerAt D m) = .ok (.masked (.leaf L) (some m'), r'') := by
          unfold readMask
          rw [M.bind_ok g1]
          dsimp only
          rw [if_pos]
          · rfl
          · rw [hbounds, g3, o1, o2, hw, hht', Int.zero_add, Int.zero_add]
            unfold Rect.eq sizeRect
            simp
        rw [M.bind_ok er]
        exact ⟨_, r'', rfl, g2, mk _ fun _ => ⟨L, e4, .inr (.inr ⟨mk', m', hto, hmo, g4, rfl⟩)⟩⟩
    · obtain ⟨d, rfl⟩ := Option.isSome_iff_exists.1 hti
      obtain ⟨t', hp⟩ := hs.text td d hto htt.symm
      have et : layerText c (parasitesBack (some d)) (.leaf L) r' = .ok (some (.text (.leaf L) t'), r') := by
        unfold layerText
        rw [show getParasite (parasitesBack (some d)) textParasiteName = some ⟨textName, 0, d⟩ from rfl]
        dsimp only
        rw [hP d t' hp]
        rfl
      rw [M.bind_ok et]
      dsimp only
      have hmo : maskOf r.layer.image = none := by
        unfold textOf at hto
        split at hto
        · rename_i he; rw [he]; rfl
        · cases hto
      rw [hmo] at hmask
      have hmask : m = 0 := hmask
      subst hmask
      rw [if_neg (by rw [hz]; simp)]
      exact ⟨_, r', rfl, e3, mk _ fun _ => ⟨L, e4, .inr (.inl ⟨td, d, t', hto, htt.symm, hp, rfl⟩)⟩⟩

end Limage
