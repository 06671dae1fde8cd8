import Verif.Props.XcfToOra
import Verif.Props.Grouping
import Verif.Props.SameFile
import Verif.Props.Carried
import Verif.Props.EitherWay
/-! # The colours of indexed pictures (C167) and of grey ones (C130) -/
namespace Limage
open Spec

/-! ## Specification -/

namespace Spec

/-- invisible, or of a colour of the palette -/
def FromPalette (pal : List Color) (c : Color) : Prop :=
  c.toNRGBA.a = 0 ∨ ∃ e ∈ pal, c.toNRGBA.r = e.toNRGBA.r ∧ c.toNRGBA.g = e.toNRGBA.g ∧ c.toNRGBA.b = e.toNRGBA.b

/-- the palette of all images in a picture -/
def PaletteOf (g : List Layer) (pal : List Color) : Prop :=
  ∀ s, GroupIn s g → ∀ l ∈ s, ∀ x, PixelsOf x l.image → x.model = .palette pal ∨ x.model = .alphaPalette pal

/-- C167 as stated: every pixel of the picture in an indexed file is invisible or of a colour of the palette. -/
def OnlyPalette : Prop := ∀ (env : Env) (sch : Sched) (_ : sch.Valid) (dec : Bool) (D : Bytes) (g : List Layer),
  decodeImage env sch dec D = .ok (.ok g) → fromBE ((D.drop 22).take 4) = 2 →
  ∃ pal, PaletteOf g pal ∧ ∀ ρ p n c k, (Img.group g).at ρ p n = some (c, k) → FromPalette pal c

/-- no pixel of a layer is partly transparent with the opacity and the mask of the layer, and groups are opaque or invisible -/
def HardEdges (g : List Layer) : Prop := ∀ s, GroupIn s g → ∀ l ∈ s,
  ((∃ t, l.image = .group t) → l.transparency = 0 ∨ l.transparency = 255) ∧
  ∀ x, PixelsOf x l.image → ∀ ρ p n c k, shows p l → layerAt ρ l p n = some (c, k) → c.toNRGBA.a = 0 ∨ c.toNRGBA.a = 0xffff

/-- layers of which no two show at the same point -/
def NoneOver (s : List Layer) : Prop := s.Pairwise fun l l' => ∀ p, shows p l → ¬ shows p l'

end Spec

/-! ## Proofs -/

/-- invisible, or opaque and of a colour of the palette -/
def Crisp (pal : List Color) (c : Color) : Prop :=
  c.toNRGBA.a = 0 ∨ c.toNRGBA.a = 0xffff ∧ ∃ e ∈ pal, c.toNRGBA.r = e.toNRGBA.r ∧ c.toNRGBA.g = e.toNRGBA.g ∧ c.toNRGBA.b = e.toNRGBA.b

theorem tinted_transparency {pal : List Color} {c : Color} (h : FromPalette pal c) (o : UInt8) : FromPalette pal (transparency c o) := by
  obtain ⟨h1, h2, h3⟩ := C20_opacity c o
  by_cases e0 : o = 0
  · rw [h2 e0]
    exact .inl rfl
  by_cases e1 : o = 255
  · rw [h1 e1]
    exact h
  obtain ⟨m, hm, hr, hg, hb, ha⟩ := h3 e0 e1
  rw [hm]
  rcases h with h | ⟨e, he, q⟩
  · left
    rw [h] at ha
    exact UInt16.toNat_inj.1 (by show m.a.toNat = 0; rw [ha]; simp)
  · right
    refine ⟨e, he, ?_, ?_, ?_⟩
    · exact hr.trans q.1
    · exact hg.trans q.2.1
    · exact hb.trans q.2.2

/-- the pixels of the image of a layer have what its colours have, if opacity keeps it -/
theorem framed_keeps {Q : Color → Prop} (ht : ∀ c o, Q c → Q (transparency c o)) {R : Rect} {k : Nat} {pal : List Color}
    (hk : k < 6 → ∀ c, kindColour k pal c → Q c) {i : Img} (h : Framed R k pal i) :
    ∀ (ρ : Nat → UInt16) (p : Pt) (n m : Nat) (c : Color), Rect.mem p R = true → i.at ρ p n = some (c, m) → Q c := by
  induction h with
  | nil => intro ρ p n m c _ e; rw [Img.at] at e; cases e
  | leaf x h1 h2 h3 h4 =>
    intro ρ p n m c hm e
    rw [Img.at] at e
    obtain ⟨c', hc, e'⟩ := Option.map_eq_some_iff.1 e
    obtain ⟨rfl, -⟩ := Prod.mk.inj e'
    exact hk h1 _ (h4 p c' (by rw [h2]; exact hm) hc)
  | text t _ ih =>
    intro ρ p n m c hm e
    rw [Img.at] at e
    exact ih ρ p n m c hm e
  | masked msk _ _ ih =>
    intro ρ p n m c hm e
    rw [Img.at] at e
    rename_i i _ _
    cases hx : i.at ρ p n with
    | none => rw [hx] at e; cases e
    | some x =>
      obtain ⟨c', k'⟩ := x
      rw [hx] at e
      cases e
      exact ht _ _ (ih ρ p n _ c' hm hx)

theorem kindColour_tinted {k : Nat} {pal : List Color} (hp : RGBPalette pal) (hk : k / 2 = 2) (h6 : k < 6) (c : Color) (h : kindColour k pal c) : FromPalette pal c := by
  rcases kindColour_stored h6 hp h with ⟨h, -⟩ | ⟨h, -⟩ | ⟨-, r, g, b, hmem, rfl | ⟨a, rfl⟩⟩
  · omega
  · omega
  · exact .inr ⟨_, hmem, rfl, rfl, rfl⟩
  · exact .inr ⟨_, hmem, rfl, rfl, rfl⟩

theorem kindColour_grey {k : Nat} {pal : List Color} (hp : RGBPalette pal) (hk : k / 2 = 1) (h6 : k < 6) (c : Color) (h : kindColour k pal c) : Grey c := by
  rcases kindColour_stored h6 hp h with ⟨h, -⟩ | ⟨-, ⟨y, rfl⟩ | ⟨y, a, rfl⟩⟩ | ⟨h, -⟩
  · omega
  · exact ⟨⟨rfl, rfl⟩, rfl, rfl⟩
  · exact ⟨⟨rfl, rfl⟩, rfl, rfl⟩
  · omega

/-- drawing a layer keeps what compositing keeps -/
theorem drawLayer_keeps {Q : Color → Prop} (hs : ∀ t, Q t → 0x7fff < t.toNRGBA.a → Q (.nrgba64 { t.toNRGBA with a := 0xffff }))
    {ρ : Nat → UInt16} {cm : Option ColorModel} {l : Layer} {p : Pt} {c : Color}
    (hc : shows p l → ∀ d t c', Q t → composite d l.mode c t = some c' → Q c')
    (hl : ∀ n t k, shows p l → layerAt ρ l p n = some (t, k) → Q t) {c' : Color} {n n' : Nat} (hq : Q c)
    (h : drawLayer ρ cm l p c n = some (c', n')) : Q c' := by
  by_cases hv : shows p l
  · rw [drawLayer_shows _ _ hv] at h
    cases cm with
    | none => cases h
    | some cm =>
    rw [Option.bind_some] at h
    cases hx : layerAt ρ l p n with
    | none => rw [hx] at h; cases h
    | some x =>
    obtain ⟨t, k⟩ := x
    have ht := hl n t k hv hx
    rw [hx, Option.bind_some] at h
    dsimp only at h
    split at h
    · split at h
      · cases h
        rename_i hd
        exact hs t ht hd
      · cases h
        exact hq
    · split at h
      · obtain ⟨y, hy, e⟩ := Option.map_eq_some_iff.1 h
        cases e
        exact hc hv _ t _ ht hy
      · obtain ⟨y, hy, e⟩ := Option.map_eq_some_iff.1 h
        cases e
        exact hc hv _ t _ ht hy
  · rw [drawLayer_hidden _ _ hv] at h
    cases h
    exact hq

/-- What opacity keeps, and compositing (with nothing below, if layers are side by side), the pictures in files keep. -/
theorem finished_keeps {Q : Color → Prop} {S : Prop} (h0 : Q (.alpha 0)) (ht : ∀ c o, Q c → Q (transparency c o))
    (hs : ∀ t, Q t → 0x7fff < t.toNRGBA.a → Q (.nrgba64 { t.toNRGBA with a := 0xffff }))
    (hc : ∀ d m b t c, plainMode m → (S → b = .alpha 0) → Q b → Q t → composite d m b t = some c → Q c)
    {base : Nat} (hb : base ≠ 0) {pal : List Color} (hk : ∀ k, k / 2 = base → k < 6 → ∀ c, kindColour k pal c → Q c) {cv : Rect}
    (g : List Layer) (hf : ∀ s, GroupIn s g → Finished cv base pal s) (hS : S → ∀ s, GroupIn s g → NoneOver s) :
    ∀ ρ cm p n c k, layersAt ρ cm g p n = some (c, k) → Q c := by
  match g, hf, hS with
  | [], _, _ =>
    intro ρ cm p n c k e
    rw [layersAt_nil] at e
    cases e
    exact h0
  | ⟨name, bd, mode, inv, tr, im⟩ :: rest, hf, hS =>
    have hrest := finished_keeps h0 ht hs hc hb hk rest
      (fun s hs => by
        cases hs with
        | self => exact ⟨fun l hl => (hf _ .self).1 l (List.mem_cons_of_mem _ hl), fun l hl => (hf _ .self).2 l (by
            cases rest with
            | nil => cases hl
            | cons a rest => rw [List.dropLast_cons_cons]; exact List.mem_cons_of_mem _ hl)⟩
        | deeper hx hi hs => exact hf _ (.deeper (List.mem_cons_of_mem _ hx) hi hs))
      (fun h s hs => by
        cases hs with
        | self => exact (List.pairwise_cons.1 (hS h _ .self)).2
        | deeper hx hi hs => exact hS h _ (.deeper (List.mem_cons_of_mem _ hx) hi hs))
    intro ρ cm p n c k e
    rw [layersAt_cons] at e
    obtain ⟨⟨c', k'⟩, e1, e2⟩ := Option.bind_eq_some_iff.1 e
    have hmode : plainMode mode := by
      rcases (hf _ .self).1 _ List.mem_cons_self with ⟨t, _, hm⟩ | ⟨y, ⟨_, _, _, _, _, _, _, _, _, _, q⟩, _, _, y3⟩
      · exact hm hb
      · have y3 : y.mode = mode := y3
        exact y3 ▸ q hb
    refine drawLayer_keeps hs (fun hv d t x hq hx => hc d _ c' t x hmode (fun h => ?_) (hrest ρ cm p n c' k' e1) hq hx) (fun n t k hv hl => ?_)
      (hrest ρ cm p n c' k' e1) e2
    · have hn : ∀ l ∈ rest, ¬ shows p l := fun l hl => (List.pairwise_cons.1 (hS h _ .self)).1 l hl p hv
      have : ∀ g : List Layer, (∀ l ∈ g, ¬ shows p l) → layersAt ρ cm g p n = some (.alpha 0, n) := by
        intro g
        induction g with
        | nil => exact fun _ => layersAt_nil ..
        | cons a g ih =>
          intro hg
          rw [layersAt_cons, ih fun l hl => hg l (List.mem_cons_of_mem _ hl), Option.bind_some]
          exact drawLayer_hidden _ _ (hg a List.mem_cons_self)
      rw [this rest hn] at e1
      cases e1
      rfl
    · unfold layerAt at hl
      dsimp only at hl
      cases hx : im.at ρ ⟨p.x - bd.x0, p.y - bd.y0⟩ n with
      | none => rw [hx] at hl; cases hl
      | some x =>
        obtain ⟨c2, k2⟩ := x
        rw [hx] at hl
        cases hl
        refine ht _ _ ?_
        rcases (hf _ .self).1 _ List.mem_cons_self with ⟨t, hi, _⟩ | ⟨y, ⟨w, h, off, o, kk, i, q1, q2, q3, q4, _⟩, y1, y2, _⟩
        · have hi' : im = .group t := hi
          subst hi'
          rw [at_group] at hx
          exact finished_keeps h0 ht hs hc hb hk t (fun s hs => hf _ (.deeper List.mem_cons_self rfl hs))
            (fun h s hs => hS h _ (.deeper List.mem_cons_self rfl hs)) ρ _ _ _ _ _ hx
        · rw [q1] at y1
          cases y1
          exact framed_keeps ht (fun h6 => hk kk q3 h6) q4 ρ _ n k2 c2 (mem_inRect.2 (cut_inside (y2.symm.trans q2) p hv.2)) hx
termination_by sizeOf g

theorem framed_some {R : Rect} {k : Nat} {pal : List Color} {i : Img} (h : Framed R k pal i) :
    ∀ (ρ : Nat → UInt16) (p : Pt) (n : Nat), i.at ρ p n ≠ none → ∃ x, PixelsOf x i := by
  induction h with
  | nil => intro ρ p n e; rw [Img.at] at e; exact absurd rfl e
  | leaf x => exact fun _ _ _ _ => ⟨x, .leaf⟩
  | text t _ ih =>
    intro ρ p n e
    rw [Img.at] at e
    obtain ⟨x, h⟩ := ih ρ p n e
    exact ⟨x, .text h⟩
  | @masked i m _ _ ih =>
    intro ρ p n e
    rw [Img.at] at e
    obtain ⟨x, h⟩ := ih ρ p n fun h0 => e (by rw [h0]; rfl)
    exact ⟨x, .masked h⟩

/-- a picture of such layers -/
inductive HardTree (pal : List Color) : List Layer → Prop
  | nil : HardTree pal []
  | single {l : Layer} {g : List Layer} : plainMode l.mode →
      (∀ ρ p n c k, shows p l → layerAt ρ l p n = some (c, k) → Crisp pal c) → HardTree pal g → HardTree pal (l :: g)
  | group {l : Layer} {t g : List Layer} : plainMode l.mode → l.image = .group t → l.transparency = 0 ∨ l.transparency = 255 →
      HardTree pal t → HardTree pal g → HardTree pal (l :: g)

/-- drawing in one of the two modes makes no new colours -/
theorem composite_crisp {pal : List Color} {m : Mode} (hm : plainMode m) {d : UInt16} {b t c : Color} (hb : Crisp pal b) (ht : Crisp pal t)
    (h : composite d m b t = some c) : Crisp pal c := by
  rcases hm with rfl | rfl
  · rcases ht with ht | ht
    · rcases hb with hb | hb
      · rw [C01_both_transparent d b t ht hb] at h
        cases h
        exact .inl rfl
      · rw [C01_transparent_top d b t ht (by rw [hb.1]; decide)] at h
        cases h
        exact .inr hb
    · rw [C01_opaque_top d b t ht.1] at h
      cases h
      exact .inr ht
  · cases h
    exact hb

theorem drawLayer_crisp {pal : List Color} {ρ : Nat → UInt16} {cm : Option ColorModel} {l : Layer} {p : Pt} (hm : plainMode l.mode)
    (hl : ∀ n c k, shows p l → layerAt ρ l p n = some (c, k) → Crisp pal c) {c c' : Color} {n n' : Nat} (hc : Crisp pal c)
    (h : drawLayer ρ cm l p c n = some (c', n')) : Crisp pal c' :=
  drawLayer_keeps (fun t ht hd => by
    rcases ht with ht | ht
    · rw [ht] at hd
      exact absurd hd (by decide)
    · exact .inr ⟨rfl, ht.2⟩) (fun _ _ _ _ ht hx => composite_crisp hm hc ht hx) hl hc h

theorem hardTree_at {pal : List Color} {g : List Layer} (h : HardTree pal g) :
    ∀ (ρ : Nat → UInt16) (cm : Option ColorModel) (p : Pt) (n : Nat) (c : Color) (k : Nat), layersAt ρ cm g p n = some (c, k) → Crisp pal c := by
  induction h with
  | nil =>
    intro ρ cm p n c k e
    rw [layersAt_nil] at e
    cases e
    exact .inl (by decide)
  | single hm hl _ ih =>
    intro ρ cm p n c k e
    rw [layersAt_cons] at e
    obtain ⟨⟨c', k'⟩, h1, h2⟩ := Option.bind_eq_some_iff.1 e
    exact drawLayer_crisp hm (fun n c k => hl ρ p n c k) (ih ρ cm p n c' k' h1) h2
  | @group l t g hm hi ho _ _ iht ih =>
    intro ρ cm p n c k e
    rw [layersAt_cons] at e
    obtain ⟨⟨c', k'⟩, h1, h2⟩ := Option.bind_eq_some_iff.1 e
    refine drawLayer_crisp hm (fun n c k _ hx => ?_) (ih ρ cm p n c' k' h1) h2
    unfold layerAt at hx
    rw [hi, at_group] at hx
    cases hy : layersAt ρ (groupModel t) t ⟨p.x - l.bounds.x0, p.y - l.bounds.y0⟩ n with
    | none => rw [hy] at hx; cases hx
    | some y =>
      obtain ⟨c2, k2⟩ := y
      rw [hy] at hx
      cases hx
      have h3 := iht ρ _ _ _ _ _ hy
      rcases ho with ho | ho <;> rw [ho]
      · rw [(C20_opacity c2 (255 - 0)).1 (by decide)]
        exact h3
      · rw [(C20_opacity c2 (255 - 255)).2.1 (by decide)]
        exact .inl rfl

theorem hardTree_of {pal : List Color} (hp : RGBPalette pal) {cv : Rect} (g : List Layer) (hf : ∀ s, GroupIn s g → Finished cv 2 pal s) (hh : HardEdges g) :
    HardTree pal g := by
  match g, hf, hh with
  | [], _, _ => exact .nil
  | ⟨name, bd, mode, inv, tr, im⟩ :: rest, hf, hh =>
    have hrest : HardTree pal rest := hardTree_of hp rest
      (fun s hs => by
        cases hs with
        | self => exact ⟨fun l hl => (hf _ .self).1 l (List.mem_cons_of_mem _ hl), fun l hl => (hf _ .self).2 l (by
            cases rest with
            | nil => cases hl
            | cons a rest => rw [List.dropLast_cons_cons]; exact List.mem_cons_of_mem _ hl)⟩
        | deeper hx hi hs => exact hf _ (.deeper (List.mem_cons_of_mem _ hx) hi hs))
      (fun s hs => by
        cases hs with
        | self => exact fun l hl => hh _ .self l (List.mem_cons_of_mem _ hl)
        | deeper hx hi hs => exact hh _ (.deeper (List.mem_cons_of_mem _ hx) hi hs))
    rcases (hf _ .self).1 _ List.mem_cons_self with ⟨t, ht, hm⟩ | ⟨y, ⟨w, h, off, o, k, i, q1, q2, q3, q4, q5⟩, y1, y2, y3⟩
    · have ht' : im = .group t := ht
      subst ht'
      exact .group (hm (by decide)) rfl ((hh _ .self _ List.mem_cons_self).1 ⟨t, rfl⟩)
        (hardTree_of hp t (fun s hs => hf _ (.deeper List.mem_cons_self rfl hs)) fun s hs => hh _ (.deeper List.mem_cons_self rfl hs)) hrest
    · rw [q1] at y1
      cases y1
      refine .single (by rw [← y3]; exact q5 (by decide)) (fun ρ p n c k' hs e => ?_) hrest
      have e' := e
      unfold layerAt at e
      dsimp only at e
      cases hx : im.at ρ ⟨p.x - bd.x0, p.y - bd.y0⟩ n with
      | none => rw [hx] at e; cases e
      | some x =>
        obtain ⟨c2, k2⟩ := x
        rw [hx] at e
        have hin := cut_inside (y2.symm.trans q2) p hs.2
        have ht := tinted_transparency (framed_keeps (Q := FromPalette pal) (fun _ o h => tinted_transparency h o) (kindColour_tinted hp q3) q4 ρ _ n k2 c2 (mem_inRect.2 hin) hx) (255 - tr)
        cases e
        have hex := framed_some q4 ρ _ n (by rw [hx]; simp)
        obtain ⟨x, hpx⟩ := hex
        rcases (hh _ .self _ List.mem_cons_self).2 x hpx ρ p n _ _ hs e' with ha | ha
        · exact .inl ha
        · rcases ht with ht | ht
          · exact .inl ht
          · exact .inr ⟨ha, ht⟩
termination_by sizeOf g

theorem finished_palette {cv : Rect} {pal : List Color} {g : List Layer} (hf : ∀ s, GroupIn s g → Finished cv 2 pal s) : PaletteOf g pal := by
  intro s hs l hl x hx
  rcases (hf s hs).1 l hl with ⟨t, ht, _⟩ | ⟨y, ⟨w, ht, off, o, k, i, q1, q2, q3, q4, _⟩, y1, y2, _⟩
  · rw [ht] at hx; cases hx
  · rw [q1] at y1
    cases y1
    obtain ⟨p1, p2, p3⟩ := framed_pixels q4 hx
    rw [p3]
    have : k = 4 ∨ k = 5 := by omega
    rcases this with rfl | rfl
    · exact .inl rfl
    · exact .inr rfl

/-- **C167**, for pictures with hard edges; every pixel is then fully transparent or fully opaque.
Full statement: `OnlyPalette`, without `HardEdges`; `C167_refuted` shows that it is false. -/
theorem C167_colours_partial (env : Env) (sch : Sched) (hv : sch.Valid) (dec : Bool) (D : Bytes) (g : List Layer)
    (h : decodeImage env sch dec D = .ok (.ok g)) (hb : fromBE ((D.drop 22).take 4) = 2) (hh : HardEdges g) :
    ∃ pal, PaletteOf g pal ∧ ∀ ρ p n c k, (Img.group g).at ρ p n = some (c, k) → FromPalette pal c ∧ (c.toNRGBA.a = 0 ∨ c.toNRGBA.a = 0xffff) := by
  obtain ⟨hd, r, he, hf, -⟩ := decode_finished hv h
  have hbase : hd.baseType.toNat = 2 := by rw [← readHead_baseType D hd r he]; exact hb
  rw [hbase] at hf
  refine ⟨hd.props.palette, finished_palette hf, fun ρ p n c k e => ?_⟩
  rw [at_group] at e
  rcases hardTree_at (hardTree_of (readHead_rgb he) g hf hh) ρ _ p n c k e with h0 | ⟨h1, h2⟩
  · exact ⟨.inl h0, .inl h0⟩
  · exact ⟨.inr h2, .inr h1⟩

/-- **C167**, for pictures whose layers are side by side in each group, such as those with one layer, however transparent.
Full statement: `OnlyPalette`, without the last hypothesis; `C167_refuted` shows that it is false. -/
theorem C167_apart_partial (env : Env) (sch : Sched) (hv : sch.Valid) (dec : Bool) (D : Bytes) (g : List Layer)
    (h : decodeImage env sch dec D = .ok (.ok g)) (hb : fromBE ((D.drop 22).take 4) = 2) (hS : ∀ s, GroupIn s g → NoneOver s) :
    ∃ pal, PaletteOf g pal ∧ ∀ ρ p n c k, (Img.group g).at ρ p n = some (c, k) → FromPalette pal c := by
  obtain ⟨hd, r, he, hf, -⟩ := decode_finished hv h
  have hbase : hd.baseType.toNat = 2 := by rw [← readHead_baseType D hd r he]; exact hb
  rw [hbase] at hf
  refine ⟨hd.props.palette, finished_palette hf, fun ρ p n c k e => ?_⟩
  rw [at_group] at e
  refine finished_keeps (Q := FromPalette hd.props.palette) (S := True) (.inl (by decide)) (fun _ o h => tinted_transparency h o) (fun t ht hd => ?_) (fun d m b t c hm hb' hq ht hx => ?_) (by decide)
    (fun k hk => kindColour_tinted (readHead_rgb he) hk) g hf (fun _ => hS) ρ _ p n c k e
  · rcases ht with ht | ht
    · rw [ht] at hd
      exact absurd hd (by decide)
    · exact .inr ht
  · rw [hb' trivial] at hx
    rcases hm with rfl | rfl
    · obtain ⟨c', hc', hl⟩ := normal_clear d (b := .alpha 0) t (by decide)
      rw [hc'] at hx
      cases hx
      rcases hl with hl | hl
      · unfold FromPalette
        rw [← hl]
        exact ht
      · exact .inl hl.2
    · cases hx
      exact .inl (by decide)

/-- **C130** for files: every pixel of the picture in a grey file is grey. -/
theorem C130_file (env : Env) (sch : Sched) (hv : sch.Valid) (dec : Bool) (D : Bytes) (g : List Layer)
    (h : decodeImage env sch dec D = .ok (.ok g)) (hb : fromBE ((D.drop 22).take 4) = 1) (ρ : Nat → UInt16) (p : Pt) (n : Nat) (c : Color) (k : Nat)
    (e : (Img.group g).at ρ p n = some (c, k)) : c.rgba32.g = c.rgba32.r ∧ c.rgba32.b = c.rgba32.r := by
  obtain ⟨hd, r, he, hf, -⟩ := decode_finished hv h
  have hbase : hd.baseType.toNat = 1 := by rw [← readHead_baseType D hd r he]; exact hb
  rw [hbase] at hf
  rw [at_group] at e
  have := finished_keeps (Q := Grey) (S := False) ⟨⟨rfl, rfl⟩, rfl, rfl⟩ (fun _ o h => grey_transparency o h) (fun t ht _ => grey_of_nrgba ht.1.1 ht.1.2)
    (fun d m b t c _ _ hb' ht hx => by
      obtain ⟨c', hc', hg⟩ := grey_composite d m hb' ht
      rw [hc'] at hx
      cases hx
      exact hg) (by decide)
    (fun k hk => kindColour_grey (readHead_rgb he) hk) g hf (fun h => h.elim) ρ _ p n c k e
  exact this.2

/-- a grey file that is read -/
example : (decodeImage exEnv exSched true greyMultiply).isImage = true ∧ fromBE ((greyMultiply.drop 22).take 4) = 1 ∧ exSched.Valid :=
  ⟨by decide +kernel, by decide +kernel, exSched_valid⟩

/-! ## Examples -/

/-- an indexed file with the colours red and blue: a red pixel with an alpha over an opaque blue one -/
def redOverBlue (alpha : UInt8) : Bytes :=
  fileTypeID ++ [118, 48, 48, 51, 0] ++ be 4 1 ++ be 4 1 ++ be 4 2 ++ be 4 1 ++ be 4 10 ++ be 4 2 ++ [255, 0, 0, 0, 0, 255] ++ be 4 17 ++ be 4 1 ++ [0] ++
  be 4 0 ++ be 4 0 ++ be 4 73 ++ be 4 139 ++ be 4 0 ++
  -- 73: upper layer, 105: hierarchy, 121: level, 137: tile
  be 4 1 ++ be 4 1 ++ be 4 5 ++ be 4 0 ++ be 4 0 ++ be 4 0 ++ be 4 105 ++ be 4 0 ++
  be 4 1 ++ be 4 1 ++ be 4 2 ++ be 4 121 ++ be 4 1 ++ be 4 1 ++ be 4 137 ++ be 4 0 ++ [0, alpha] ++
  -- 139: lower layer, 171: hierarchy, 187: level, 203: tile
  be 4 1 ++ be 4 1 ++ be 4 5 ++ be 4 0 ++ be 4 0 ++ be 4 0 ++ be 4 171 ++ be 4 0 ++
  be 4 1 ++ be 4 1 ++ be 4 2 ++ be 4 187 ++ be 4 1 ++ be 4 1 ++ be 4 203 ++ be 4 0 ++ [1, 255]

/-- red and blue -/
def redBlueColours : List Color := [.lrgb 255 0 0, .lrgb 0 0 255]

/-- the picture in it, as far as it can be compared: the alphas of the two layers and the colour at (0, 0) -/
def isRedBlue (a a' : UInt16) (m : NRGBA64) : Outcome (Except Err (List Layer)) → Bool
  | .ok (.ok [⟨[], b, mode, false, 0, .leaf L⟩, ⟨[], b', mode', false, 0, .leaf L'⟩]) =>
    b == ⟨0, 0, 1, 1⟩ && b' == ⟨0, 0, 1, 1⟩ && L.model == .alphaPalette redBlueColours && (L.pixel ⟨0, 0⟩).map (fun c => c.toNRGBA.a) == some a &&
      (L'.pixel ⟨0, 0⟩).map (fun c => c.toNRGBA.a) == some a' &&
      ((Img.group [⟨[], b, mode, false, 0, .leaf L⟩, ⟨[], b', mode', false, 0, .leaf L'⟩]).at (fun _ => 0) ⟨0, 0⟩ 0).map (fun c => c.1.toNRGBA) == some m
  | _ => false

theorem isRedBlue_iff {a a' : UInt16} {m : NRGBA64} {x : Outcome (Except Err (List Layer))} (h : isRedBlue a a' m x = true) :
    ∃ mode mode' L L', x = .ok (.ok [⟨[], ⟨0, 0, 1, 1⟩, mode, false, 0, .leaf L⟩, ⟨[], ⟨0, 0, 1, 1⟩, mode', false, 0, .leaf L'⟩]) ∧
      L.model = .alphaPalette redBlueColours ∧ (L.pixel ⟨0, 0⟩).map (fun c => c.toNRGBA.a) = some a ∧ (L'.pixel ⟨0, 0⟩).map (fun c => c.toNRGBA.a) = some a' ∧
      ((Img.group [⟨[], ⟨0, 0, 1, 1⟩, mode, false, 0, .leaf L⟩, ⟨[], ⟨0, 0, 1, 1⟩, mode', false, 0, .leaf L'⟩]).at (fun _ => 0) ⟨0, 0⟩ 0).map
        (fun c => c.1.toNRGBA) = some m := by
  unfold isRedBlue at h
  split at h
  · next b mode L b' mode' L' =>
    simp only [Bool.and_eq_true, beq_iff_eq] at h
    obtain ⟨⟨⟨⟨⟨rfl, rfl⟩, h1⟩, h2⟩, h3⟩, h4⟩ := h
    exact ⟨mode, mode', L, L', rfl, h1, h2, h3, h4⟩
  · cases h

theorem redOverBlue_mixed : isRedBlue 0x8080 0xffff ⟨0x8080, 0, 0x7f7f, 0xffff⟩ (decodeImage exEnv exSched true (redOverBlue 128)) = true := by decide +kernel

theorem redOverBlue_hard : isRedBlue 0xffff 0xffff ⟨0xffff, 0, 0, 0xffff⟩ (decodeImage exEnv exSched true (redOverBlue 255)) = true := by decide +kernel

/-- C167 for a file with two opaque layers -/
example : ∃ g, decodeImage exEnv exSched true (redOverBlue 255) = .ok (.ok g) ∧ HardEdges g ∧ ∃ pal, PaletteOf g pal ∧
    ∀ ρ p n c k, (Img.group g).at ρ p n = some (c, k) → FromPalette pal c ∧ (c.toNRGBA.a = 0 ∨ c.toNRGBA.a = 0xffff) := by
  obtain ⟨mode, mode', L, L', h, -, h1, h2, -⟩ := isRedBlue_iff redOverBlue_hard
  have one : ∀ (mode : Mode) (L : Leaf), (L.pixel ⟨0, 0⟩).map (fun c => c.toNRGBA.a) = some 0xffff → ∀ ρ p n c k,
      shows p (⟨[], ⟨0, 0, 1, 1⟩, mode, false, 0, .leaf L⟩ : Layer) → layerAt ρ ⟨[], ⟨0, 0, 1, 1⟩, mode, false, 0, .leaf L⟩ p n = some (c, k) →
      c.toNRGBA.a = 0 ∨ c.toNRGBA.a = 0xffff := by
    intro mode L hL ρ p n c k hs e
    obtain ⟨px, py⟩ := p
    obtain ⟨i1, i2, i3, i4⟩ := hs.2
    dsimp only at i1 i2 i3 i4
    have : px = 0 ∧ py = 0 := by omega
    obtain ⟨rfl, rfl⟩ := this
    obtain ⟨c', hc, ha⟩ := Option.map_eq_some_iff.1 hL
    unfold layerAt at e
    rw [Img.at] at e
    dsimp only at e
    rw [show (0 : Int) - 0 = 0 from rfl, hc] at e
    cases e
    rw [(C20_opacity c' (255 - 0)).1 (by decide)]
    exact .inr ha
  have hh : HardEdges [⟨[], ⟨0, 0, 1, 1⟩, mode, false, 0, .leaf L⟩, ⟨[], ⟨0, 0, 1, 1⟩, mode', false, 0, .leaf L'⟩] := by
    intro s hs l hl
    cases hs with
    | self =>
      simp only [List.mem_cons, List.not_mem_nil, or_false] at hl
      rcases hl with rfl | rfl
      · exact ⟨fun ⟨t, ht⟩ => (nomatch ht), fun _ _ => one mode L h1⟩
      · exact ⟨fun ⟨t, ht⟩ => (nomatch ht), fun _ _ => one mode' L' h2⟩
    | deeper hx hi _ =>
      simp only [List.mem_cons, List.not_mem_nil, or_false] at hx
      rcases hx with rfl | rfl <;> cases hi
  exact ⟨_, h, hh, C167_colours_partial exEnv exSched exSched_valid true _ _ h (by decide +kernel) hh⟩

/-- whether this is a picture with one layer, not a group -/
def isOneLeaf : Outcome (Except Err (List Layer)) → Bool
  | .ok (.ok [⟨_, _, _, _, _, .leaf _⟩]) => true
  | _ => false

/-- C167 for a file with one layer, whose pixel is partly transparent -/
example : ∃ g, decodeImage exEnv exSched false indexedPacked = .ok (.ok g) ∧ (∀ s, GroupIn s g → NoneOver s) ∧ ∃ pal, PaletteOf g pal ∧
    ∀ ρ p n c k, (Img.group g).at ρ p n = some (c, k) → FromPalette pal c := by
  have h1 : isOneLeaf (decodeImage exEnv exSched false indexedPacked) = true := by decide +kernel
  have h2 : ∃ l L, decodeImage exEnv exSched false indexedPacked = .ok (.ok [l]) ∧ l.image = .leaf L := by
    unfold isOneLeaf at h1
    split at h1
    · next L e => exact ⟨_, L, e, rfl⟩
    · cases h1
  obtain ⟨l, L, h, hl⟩ := h2
  have hS : ∀ s, GroupIn s [l] → NoneOver s := by
    intro s hs
    cases hs with
    | self => exact List.pairwise_singleton _ _
    | deeper hx hi _ =>
      rw [List.mem_singleton] at hx
      subst hx
      rw [hl] at hi
      cases hi
  exact ⟨_, h, hS, C167_apart_partial exEnv exSched exSched_valid false _ _ h (by decide +kernel) hS⟩

/-- C167 is false: a half transparent red over blue is a colour that is not in the palette. -/
theorem C167_refuted : ¬ OnlyPalette := by
  intro H
  obtain ⟨mode, mode', L, L', h, hm, -, -, hc⟩ := isRedBlue_iff redOverBlue_mixed
  obtain ⟨pal, hp, hf⟩ := H exEnv exSched exSched_valid true _ _ h (by decide +kernel)
  have e : pal = redBlueColours := by
    rcases hp _ .self _ List.mem_cons_self L .leaf with q | q
    · rw [hm] at q; cases q
    · rw [hm] at q; cases q; rfl
  obtain ⟨⟨c, k⟩, h1, h2⟩ := Option.map_eq_some_iff.1 hc
  have h3 := hf _ _ _ _ _ h1
  unfold FromPalette at h3
  dsimp only at h2
  rw [h2, e] at h3
  revert h3
  decide

end Limage
