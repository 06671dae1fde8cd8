import Verif.Proofs.Png
import Verif.Proofs.OraPng
import Verif.Props.OraWrite
import Verif.Props.Looks
/-!
# The pixels in OpenRaster files: C87 and C88
-/
namespace Limage
open Spec

/-! ### C87 -/

/-- what is read of a tree, layer by layer, with something known of the images in it -/
theorem Spec.Back.alike_mem {env : OraEnv} {limits : Pt} {P : Layer → Layer → Prop} {Q : Img → Prop}
    (h1 : ∀ o l i, NotGroup l.image → Q l.image → Stored env l.image i → P l ⟨xmlBack l.name, oraPlaced limits o l.bounds i.bounds,
      if l.mode ∈ svgModes then l.mode else Mode.normal, l.invisible && l.transparency == 0, 0, .leaf i⟩)
    (h2 : ∀ o l g g', l.image = .group g → Back env limits ⟨o.x + (corner l.bounds).x, o.y + (corner l.bounds).y⟩ g g' →
      P l ⟨xmlBack l.name, oraPlaced limits o l.bounds (groupBounds g'),
      if l.mode ∈ svgModes then l.mode else Mode.normal, l.invisible && l.transparency == 0, 0, .group g'⟩)
    {o : Pt} {g g' : List Layer} (h : Back env limits o g g') (hQ : ∀ i ∈ leavesAll g, Q i) : Alike P g g' := by
  induction h with
  | nil => exact .nil
  | @single o l ls ls' i h3 h4 _ ih =>
    rw [leavesAll_cons, leaves_single h3] at hQ
    exact .single h3 (fun g h => by cases h) (h1 _ _ _ h3 (hQ _ (by simp)) h4) (ih fun x hx => hQ x (List.mem_append_right _ hx))
  | @group o l ls ls' g g' h3 h4 _ ih1 ih2 =>
    rw [leavesAll_cons, h3, leaves] at hQ
    exact .group h3 rfl (ih1 fun x hx => hQ x (List.mem_append_left _ hx)) (h2 _ _ _ _ h3 h4) (ih2 fun x hx => hQ x (List.mem_append_right _ hx))

/-- what is read of an image that was written -/
theorem stored_shows {env : OraEnv} (hl : OraLib env) {ρ : Nat → UInt16} {kind : Img → PngKind} (hp : PngPixels env ρ kind) {i : Img} {L : Leaf}
    (hr : Readably i) (h1 : TellsOpaque kind i) (h2 : GreyAsSaid i) (h3 : ProperColours i) (h4 : ∃ cm, i.colorModel = some cm ∧ cm.isPalette = false)
    (h : Stored env i L) : Shows ρ i L := by
  obtain ⟨d, hd, hL⟩ := h
  obtain ⟨b, hb, -, -, hsz⟩ := hl.png _ _ hd
  have hb : i.bounds = some b := hb
  obtain ⟨L', e1, e2⟩ := hsz (hr b hb).1 (hr b hb).2
  rw [hL] at e1
  cases e1
  obtain ⟨cm, hcm, hnp⟩ := h4
  obtain ⟨k1, -, k2⟩ := hp i d L b cm hd hL hb hcm hnp
  refine ⟨b, hb, e2, fun q hq => ?_⟩
  obtain ⟨n, n', c, f1, f2⟩ := k2 q hq
  have hmem : Rect.mem ⟨b.x0 + q.x, b.y0 + q.y⟩ b = true := by
    rw [e2] at hq
    unfold Rect.mem Rect.dx Rect.dy at *
    simp only [Bool.and_eq_true, decide_eq_true_eq] at hq ⊢
    omega
  have hgrey : (kind i).grey = true → c.rgba32.r = c.rgba32.g ∧ c.rgba32.g = c.rgba32.b ∧ c.rgba32.a = 0xffff := by
    intro hk
    refine h2 b cm hb hcm ?_ ρ _ n c n' hmem f1
    generalize kind i = k at *
    cases cm <;> cases k <;> simp [pngKinds, PngKind.grey] at k1 hk ⊢
  refine ⟨n, n', c, _, f1, f2, back_near _ c ?_ (fun hk => h1 hk b hb ρ _ n c n' hmem f1) hgrey, ?_⟩
  · obtain ⟨v1, v2, v3, v4⟩ := h3 b hb ρ _ n c n' hmem f1
    exact ⟨v1, v2, v3, v4⟩
  · intro ha hr0 hg0 hb0
    obtain ⟨v1, v2, v3, v4⟩ := h3 b hb ρ _ n c n' hmem f1
    have v1 : c.rgba32.r.toNat ≤ c.rgba32.a.toNat := v1
    have v2 : c.rgba32.g.toNat ≤ c.rgba32.a.toNat := v2
    have v3 : c.rgba32.b.toNat ≤ c.rgba32.a.toNat := v3
    have ha' : c.rgba32.a.toNat = 65535 := by rw [ha]; rfl
    have hof : ∀ x : Nat, x ≤ 65535 → x % 257 = 0 → x = 257 * (UInt8.ofNat (x / 257)).toNat := by
      intro x h1 h2
      rw [UInt8.toNat_ofNat_of_lt' (by show x / 257 < 256; omega)]
      omega
    refine back_opaque8 _ c ⟨hof _ (by omega) hr0, hof _ (by omega) hg0, hof _ (by omega) hb0, ha'⟩ fun hk => ?_
    obtain ⟨g1, g2, -⟩ := hgrey hk
    rw [g1, g2]
    exact ⟨rfl, rfl⟩

/-- **C87** (the part that holds): the images of all layers are read back with all their pixels, up to 512/65535 in each channel of `RGBA()`, and opaque
pixels with 8 bits per channel exactly; for images that are opaque if they say so.
Full statement: all images; false by `C87_refuted`. -/
theorem C87_pixels_partial {env : OraEnv} (hl : OraLib env) {ρ : Nat → UInt16} {kind : Img → PngKind} (hp : PngPixels env ρ kind) (fails : Nat → Bool)
    (c : Bool) (m : OraInput) (g : List Layer) (hg : m.top = .group g) (hm : IntSize m) (hn : NearAll g) (hr : ∀ i ∈ leavesAll g, Readably i)
    (hi : ∀ i ∈ leavesAll g, TellsOpaque kind i ∧ GreyAsSaid i ∧ ProperColours i ∧ ∃ cm, i.colorModel = some cm ∧ cm.isPalette = false)
    (es : List ZipEntry) (h : oraEncode env fails c m = .ok ⟨none, some es⟩) :
    ∃ g', oraDecode env es = .ok g' ∧ Alike (fun l l' => NotGroup l.image → ∃ L, l'.image = .leaf L ∧ Shows ρ l.image L) g g' := by
  obtain ⟨b, g', -, h1, h2⟩ := C61_back hl fails c m g hg hm hn hr es h
  refine ⟨g', h1, h2.alike_mem (Q := fun i => Readably i ∧ TellsOpaque kind i ∧ GreyAsSaid i ∧ ProperColours i ∧ ∃ cm, i.colorModel = some cm ∧ cm.isPalette = false)
    (fun o l i _ hQ hst _ => ⟨i, rfl, stored_shows hl hp hQ.1 hQ.2.1 hQ.2.2.1 hQ.2.2.2.1 hQ.2.2.2.2 hst⟩)
    (fun o l g g' hg _ hng => absurd hg (hng g)) fun i hx => ⟨hr i hx, hi i hx⟩⟩

/-- a picture with a group: what is read of its first layer shows a translucent colour -/
example : ∃ es l' ls' L, oraEncode (pixEnv fun _ => false) (fun _ => false) false (.image (.group pixelTree)) = .ok ⟨none, some es⟩ ∧
    oraDecode (pixEnv fun _ => false) es = .ok (l' :: ls') ∧ l'.image = .leaf L ∧ Shows (fun _ => 0) (.leaf (plain 2 1 (.nrgba64 ⟨1, 2, 30000, 40000⟩))) L := by
  obtain ⟨es, h⟩ := pixelTree_written
  obtain ⟨g', h1, h2⟩ := C87_pixels_partial (pixEnv_lib _) (pixEnv_pixels _) _ _ _ _ rfl (fun b hb => by cases hb; decide)
    (by simp [pixelTree, NearAll, Near]) pixelTree_readable (fun i hi => by
      rw [pixelTree_leaves] at hi
      simp only [List.mem_cons, List.not_mem_nil, or_false] at hi
      rcases hi with rfl | rfl | rfl
      all_goals
        refine ⟨(fun hd => by cases hd), (fun b cm _ hcm hg => ?_), (fun b _ σ q n c n' _ hc => ?_), .other, rfl, rfl⟩
        · cases hcm
          rcases hg with hg | hg <;> cases hg
        · cases hc
          decide) es h
  cases h2 with
  | group h5 => cases h5
  | single h4 _ h5 h6 =>
    obtain ⟨L, e1, e2⟩ := h5 h4
    exact ⟨es, _, _, L, h, h1, e1, e2⟩

/-- an image of type `limage.PalettedAlpha` of one pixel -/
def palDot (pal : List Color) (p : IdxPix) : Leaf := ⟨⟨0, 0, 1, 1⟩, .alphaPalette pal, fun _ => p.toColor pal⟩

/-- C87 is false for images of type `limage.PalettedAlpha`: their `Opaque` method says the opposite of what is true (C23), so that the alpha of
translucent images is not stored: a pixel that is hardly visible is read as opaque white. -/
theorem C87_refuted {env : OraEnv} (hl : OraLib env) {ρ : Nat → UInt16} {kind : Img → PngKind} (hp : PngPixels env ρ kind)
    (hop : (kind (.leaf (palDot [.gray 255] ⟨0, 1⟩))).drops = idxOpaque [⟨0, 1⟩]) (fails : Nat → Bool) (c : Bool) (es : List ZipEntry)
    (h : oraEncode env fails c (.image (.group [⟨[], ⟨0, 0, 1, 1⟩, Mode.normal, false, 0, .leaf (palDot [.gray 255] ⟨0, 1⟩)⟩])) = .ok ⟨none, some es⟩) :
    ∃ l' L, oraDecode env es = .ok [l'] ∧ l'.image = .leaf L ∧ (palDot [.gray 255] ⟨0, 1⟩).pixel ⟨0, 0⟩ = some (.nrgba 255 255 255 1) ∧
      ∃ c', L.pixel ⟨0, 0⟩ = some c' ∧ c'.rgba32.a = 0xffff := by
  obtain ⟨b, g', -, h1, h2⟩ := C61_back hl fails c _ _ rfl (fun b hb => by cases hb; decide) (by simp [NearAll, Near])
    (fun i hi => by
      have hi : i ∈ [Img.leaf (palDot [.gray 255] ⟨0, 1⟩)] := hi
      rw [List.mem_singleton] at hi
      subst hi
      intro b hb
      cases hb
      decide) es h
  cases h2 with
  | group h3 => cases h3
  | @single _ _ _ _ L h3 h4 h5 =>
    cases h5
    refine ⟨_, L, h1, rfl, rfl, ?_⟩
    obtain ⟨d, hd, hL⟩ := h4
    obtain ⟨b, hb, -, -, hsz⟩ := hl.png _ _ hd
    cases hb
    obtain ⟨L', e1, e2⟩ := hsz (by decide) (by decide)
    rw [hL] at e1
    cases e1
    obtain ⟨k1, -, k2⟩ := hp (.leaf (palDot [.gray 255] ⟨0, 1⟩)) d L _ _ hd hL rfl rfl rfl
    obtain ⟨n, n', c, f1, f2⟩ := k2 ⟨0, 0⟩ (by rw [e2]; decide)
    have hk := hop
    generalize kind (.leaf (palDot [.gray 255] ⟨0, 1⟩)) = k at *
    have hk : k.drops = true := hk
    refine ⟨_, f2, ?_⟩
    cases k <;> simp [PngKind.drops] at hk
    all_goals rfl

/-- such a file -/
example : ∃ es l' L c', oraEncode (pixEnv fun _ => true) (fun _ => false) false (.image (.group [⟨[], ⟨0, 0, 1, 1⟩, Mode.normal, false, 0,
      .leaf (palDot [.gray 255] ⟨0, 1⟩)⟩])) = .ok ⟨none, some es⟩ ∧
    oraDecode (pixEnv fun _ => true) es = .ok [l'] ∧ l'.image = .leaf L ∧ L.pixel ⟨0, 0⟩ = some c' ∧ c'.rgba32.a = 0xffff := by
  obtain ⟨es, h⟩ : ∃ es, oraEncode (pixEnv fun _ => true) (fun _ => false) false (.image (.group [⟨[], ⟨0, 0, 1, 1⟩, Mode.normal, false, 0,
      .leaf (palDot [.gray 255] ⟨0, 1⟩)⟩])) = .ok ⟨none, some es⟩ := ⟨_, rfl⟩
  obtain ⟨l', L, h1, h2, -, c', h3, h4⟩ := C87_refuted (pixEnv_lib _) (pixEnv_pixels fun _ => true) rfl _ _ es h
  exact ⟨es, l', L, c', h, h1, h2, h3, h4⟩

/-! ### C88 -/

theorem Spec.Alike.and {P Q : Layer → Layer → Prop} {g g' : List Layer} (h : Alike P g g') (h' : Alike Q g g') : Alike (fun l l' => P l l' ∧ Q l l') g g' := by
  induction h with
  | nil => exact .nil
  | single h1 h2 h3 _ ih =>
    cases h' with
    | single _ _ k1 k2 => exact .single h1 h2 ⟨h3, k1⟩ (ih k2)
    | group k1 => exact absurd k1 (h1 _)
  | group h1 h2 _ h4 _ ih1 ih2 =>
    cases h' with
    | single k1 => exact absurd h1 (k1 _)
    | group k1 k2 k3 k4 k5 =>
      rw [h1] at k1
      rw [h2] at k2
      cases k1
      cases k2
      exact .group h1 h2 (ih1 k3) ⟨h4, k4⟩ (ih2 k5)

theorem Spec.Alike.imp {P Q : Layer → Layer → Prop} (hPQ : ∀ l l', P l l' → Q l l') {g g' : List Layer} (h : Alike P g g') : Alike Q g g' := by
  induction h with
  | nil => exact .nil
  | single h1 h2 h3 _ ih => exact .single h1 h2 (hPQ _ _ h3) ih
  | group h1 h2 _ h4 _ ih1 ih2 => exact .group h1 h2 ih1 (hPQ _ _ h4) ih2

/-- layers that look the same: the images of those that are not groups cannot be told apart -/
def LooksLike (l l' : Layer) : Prop :=
  (l'.bounds = l.bounds ∧ l'.mode = l.mode ∧ l'.invisible = l.invisible ∧ l'.transparency = l.transparency) ∧
  (NotGroup l.image → (∃ m m', l.image.colorModel = some m ∧ l'.image.colorModel = some m' ∧ m.isPalette = false ∧ m'.isPalette = false) ∧
    ∀ ρ p n, Rect.mem p ⟨0, 0, l.bounds.dx, l.bounds.dy⟩ = true → SameTo (l.image.at ρ p n) (l'.image.at ρ p n))

theorem looks_model {g g' : List Layer} (h : Alike LooksLike g g') :
    ∃ m m', groupModel g = some m ∧ groupModel g' = some m' ∧ m.isPalette = false ∧ m'.isPalette = false := by
  induction h with
  | nil => exact ⟨.alpha, .alpha, by rw [groupModel], by rw [groupModel], rfl, rfl⟩
  | @single l l' ls ls' h1 h2 h3 _ _ =>
    rw [groupModel_cons, groupModel_cons]
    exact (h3.2 h1).1
  | @group l l' ls ls' g g' h1 h2 _ _ _ ih1 _ =>
    rw [groupModel_cons, groupModel_cons, h1, h2, Img.colorModel, Img.colorModel]
    exact ih1

theorem looks_at {g g' : List Layer} (h : Alike LooksLike g g') (ρ : Nat → UInt16) {m m' : ColorModel} (hm : m.isPalette = false) (hm' : m'.isPalette = false) :
    ∀ p n, layersAt ρ (some m) g p n = layersAt ρ (some m') g' p n := by
  have hin : ∀ (p : Pt) (b : Rect), Rect.mem p b = true → Rect.mem ⟨p.x - b.x0, p.y - b.y0⟩ ⟨0, 0, b.dx, b.dy⟩ = true := by
    intro p b hp
    unfold Rect.mem Rect.dx Rect.dy at *
    simp only [Bool.and_eq_true, decide_eq_true_eq] at hp ⊢
    omega
  induction h generalizing m m' with
  | nil => intro p n; rw [layersAt, layersAt]
  | @single l l' ls ls' h1 h2 h3 _ ih =>
    intro p n
    rw [layersAt_cons, layersAt_cons, ih hm hm']
    refine congrArg _ (funext fun x => ?_)
    obtain ⟨c, n⟩ := x
    exact drawLayer_same ρ hm hm' h3.1.1 h3.1.2.1 h3.1.2.2.1 h3.1.2.2.2 p (fun hp n => (h3.2 h1).2 ρ _ n (hin p _ hp)) c n
  | @group l l' ls ls' g g' h1 h2 h4 h3 _ ih1 ih2 =>
    intro p n
    rw [layersAt_cons, layersAt_cons, ih2 hm hm']
    refine congrArg _ (funext fun x => ?_)
    obtain ⟨c, n⟩ := x
    refine drawLayer_same ρ hm hm' h3.1.1 h3.1.2.1 h3.1.2.2.1 h3.1.2.2.2 p (fun hp n => ?_) c n
    obtain ⟨k, k', e1, e2, e3, e4⟩ := looks_model h4
    rw [h1, h2]
    left
    rw [Img.at, Img.at, e1, e2]
    exact ih1 e3 e4 _ n

theorem losslessAll_cons (kind : Img → PngKind) (l : Layer) (ls : List Layer) :
    LosslessAll kind (l :: ls) = ((l.mode ∈ svgModes ∧ l.transparency = 0) ∧ Lossless kind l.image ∧ LosslessAll kind ls) := by rw [LosslessAll]

theorem lossless_single {kind : Img → PngKind} {i : Img} (h : NotGroup i) (hi : Lossless kind i) : Unchanged kind i := by
  cases i with
  | group g => exact absurd rfl (h g)
  | nil => exact hi.elim
  | leaf L => exact hi
  | text i t => exact hi
  | masked i m => exact hi

/-- what is read of layers that are stored without a change looks like them -/
theorem lossless_looks {env : OraEnv} (hlib : OraLib env) {ρ : Nat → UInt16} {kind : Img → PngKind} (hp : PngPixels env ρ kind) {g g' : List Layer}
    (h : Alike (fun l l' => SamePlace env l l' ∧ (l.transparency = 0 → l'.transparency = l.transparency ∧ l'.invisible = l.invisible) ∧
      (l.mode ∈ svgModes → l'.mode = l.mode)) g g') (hl : LosslessAll kind g) (hr : ∀ i ∈ leavesAll g, Readably i) :
    Alike LooksLike g g' := by
  induction h with
  | nil => exact .nil
  | @single l l' ls ls' h1 h2 h3 _ ih =>
    rw [leavesAll_cons, leaves_single h1] at hr
    rw [losslessAll_cons] at hl
    obtain ⟨⟨k1, k2⟩, k3, k4⟩ := hl
    obtain ⟨⟨p1, p2⟩, p3, p4⟩ := h3
    refine .single h1 h2 ⟨⟨p1, p4 k1, (p3 k2).2, (p3 k2).1⟩, fun _ => ?_⟩ (ih k4 fun x hx => hr x (List.mem_append_right _ hx))
    obtain ⟨L, q1, ⟨d, hd, hL⟩, q2⟩ := p2 h1
    obtain ⟨b, cm, u1, u2, u3, u4, u5, u6⟩ := lossless_single h1 k3
    obtain ⟨-, v1, v2⟩ := hp l.image d L b cm hd hL u1 u4 u5
    refine ⟨⟨cm, (kind l.image).model, u4, by rw [q1, Img.colorModel, v1], u5, by cases kind l.image <;> rfl⟩, fun σ p n hmem => ?_⟩
    obtain ⟨n₀, n', c, f1, f2⟩ := v2 p (by rw [q2]; exact hmem)
    rw [u2, u3, Int.zero_add, Int.zero_add] at f1
    right
    have hrr := hr l.image (by simp) b u1
    obtain ⟨b', x1, -, -, x2⟩ := hlib.png _ _ hd
    have x1 : l.image.bounds = some b' := x1
    rw [u1] at x1
    cases x1
    obtain ⟨L', x3, x4⟩ := x2 hrr.1 hrr.2
    rw [hL] at x3
    cases x3
    have hb : Rect.mem p b = true := by
      rw [← q2, x4] at hmem
      unfold Rect.mem Rect.dx Rect.dy at *
      simp only [Bool.and_eq_true, decide_eq_true_eq] at hmem ⊢
      omega
    obtain ⟨c₀, w1, w2⟩ := u6 p hb
    have : c₀ = c := by
      have := (w1 ρ n₀).symm.trans f1
      injection this with this
      exact congrArg Prod.fst this
    subst this
    exact ⟨c₀, _, n, w1 σ n, by rw [q1, Img.at, f2]; rfl, w2.symm⟩
  | @group l l' ls ls' g g' h1 h2 h4 h3 _ ih1 ih2 =>
    rw [losslessAll_cons] at hl
    obtain ⟨⟨k1, k2⟩, k3, k4⟩ := hl
    obtain ⟨⟨p1, p2⟩, p3, p4⟩ := h3
    rw [h1, Lossless] at k3
    rw [leavesAll_cons, h1, leaves] at hr
    exact .group h1 h2 (ih1 k3 fun x hx => hr x (List.mem_append_left _ hx)) ⟨⟨p1, p4 k1, (p3 k2).2, (p3 k2).1⟩, fun hng => absurd h1 (hng _)⟩ (ih2 k4 fun x hx => hr x (List.mem_append_right _ hx))

/-- **C88** (the part that holds): a picture on its canvas, of opaque layers with modes that exist in OpenRaster, which have the sizes of their images and
are in groups at the origin, and whose images start at the origin and are kept by PNG files, is after saving and loading the same at every point.
Full statement: every picture that can be saved; `C88_opacity_refuted` and `C88_origin_refuted` show that the conditions
matter, and by `C61_refuted` layers in other groups are not where they were. -/
theorem C88_looks_partial {env : OraEnv} (hl : OraLib env) {ρ : Nat → UInt16} {kind : Img → PngKind} (hp : PngPixels env ρ kind) (fails : Nat → Bool)
    (c : Bool) (m : OraInput) (g : List Layer) (hg : m.top = .group g) (b : Rect) (hb : m.bounds = some b) (hm : IntSize m) (hf : FitAll ⟨b.dx, b.dy⟩ g)
    (hr : ∀ i ∈ leavesAll g, Readably i) (hk : LosslessAll kind g) (es : List ZipEntry) (h : oraEncode env fails c m = .ok ⟨none, some es⟩) :
    ∃ g', oraDecode env es = .ok g' ∧ ∀ (σ : Nat → UInt16) (p : Pt) (n : Nat), (Img.group g').at σ p n = (Img.group g).at σ p n := by
  obtain ⟨g', h1, h2⟩ := C61_partial hl fails c m g hg b hb hm hf hr es h
  obtain ⟨_, les, _, _, -, hh, -, -, -⟩ := oraEntries_ok (encode_entries h)
  rw [hg, leaves] at hh
  have hn : NearAll g := fitAll_near (hm b hb).1.2 (hm b hb).2.2 g hf (fun x hx => by
    obtain ⟨d, hd⟩ := holds_png env _ _ _ hh x hx
    obtain ⟨c, h1, h2, h3, -⟩ := hl.png _ _ hd
    exact ⟨c, h1, h2, h3⟩)
  obtain ⟨g₂, h3, h4⟩ := C60_partial hl fails c m g hg hm hn hr es h
  rw [h1] at h3
  cases h3
  refine ⟨g', h1, fun σ p n => ?_⟩
  have := lossless_looks hl hp ((h2.and h4).imp fun l l' ⟨a, _, b, c⟩ => ⟨a, b, c⟩) hk hr
  obtain ⟨k, k', e1, e2, e3, e4⟩ := looks_model this
  rw [Img.at, Img.at, e1, e2]
  exact (looks_at this σ e3 e4 p n).symm

/-- a picture with a translucent pixel, a group and a hidden layer is read as it was -/
example : ∃ es g', oraEncode (pixEnv fun _ => false) (fun _ => false) false (.image (.group pixelTree)) = .ok ⟨none, some es⟩ ∧
    oraDecode (pixEnv fun _ => false) es = .ok g' ∧ ∀ σ p n, (Img.group g').at σ p n = (Img.group pixelTree).at σ p n := by
  obtain ⟨es, h⟩ := pixelTree_written
  have hu : ∀ (w h : Int) (c : Color), (PngKind.back .tca16 c).toNRGBA = c.toNRGBA →
      Unchanged (fun i => if (fun _ => false) i then .tc16 else .tca16) (.leaf (plain w h c)) :=
    fun w h c hc => ⟨_, _, rfl, rfl, rfl, rfl, rfl, fun q _ => ⟨c, fun _ _ => rfl, hc⟩⟩
  obtain ⟨g', h1, h2⟩ := C88_looks_partial (pixEnv_lib _) (pixEnv_pixels _) _ _ _ _ rfl ⟨0, 0, 3, 2⟩ rfl (fun b hb => by cases hb; decide)
    (by
      unfold pixelTree
      simp only [FitAll, Fit]
      refine ⟨by decide, ⟨rfl, rfl⟩, by decide, ⟨trivial, trivial, rfl, by decide, ⟨rfl, rfl⟩, by decide, ⟨rfl, rfl⟩, trivial⟩, trivial⟩)
    pixelTree_readable (by
      unfold pixelTree
      simp only [Lossless, LosslessAll]
      exact ⟨⟨by decide, trivial⟩, hu _ _ _ (by decide), ⟨by decide, trivial⟩, ⟨⟨by decide, trivial⟩, hu _ _ _ (by decide), ⟨by decide, trivial⟩,
        hu _ _ _ (by decide), trivial⟩, trivial⟩) es h
  exact ⟨es, g', h, h1, h2⟩

/-- what is read of a picture with one layer of one pixel -/
theorem dot_back {env : OraEnv} (hl : OraLib env) {ρ : Nat → UInt16} {kind : Img → PngKind} (hp : PngPixels env ρ kind) (fails : Nat → Bool)
    (c : Bool) (t : UInt8) (L₀ : Leaf) (hmod : L₀.model = .other) (hx : L₀.bounds.dx = 1) (hy : L₀.bounds.dy = 1) (es : List ZipEntry)
    (h : oraEncode env fails c (.image (.group [⟨[], ⟨0, 0, 1, 1⟩, Mode.normal, false, t, .leaf L₀⟩])) = .ok ⟨none, some es⟩) :
    ∃ l' L k c', oraDecode env es = .ok [l'] ∧ l'.bounds = ⟨0, 0, 1, 1⟩ ∧ l'.invisible = false ∧ l'.transparency = 0 ∧ l'.mode = Mode.normal ∧
      l'.image = .leaf L ∧ L.model.isPalette = false ∧ L₀.pixel ⟨L₀.bounds.x0, L₀.bounds.y0⟩ = some c' ∧ L.pixel ⟨0, 0⟩ = some (PngKind.back k c') ∧
      k ∈ pngKinds .other := by
  obtain ⟨b, g', hb, h1, h2⟩ := C61_back hl fails c _ _ rfl (fun b hb => by
      have hb : some (⟨0, 0, 1, 1⟩ : Rect) = some b := hb
      cases hb
      decide) (by simp [NearAll, Near])
    (fun i hi => by
      have hi : i ∈ [Img.leaf L₀] := hi
      rw [List.mem_singleton] at hi
      subst hi
      intro b hb
      cases hb
      rw [hx, hy]
      decide) es h
  cases hb
  cases h2 with
  | group h3 => cases h3
  | @single _ _ _ _ L h3 h4 h5 =>
    cases h5
    obtain ⟨d, hd, hL⟩ := h4
    obtain ⟨b, hb, -, -, hsz⟩ := hl.png _ _ hd
    cases hb
    obtain ⟨L', e1, e2⟩ := hsz (by rw [hx]; decide) (by rw [hy]; decide)
    rw [hL] at e1
    cases e1
    rw [hx, hy] at e2
    obtain ⟨k1, k3, k2⟩ := hp (.leaf L₀) d L _ _ hd hL rfl (by rw [Img.colorModel, hmod]) rfl
    obtain ⟨n, n', c, f1, f2⟩ := k2 ⟨0, 0⟩ (by rw [e2]; decide)
    rw [Img.at, Int.add_zero, Int.add_zero] at f1
    refine ⟨_, L, kind (.leaf L₀), c, h1, by rw [e2]; rfl, rfl, rfl, rfl, rfl, by rw [k3]; cases kind (.leaf L₀) <;> rfl, ?_, f2, k1⟩
    cases hpx : L₀.pixel ⟨L₀.bounds.x0, L₀.bounds.y0⟩ with
    | none => rw [hpx] at f1; cases f1
    | some c₀ => rw [hpx] at f1; cases f1; rfl

theorem kept_dot {k : PngKind} (hk : k ∈ pngKinds .other) : composite 0 Mode.normal (.alpha 0) (k.back (.nrgba 9 8 7 255)) = some (.nrgba64 ⟨0x0909, 0x0808, 0x0707, 0xffff⟩) := by
  cases k <;> revert hk <;> decide

/-- C88 is false for layers that are not opaque: they are read as opaque (C60). -/
theorem C88_opacity_refuted {env : OraEnv} (hl : OraLib env) {ρ : Nat → UInt16} {kind : Img → PngKind} (hp : PngPixels env ρ kind) (fails : Nat → Bool)
    (c : Bool) (es : List ZipEntry)
    (h : oraEncode env fails c (.image (.group [⟨[], ⟨0, 0, 1, 1⟩, Mode.normal, false, 255, .leaf (plain 1 1 (.nrgba 9 8 7 255))⟩])) = .ok ⟨none, some es⟩) :
    ∃ g', oraDecode env es = .ok g' ∧ ∀ (σ : Nat → UInt16) (n : Nat),
      (∃ x, (Img.group [⟨[], ⟨0, 0, 1, 1⟩, Mode.normal, false, 255, .leaf (plain 1 1 (.nrgba 9 8 7 255))⟩]).at σ ⟨0, 0⟩ n = some (x, n) ∧ x.toNRGBA.a = 0) ∧
      (Img.group g').at σ ⟨0, 0⟩ n = some (.nrgba64 ⟨0x0909, 0x0808, 0x0707, 0xffff⟩, n) := by
  obtain ⟨l', L, k, c', h1, h2, h3, h4, h5, h6, h7, h8, h9, hk⟩ := dot_back hl hp fails c _ (plain 1 1 (.nrgba 9 8 7 255)) rfl rfl rfl es h
  cases h8
  refine ⟨_, h1, fun σ n => ⟨⟨_, rfl, rfl⟩, ?_⟩⟩
  rw [single_at σ l' h2 h3 h4 L h6 (by rw [h5]; decide) _ h9 n, h7, h5, kept_dot hk]
  rfl

/-- C88 is false for images that do not start at the origin: `At` of a layer asks for the pixel at the origin, while the PNG file has those inside the
bounds of the image. -/
theorem C88_origin_refuted {env : OraEnv} (hl : OraLib env) {ρ : Nat → UInt16} {kind : Img → PngKind} (hp : PngPixels env ρ kind) (fails : Nat → Bool)
    (c : Bool) (L₀ : Leaf) (hL : L₀ = ⟨⟨1, 0, 2, 1⟩, .other, fun p => if p.x = 1 then some (.nrgba 9 8 7 255) else some (.nrgba 0 0 0 0)⟩) (es : List ZipEntry)
    (h : oraEncode env fails c (.image (.group [⟨[], ⟨0, 0, 1, 1⟩, Mode.normal, false, 0, .leaf L₀⟩])) = .ok ⟨none, some es⟩) :
    ∃ g', oraDecode env es = .ok g' ∧ ∀ (σ : Nat → UInt16) (n : Nat),
      (∃ x, (Img.group [⟨[], ⟨0, 0, 1, 1⟩, Mode.normal, false, 0, .leaf L₀⟩]).at σ ⟨0, 0⟩ n = some (x, n) ∧ x.toNRGBA.a = 0) ∧
      (Img.group g').at σ ⟨0, 0⟩ n = some (.nrgba64 ⟨0x0909, 0x0808, 0x0707, 0xffff⟩, n) := by
  subst hL
  obtain ⟨l', L, k, c', h1, h2, h3, h4, h5, h6, h7, h8, h9, hk⟩ := dot_back hl hp fails c _ _ rfl rfl rfl es h
  have h8 : some (Color.nrgba 9 8 7 255) = some c' := h8
  cases h8
  refine ⟨_, h1, fun σ n => ⟨⟨_, rfl, rfl⟩, ?_⟩⟩
  rw [single_at σ l' h2 h3 h4 L h6 (by rw [h5]; decide) _ h9 n, h7, h5, kept_dot hk]
  rfl

/-- both pictures can be saved -/
example : (∃ es, oraEncode (pixEnv fun _ => false) (fun _ => false) false (.image (.group [⟨[], ⟨0, 0, 1, 1⟩, Mode.normal, false, 255,
      .leaf (plain 1 1 (.nrgba 9 8 7 255))⟩])) = .ok ⟨none, some es⟩) ∧
    ∃ es, oraEncode (pixEnv fun _ => false) (fun _ => false) false (.image (.group [⟨[], ⟨0, 0, 1, 1⟩, Mode.normal, false, 0,
      .leaf ⟨⟨1, 0, 2, 1⟩, .other, fun p => if p.x = 1 then some (.nrgba 9 8 7 255) else some (.nrgba 0 0 0 0)⟩⟩])) = .ok ⟨none, some es⟩ :=
  ⟨⟨_, rfl⟩, ⟨_, rfl⟩⟩

end Limage
