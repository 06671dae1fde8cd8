import Verif.Props.Looks
import Verif.Props.OraAgain
import Verif.Props.RoundTripLoss
/-!
# C118: OpenRaster files saved as XCF files
-/
namespace Limage
open Spec

/-! ### Specification -/

/-- Specification: the modes of OpenRaster that XCF files have no number for. -/
def Spec.lostModes : List Mode := [Mode.luminosity, Mode.plus, Mode.destinationIn, Mode.destinationOut, Mode.sourceAtop, Mode.destinationAtop]

/-- Specification: a layer that can be moved to an XCF file: its name is UTF-8, it is not empty, and its place in the tree has a number. -/
structure Spec.Movable (r : Placed) : Prop where
  name : Utf8 r.layer.name
  dx : 0 < r.layer.bounds.dx
  dy : 0 < r.layer.bounds.dy
  path : ∀ n ∈ r.path, n < 0xd800

/-! ### What `Decode` returns -/

mutual
/-- an image that may come from an archive: a decoded one, or a group -/
def FromZip (env : OraEnv) (i : Img) : Prop :=
  match i with
  | .group g => FromZipAll env g
  | .leaf l => ∃ d, env.decodeImage d = some l
  | .nil => False
  | .text _ _ => False
  | .masked _ _ => False
termination_by structural i
/-- layers that may come from an archive -/
def FromZipAll (env : OraEnv) (g : List Layer) : Prop :=
  match g with
  | [] => True
  | ⟨_, _, mode, _, _, i⟩ :: ls => mode ∈ svgModes ∧ FromZip env i ∧ FromZipAll env ls
termination_by structural g
end

theorem fromZipAll_snoc (env : OraEnv) (l : Layer) (h1 : l.mode ∈ svgModes) (h2 : FromZip env l.image) : ∀ g : List Layer, FromZipAll env g → FromZipAll env (g ++ [l])
  | [], _ => by
    rw [List.nil_append]
    unfold FromZipAll
    exact ⟨h1, h2, by unfold FromZipAll; trivial⟩
  | a :: g, h => by
    rw [List.cons_append]
    unfold FromZipAll at h ⊢
    exact ⟨h.1, h.2.1, fromZipAll_snoc env l h1 h2 g h.2.2⟩

theorem svg_ite {c : Prop} [Decidable c] {a b : Mode} (ha : a ∈ svgModes) (hb : b ∈ svgModes) : (if c then a else b) ∈ svgModes := by
  split
  · exact ha
  · exact hb

theorem modeOfOp_svg (old : Mode) (v : Bytes) (h : old ∈ svgModes) : modeOfOp old v ∈ svgModes := by
  unfold modeOfOp
  iterate 20 (refine svg_ite (by decide) ?_)
  exact h

theorem layerAttr_svg (env : OraEnv) (l l' : LayerAttrs) (a : Bytes × Bytes) (h : layerAttr env l a = .ok l') (hm : l.mode ∈ svgModes) : l'.mode ∈ svgModes := by
  unfold layerAttr at h
  split at h
  · cases h; exact hm
  split at h
  · split at h
    · cases h
    · cases h; exact hm
  split at h
  · split at h
    · cases h
    · cases h; exact hm
  split at h
  · split at h
    · cases h
    · cases h; exact hm
  split at h
  · cases h; exact hm
  split at h
  · cases h; exact modeOfOp_svg _ _ hm
  split at h
  · cases h; exact hm
  · cases h; exact hm

theorem processLayerAttrs_svg (env : OraEnv) : ∀ (as_ : List (Bytes × Bytes)) (l l' : LayerAttrs), processLayerAttrs env l as_ = .ok l' → l.mode ∈ svgModes →
    l'.mode ∈ svgModes
  | [], l, l', h, hm => by
    unfold processLayerAttrs at h
    cases h; exact hm
  | a :: as_, l, l', h, hm => by
    unfold processLayerAttrs at h
    obtain ⟨l1, h1, h⟩ := OraRes.bind_ok h
    exact processLayerAttrs_svg env as_ l1 l' h (layerAttr_svg env l l1 a h1 hm)

theorem layerSource_from (env : OraEnv) (s : Bytes) : ∀ (fs : List ZipEntry) (i : Leaf), layerSource env s fs = .ok i → ∃ d, env.decodeImage d = some i
  | [], i, h => by cases h
  | f :: fs, i, h => by
    unfold layerSource at h
    split at h
    · split at h
      · cases h
      · split at h
        · cases h
        · cases h
          exact ⟨_, ‹_›⟩
    · exact layerSource_from env s fs i h

theorem readStack_from (env : OraEnv) (files : List ZipEntry) (limits : Pt) (eof : Bool) : ∀ (fuel : Nat) (o : Pt) (ts : List XmlTok) (acc g : List Layer) (us : List XmlTok),
    readStack env files limits eof fuel o ts acc = .ok (g, us) → FromZipAll env acc → FromZipAll env g
  | 0, _, _, _, _, _, h, _ => by simp [readStack] at h
  | _ + 1, _, [], _, _, _, h, _ => by simp [readStack] at h
  | fuel + 1, o, .start name attrs :: ts, acc, g, us, h, ha => by
    unfold readStack at h
    split at h
    · obtain ⟨l, hl, h⟩ := OraRes.bind_ok h
      obtain ⟨⟨g', vs⟩, hg, h⟩ := OraRes.bind_ok h
      refine readStack_from env files limits eof fuel _ _ _ _ _ h (fromZipAll_snoc env _ (processLayerAttrs_svg env _ _ _ hl (by decide)) ?_ _ ha)
      unfold FromZip
      exact readStack_from env files limits eof fuel _ _ _ _ _ hg (by unfold FromZipAll; trivial)
    split at h
    · obtain ⟨l, hl, h⟩ := OraRes.bind_ok h
      obtain ⟨i, hi, h⟩ := OraRes.bind_ok h
      obtain ⟨vs, -, h⟩ := OraRes.bind_ok h
      refine readStack_from env files limits eof fuel _ _ _ _ _ h (fromZipAll_snoc env _ (processLayerAttrs_svg env _ _ _ hl (by decide)) ?_ _ ha)
      unfold FromZip
      exact layerSource_from env _ _ _ hi
    · obtain ⟨vs, -, h⟩ := OraRes.bind_ok h
      exact readStack_from env files limits eof fuel _ _ _ _ _ h ha
  | _ + 1, _, .stop :: ts, _, _, _, h, ha => by
    simp only [readStack, OraRes.ok.injEq, Prod.mk.injEq] at h
    rw [← h.1]; exact ha
  | fuel + 1, _, .chars _ :: ts, _, _, _, h, ha => readStack_from env files limits eof fuel _ ts _ _ _ h ha
  | fuel + 1, _, .other :: ts, _, _, _, h, ha => readStack_from env files limits eof fuel _ ts _ _ _ h ha

theorem oraDecode_from (env : OraEnv) (files : List ZipEntry) (g : List Layer) (h : oraDecode env files = .ok g) : FromZipAll env g := by
  unfold oraDecode at h
  obtain ⟨⟨limits, ts, eof⟩, h0, h⟩ := OraRes.bind_ok h
  obtain ⟨us, -, h⟩ := OraRes.bind_ok h
  obtain ⟨⟨g', vs⟩, h1, h⟩ := OraRes.bind_ok h
  cases h
  exact readStack_from _ _ _ _ _ _ _ _ _ _ h1 (by unfold FromZipAll; trivial)

/-! ### Layers -/

mutual
theorem fromZip_whole (env : OraEnv) (hd : ∀ d L, env.decodeImage d = some L → ∀ p, (L.pixel p).isSome) (i : Img) (h : FromZip env i) : Whole i := by
  cases i with
  | group g =>
    unfold FromZip at h
    unfold Whole
    exact fromZipAll_whole env hd g h
  | leaf l =>
    unfold FromZip at h
    unfold Whole
    obtain ⟨d, h⟩ := h
    exact hd d l h
  | nil => unfold FromZip at h; exact h.elim
  | text i t => unfold FromZip at h; exact h.elim
  | masked i m => unfold FromZip at h; exact h.elim
termination_by structural i
theorem fromZipAll_whole (env : OraEnv) (hd : ∀ d L, env.decodeImage d = some L → ∀ p, (L.pixel p).isSome) (g : List Layer) (h : FromZipAll env g) : WholeLayers g := by
  cases g with
  | nil => unfold WholeLayers; trivial
  | cons l ls =>
    obtain ⟨name, b, mode, inv, tr, i⟩ := l
    unfold FromZipAll at h
    unfold WholeLayers
    exact ⟨fromZip_whole env hd i h.2.1, fromZipAll_whole env hd ls h.2.2⟩
termination_by structural g
end

/-- what is needed of a layer -/
structure ZipPlaced (limits : Pt) (r : Placed) : Prop where
  mode : r.layer.mode ∈ svgModes
  text : textOf r.layer = none
  mask : maskOf r.layer.image = none
  x : 0 ≤ r.ox ∧ r.ox + r.layer.bounds.dx ≤ limits.x
  y : 0 ≤ r.oy ∧ r.oy + r.layer.bounds.dy ≤ limits.y
  size : ∃ b, (pixelsOf r.layer.image).bounds = some b ∧ b.dx = r.layer.bounds.dx ∧ b.dy = r.layer.bounds.dy

mutual
theorem zipPlacedIn (env : OraEnv) (limits : Pt) (b : Rect) (i : Img) (h : FromZip env i) (hf : Fit limits b i) (path : List Nat) :
    ∀ r ∈ placedIn i b.x0 b.y0 path, ZipPlaced limits r := by
  cases i with
  | group g =>
    unfold FromZip at h
    unfold Fit at hf
    unfold placedIn
    rw [hf.1, hf.2.1]
    exact zipPlaced env limits g h hf.2.2.2 0 path
  | leaf l => unfold placedIn; nofun
  | nil => unfold FromZip at h; exact h.elim
  | text i t => unfold FromZip at h; exact h.elim
  | masked i m => unfold FromZip at h; exact h.elim
termination_by structural i
theorem zipPlaced (env : OraEnv) (limits : Pt) (g : List Layer) (h : FromZipAll env g) (hf : FitAll limits g) (n : Nat) (path : List Nat) :
    ∀ r ∈ placed g n 0 0 path, ZipPlaced limits r := by
  cases g with
  | nil => unfold placed; nofun
  | cons l ls =>
    obtain ⟨name, b, mode, inv, tr, i⟩ := l
    unfold FromZipAll at h
    unfold FitAll at hf
    unfold placed
    intro r hr
    rcases List.mem_cons.1 hr with rfl | hr
    · have hb := hf.1
      have hi := h.2.1
      have hf' := hf.2.1
      refine ⟨h.1, ?_, ?_, ⟨by dsimp only; omega, by dsimp only [Rect.dx]; omega⟩, ⟨by dsimp only; omega, by dsimp only [Rect.dy]; omega⟩, ?_⟩
      all_goals
        cases i with
        | group g =>
          unfold Fit at hf'
          first
            | rfl
            | exact ⟨groupBounds g, by unfold pixelsOf Img.bounds; rfl, by rw [hf'.2.2.1], by rw [hf'.2.2.1]⟩
        | leaf l =>
          unfold Fit at hf'
          first
            | rfl
            | exact ⟨l.bounds, by unfold pixelsOf Img.bounds; rfl, hf'.1, hf'.2⟩
        | nil => unfold FromZip at hi; exact hi.elim
        | text i t => unfold FromZip at hi; exact hi.elim
        | masked i m => unfold FromZip at hi; exact hi.elim
    rcases List.mem_append.1 hr with hr | hr
    · rw [Int.zero_add, Int.zero_add] at hr
      exact zipPlacedIn env limits b i h.2.1 hf.2.1 _ r hr
    · exact zipPlaced env limits ls h.2.2 hf.2.2 _ _ r hr
termination_by structural g
end

mutual
theorem everyIn_placed (P : Img → Prop) (i : Img) (ox oy : Int) (path : List Nat) (h : ∀ r ∈ placedIn i ox oy path, P r.layer.image) : EveryIn P i := by
  cases i with
  | group g =>
    unfold placedIn at h
    unfold EveryIn
    exact everyLayer_placed P g 0 ox oy path h
  | leaf l => unfold EveryIn; trivial
  | nil => unfold EveryIn; trivial
  | text i t => unfold EveryIn; trivial
  | masked i m => unfold EveryIn; trivial
termination_by structural i
theorem everyLayer_placed (P : Img → Prop) (g : List Layer) (n : Nat) (ox oy : Int) (path : List Nat) (h : ∀ r ∈ placed g n ox oy path, P r.layer.image) :
    EveryLayer P g := by
  cases g with
  | nil => unfold EveryLayer; trivial
  | cons l ls =>
    obtain ⟨name, b, mode, inv, tr, i⟩ := l
    unfold placed at h
    unfold EveryLayer
    exact ⟨h _ (List.mem_cons_self ..), everyIn_placed P i _ _ _ fun r hr => h r (List.mem_cons_of_mem _ (List.mem_append_left _ hr)),
      everyLayer_placed P ls _ _ _ _ fun r hr => h r (List.mem_cons_of_mem _ (List.mem_append_right _ hr))⟩
termination_by structural g
end

theorem tilesAlong_mono {m n : Int} (h : m ≤ n) : tilesAlong m ≤ tilesAlong n := by
  unfold tilesAlong
  omega

theorem svg_kept : ∀ m ∈ svgModes, m ∉ lostModes → m ∈ keptModes true := by decide

/-- such pictures can be stored -/
theorem ora_storable (oenv : OraEnv) (es : List ZipEntry) (g : List Layer) (h : oraDecode oenv es = .ok g)
    (hd : ∀ d L, oenv.decodeImage d = some L → ∀ p, (L.pixel p).isSome)
    (hfit : FitAll ⟨(groupBounds g).dx, (groupBounds g).dy⟩ g) (hmv : ∀ r ∈ placed g 0 0 0 [], Movable r) (htot : total g < 2 ^ 32)
    (htl : tilesAlong (groupBounds g).dx * tilesAlong (groupBounds g).dy < 2 ^ 32) :
    Whole (.group g) ∧ Encodable (.group g) ∧ (∀ r ∈ placed g 0 0 0 [], r.layer.mode ∈ svgModes ∧ maskOf r.layer.image = none) ∧
      ∀ F P, ∀ r ∈ placed g 0 0 0 [], Storable F P (groupBounds g).dx (groupBounds g).dy r := by
  have hz := oraDecode_from oenv es g h
  have hp := zipPlaced oenv _ g hz hfit 0 []
  refine ⟨by unfold Whole; exact fromZipAll_whole oenv hd g hz, ⟨everyLayer_placed _ g 0 0 0 [] fun r hr => ⟨fun b hb => ?_, fun m hm => ?_⟩, htot⟩,
    fun r hr => ⟨(hp r hr).mode, (hp r hr).mask⟩, fun F P r hr => ?_⟩
  · obtain ⟨b', e, h1, h2⟩ := (hp r hr).size
    rw [hb] at e
    cases e
    have m := hmv r hr
    have hx1 := (hp r hr).x
    have hy1 := (hp r hr).y
    have m1 := m.dx
    have m2 := m.dy
    dsimp only at hx1 hy1
    refine ⟨by simp only [Rect.dx] at *; omega, by simp only [Rect.dy] at *; omega, Nat.lt_of_le_of_lt (Nat.mul_le_mul (tilesAlong_mono ?_) (tilesAlong_mono ?_)) htl⟩
    · rw [h1]; omega
    · rw [h2]; omega
  · rw [(hp r hr).mask] at hm
    cases hm
  · have m := hmv r hr
    have z := hp r hr
    refine ⟨m.name, ⟨z.x.1, m.dx, z.x.2⟩, ⟨z.y.1, m.dy, z.y.2⟩, fun _ b hb => ?_, fun t d ht => ?_, fun q hq => ?_, m.path⟩
    · obtain ⟨b', e, h1⟩ := z.size
      rw [hb] at e
      cases e
      exact h1
    · rw [z.text] at ht; cases ht
    · rw [z.mask] at hq; cases hq

/-- **C118** (the part that holds).  A picture that was loaded from an OpenRaster file, with layers on the canvas which have the size of their images, in
groups at the origin, and with modes that XCF has, can be saved as an RGB XCF file; if that has up to 16 MiB, both decoders load from it the
same tree of layers, with the same names, bounds, modes, visibility and opacity, the pixels in the representation of the file, and the same
picture where the file represents all colours exactly.
Full statement: every OpenRaster file; false by `C118_refuted` for the modes in `lostModes`. -/
theorem C118_convert_partial (oenv : OraEnv) (es : List ZipEntry) (g : List Layer) (h : oraDecode oenv es = .ok g)
    (hd : ∀ d L, oenv.decodeImage d = some L → ∀ p, (L.pixel p).isSome)
    (hfit : FitAll ⟨(groupBounds g).dx, (groupBounds g).dy⟩ g) (hmv : ∀ r ∈ placed g 0 0 0 [], Movable r) (htot : total g < 2 ^ 32)
    (htl : tilesAlong (groupBounds g).dx * tilesAlong (groupBounds g).dy < 2 ^ 32)
    (hx : (groupBounds g).dx ≤ 2 ^ 31) (hy : (groupBounds g).dy ≤ 2 ^ 31)
    (hmo : ∀ r ∈ placed g 0 0 0 [], r.layer.mode ∉ lostModes) (hb : ∀ l, g.getLast? = some l → l.mode = Mode.normal)
    (wenv : WEnv) (hw : Works wenv) (cm : ColorModel) (hcm : (Img.group g).colorModel = some cm) (hrgb : (fmtOf wenv cm).typ = 0) :
    ∃ l size, runEncode wenv (.group g) = some (l, none) ∧ ExactlyOnce l size ∧
      (size ≤ maxString → ∀ (env : Env) (sch : Sched), sch.Valid → ∀ (decompress : Bool) (D : Bytes), ∃ g',
        decodeImage env sch decompress (store D l) = .ok (.ok g') ∧ SameTree (ImgBack (fmtOf wenv cm) (parsesTo env)) id g g' ∧
        (Flawless cm g → ∀ (ρ : Nat → UInt16) (p : Pt) (n : Nat), (Img.group g').at ρ p n = (Img.group g).at ρ p n)) := by
  obtain ⟨hwh, henc, hsm, hst⟩ := ora_storable oenv es g h hd hfit hmv htot htl
  obtain ⟨l, hl⟩ := C74_encode_succeeds wenv _ hwh (noText_fits wenv fun r hr => (zipPlaced oenv _ g (oraDecode_from oenv es g h) hfit 0 [] r hr).text) hw
  obtain ⟨size, hsz⟩ := C34_once wenv _ henc l hl
  refine ⟨l, size, hl, hsz, fun hmax env sch hv decompress D => ?_⟩
  have hst := hst (fmtOf wenv cm) (parsesTo env)
  have hk : ∀ r ∈ placed g 0 0 0 [], r.layer.mode ∈ keptModes ((fmtOf wenv cm).typ == 0) := by
    intro r hr
    rw [hrgb]
    exact svg_kept _ (hsm r hr).1 (hmo r hr)
  have hbm : ∀ m, (g.map (·.mode)).getLast? = some m → m = Mode.normal ∨ m = Mode.dissolve := by
    intro m hm
    rw [List.getLast?_map] at hm
    obtain ⟨a, ha, rfl⟩ := Option.map_eq_some_iff.1 hm
    exact .inl (hb a ha)
  have hdm : decompress = true ∨ ∀ r ∈ placed g 0 0 0 [], maskOf r.layer.image = none := .inr fun r hr => (hsm r hr).2
  obtain ⟨g', h1, h2⟩ := C37_tree_partial wenv env sch hv decompress g henc l hl D size hsz hmax cm hcm hdm hx hy hst hk hbm
  refine ⟨g', h1, h2, fun hE ρ p n => ?_⟩
  have hnp : cm.isPalette = false ∧ cm ≠ .alphaPalette [] := by
    constructor
    · cases cm <;> first | rfl | simp [fmtOf, encFor] at hrgb
    · rintro rfl
      simp [fmtOf, encFor] at hrgb
  obtain ⟨g'', h3, h4⟩ := C86_looks_partial wenv env sch hv decompress g henc l hl D size hsz hmax cm hcm hnp.1 hnp.2 hdm hx hy hst hk hbm hE
  rw [h1] at h3
  cases h3
  exact h4 ρ p n

/-! ### An example -/

/-- an archive with a group, a hidden layer and layers with modes; `op` is the operator of the topmost layer -/
def moveEnv (op : Bytes) : OraEnv where
  xmlRead _ := (document [] [(lit "w", lit "2"), (lit "h", lit "1")] [] []
    [.elem (lit "layer") [(lit "src", lit "a"), (lit "x", lit "1"), (lit "name", lit "b"), (lit "composite-op", op)] [],
     .elem (lit "stack") [(lit "name", lit "g"), (lit "visibility", lit "hidden")]
      [.elem (lit "layer") [(lit "src", lit "a"), (lit "name", lit "c"), (lit "composite-op", lit "svg:screen")] []],
     .elem (lit "layer") [(lit "src", lit "a"), (lit "name", lit "d")] []] [], true)
  xmlWrite _ := []
  decodeImage _ := some ⟨⟨0, 0, 1, 1⟩, .other, fun _ => some (.nrgba 9 8 7 255)⟩
  png _ := .err .size
  opacity _ := none
  formatOpacity _ := []
  quotient _ _ := 0

/-- its entries -/
def moveFiles : List ZipEntry := [.of (lit "mimetype") (lit "image/openraster"), .of (lit "stack.xml") [2], .of (lit "a") [1]]

/-- its layers -/
def moveLayers (m : Mode) : List Layer :=
  [⟨lit "b", ⟨1, 0, 2, 1⟩, m, false, 0, .leaf ⟨⟨0, 0, 1, 1⟩, .other, fun _ => some (.nrgba 9 8 7 255)⟩⟩,
   ⟨lit "g", ⟨0, 0, 1, 1⟩, Mode.normal, true, 0, .group [⟨lit "c", ⟨0, 0, 1, 1⟩, Mode.screen, false, 0, .leaf ⟨⟨0, 0, 1, 1⟩, .other, fun _ => some (.nrgba 9 8 7 255)⟩⟩]⟩,
   ⟨lit "d", ⟨0, 0, 1, 1⟩, Mode.normal, false, 0, .leaf ⟨⟨0, 0, 1, 1⟩, .other, fun _ => some (.nrgba 9 8 7 255)⟩⟩]

theorem move_decode : oraDecode (moveEnv (lit "svg:hue")) moveFiles = .ok (moveLayers Mode.hue) := rfl

theorem move_size (wenv : WEnv) (m : Mode) : fileBytes (fmtOf wenv .other) (.group (moveLayers m)) ≤ maxString := by
  have : fileBytes (fmtOf wenv .other) (.group (moveLayers m)) = fileBytes (fmtOf goodSink .other) (.group (moveLayers Mode.hue)) := rfl
  rw [this]
  decide +kernel

theorem move_fit (m : Mode) : FitAll ⟨(groupBounds (moveLayers m)).dx, (groupBounds (moveLayers m)).dy⟩ (moveLayers m) := by
  have e : groupBounds (moveLayers m) = ⟨0, 0, 2, 1⟩ := rfl
  rw [e]
  unfold moveLayers FitAll Fit FitAll Fit FitAll Fit FitAll
  decide

theorem move_total (m : Mode) : total (moveLayers m) = 4 := rfl

theorem move_placed (m : Mode) : placed (moveLayers m) 0 0 0 [] = [
    ⟨⟨lit "b", ⟨1, 0, 2, 1⟩, m, false, 0, .leaf ⟨⟨0, 0, 1, 1⟩, .other, fun _ => some (.nrgba 9 8 7 255)⟩⟩, 1, 0, [0]⟩,
    ⟨⟨lit "g", ⟨0, 0, 1, 1⟩, Mode.normal, true, 0, .group [⟨lit "c", ⟨0, 0, 1, 1⟩, Mode.screen, false, 0, .leaf ⟨⟨0, 0, 1, 1⟩, .other, fun _ => some (.nrgba 9 8 7 255)⟩⟩]⟩, 0, 0, [1]⟩,
    ⟨⟨lit "c", ⟨0, 0, 1, 1⟩, Mode.screen, false, 0, .leaf ⟨⟨0, 0, 1, 1⟩, .other, fun _ => some (.nrgba 9 8 7 255)⟩⟩, 0, 0, [1, 0]⟩,
    ⟨⟨lit "d", ⟨0, 0, 1, 1⟩, Mode.normal, false, 0, .leaf ⟨⟨0, 0, 1, 1⟩, .other, fun _ => some (.nrgba 9 8 7 255)⟩⟩, 0, 0, [2]⟩] := rfl

theorem move_movable (m : Mode) : ∀ r ∈ placed (moveLayers m) 0 0 0 [], Movable r := by
  rw [move_placed]
  intro r hr
  have hn : ∀ c ∈ ['b', 'g', 'c', 'd'], Utf8 (String.utf8EncodeChar c) := fun c _ => ⟨[c], by simp⟩
  have hp : ∀ p ∈ [[0], [1], [1, 0], [2]], ∀ n ∈ p, n < 0xd800 := by decide
  simp only [List.mem_cons, List.not_mem_nil, or_false] at hr
  rcases hr with rfl | rfl | rfl | rfl
  · exact ⟨hn 'b' (by decide), Int.zero_lt_one, Int.zero_lt_one, hp [0] (by decide)⟩
  · exact ⟨hn 'g' (by decide), Int.zero_lt_one, Int.zero_lt_one, hp [1] (by decide)⟩
  · exact ⟨hn 'c' (by decide), Int.zero_lt_one, Int.zero_lt_one, hp [1, 0] (by decide)⟩
  · exact ⟨hn 'd' (by decide), Int.zero_lt_one, Int.zero_lt_one, hp [2] (by decide)⟩

theorem move_storable (op : Bytes) (m : Mode) (h : oraDecode (moveEnv op) moveFiles = .ok (moveLayers m)) :
    Whole (.group (moveLayers m)) ∧ Encodable (.group (moveLayers m)) ∧
      (∀ r ∈ placed (moveLayers m) 0 0 0 [], r.layer.mode ∈ svgModes ∧ maskOf r.layer.image = none) ∧
      ∀ F P, ∀ r ∈ placed (moveLayers m) 0 0 0 [], Storable F P (groupBounds (moveLayers m)).dx (groupBounds (moveLayers m)).dy r :=
  ora_storable (moveEnv op) moveFiles _ h (by intro d L h p; cases h; rfl) (move_fit _) (move_movable _) (by rw [move_total]; decide)
    (by rw [show groupBounds (moveLayers m) = ⟨0, 0, 2, 1⟩ from rfl]; decide)

/-- an OpenRaster file with a group, a hidden layer and several modes becomes an XCF file that looks the same -/
example : ∃ l, runEncode goodSink (.group (moveLayers Mode.hue)) = some (l, none) ∧
    ∃ g', decodeImage exEnv exSched false (store [] l) = .ok (.ok g') ∧
      ∀ (ρ : Nat → UInt16) (p : Pt) (n : Nat), (Img.group g').at ρ p n = (Img.group (moveLayers Mode.hue)).at ρ p n := by
  have hw : Works goodSink := fun _ => rfl
  have hE : Flawless .other (moveLayers Mode.hue) := by
    have hx : ∀ b : Rect, b.dx = 1 → b.dy = 1 → ExactLeaf .other b ⟨⟨0, 0, 1, 1⟩, .other, fun _ => some (.nrgba 9 8 7 255)⟩ := by
      intro b h1 h2
      refine ⟨by rw [h1, h2], fun p c _ hc => ?_⟩
      cases hc
      exact .inl ⟨_, _, _, _, rfl⟩
    have np : ∀ m : ColorModel, some ColorModel.other = some m → m.isPalette = false := by rintro m h; cases h; rfl
    exact ⟨np, hx _ rfl rfl, np, ⟨np, hx _ rfl rfl, trivial⟩, np, hx _ rfl rfl, trivial⟩
  obtain ⟨l, size, h1, h2, h3⟩ := C118_convert_partial (moveEnv (lit "svg:hue")) moveFiles _ move_decode
    (by intro d L h p; cases h; rfl) (move_fit _) (move_movable _) (by rw [move_total]; decide)
    (by decide) (by decide) (by decide) (by rw [move_placed]; decide) (by intro l hl; cases hl; decide) goodSink hw .other rfl rfl
  obtain ⟨g', h4, -, h5⟩ := h3 (Nat.le_trans (encode_size goodSink _ (move_storable _ _ move_decode).2.1 l h1 .other rfl size h2) (move_size _ _))
    exEnv exSched ⟨fun _ => List.Perm.refl _, fun _ => List.Perm.refl _⟩ false []
  exact ⟨l, h1, g', h4, h5 hE⟩

theorem move_lost : ∀ m ∈ lostModes, ∃ op, oraDecode (moveEnv op) moveFiles = .ok (moveLayers m) := by
  intro m hm
  unfold lostModes at hm
  simp only [List.mem_cons, List.not_mem_nil, or_false] at hm
  rcases hm with rfl | rfl | rfl | rfl | rfl | rfl
  · exact ⟨lit "svg:luminosity", rfl⟩
  · exact ⟨lit "svg:plus", rfl⟩
  · exact ⟨lit "svg:dst-in", rfl⟩
  · exact ⟨lit "svg:dst-out", rfl⟩
  · exact ⟨lit "svg:src-atop", rfl⟩
  · exact ⟨lit "svg:dst-atop", rfl⟩

theorem lost_not_kept : ∀ m ∈ lostModes, m ∉ keptModes true := by decide

/-- C118, false: for each of six modes there is an OpenRaster file from which a layer with it is loaded; the picture is saved as XCF without an error, and
the layer has another mode when it is loaded from there. -/
theorem C118_refuted (wenv : WEnv) (hw : Works wenv) (m : Mode) (hm : m ∈ lostModes) :
    ∃ (oenv : OraEnv) (es : List ZipEntry) (a : Layer) (g : List Layer) (l : List WCall), a.mode = m ∧
      oraDecode oenv es = .ok (a :: g) ∧ runEncode wenv (.group (a :: g)) = some (l, none) ∧
      ∀ (env : Env) (sch : Sched), sch.Valid → ∀ (decompress : Bool) (D : Bytes), ∃ a' g',
        decodeImage env sch decompress (store D l) = .ok (.ok (a' :: g')) ∧ a'.name = a.name ∧ a'.mode ≠ m := by
  obtain ⟨op, hdec⟩ := move_lost m hm
  obtain ⟨h1, h2, h3, h4⟩ := move_storable op m hdec
  obtain ⟨l, size, h5, h6, h7⟩ := encodes_small _ h1 h2 wenv (noText_fits wenv fun r hr => (zipPlaced _ _ _ (oraDecode_from _ _ _ hdec) (move_fit m) 0 [] r hr).text) hw (show (Img.group (moveLayers m)).colorModel = some .other from rfl) (move_size wenv m)
  refine ⟨moveEnv op, moveFiles, _, _, l, rfl, hdec, h5, fun env sch hv decompress D => ?_⟩
  obtain ⟨g', h8, h9⟩ := round_trip wenv env sch hv decompress _ h2 l h5 D size h6 h7 .other rfl (.inr fun r hr => (h3 r hr).2)
    (by rw [show groupBounds (moveLayers m) = ⟨0, 0, 2, 1⟩ from rfl]; decide) (by rw [show groupBounds (moveLayers m) = ⟨0, 0, 2, 1⟩ from rfl]; decide) (h4 _ _)
  unfold moveLayers at h9
  obtain ⟨a, r', rfl, e0, -, e1, -, -, -, h9⟩ := sameTree_cons h9
  obtain ⟨b, r', rfl, -, -, -, -, -, -, h9⟩ := sameTree_cons h9
  obtain ⟨c, r', rfl, -, -, -, -, -, -, h9⟩ := sameTree_cons h9
  cases sameTree_nil h9
  have hne : a.mode ≠ m := by
    rw [e1]
    exact fun h => lost_not_kept m hm ((modeBack_other wenv m).1 h)
  have hfx : ∃ r, fixBottom [a, b, c] = a :: r := by
    unfold fixBottom
    rw [show [a, b, c].getLast? = some c from rfl]
    dsimp only
    split
    · exact ⟨_, rfl⟩
    · exact ⟨_, rfl⟩
  obtain ⟨r, hr⟩ := hfx
  exact ⟨a, r, by rw [h8, hr], e0, hne⟩

example : Works goodSink ∧ Mode.plus ∈ lostModes := ⟨fun _ => rfl, by decide⟩

end Limage
