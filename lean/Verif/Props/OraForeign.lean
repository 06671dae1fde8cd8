import Verif.Props.OraRead
import Verif.Proofs.OraWrite
/-!
# C100: what is read of the OpenRaster files of any program

A stack.xml that says, of each layer, where it is, how it is mixed, whether it is hidden and which entry of the archive holds its image is read as the
layers it describes. The attributes can be in any order, with others among them, or left out.

Proved are the layers of all documents whose stacks are at the origin, and the picture of those without stacks in stacks whose layers do not start left
of or above the canvas. For others the picture is wrong: see `C100_cut_refuted` and `C100_group_refuted`.
-/
namespace Limage
namespace Spec

/-- the value of an attribute -/
def attrOf (key : Bytes) : List (Bytes × Bytes) → Option Bytes
  | [] => none
  | (k, v) :: rest => if k = key then some v else attrOf key rest

/-- a whole number in decimal, of 64 bits -/
def WholeNumber (s : Bytes) (n : Int) : Prop :=
  ∃ d, Digits d ∧ d ≠ [] ∧ digitsValue d < 2 ^ 63 ∧ ((s = d ∨ s = 43 :: d) ∧ n = digitsValue d ∨ s = 45 :: d ∧ n = -(digitsValue d : Int))

/-- a coordinate: 0 if there is none -/
def Coordinate : Option Bytes → Int → Prop
  | none, n => n = 0
  | some s, n => WholeNumber s n

/-- the names of the modes -/
def opNames : List (Bytes × Mode) :=
  [(lit "svg:src-over", Mode.normal), (lit "svg:multiply", Mode.multiply), (lit "svg:screen", Mode.screen), (lit "svg:overlay", Mode.overlay),
    (lit "svg:darken", Mode.darkenOnly), (lit "svg:lighten", Mode.lightenOnly), (lit "svg:color-dodge", Mode.dodge), (lit "svg:color-burn", Mode.burn),
    (lit "svg:hard-light", Mode.hardLight), (lit "svg:soft-light", Mode.softLight), (lit "svg:difference", Mode.difference), (lit "svg:color", Mode.color),
    (lit "svg:luminosity", Mode.luminosity), (lit "svg:hue", Mode.hue), (lit "svg:saturation", Mode.saturation), (lit "svg:plus", Mode.plus),
    (lit "svg:dst-in", Mode.destinationIn), (lit "svg:dst-out", Mode.destinationOut), (lit "svg:src-atop", Mode.sourceAtop),
    (lit "svg:dst-atop", Mode.destinationAtop)]

/-- the mode with a name; normal if there is no name or one that is not in the table -/
def OpIs : Option Bytes → Mode → Prop
  | none, m => m = Mode.normal
  | some v, m => (v, m) ∈ opNames ∨ (∀ m', (v, m') ∉ opNames) ∧ m = Mode.normal

/-- what the attributes of a layer or a stack say -/
structure OraAttrs (env : OraEnv) (attrs : List (Bytes × Bytes)) (name : Bytes) (pos : Pt) (mode : Mode) (hidden : Bool) (tr : UInt8) : Prop where
  /-- no attribute is given twice (XML does not allow it) -/
  once : (attrs.map Prod.fst).Nodup
  name : name = (attrOf (lit "name") attrs).getD []
  x : Coordinate (attrOf (lit "x") attrs) pos.x
  y : Coordinate (attrOf (lit "y") attrs) pos.y
  mode : OpIs (attrOf (lit "composite-op") attrs) mode
  hidden : hidden = true ↔ attrOf (lit "visibility") attrs = some (lit "hidden")
  opacity : ∀ v, attrOf (lit "opacity") attrs = some v → env.opacity v = some tr
  solid : attrOf (lit "opacity") attrs = none → tr = 0

/-- the first entry of an archive with a name is an image -/
def SourceIs (env : OraEnv) (files : List ZipEntry) (source : Bytes) (i : Leaf) : Prop :=
  ∃ a f b d, files = a ++ f :: b ∧ (∀ x ∈ a, x.name ≠ source) ∧ f.name = source ∧ f.data = some d ∧ env.decodeImage d = some i

/-- the canvas -/
def canvas (w h : Int) : Rect := ⟨0, 0, w, h⟩

/-- The layers are those described by the nodes of a stack, on a canvas, with all stacks at the origin: layers and groups are cut at the edges of the
canvas. -/
inductive Describes (env : OraEnv) (files : List ZipEntry) (w h : Int) : List Node → List Layer → Prop
  | nil : Describes env files w h [] []
  | layer {attrs ns xs g name pos mode hidden tr i} : OraAttrs env attrs name pos mode hidden tr →
      SourceIs env files ((attrOf (lit "src") attrs).getD []) i → Describes env files w h xs g →
      Describes env files w h (.elem (lit "layer") attrs ns :: xs) (⟨name, (i.bounds.add pos).inter (canvas w h), mode, hidden, tr, .leaf i⟩ :: g)
  | stack {attrs ns xs g name mode hidden tr g'} : OraAttrs env attrs name ⟨0, 0⟩ mode hidden tr →
      Describes env files w h ns g' → Describes env files w h xs g →
      Describes env files w h (.elem (lit "stack") attrs ns :: xs) (⟨name, (groupBounds g').inter (canvas w h), mode, hidden, tr, .group g'⟩ :: g)
  | element {name attrs ns xs g} : ¬Known name → Describes env files w h xs g → Describes env files w h (.elem name attrs ns :: xs) g
  | text {s xs g} : Describes env files w h xs g → Describes env files w h (.text s :: xs) g
  | other {xs g} : Describes env files w h xs g → Describes env files w h (.other :: xs) g

/-- The picture that a document without stacks in its stack means: each layer is its image, moved. The image has its corner at the origin. -/
inductive Means (env : OraEnv) (files : List ZipEntry) : List Node → List Layer → Prop
  | nil : Means env files [] []
  | layer {attrs ns xs g name pos mode hidden tr i} : OraAttrs env attrs name pos mode hidden tr →
      SourceIs env files ((attrOf (lit "src") attrs).getD []) i → i.bounds.x0 = 0 → i.bounds.y0 = 0 → Means env files xs g →
      Means env files (.elem (lit "layer") attrs ns :: xs) (⟨name, i.bounds.add pos, mode, hidden, tr, .leaf i⟩ :: g)
  | element {name attrs ns xs g} : ¬Known name → Means env files xs g → Means env files (.elem name attrs ns :: xs) g
  | text {s xs g} : Means env files xs g → Means env files (.text s :: xs) g
  | other {xs g} : Means env files xs g → Means env files (.other :: xs) g

/-- an archive with a document: no wrong mimetype entry, and the last stack.xml is the document -/
structure Archive (env : OraEnv) (files : List ZipEntry) (w h : Int) (stack : List Node) : Prop where
  honest : ∀ f ∈ files, Honest f
  mime : ∀ f ∈ files, f.name = lit "mimetype" → RightMime f
  doc : ∃ a f b d, files = a ++ f :: b ∧ f.name = lit "stack.xml" ∧ (∀ x ∈ b, x.name ≠ lit "stack.xml") ∧ f.data = some d ∧
    ∃ prolog attrs before sattrs rest eof, (∀ x ∈ prolog, Prolog x) ∧ (∀ x ∈ before, Before x) ∧
      env.xmlRead d = (document prolog attrs before sattrs stack rest, eof) ∧ (attrs.map Prod.fst).Nodup ∧
      (∃ v, attrOf (lit "w") attrs = some v ∧ WholeNumber v w) ∧ ∃ v, attrOf (lit "h") attrs = some v ∧ WholeNumber v h

end Spec
open Spec

/-! ### Numbers and attributes -/

theorem atoi_whole {s : Bytes} {n : Int} (h : WholeNumber s n) : atoi s = some n := by
  obtain ⟨d, hd, hne, hv, ⟨rfl | rfl, rfl⟩ | ⟨rfl, rfl⟩⟩ := h
  · exact atoi_digits hd hne hv
  · have hall : d.all isDigit = true := List.all_eq_true.2 fun b hb => (isDigit_iff b).2 (hd b hb)
    unfold atoi
    show Option.bind (if d ≠ [] ∧ d.all isDigit = true then some (digitsValue d) else none) _ = _
    rw [if_pos ⟨hne, hall⟩]
    exact if_pos hv
  · have hall : d.all isDigit = true := List.all_eq_true.2 fun b hb => (isDigit_iff b).2 (hd b hb)
    unfold atoi
    show Option.bind (if d ≠ [] ∧ d.all isDigit = true then some (digitsValue d) else none) _ = _
    rw [if_pos ⟨hne, hall⟩]
    exact if_pos (Nat.le_of_lt hv)

theorem attrOf_none {key : Bytes} : ∀ {attrs : List (Bytes × Bytes)}, key ∉ attrs.map Prod.fst → attrOf key attrs = none
  | [], _ => rfl
  | (k, v) :: rest, h => by
    rw [List.map_cons, List.mem_cons, not_or] at h
    unfold attrOf
    rw [if_neg (Ne.symm h.1)]
    exact attrOf_none h.2

theorem modeOfOp_is {v : Bytes} {m : Mode} (h : OpIs (some v) m) : modeOfOp Mode.normal v = m := by
  rcases h with h | ⟨h, rfl⟩
  · simp only [opNames, List.mem_cons, List.not_mem_nil, or_false, Prod.mk.injEq] at h
    rcases h with ⟨rfl, rfl⟩ | ⟨rfl, rfl⟩ | ⟨rfl, rfl⟩ | ⟨rfl, rfl⟩ | ⟨rfl, rfl⟩ | ⟨rfl, rfl⟩ | ⟨rfl, rfl⟩ | ⟨rfl, rfl⟩ | ⟨rfl, rfl⟩ | ⟨rfl, rfl⟩ |
      ⟨rfl, rfl⟩ | ⟨rfl, rfl⟩ | ⟨rfl, rfl⟩ | ⟨rfl, rfl⟩ | ⟨rfl, rfl⟩ | ⟨rfl, rfl⟩ | ⟨rfl, rfl⟩ | ⟨rfl, rfl⟩ | ⟨rfl, rfl⟩ | ⟨rfl, rfl⟩ <;> decide
  · have hn : ∀ e ∈ opNames, v ≠ e.1 := fun e he hv => h e.2 (by rw [hv]; exact he)
    simp only [opNames, List.forall_mem_cons, List.not_mem_nil, false_imp_iff, implies_true, and_true] at hn
    unfold modeOfOp
    simp only [hn, if_false]

theorem processLayerAttrs_read (env : OraEnv) (x y : Int) (m : Mode) (t : UInt8) : ∀ (attrs : List (Bytes × Bytes)) (l : LayerAttrs),
    (attrs.map Prod.fst).Nodup →
    (∀ v, attrOf (lit "x") attrs = some v → atoi v = some x) → (attrOf (lit "x") attrs = none → x = l.pos.x) →
    (∀ v, attrOf (lit "y") attrs = some v → atoi v = some y) → (attrOf (lit "y") attrs = none → y = l.pos.y) →
    (∀ v, attrOf (lit "composite-op") attrs = some v → modeOfOp l.mode v = m) → (attrOf (lit "composite-op") attrs = none → m = l.mode) →
    (∀ v, attrOf (lit "opacity") attrs = some v → env.opacity v = some t) → (attrOf (lit "opacity") attrs = none → t = l.transparency) →
    processLayerAttrs env l attrs = .ok ⟨(attrOf (lit "name") attrs).getD l.name, ⟨x, y⟩, m,
      ((attrOf (lit "visibility") attrs).map fun v => decide (v = lit "hidden")).getD l.invisible, t, (attrOf (lit "src") attrs).getD l.source⟩
  | [], l, _, _, hx, _, hy, _, hm, _, ht => by
    rw [hx rfl, hy rfl, hm rfl, ht rfl]
    rfl
  | (k, v) :: rest, l, hn, hx, hx', hy, hy', hm, hm', ht, ht' => by
    rw [List.map_cons, List.nodup_cons] at hn
    have hk : attrOf k rest = none := attrOf_none hn.1
    have hne : ∀ {key : Bytes}, k ≠ key → attrOf key ((k, v) :: rest) = attrOf key rest := fun h => by rw [attrOf, if_neg h]
    have heq : ∀ {key : Bytes}, k = key → attrOf key ((k, v) :: rest) = some v := fun h => by rw [attrOf, if_pos h]
    rw [processLayerAttrs, OraRes.bind_eq]
    by_cases h1 : k = lit "name"
    · subst h1
      rw [heq rfl]
      simp only [hne (show lit "name" ≠ lit "x" by decide), hne (show lit "name" ≠ lit "y" by decide), hne (show lit "name" ≠ lit "composite-op" by decide),
        hne (show lit "name" ≠ lit "opacity" by decide), hne (show lit "name" ≠ lit "visibility" by decide), hne (show lit "name" ≠ lit "src" by decide)] at *
      rw [show layerAttr env l (lit "name", v) = .ok { l with name := v } from if_pos rfl, OraRes.ok_bind,
        processLayerAttrs_read env x y m t rest { l with name := v } hn.2 hx hx' hy hy' hm hm' ht ht', hk]
      rfl
    by_cases h2 : k = lit "x"
    · subst h2
      rw [heq rfl] at hx hx'
      simp only [hne (show lit "x" ≠ lit "name" by decide), hne (show lit "x" ≠ lit "y" by decide), hne (show lit "x" ≠ lit "composite-op" by decide),
        hne (show lit "x" ≠ lit "opacity" by decide), hne (show lit "x" ≠ lit "visibility" by decide), hne (show lit "x" ≠ lit "src" by decide)] at *
      rw [show layerAttr env l (lit "x", v) = .ok { l with pos := ⟨x, l.pos.y⟩ } by
          unfold layerAttr
          dsimp only
          rw [if_neg (by decide), if_pos rfl, hx v rfl], OraRes.ok_bind,
        processLayerAttrs_read env x y m t rest { l with pos := ⟨x, l.pos.y⟩ } hn.2 (by rw [hk]; nofun) (fun _ => rfl) hy hy' hm hm' ht ht']
    by_cases h3 : k = lit "y"
    · subst h3
      rw [heq rfl] at hy hy'
      simp only [hne (show lit "y" ≠ lit "name" by decide), hne (show lit "y" ≠ lit "x" by decide), hne (show lit "y" ≠ lit "composite-op" by decide),
        hne (show lit "y" ≠ lit "opacity" by decide), hne (show lit "y" ≠ lit "visibility" by decide), hne (show lit "y" ≠ lit "src" by decide)] at *
      rw [show layerAttr env l (lit "y", v) = .ok { l with pos := ⟨l.pos.x, y⟩ } by
          unfold layerAttr
          dsimp only
          rw [if_neg (by decide), if_neg (by decide), if_pos rfl, hy v rfl], OraRes.ok_bind,
        processLayerAttrs_read env x y m t rest { l with pos := ⟨l.pos.x, y⟩ } hn.2 hx hx' (by rw [hk]; nofun) (fun _ => rfl) hm hm' ht ht']
    by_cases h4 : k = lit "opacity"
    · subst h4
      rw [heq rfl] at ht ht'
      simp only [hne (show lit "opacity" ≠ lit "name" by decide), hne (show lit "opacity" ≠ lit "x" by decide), hne (show lit "opacity" ≠ lit "y" by decide),
        hne (show lit "opacity" ≠ lit "composite-op" by decide), hne (show lit "opacity" ≠ lit "visibility" by decide),
        hne (show lit "opacity" ≠ lit "src" by decide)] at *
      rw [show layerAttr env l (lit "opacity", v) = .ok { l with transparency := t } by
          unfold layerAttr
          dsimp only
          rw [if_neg (by decide), if_neg (by decide), if_neg (by decide), if_pos rfl, ht v rfl], OraRes.ok_bind,
        processLayerAttrs_read env x y m t rest { l with transparency := t } hn.2 hx hx' hy hy' hm hm' (by rw [hk]; nofun) (fun _ => rfl)]
    by_cases h5 : k = lit "visibility"
    · subst h5
      rw [heq rfl]
      simp only [hne (show lit "visibility" ≠ lit "name" by decide), hne (show lit "visibility" ≠ lit "x" by decide), hne (show lit "visibility" ≠ lit "y" by decide),
        hne (show lit "visibility" ≠ lit "composite-op" by decide), hne (show lit "visibility" ≠ lit "opacity" by decide),
        hne (show lit "visibility" ≠ lit "src" by decide)] at *
      rw [show layerAttr env l (lit "visibility", v) = .ok { l with invisible := v = lit "hidden" } by
          unfold layerAttr
          dsimp only
          rw [if_neg (by decide), if_neg (by decide), if_neg (by decide), if_neg (by decide), if_pos rfl], OraRes.ok_bind,
        processLayerAttrs_read env x y m t rest { l with invisible := v = lit "hidden" } hn.2 hx hx' hy hy' hm hm' ht ht', hk]
      rfl
    by_cases h6 : k = lit "composite-op"
    · subst h6
      rw [heq rfl] at hm hm'
      simp only [hne (show lit "composite-op" ≠ lit "name" by decide), hne (show lit "composite-op" ≠ lit "x" by decide), hne (show lit "composite-op" ≠ lit "y" by decide),
        hne (show lit "composite-op" ≠ lit "opacity" by decide), hne (show lit "composite-op" ≠ lit "visibility" by decide),
        hne (show lit "composite-op" ≠ lit "src" by decide)] at *
      rw [show layerAttr env l (lit "composite-op", v) = .ok { l with mode := m } by
          unfold layerAttr
          dsimp only
          rw [if_neg (by decide), if_neg (by decide), if_neg (by decide), if_neg (by decide), if_neg (by decide), if_pos rfl, hm v rfl], OraRes.ok_bind,
        processLayerAttrs_read env x y m t rest { l with mode := m } hn.2 hx hx' hy hy' (by rw [hk]; nofun) (fun _ => rfl) ht ht']
    by_cases h7 : k = lit "src"
    · subst h7
      rw [heq rfl]
      simp only [hne (show lit "src" ≠ lit "name" by decide), hne (show lit "src" ≠ lit "x" by decide), hne (show lit "src" ≠ lit "y" by decide),
        hne (show lit "src" ≠ lit "composite-op" by decide), hne (show lit "src" ≠ lit "opacity" by decide),
        hne (show lit "src" ≠ lit "visibility" by decide)] at *
      rw [show layerAttr env l (lit "src", v) = .ok { l with source := v } by
          unfold layerAttr
          dsimp only
          rw [if_neg (by decide), if_neg (by decide), if_neg (by decide), if_neg (by decide), if_neg (by decide), if_neg (by decide), if_pos rfl], OraRes.ok_bind,
        processLayerAttrs_read env x y m t rest { l with source := v } hn.2 hx hx' hy hy' hm hm' ht ht', hk]
      rfl
    · rw [hne h2] at hx hx'
      rw [hne h3] at hy hy'
      rw [hne h6] at hm hm'
      rw [hne h4] at ht ht'
      rw [hne h1, hne h5, hne h7]
      rw [show layerAttr env l (k, v) = .ok l by
          unfold layerAttr
          dsimp only
          rw [if_neg h1, if_neg h2, if_neg h3, if_neg h4, if_neg h5, if_neg h6, if_neg h7], OraRes.ok_bind,
        processLayerAttrs_read env x y m t rest l hn.2 hx hx' hy hy' hm hm' ht ht']

theorem Spec.OraAttrs.read {env : OraEnv} {attrs : List (Bytes × Bytes)} {name : Bytes} {pos : Pt} {mode : Mode} {hidden : Bool} {tr : UInt8}
    (h : OraAttrs env attrs name pos mode hidden tr) :
    processLayerAttrs env {} attrs = .ok ⟨name, pos, mode, hidden, tr, (attrOf (lit "src") attrs).getD []⟩ := by
  have h1 := h.x
  have h2 := h.y
  have h3 := h.mode
  rw [processLayerAttrs_read env pos.x pos.y mode tr attrs {} h.once]
  · rw [h.name]
    congr 2
    rw [Bool.eq_iff_iff, h.hidden]
    cases attrOf (lit "visibility") attrs <;> simp
  · intro v hv
    rw [hv] at h1
    exact atoi_whole h1
  · intro hv
    rw [hv] at h1
    exact h1
  · intro v hv
    rw [hv] at h2
    exact atoi_whole h2
  · intro hv
    rw [hv] at h2
    exact h2
  · intro v hv
    rw [hv] at h3
    exact modeOfOp_is h3
  · intro hv
    rw [hv] at h3
    exact h3
  · exact h.opacity
  · exact h.solid

theorem imageAttrs_read (w h : Int) : ∀ (attrs : List (Bytes × Bytes)) (w0 h0 : Option Int), (attrs.map Prod.fst).Nodup →
    (∀ v, attrOf (lit "w") attrs = some v → atoi v = some w) → (attrOf (lit "w") attrs = none → w0 = some w) →
    (∀ v, attrOf (lit "h") attrs = some v → atoi v = some h) → (attrOf (lit "h") attrs = none → h0 = some h) → imageAttrs attrs w0 h0 = .ok ⟨w, h⟩
  | [], w0, h0, _, _, hw, _, hh => by rw [hw rfl, hh rfl]; rfl
  | (k, v) :: rest, w0, h0, hn, hw, hw', hh, hh' => by
    rw [List.map_cons, List.nodup_cons] at hn
    have hk : attrOf k rest = none := attrOf_none hn.1
    have hne : ∀ {key : Bytes}, k ≠ key → attrOf key ((k, v) :: rest) = attrOf key rest := fun h => by rw [attrOf, if_neg h]
    have heq : ∀ {key : Bytes}, k = key → attrOf key ((k, v) :: rest) = some v := fun h => by rw [attrOf, if_pos h]
    unfold imageAttrs
    by_cases h1 : k = lit "w"
    · subst h1
      rw [heq rfl] at hw hw'
      rw [hne (by decide)] at hh hh'
      rw [if_pos rfl, hw v rfl]
      exact imageAttrs_read w h rest _ _ hn.2 (by rw [hk]; nofun) (fun _ => rfl) hh hh'
    rw [if_neg h1]
    rw [hne h1] at hw hw'
    by_cases h2 : k = lit "h"
    · subst h2
      rw [heq rfl] at hh hh'
      rw [if_pos rfl, hh v rfl]
      exact imageAttrs_read w h rest _ _ hn.2 hw hw' (by rw [hk]; nofun) (fun _ => rfl)
    rw [if_neg h2]
    rw [hne h2] at hh hh'
    exact imageAttrs_read w h rest _ _ hn.2 hw hw' hh hh'

theorem Spec.SourceIs.read {env : OraEnv} {files : List ZipEntry} {source : Bytes} {i : Leaf} (h : SourceIs env files source i) :
    layerSource env source files = .ok i := by
  obtain ⟨a, f, b, d, rfl, ha, hf, hd, hi⟩ := h
  induction a with
  | nil =>
    rw [List.nil_append, layerSource, if_pos hf, hd]
    dsimp only
    rw [hi]
  | cons x a ih =>
    rw [List.cons_append, layerSource, if_neg (ha x (List.mem_cons_self ..))]
    exact ih fun y hy => ha y (List.mem_cons_of_mem _ hy)

theorem oraBounds_origin (w h : Int) (pos : Pt) (b : Rect) : oraBounds ⟨w, h⟩ ⟨0, 0⟩ pos b = (b.add pos).inter (canvas w h) := by
  unfold oraBounds canvas Rect.sub
  simp

/-! ### The layers -/

theorem Spec.Describes.read {env : OraEnv} {files : List ZipEntry} {w h : Int} {xs : List Node} {g : List Layer} (hd : Describes env files w h xs g) :
    readNodes env files ⟨w, h⟩ ⟨0, 0⟩ xs = .ok g := by
  induction hd with
  | nil => rfl
  | layer ha hs _ ih =>
    rw [readNodes, ih, readNode, if_neg (by decide), if_pos rfl, ha.read, OraRes.ok_bind, hs.read, OraRes.ok_bind, OraRes.ok_bind, OraRes.ok_bind,
      oraBounds_origin]
    rfl
  | @stack _ _ _ _ _ _ _ _ g' ha _ _ ih ih' =>
    rw [readNodes, ih', readNode, if_pos rfl, ha.read, OraRes.ok_bind]
    dsimp only
    rw [Int.add_zero, ih, OraRes.ok_bind, OraRes.ok_bind, OraRes.ok_bind, oraBounds_origin, show (groupBounds g').add ⟨0, 0⟩ = groupBounds g' by
      unfold Rect.add; simp]
    rfl
  | element hk _ ih =>
    unfold Known at hk
    rw [not_or] at hk
    rw [readNodes, ih, readNode, if_neg hk.1, if_neg hk.2]
    rfl
  | text _ ih => rw [readNodes, ih]; rfl
  | other _ ih => rw [readNodes, ih]; rfl

theorem Spec.Archive.read {env : OraEnv} {files : List ZipEntry} {w h : Int} {stack : List Node} (ha : Archive env files w h stack) :
    oraDecode env files = readNodes env files ⟨w, h⟩ ⟨0, 0⟩ stack ∧ oraDecodeConfig env files = .ok (w, h) := by
  obtain ⟨a, f, b, d, hf, hn, hb, hd, prolog, attrs, before, sattrs, rest, eof, h1, h2, h3, h4, ⟨vw, h5, h5'⟩, vh, h6, h6'⟩ := ha.doc
  have hs := (C66_only env files ha.honest ha.mime a b f hf hn hb).1
  have hi : imageAttrs attrs none none = .ok ⟨w, h⟩ := by
    refine imageAttrs_read w h attrs none none h4 ?_ ?_ ?_ ?_
    · intro v hv
      rw [h5] at hv
      cases hv
      exact atoi_whole h5'
    · rw [h5]; nofun
    · intro v hv
      rw [h6] at hv
      cases hv
      exact atoi_whole h6'
    · rw [h6]; nofun
  constructor
  · rw [oraDecode_eq, hs, OraRes.ok_bind, hd]
    dsimp only
    rw [h3]
    dsimp only
    rw [decodeTokens_document _ _ _ _ _ _ _ _ _ h1 h2, hi, OraRes.ok_bind]
  · unfold oraDecodeConfig oraStart
    rw [hs, OraRes.bind_eq, OraRes.bind_eq, OraRes.ok_bind, hd]
    show ((getDimensions (env.xmlRead d).2 (env.xmlRead d).1).bind _).bind _ = _
    rw [h3]
    dsimp only
    unfold document
    rw [List.append_assoc, List.append_assoc, getDimensions_prolog eof prolog h1, List.cons_append, getDimensions, if_pos rfl, hi]
    rfl

/-- C100: a document whose stacks are at the origin is read as the layers it describes, and its canvas as the size it says.

Missing for the full statement: stacks that are elsewhere. Their layers are put in other places than the document says. -/
theorem C100_layers_partial (env : OraEnv) (files : List ZipEntry) (w h : Int) (stack : List Node) (g : List Layer) (ha : Archive env files w h stack)
    (hd : Describes env files w h stack g) : oraDecode env files = .ok g ∧ oraDecodeConfig env files = .ok (w, h) := by
  rw [ha.read.1, ha.read.2, hd.read]
  exact ⟨rfl, rfl⟩

/-! ### The picture -/

theorem rect_mem {p : Pt} {b : Rect} : Rect.mem p b = true ↔ b.x0 ≤ p.x ∧ p.x < b.x1 ∧ b.y0 ≤ p.y ∧ p.y < b.y1 := by
  unfold Rect.mem
  simp only [Bool.and_eq_true, decide_eq_true_eq, and_assoc]

theorem mem_inter_canvas {p : Pt} {b : Rect} {w h : Int} (hp : Rect.mem p (canvas w h) = true) :
    Rect.mem p (b.inter (canvas w h)) = Rect.mem p b ∧ (Rect.mem p b = true → (b.inter (canvas w h)).x0 = max b.x0 0 ∧ (b.inter (canvas w h)).y0 = max b.y0 0) := by
  have hp' : 0 ≤ p.x ∧ p.x < w ∧ 0 ≤ p.y ∧ p.y < h := rect_mem.1 hp
  by_cases hb : Rect.mem p b = true
  · have hb' := rect_mem.1 hb
    have he : ¬ Rect.empty ⟨max b.x0 0, max b.y0 0, min b.x1 w, min b.y1 h⟩ = true := by
      simp only [Rect.empty, Bool.or_eq_true, decide_eq_true_eq]
      omega
    have hi : b.inter (canvas w h) = ⟨max b.x0 0, max b.y0 0, min b.x1 w, min b.y1 h⟩ := if_neg he
    rw [hi, hb]
    refine ⟨rect_mem.2 ?_, fun _ => ⟨rfl, rfl⟩⟩
    dsimp only
    omega
  · refine ⟨?_, fun h => absurd h hb⟩
    rw [Bool.eq_iff_iff]
    refine ⟨fun h' => ?_, fun h' => absurd h' hb⟩
    have h'' := rect_mem.1 h'
    unfold Rect.inter at h''
    dsimp only at h''
    split at h''
    · unfold Rect.zero at h''
      dsimp only at h''
      omega
    · unfold canvas at h''
      dsimp only at h''
      exact rect_mem.2 (by omega)

/-- a layer, cut at the edges of the canvas -/
def cutAt (w h : Int) (l : Layer) : Layer := { l with bounds := l.bounds.inter (canvas w h) }

theorem Spec.Means.describes {env : OraEnv} {files : List ZipEntry} {xs : List Node} {m : List Layer} (hm : Means env files xs m) (w h : Int) :
    Describes env files w h xs (m.map (cutAt w h)) := by
  induction hm with
  | nil => exact .nil
  | layer ha hs _ _ _ ih => exact .layer ha hs ih
  | element hk _ ih => exact .element hk ih
  | text _ ih => exact .text ih
  | other _ ih => exact .other ih

theorem groupModel_cut (w h : Int) : ∀ m : List Layer, groupModel (m.map (cutAt w h)) = groupModel m
  | [] => rfl
  | ⟨_, _, _, _, _, _⟩ :: _ => rfl

theorem layersAt_cut (ρ : Nat → UInt16) (cm : Option ColorModel) {w h : Int} {p : Pt} (hp : Rect.mem p (canvas w h) = true) (n : Nat) :
    ∀ m : List Layer, (∀ l ∈ m, 0 ≤ l.bounds.x0 ∧ 0 ≤ l.bounds.y0) → layersAt ρ cm (m.map (cutAt w h)) p n = layersAt ρ cm m p n
  | [], _ => rfl
  | ⟨name, b, mode, inv, tr, im⟩ :: rest, hb => by
    have ih := layersAt_cut ρ cm hp n rest fun l hl => hb l (List.mem_cons_of_mem _ hl)
    have h0 : 0 ≤ b.x0 ∧ 0 ≤ b.y0 := hb _ (List.mem_cons_self ..)
    rw [List.map_cons]
    show layersAt ρ cm (⟨name, b.inter (canvas w h), mode, inv, tr, im⟩ :: rest.map (cutAt w h)) p n = _
    conv => lhs; unfold layersAt
    conv => rhs; unfold layersAt
    rw [ih, (mem_inter_canvas hp).1]
    by_cases hm : Rect.mem p b = true
    · obtain ⟨h1, h2⟩ := (mem_inter_canvas (b := b) hp).2 hm
      rw [h1, h2, Int.max_eq_left h0.1, Int.max_eq_left h0.2]
    · rw [Bool.not_eq_true] at hm
      simp only [hm, Bool.false_eq_true, not_false_eq_true, if_true]

/-- C100: at each point of the canvas the picture shows what the layers show where the document puts them, if there are no stacks in the stack and no
layer starts left of or above the canvas.

Missing for the full statement: layers that start left of or above the canvas and layers in stacks. They are shown displaced. -/
theorem C100_picture_partial (env : OraEnv) (files : List ZipEntry) (w h : Int) (stack : List Node) (m : List Layer) (ha : Archive env files w h stack)
    (hm : Means env files stack m) (hpos : ∀ l ∈ m, 0 ≤ l.bounds.x0 ∧ 0 ≤ l.bounds.y0) :
    ∃ g, oraDecode env files = .ok g ∧ ∀ ρ p n, 0 ≤ p.x → p.x < w → 0 ≤ p.y → p.y < h → (Img.group g).at ρ p n = (Img.group m).at ρ p n := by
  refine ⟨_, (C100_layers_partial env files w h stack _ ha (hm.describes w h)).1, fun ρ p n h1 h2 h3 h4 => ?_⟩
  rw [Img.at, Img.at, groupModel_cut]
  refine layersAt_cut ρ _ ?_ n m hpos
  exact rect_mem.2 ⟨h1, h2, h3, h4⟩

/-! ### Examples -/

/-- a library for a document of 2 × 1 points with the given stack, in which the byte 1 is a picture of 2 × 1 points -/
def foreignEnv (stack : List Node) : OraEnv :=
  { exampleEnv with
    xmlRead := fun _ => (document [.other] [(lit "version", lit "0.0.3"), (lit "h", lit "1"), (lit "w", lit "+2")] [] [] stack [.stop], true)
    decodeImage := fun d => if d = [1] then some ⟨⟨0, 0, 2, 1⟩, .gray, fun p => some (.gray (if p.x = 0 then 10 else 20))⟩ else
      if d = [3] then some ⟨⟨0, 0, 1, 1⟩, .gray, fun _ => some (.gray 30)⟩ else none }

/-- an archive with two pictures, without a mimetype -/
def foreignFiles : List ZipEntry := [.of (lit "a") [1], .of (lit "b") [3], .of (lit "stack.xml") [2]]

theorem whole_lit {s : String} {n : Int} (d : Bytes) (h : (lit s = d ∨ lit s = 43 :: d) ∧ n = digitsValue d ∨ lit s = 45 :: d ∧ n = -(digitsValue d : Int))
    (hd : d.all isDigit = true ∧ d ≠ [] ∧ digitsValue d < 2 ^ 63) : WholeNumber (lit s) n :=
  ⟨d, fun b hb => (isDigit_iff b).1 (List.all_eq_true.1 hd.1 b hb), hd.2.1, hd.2.2, h⟩

theorem foreign_archive (stack : List Node) : Archive (foreignEnv stack) foreignFiles 2 1 stack where
  honest f hf := by
    simp only [foreignFiles, List.mem_cons, List.not_mem_nil, or_false] at hf
    rcases hf with rfl | rfl | rfl <;> (rintro d h; cases h; rfl)
  mime f hf := by
    simp only [foreignFiles, List.mem_cons, List.not_mem_nil, or_false] at hf
    rcases hf with rfl | rfl | rfl <;> exact fun h => absurd h (by decide)
  doc := ⟨[.of (lit "a") [1], .of (lit "b") [3]], .of (lit "stack.xml") [2], [], [2], rfl, rfl, nofun, rfl, [.other], _, [], [], [.stop], true,
    fun x hx => by rw [List.mem_singleton.1 hx]; nofun, nofun, rfl, by decide,
    ⟨lit "+2", rfl, whole_lit [50] (.inl ⟨.inr (by decide), by decide⟩) (by decide)⟩,
    ⟨lit "1", rfl, whole_lit [49] (.inl ⟨.inl (by decide), by decide⟩) (by decide)⟩⟩

theorem foreign_attrs (env : OraEnv) : OraAttrs env [(lit "composite-op", lit "svg:plus"), (lit "src", lit "a"), (lit "name", lit "n")] (lit "n") ⟨0, 0⟩ Mode.plus false 0 where
  once := by decide
  name := rfl
  x := rfl
  y := rfl
  mode := .inl (by decide)
  hidden := by decide
  opacity := nofun
  solid _ := rfl

theorem foreign_right (env : OraEnv) : OraAttrs env [(lit "x", lit "1"), (lit "src", lit "b"), (lit "other", lit "n")] [] ⟨1, 0⟩ Mode.normal false 0 where
  once := by decide
  name := rfl
  x := whole_lit [49] (.inl ⟨.inl (by decide), by decide⟩) (by decide)
  y := rfl
  mode := rfl
  hidden := by decide
  opacity := nofun
  solid _ := rfl

theorem foreign_left (env : OraEnv) : OraAttrs env [(lit "x", lit "-1"), (lit "src", lit "a"), (lit "composite-op", lit "unknown")] [] ⟨-1, 0⟩ Mode.normal false 0 where
  once := by decide
  name := rfl
  x := whole_lit [49] (.inr (by decide)) (by decide)
  y := rfl
  mode := .inr ⟨fun m' h => by
    simp only [opNames, List.mem_cons, List.not_mem_nil, or_false, Prod.mk.injEq] at h
    revert h
    rintro (⟨h, -⟩ | ⟨h, -⟩ | ⟨h, -⟩ | ⟨h, -⟩ | ⟨h, -⟩ | ⟨h, -⟩ | ⟨h, -⟩ | ⟨h, -⟩ | ⟨h, -⟩ | ⟨h, -⟩ | ⟨h, -⟩ | ⟨h, -⟩ | ⟨h, -⟩ | ⟨h, -⟩ | ⟨h, -⟩ | ⟨h, -⟩ | ⟨h, -⟩ | ⟨h, -⟩ |
      ⟨h, -⟩ | ⟨h, -⟩) <;> exact absurd h (by decide), rfl⟩
  hidden := by decide
  opacity := nofun
  solid _ := rfl

theorem foreign_stack (env : OraEnv) : OraAttrs env [] [] ⟨0, 0⟩ Mode.normal false 0 where
  once := by decide
  name := rfl
  x := rfl
  y := rfl
  mode := rfl
  hidden := by decide
  opacity := nofun
  solid _ := rfl

/-- a document with two layers and something else -/
def foreignStack : List Node := [.text [32], .elem (lit "layer") [(lit "x", lit "1"), (lit "src", lit "b"), (lit "other", lit "n")] [],
  .elem (lit "filter") [] [.elem (lit "layer") [] []], .elem (lit "layer") [(lit "composite-op", lit "svg:plus"), (lit "src", lit "a"), (lit "name", lit "n")] []]

/-- both are read and shown where they are -/
example : ∃ m g, Means (foreignEnv foreignStack) foreignFiles foreignStack m ∧ m.length = 2 ∧ oraDecode (foreignEnv foreignStack) foreignFiles = .ok g ∧
    ∀ ρ p n, 0 ≤ p.x → p.x < 2 → 0 ≤ p.y → p.y < 1 → (Img.group g).at ρ p n = (Img.group m).at ρ p n := by
  have sb : SourceIs (foreignEnv foreignStack) foreignFiles (lit "b") ⟨⟨0, 0, 1, 1⟩, .gray, fun _ => some (.gray 30)⟩ :=
    ⟨[.of (lit "a") [1]], .of (lit "b") [3], [.of (lit "stack.xml") [2]], [3], rfl, by
      intro x hx
      rw [List.mem_singleton.1 hx]
      decide, by decide, rfl, rfl⟩
  have sa : SourceIs (foreignEnv foreignStack) foreignFiles (lit "a") ⟨⟨0, 0, 2, 1⟩, .gray, fun p => some (.gray (if p.x = 0 then 10 else 20))⟩ :=
    ⟨[], .of (lit "a") [1], [.of (lit "b") [3], .of (lit "stack.xml") [2]], [1], rfl, nofun, by decide, rfl, rfl⟩
  have hm := Means.text (s := [32]) (.layer (ns := []) (foreign_right _) sb rfl rfl (.element (name := lit "filter") (attrs := []) (ns := [.elem (lit "layer") [] []])
    (by unfold Known; decide) (.layer (ns := []) (foreign_attrs _) sa rfl rfl .nil)))
  obtain ⟨g, h1, h2⟩ := C100_picture_partial _ _ 2 1 _ _ (foreign_archive foreignStack) hm (by
    intro l hl
    simp only [List.mem_cons, List.not_mem_nil, or_false] at hl
    rcases hl with rfl | rfl <;> decide)
  exact ⟨_, g, hm, rfl, h1, h2⟩

/-- C100, of layers that start left of the canvas: the pixels at the right of the image are cut off rather than those at the left. The layer that is
read shows at each point the pixel `k` places left of the one that the document puts there. -/
theorem C100_cut_refuted (env : OraEnv) (files : List ZipEntry) (w h : Int) (attrs : List (Bytes × Bytes)) (ns : List Node) (name : Bytes) (k y : Int)
    (mode : Mode) (i : Leaf) (wi hi : Int) (ha : Archive env files w h [.elem (lit "layer") attrs ns])
    (hl : OraAttrs env attrs name ⟨-k, y⟩ mode false 0) (hs : SourceIs env files ((attrOf (lit "src") attrs).getD []) i) (hb : i.bounds = ⟨0, 0, wi, hi⟩)
    (hk : 0 < k) (hy : 0 ≤ y) :
    ∃ l m, oraDecode env files = .ok [l] ∧ Means env files [.elem (lit "layer") attrs ns] [m] ∧
      ∀ ρ p n, Rect.mem p (canvas w h) = true → Rect.mem p m.bounds = true →
        l.image.at ρ ⟨p.x - l.bounds.x0, p.y - l.bounds.y0⟩ n = (i.pixel ⟨p.x, p.y - y⟩).map (·, n) ∧
        m.image.at ρ ⟨p.x - m.bounds.x0, p.y - m.bounds.y0⟩ n = (i.pixel ⟨p.x + k, p.y - y⟩).map (·, n) := by
  have hm : Means env files [.elem (lit "layer") attrs ns] [⟨name, i.bounds.add ⟨-k, y⟩, mode, false, 0, .leaf i⟩] :=
    .layer hl hs (by rw [hb]) (by rw [hb]) .nil
  refine ⟨_, _, (C100_layers_partial env files w h _ _ ha (hm.describes w h)).1, hm, fun ρ p n hp hpm => ?_⟩
  obtain ⟨h1, h2⟩ := (mem_inter_canvas hp).2 hpm
  constructor
  · show (Img.leaf i).at ρ ⟨p.x - ((i.bounds.add ⟨-k, y⟩).inter (canvas w h)).x0, p.y - ((i.bounds.add ⟨-k, y⟩).inter (canvas w h)).y0⟩ n = _
    rw [h1, h2, hb]
    show (i.pixel ⟨p.x - max (0 + -k) 0, p.y - max (0 + y) 0⟩).map _ = _
    rw [show max (0 + -k) 0 = 0 by omega, show max (0 + y) 0 = y by omega, Int.sub_zero]
  · show (Img.leaf i).at ρ ⟨p.x - (i.bounds.add ⟨-k, y⟩).x0, p.y - (i.bounds.add ⟨-k, y⟩).y0⟩ n = _
    rw [hb]
    show (i.pixel ⟨p.x - (0 + -k), p.y - (0 + y)⟩).map _ = _
    rw [show p.x - (0 + -k) = p.x + k by omega, show p.y - (0 + y) = p.y - y by omega]

/-- C100, of layers in stacks: a layer that is the only one of a stack at the origin is shown moved twice as far as the document says, and where it is
cut off by that there is nothing. -/
theorem C100_group_refuted (env : OraEnv) (files : List ZipEntry) (w h : Int) (sattrs attrs : List (Bytes × Bytes)) (ns : List Node) (sname name : Bytes)
    (pos : Pt) (smode mode : Mode) (i : Leaf) (wi hi : Int) (ha : Archive env files w h [.elem (lit "stack") sattrs [.elem (lit "layer") attrs ns]])
    (hg : OraAttrs env sattrs sname ⟨0, 0⟩ smode false 0) (hl : OraAttrs env attrs name pos mode false 0)
    (hs : SourceIs env files ((attrOf (lit "src") attrs).getD []) i) (hb : i.bounds = ⟨0, 0, wi, hi⟩) (hx : 0 ≤ pos.x) (hy : 0 ≤ pos.y)
    (hwi : pos.x + wi ≤ w) (hhi : pos.y + hi ≤ h) (h0 : 0 < wi) (h0' : 0 < hi) :
    ∃ l m, oraDecode env files = .ok [l] ∧ l.image = .group [m] ∧ l.bounds = i.bounds.add pos ∧ m.bounds = i.bounds.add pos ∧ m.image = .leaf i ∧
      ∀ ρ p n, l.image.at ρ ⟨p.x - l.bounds.x0, p.y - l.bounds.y0⟩ n =
        if Rect.mem p (i.bounds.add ⟨2 * pos.x, 2 * pos.y⟩) = true then (Img.group [m]).at ρ ⟨p.x - pos.x, p.y - pos.y⟩ n else some (.alpha 0, n) := by
  have hr : (i.bounds.add pos).inter (canvas w h) = i.bounds.add pos := by
    rw [hb]
    unfold Rect.inter Rect.add canvas
    dsimp only
    rw [if_neg (by simp only [Rect.empty, Bool.or_eq_true, decide_eq_true_eq]; omega)]
    congr 1 <;> omega
  have hd : Describes env files w h [.elem (lit "layer") attrs ns] [⟨name, i.bounds.add pos, mode, false, 0, .leaf i⟩] := by
    have := Describes.layer (w := w) (h := h) (ns := ns) hl hs .nil
    rwa [hr] at this
  have hgb : groupBounds [⟨name, i.bounds.add pos, mode, false, 0, .leaf i⟩] = i.bounds.add pos := rfl
  have hd' : Describes env files w h [.elem (lit "stack") sattrs [.elem (lit "layer") attrs ns]]
      [⟨sname, i.bounds.add pos, smode, false, 0, .group [⟨name, i.bounds.add pos, mode, false, 0, .leaf i⟩]⟩] := by
    have := Describes.stack hg hd .nil
    rwa [hgb, hr] at this
  refine ⟨_, _, (C100_layers_partial env files w h _ _ ha hd').1, rfl, rfl, rfl, rfl, fun ρ p n => ?_⟩
  rw [show (i.bounds.add pos).x0 = pos.x by rw [hb]; exact Int.zero_add _, show (i.bounds.add pos).y0 = pos.y by rw [hb]; exact Int.zero_add _]
  split
  · rfl
  · next hn =>
    rw [Img.at, layersAt, layersAt]
    have : ¬ Rect.mem ⟨p.x - pos.x, p.y - pos.y⟩ (i.bounds.add pos) = true := by
      rw [rect_mem, hb] at hn ⊢
      unfold Rect.add at hn ⊢
      dsimp only at hn ⊢
      omega
    simp only [this]
    rfl

/-- the picture of 2 × 1 points, one to the left of the canvas: its left pixel is shown rather than its right one -/
example : ∃ l m, oraDecode (foreignEnv [.elem (lit "layer") [(lit "x", lit "-1"), (lit "src", lit "a"), (lit "composite-op", lit "unknown")] []]) foreignFiles = .ok [l] ∧
    Means (foreignEnv [.elem (lit "layer") [(lit "x", lit "-1"), (lit "src", lit "a"), (lit "composite-op", lit "unknown")] []]) foreignFiles
      [.elem (lit "layer") [(lit "x", lit "-1"), (lit "src", lit "a"), (lit "composite-op", lit "unknown")] []] [m] ∧
    ∀ ρ n, layerAt ρ l ⟨0, 0⟩ n ≠ layerAt ρ m ⟨0, 0⟩ n := by
  have hm := Means.layer (ns := []) (foreign_left (foreignEnv [.elem (lit "layer") [(lit "x", lit "-1"), (lit "src", lit "a"), (lit "composite-op", lit "unknown")] []]))
    (files := foreignFiles) ⟨[], .of (lit "a") [1], _, [1], rfl, nofun, by decide, rfl, rfl⟩ rfl rfl .nil
  refine ⟨_, _, (C100_layers_partial _ _ 2 1 _ _ (foreign_archive _) (hm.describes 2 1)).1, hm, fun ρ n => ?_⟩
  show some (transparency (.gray 10) 255, n) ≠ some (transparency (.gray 20) 255, n)
  exact fun h => absurd (show transparency (.gray 10) 255 = transparency (.gray 20) 255 from congrArg Prod.fst (Option.some.inj h)) (by decide)

/-- the picture of one point, right in the canvas, in a stack: nothing is shown -/
example : ∃ l, oraDecode (foreignEnv [.elem (lit "stack") [] [.elem (lit "layer") [(lit "x", lit "1"), (lit "src", lit "b"), (lit "other", lit "n")] []]])
      foreignFiles = .ok [l] ∧
    ∀ ρ n, l.image.at ρ ⟨1 - l.bounds.x0, 0 - l.bounds.y0⟩ n = some (.alpha 0, n) := by
  obtain ⟨l, m, h1, -, -, -, -, h2⟩ := C100_group_refuted _ _ 2 1 _ _ _ _ _ ⟨1, 0⟩ _ _ ⟨⟨0, 0, 1, 1⟩, .gray, fun _ => some (.gray 30)⟩ 1 1
    (foreign_archive [.elem (lit "stack") [] [.elem (lit "layer") [(lit "x", lit "1"), (lit "src", lit "b"), (lit "other", lit "n")] []]])
    (foreign_stack _) (foreign_right _) ⟨[.of (lit "a") [1]], .of (lit "b") [3], _, [3], rfl, by
      intro x hx
      rw [List.mem_singleton.1 hx]
      decide, by decide, rfl, rfl⟩ rfl (by decide) (by decide) (by decide) (by decide) (by decide) (by decide)
  exact ⟨l, h1, fun ρ n => h2 ρ ⟨1, 0⟩ n⟩

end Limage
