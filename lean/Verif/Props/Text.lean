import Verif.Proofs.TextTotal
import Verif.Props.RoundTripLoss
/-!
# C54 to C56, C75 to C77: text layers
-/
namespace Limage
open Spec

/-! ### Which texts can be encoded (C55) -/

/-- the computation always panics -/
def Stops {α : Type} (env : WEnv) (m : W α) : Prop := ∀ s, m env s = none

theorem Stops.left {α β : Type} {env : WEnv} {m : W α} {f : α → W β} (h : Stops env m) : Stops env (m >>= f) := by
  intro s
  show W.bind m f env s = none
  unfold W.bind
  rw [h s]

theorem Stops.right {α β : Type} {env : WEnv} {m : W α} {f : α → W β} (h : ∀ a, Stops env (f a)) : Stops env (m >>= f) := by
  intro s
  show W.bind m f env s = none
  unfold W.bind
  cases m env s with
  | none => rfl
  | some x =>
    obtain ⟨a, s', l⟩ := x
    dsimp only
    rw [h a s']

/-- the text of the layer cannot be formatted -/
def BadText (env : WEnv) (l : Layer) : Prop := ∃ t, textOf l = some t ∧ ∀ dx dy, env.text t dx dy = none

theorem Stops.textProp {env : WEnv} {l : Layer} (h : BadText env l) (dx dy : UInt32) : Stops env (writeTextProp (layerTextData l.image) dx dy) := by
  obtain ⟨t, h1, h2⟩ := h
  have : layerTextData l.image = t ∧ t ≠ [] := by
    unfold textOf at h1
    split at h1
    · rename_i j t' hi
      rw [hi]
      split at h1
      · cases h1
      · cases h1; exact ⟨rfl, by assumption⟩
    · cases h1
  rw [this.1]
  have hl := List.length_pos_iff.2 this.2
  unfold writeTextProp
  rw [if_pos (by omega)]
  intro s
  unfold writeText
  rw [h2]

theorem Stops.own {env : WEnv} (e : Enc) {l : Layer} (h : BadText env l) (ox oy : UInt32) (g : List UInt32) (pw : PW) :
    Stops env (writeOwn e l ox oy g pw) := by
  refine Stops.right fun _ => Stops.right fun _ => Stops.left ?_
  refine Stops.right fun _ => Stops.right fun _ => Stops.right fun _ => Stops.right fun _ => Stops.right fun _ => Stops.right fun _ =>
    Stops.right fun _ => Stops.right fun _ => Stops.right fun _ => Stops.right fun _ => Stops.right fun _ => Stops.right fun _ =>
    Stops.right fun _ => Stops.right fun _ => Stops.right fun _ => Stops.left ?_
  exact Stops.textProp h _ _

mutual
theorem Stops.sub {env : WEnv} (e : Enc) (i : Img) (ox' oy' : Int) (path : List Nat) (h : ∃ r ∈ placedIn i ox' oy' path, BadText env r.layer)
    (ox oy : UInt32) (g : List UInt32) (pw : PW) : Stops env (writeSub e i ox oy g pw) := by
  match i with
  | .group gl =>
    unfold placedIn at h
    exact Stops.layers e gl 0 ox' oy' path h 0 ox oy g pw
  | .leaf _ | .nil | .text _ _ | .masked _ _ =>
    unfold placedIn at h
    obtain ⟨r, hr, -⟩ := h
    cases hr
termination_by structural i

theorem Stops.layers {env : WEnv} (e : Enc) (gl : List Layer) (n' : Nat) (ox' oy' : Int) (path : List Nat)
    (h : ∃ r ∈ placed gl n' ox' oy' path, BadText env r.layer) (n : Nat) (ox oy : UInt32)
    (g : List UInt32) (pw : PW) : Stops env (writeLayers e gl n ox oy g pw) := by
  match gl with
  | [] =>
    unfold placed at h
    obtain ⟨r, hr, -⟩ := h
    cases hr
  | ⟨name, b, mode, inv, tr, im⟩ :: rest =>
    unfold placed at h
    obtain ⟨r, hr, hb⟩ := h
    rw [List.mem_cons, List.mem_append] at hr
    rcases hr with rfl | hr | hr
    · exact Stops.left (Stops.own e hb _ _ _ _)
    · exact Stops.right fun _ => Stops.left (Stops.sub e im _ _ _ ⟨r, hr, hb⟩ _ _ _ _)
    · exact Stops.right fun _ => Stops.right fun _ => Stops.layers e rest _ _ _ _ ⟨r, hr, hb⟩ _ _ _ _ _
termination_by structural gl
end

/-- a picture with a text that cannot be formatted cannot be encoded -/
theorem bad_text_stops (env : WEnv) (i : Img) (h : ∃ r ∈ layersOf i, BadText env r.layer) : runEncode env i = none := by
  have : Stops env (encode i) := by
    refine Stops.right fun _ => Stops.right fun _ => Stops.right fun _ => Stops.right fun _ => Stops.right fun _ => Stops.right fun _ =>
      Stops.right fun _ => Stops.right fun _ => Stops.right fun _ => Stops.right fun _ => Stops.right fun _ => Stops.right fun _ => ?_
    cases i with
    | group g => exact Stops.right fun _ => Stops.right fun _ => Stops.left (Stops.layers _ g 0 0 0 [] h _ _ _ _ _)
    | _ =>
      obtain ⟨r, hr, hb⟩ := h
      rw [layersOf, List.mem_singleton] at hr
      · subst hr
        exact Stops.right fun _ => Stops.right fun _ => Stops.left (Stops.own _ hb _ _ _ _)
      · intro g hg; cases hg
  unfold runEncode
  rw [this]

/-- a single run that has a colour -/
def Spec.Single (t : TextData) : Prop := ∃ d c, t = [d] ∧ d.foreColor = some c

theorem textData_single (e : TextEnv) {t : TextData} (h : Single t) (dx dy : UInt32) : (textData e t dx dy).isSome := by
  obtain ⟨d, c, rfl, h⟩ := h
  unfold textData
  simp only [Option.bind_eq_bind, Option.bind_some, h]
  rfl

theorem textData_some {e : TextEnv} {t : TextData} {dx dy : UInt32} {x : Bytes} (h : textData e t dx dy = some x) : Single t := by
  unfold textData at h
  dsimp only at h
  split at h
  · rw [Option.bind_eq_bind, Option.bind_some] at h
    dsimp only at h
    rw [Option.bind_eq_bind, Option.bind_eq_some_iff] at h
    obtain ⟨c, h, -⟩ := h
    exact ⟨_, c, rfl, h⟩
  · rw [Option.bind_eq_bind, Option.bind_eq_some_iff] at h
    obtain ⟨_, _, h⟩ := h
    cases h

/-- C55: exactly what makes `Encode` panic on a picture without missing parts: a text layer with more than one run, or whose run
has no colour. -/
theorem C55_exact (e : TextEnv) (env : WEnv) (he : env.text = textData e) (i : Img) (hi : Whole i) :
    runEncode env i = none ↔ ∃ r ∈ layersOf i, ∃ t, textOf r.layer = some t ∧ ¬Single t := by
  constructor
  · intro h
    apply Classical.byContradiction
    intro hn
    obtain ⟨l, x, h'⟩ := C74_encode_total env i hi fun r hr t ht dx dy => by
      rw [he]
      apply textData_single
      apply Classical.byContradiction
      intro hs
      exact hn ⟨r, hr, t, ht, hs⟩
    rw [h] at h'
    cases h'
  · rintro ⟨r, hr, t, ht, hs⟩
    refine bad_text_stops env i ⟨r, hr, t, ht, fun dx dy => ?_⟩
    rw [he]
    cases h : textData e t dx dy with
    | none => rfl
    | some x => exact absurd (textData_some h) hs

/-- one run is what is written, two are not -/
example : Single [⟨some (.gray 0), none, 18, 0, 0, false, false, false, false, [], []⟩] ∧
    ¬Single [⟨some (.gray 0), none, 18, 0, 0, false, false, false, false, [], []⟩, ⟨some (.gray 0), none, 18, 0, 0, false, false, false, false, [], []⟩] := by
  refine ⟨⟨_, _, rfl, rfl⟩, ?_⟩
  rintro ⟨d, c, h, -⟩
  cases h

/-- C55 is false.  `Encode` panics on every picture with a text layer of two or more runs: the style that is written for the whole
text has no colour. -/
theorem C55_refuted (e : TextEnv) (env : WEnv) (he : env.text = textData e) (i : Img) (r : Placed) (hr : r ∈ layersOf i) (t : TextData)
    (ht : textOf r.layer = some t) (h2 : 2 ≤ t.length) : runEncode env i = none := by
  refine bad_text_stops env i ⟨r, hr, t, ht, fun dx dy => ?_⟩
  rw [he]
  cases h : textData e t dx dy with
  | none => rfl
  | some x =>
    obtain ⟨d, c, rfl, -⟩ := textData_some h
    exact absurd h2 (by simp)

/-- C55 (the part that holds).  `Encode` does not panic on a picture without missing parts whose text layers have one run each, with
a colour.
Full statement: the same for every number of runs; false by `C55_refuted`. -/
theorem C55_single_partial (e : TextEnv) (env : WEnv) (he : env.text = textData e) (i : Img) (hi : Whole i)
    (ht : ∀ r ∈ layersOf i, ∀ t, textOf r.layer = some t → Single t) : ∃ l x, runEncode env i = some (l, x) :=
  C74_encode_total env i hi fun r hr t h dx dy => by rw [he]; exact textData_single e (ht r hr t h) dx dy

/-! ### Examples -/

/-- numbers up to the dot -/
def simpleFloat (s : Bytes) : Option (UInt32 × UInt8) :=
  some (UInt32.ofNat (digitsValue (s.takeWhile (· ≠ 46))), UInt8.ofNat (digitsValue (s.takeWhile (· ≠ 46))))

theorem simpleFloat_reads : ReadsNumbers simpleFloat := by
  intro s k hs _ _
  have : (s ++ 46 :: List.replicate k 48).takeWhile (· ≠ 46) = s := by
    rw [(takeWhile_run (p := (· ≠ 46)) (a := s) fun b hb => ?_).1]
    · exact List.append_nil s
    · have := hs b hb
      simp only [decide_eq_true_eq, ne_eq, ← UInt8.toNat_inj, UInt8.reduceToNat]
      omega
  exact ⟨_, by rw [simpleFloat, this]⟩

/-- a library for the examples -/
def exText : TextEnv := ⟨fun _ => false, simpleFloat⟩

/-- a writer that accepts everything -/
def textSink : WEnv := ⟨fun _ => none, fun _ => 0, textData exText⟩

/-- a white text -/
def whiteRun (data : Bytes) : TextDatum := ⟨some (.gray 255), some (.alpha 0), 12, 0, 0, true, false, false, false, lit "Serif", data⟩

/-- a picture with a text layer -/
def label (t : TextData) : Layer := ⟨[116], ⟨0, 0, 1, 1⟩, Mode.normal, false, 0, .text (.leaf ⟨⟨0, 0, 1, 1⟩, .other, fun _ => some (.gray 7)⟩) t⟩

theorem label_whole (t : TextData) : Whole (.group [label t]) := by
  unfold Whole label WholeLayers Whole Whole
  exact ⟨fun _ => rfl, trivial⟩

/-- the hypotheses on the writer and the texts in C74 hold for what the code writes of a text of one run -/
example : Works textSink ∧ TextsFit textSink (.group [label [whiteRun [97]]]) ∧ Whole (.group [label [whiteRun [97]]]) := by
  refine ⟨fun _ => rfl, ?_, label_whole _⟩
  intro r hr t ht dx dy
  simp only [layersOf, label, placed, placedIn, List.nil_append, List.mem_singleton] at hr
  subst hr
  simp only [textOf, List.cons_ne_nil, if_false, Option.some.injEq] at ht
  subst ht
  exact textData_single _ ⟨_, _, rfl, rfl⟩ _ _

theorem label_placed (t : TextData) : layersOf (.group [label t]) = [⟨label t, 0, 0, [0]⟩] := by
  unfold layersOf label placed placed placedIn
  rfl

/-- the hypotheses of C55 hold for concrete pictures -/
example : textSink.text = textData exText ∧ Whole (.group [label [whiteRun (lit "Hi")]]) ∧
    (∀ r ∈ layersOf (.group [label [whiteRun (lit "Hi")]]), ∀ t, textOf r.layer = some t → Single t) := by
  refine ⟨rfl, label_whole _, ?_⟩
  intro r hr t ht
  rw [label_placed, List.mem_singleton] at hr
  subst hr
  have : t = [whiteRun (lit "Hi")] := by
    have h := textOf_image (l := label [whiteRun (lit "Hi")]) rfl (by simp)
    rw [h] at ht; cases ht; rfl
  exact ⟨_, _, this, rfl⟩

example : ∃ r ∈ layersOf (.group [label [whiteRun (lit "Hi"), whiteRun (lit "you")]]), ∃ t, textOf r.layer = some t ∧ 2 ≤ t.length := by
  rw [label_placed]
  exact ⟨_, List.mem_singleton.2 rfl, _, textOf_image rfl (by simp), by simp⟩

/-! ### What comes back (C54) -/

/-- Specification: what comes back for a text layer: the size; the text and the font if, and only if, they consist of printable
characters; always the colour black and no other style; nothing if the text was empty. -/
def Spec.TextBack (pr : Nat → Bool) (d : TextDatum) (t' : TextData) : Prop :=
  if d.data = [] then t' = []
  else ∃ d', t' = [d'] ∧ d'.size = d.size ∧ (d'.data = d.data ↔ Plain pr d.data) ∧ (d'.font = d.font ↔ Plain pr d.font) ∧
    d'.foreColor = some (.gray 0) ∧ d'.backColor = some (.alpha 0) ∧ d'.bold = false ∧ d'.italic = false ∧ d'.underline = false ∧
    d'.strikethrough = false ∧ d'.letterSpacing = 0 ∧ d'.rise = 0

/-- text that was formatted is parsed -/
theorem text_back {e : TextEnv} (he : ReadsNumbers e.parseFloat) (xml : Bytes → List XmlTok × Bool) (hxml : xml [] = ([], true))
    {t : TextData} {dx dy : UInt32} {x : Bytes} (h : textData e t dx dy = some x) :
    ∃ d t', t = [d] ∧ parseTextData e xml x = .ok (some t') ∧ TextBack e.printable d t' := by
  obtain ⟨d, c, rfl, hc⟩ := textData_some h
  obtain ⟨x', data, font, h1, h2, h3, h4, h5⟩ := parse_written he xml hc dx dy
  rw [h] at h1
  cases h1
  by_cases h0 : d.data = []
  · have : data = [] := by rw [h0] at h2; exact h2.2 (plain_nil _)
    rw [if_neg (by rw [this]; simp), hxml] at h5
    exact ⟨d, [], rfl, h5, by unfold TextBack; rw [if_pos h0]⟩
  · have : data ≠ [] := by
      intro h'
      rw [h'] at h4
      exact h0 (List.eq_nil_of_length_eq_zero (Nat.le_zero.1 h4))
    rw [if_pos this] at h5
    refine ⟨d, _, rfl, h5, ?_⟩
    unfold TextBack
    rw [if_neg h0]
    exact ⟨_, rfl, rfl, h2, h3, rfl, rfl, rfl, rfl, rfl, rfl, rfl, rfl⟩

/-- Specification: what comes back for a layer that is not a group. -/
def Spec.LabelBack (pr : Nat → Bool) (F : Fmt) (l : Layer) (j : Img) : Prop :=
  ∃ L, PixelsBack F (pixelsOf l.image) L ∧
    (textOf l = none ∧ maskOf l.image = none ∧ j = .leaf L ∨
     (∃ d t', textOf l = some [d] ∧ TextBack pr d t' ∧ j = .text (.leaf L) t') ∨
     ∃ m m', textOf l = none ∧ maskOf l.image = some m ∧ MaskBack m m' ∧ j = .masked (.leaf L) (some m'))

/-- C54 (the part that holds).  What exactly is decoded for the text layers of an encoded picture (`TextBack`): the size of the
text is the same; the text and the font are the same if and only if they consist of printable characters; the colour is black.
Full statement: the text, font, size and colour are the same; false by `C54_refuted`, `C54_data_refuted` and `C54_empty_refuted`. -/
theorem C54_text_partial (e : TextEnv) (he : ReadsNumbers e.parseFloat) (xml : Bytes → List XmlTok × Bool) (hxml : xml [] = ([], true))
    (wenv : WEnv) (hw : wenv.text = textData e) (env : Env) (hp : env.parseText = parseTextData e xml)
    (sch : Sched) (hv : sch.Valid) (decompress : Bool) (g : List Layer)
    (hi : Encodable (.group g)) (l : List WCall) (h : runEncode wenv (.group g) = some (l, none)) (D : Bytes)
    (size : Nat) (hsz : ExactlyOnce l size) (hmax : size ≤ maxString)
    (cm : ColorModel) (hcm : (Img.group g).colorModel = some cm)
    (hd : decompress = true ∨ ∀ r ∈ placed g 0 0 0 [], maskOf r.layer.image = none)
    (hx : (groupBounds g).dx ≤ 2 ^ 31) (hy : (groupBounds g).dy ≤ 2 ^ 31)
    (hs : ∀ r ∈ placed g 0 0 0 [], Storable (fmtOf wenv cm) (fun _ _ => True) (groupBounds g).dx (groupBounds g).dy r) :
    ∃ g', decodeImage env sch decompress (store D l) = .ok (.ok (fixBottom g')) ∧
      SameTree (LabelBack e.printable (fmtOf wenv cm)) (modeBack (fmtOf wenv cm)) g g' := by
  have key : ∀ t dx dy x, (fmtOf wenv cm).text t dx dy = some x → ∃ d t', t = [d] ∧ parsesTo env x t' ∧ TextBack e.printable d t' := by
    intro t dx dy x hx
    have hx : wenv.text t (u32 dx) (u32 dy) = some x := hx
    rw [hw] at hx
    obtain ⟨d, t', h1, h2, h3⟩ := text_back he xml hxml hx
    exact ⟨d, t', h1, by unfold parsesTo; rw [hp]; exact h2, h3⟩
  obtain ⟨g', h1, h2⟩ := round_trip wenv env sch hv decompress g hi l h D size hsz hmax cm hcm hd hx hy fun r hr => by
    obtain ⟨a, b, c, d, -, f, g⟩ := hs r hr
    refine ⟨a, b, c, d, fun t x _ hx => ?_, f, g⟩
    obtain ⟨_, t', -, h, -⟩ := key _ _ _ _ hx
    exact ⟨t', h⟩
  refine ⟨g', h1, SameTree.mono ?_ h2⟩
  rintro l j ⟨L, hL, h | ⟨t, d, t', a1, a2, a3, a4⟩ | h⟩
  · exact ⟨L, hL, .inl h⟩
  · refine ⟨L, hL, .inr (.inl ?_)⟩
    obtain ⟨x, t'', rfl, b2, b3⟩ := key _ _ _ _ a2
    have : t'' = t' := by
      unfold parsesTo at a3 b2
      rw [a3] at b2
      cases b2
      rfl
    subst this
    exact ⟨x, t'', a1, b3, a4⟩
  · exact ⟨L, hL, .inr (.inr h)⟩

/-- the hypotheses of C54 hold for concrete texts -/
example : (∀ k, textSink.sink k = none) ∧ ReadsNumbers exText.parseFloat ∧ textSink.text = textData exText ∧
    (whiteRun (lit "Hi")).foreColor = some (.gray 255) ∧ (whiteRun (lit "Hi")).data ≠ [] ∧ (Color.gray 255).rgba32 ≠ (Color.gray 0).rgba32 ∧
    ((textData exText [whiteRun (lit "Hi")] 1 1).getD []).length ≤ 10000000 :=
  ⟨fun _ => rfl, simpleFloat_reads, rfl, rfl, by decide, by decide, by decide +kernel⟩

theorem label_encodable (t : TextData) : Encodable (.group [label t]) := by
  refine ⟨?_, by unfold label total totalIn total; decide⟩
  unfold label EveryLayer EveryIn EveryLayer
  refine ⟨⟨?_, by intro m hm; cases hm⟩, trivial, trivial⟩
  intro b hb
  simp only [pixelsOf, Img.bounds, Option.some.injEq] at hb
  subst hb
  unfold SizeOk
  decide

theorem label_model (t : TextData) : (Img.group [label t]).colorModel = some .other := by
  unfold label Img.colorModel groupModel Img.colorModel Img.colorModel
  rfl

theorem label_bounds (t : TextData) : groupBounds [label t] = ⟨0, 0, 1, 1⟩ := rfl

/-- a picture with a text layer is encoded and decoded -/
theorem label_back (wenv : WEnv) (hs : ∀ k, wenv.sink k = none) (e : TextEnv) (he : ReadsNumbers e.parseFloat) (hw : wenv.text = textData e)
    (xml : Bytes → List XmlTok × Bool) (hxml : xml [] = ([], true)) (d : TextDatum) (hc : d.foreColor.isSome)
    (hsize : ((textData e [d] 1 1).getD []).length ≤ 10000000) :
    ∃ l, runEncode wenv (.group [label [d]]) = some (l, none) ∧
      ∀ (env : Env), env.parseText = parseTextData e xml → ∀ sch : Sched, sch.Valid → ∀ (decompress : Bool) (D : Bytes), ∃ l' L t',
        decodeImage env sch decompress (store D l) = .ok (.ok [l']) ∧ l'.image = .text L t' ∧ TextBack e.printable d t' := by
  obtain ⟨c, hc⟩ := Option.isSome_iff_exists.1 hc
  obtain ⟨l, x, h1⟩ := C55_single_partial e wenv hw (.group [label [d]]) (label_whole _) fun r hr t ht => by
    rw [label_placed, List.mem_singleton] at hr
    subst hr
    rw [textOf_image (l := label [d]) rfl (by simp)] at ht
    cases ht
    exact ⟨d, c, rfl, hc⟩
  have hx : x = none := by
    cases x with
    | none => rfl
    | some k =>
      obtain ⟨c, hc1, hc2⟩ := (C35_errors wenv _ l _ h1).2.1 k rfl
      obtain ⟨s, h', hse⟩ := runEncode_some h1
      rcases (WRuns.encode _ _ _ _ _ _ h').src k hse with ⟨h2, -⟩ | h2
      · exact absurd (hs k) h2
      · cases h2
  subst hx
  obtain ⟨size, hsz⟩ := C34_once wenv _ (label_encodable _) l h1
  have hmax : size ≤ maxString := by
    refine Nat.le_trans (encode_size wenv _ (label_encodable _) l h1 .other (label_model _) size hsz) ?_
    unfold fileBytes
    rw [label_placed, List.map_cons, List.map_nil, List.sum_cons, List.sum_nil]
    have h3 : layerBytes (fmtOf wenv .other) ⟨label [d], 0, 0, [0]⟩ ≤ 20000 + ((textData e [d] 1 1).getD []).length := by
      unfold layerBytes textBytes
      rw [textOf_image (l := label [d]) rfl (by simp)]
      have : (fmtOf wenv .other).text [d] (label [d]).bounds.dx (label [d]).bounds.dy = textData e [d] 1 1 := by
        show wenv.text _ _ _ = _
        rw [hw]
        rfl
      dsimp only
      rw [this]
      have hb := bpp_le wenv .other
      show 160 + 1 + 4 * 1 + _ + pixelBytes _ _ + maskBytes _ ≤ _
      simp only [label, pixelsOf, maskOf, maskBytes, Img.bounds, pixelBytes]
      rw [show tilesAlong (⟨0, 0, 1, 1⟩ : Rect).dx = 1 from rfl, show tilesAlong (⟨0, 0, 1, 1⟩ : Rect).dy = 1 from rfl]
      omega
    have hm : maxString = 16777216 := rfl
    have hpal : ((fmtOf wenv .other).palette.getD []).length = 0 := rfl
    omega
  refine ⟨l, h1, fun env hp sch hv decompress D => ?_⟩
  have hmask : ∀ r ∈ placed [label [d]] 0 0 0 [], maskOf r.layer.image = none := by
    intro r hr
    have : r ∈ layersOf (.group [label [d]]) := hr
    rw [label_placed, List.mem_singleton] at this
    subst this
    rfl
  have hst : ∀ r ∈ placed [label [d]] 0 0 0 [],
      Storable (fmtOf wenv .other) (fun _ _ => True) (groupBounds [label [d]]).dx (groupBounds [label [d]]).dy r := by
    intro r hr
    have : r ∈ layersOf (.group [label [d]]) := hr
    rw [label_placed, List.mem_singleton] at this
    subst this
    rw [label_bounds]
    refine ⟨(utf8Valid_iff _).1 (show utf8Valid [116] = true by decide), show (0 : Int) ≤ 0 ∧ (0 : Int) < 1 ∧ (0 : Int) + 1 ≤ 1 by decide,
      show (0 : Int) ≤ 0 ∧ (0 : Int) < 1 ∧ (0 : Int) + 1 ≤ 1 by decide, ?_, fun _ _ _ _ => ⟨[], trivial⟩, ?_,
      show ∀ n ∈ ([0] : List Nat), n < 55296 by decide⟩
    · intro _ b hb
      simp only [label, pixelsOf, Img.bounds, Option.some.injEq] at hb
      subst hb
      exact ⟨rfl, rfl⟩
    · intro m hm; cases hm
  obtain ⟨g', h2, h3⟩ := C54_text_partial e he xml hxml wenv hw env hp sch hv decompress [label [d]] (label_encodable _) l h1 D size hsz hmax
    .other (label_model _) (.inr hmask) (by rw [label_bounds]; decide) (by rw [label_bounds]; decide) hst
  · obtain ⟨l', r', rfl, -, -, -, -, -, h4, h5⟩ := sameTree_cons h3
    cases sameTree_nil h5
    have h4 : LabelBack e.printable (fmtOf wenv .other) (label [d]) l'.image := h4
    obtain ⟨L, -, h | ⟨d', t', h, h6, h7⟩ | ⟨m, m', h, -⟩⟩ := h4
    · rw [textOf_image (l := label [d]) rfl (by simp)] at h; cases h.1
    · rw [textOf_image (l := label [d]) rfl (by simp)] at h
      cases h
      have hf : ∃ m, fixBottom [l'] = [{ l' with mode := m }] := by
        rcases fixBottom_cases [l'] with h | ⟨init, b, h, h'⟩
        · exact ⟨l'.mode, h⟩
        · cases init with
          | nil => cases h; exact ⟨_, h'⟩
          | cons a init => cases init <;> cases h
      obtain ⟨m, hm⟩ := hf
      rw [hm] at h2
      exact ⟨_, _, t', h2, h7, h6⟩
    · rw [textOf_image (l := label [d]) rfl (by simp)] at h; cases h

/-- C54 is false for the colour: whatever the colour of a text was, it is black after an XCF round trip. -/
theorem C54_refuted (wenv : WEnv) (hs : ∀ k, wenv.sink k = none) (e : TextEnv) (he : ReadsNumbers e.parseFloat) (hw : wenv.text = textData e)
    (xml : Bytes → List XmlTok × Bool) (hxml : xml [] = ([], true)) (d : TextDatum) (c : Color) (hc : d.foreColor = some c) (hd : d.data ≠ [])
    (hblack : c.rgba32 ≠ (Color.gray 0).rgba32) (hsize : ((textData e [d] 1 1).getD []).length ≤ 10000000) :
    ∃ l, runEncode wenv (.group [label [d]]) = some (l, none) ∧
      ∀ (env : Env), env.parseText = parseTextData e xml → ∀ sch : Sched, sch.Valid → ∀ (decompress : Bool) (D : Bytes), ∃ l' L d' c',
        decodeImage env sch decompress (store D l) = .ok (.ok [l']) ∧ l'.image = .text L [d'] ∧ d'.foreColor = some c' ∧ c'.rgba32 ≠ c.rgba32 := by
  obtain ⟨l, h1, h2⟩ := label_back wenv hs e he hw xml hxml d (by rw [hc]; rfl) hsize
  refine ⟨l, h1, fun env hp sch hv decompress D => ?_⟩
  obtain ⟨l', L, t', h3, h4, h5⟩ := h2 env hp sch hv decompress D
  unfold TextBack at h5
  rw [if_neg hd] at h5
  obtain ⟨d', rfl, -, -, -, h6, -⟩ := h5
  exact ⟨l', L, d', _, h3, h4, h6, fun h => hblack h.symm⟩

/-- C54 is false for a text with a character that is not printable, such as a line end: it is decoded as another text. -/
theorem C54_data_refuted (wenv : WEnv) (hs : ∀ k, wenv.sink k = none) (e : TextEnv) (he : ReadsNumbers e.parseFloat) (hw : wenv.text = textData e)
    (xml : Bytes → List XmlTok × Bool) (hxml : xml [] = ([], true)) (d : TextDatum) (hc : d.foreColor.isSome)
    (hd : ¬Plain e.printable d.data) (hsize : ((textData e [d] 1 1).getD []).length ≤ 10000000) :
    ∃ l, runEncode wenv (.group [label [d]]) = some (l, none) ∧
      ∀ (env : Env), env.parseText = parseTextData e xml → ∀ sch : Sched, sch.Valid → ∀ (decompress : Bool) (D : Bytes), ∃ l' L d',
        decodeImage env sch decompress (store D l) = .ok (.ok [l']) ∧ l'.image = .text L [d'] ∧ d'.data ≠ d.data := by
  obtain ⟨l, h1, h2⟩ := label_back wenv hs e he hw xml hxml d hc hsize
  refine ⟨l, h1, fun env hp sch hv decompress D => ?_⟩
  obtain ⟨l', L, t', h3, h4, h5⟩ := h2 env hp sch hv decompress D
  unfold TextBack at h5
  rw [if_neg (by rintro h; rw [h] at hd; exact hd (plain_nil _))] at h5
  obtain ⟨d', rfl, -, h6, -⟩ := h5
  exact ⟨l', L, d', h3, h4, fun h => hd (h6.1 h)⟩

/-- C54 is false for an empty text: it is decoded without a run, so its font and size are lost. -/
theorem C54_empty_refuted (wenv : WEnv) (hs : ∀ k, wenv.sink k = none) (e : TextEnv) (he : ReadsNumbers e.parseFloat) (hw : wenv.text = textData e)
    (xml : Bytes → List XmlTok × Bool) (hxml : xml [] = ([], true)) (d : TextDatum) (hc : d.foreColor.isSome)
    (hd : d.data = []) (hsize : ((textData e [d] 1 1).getD []).length ≤ 10000000) :
    ∃ l, runEncode wenv (.group [label [d]]) = some (l, none) ∧
      ∀ (env : Env), env.parseText = parseTextData e xml → ∀ sch : Sched, sch.Valid → ∀ (decompress : Bool) (D : Bytes), ∃ l' L,
        decodeImage env sch decompress (store D l) = .ok (.ok [l']) ∧ l'.image = .text L [] := by
  obtain ⟨l, h1, h2⟩ := label_back wenv hs e he hw xml hxml d hc hsize
  refine ⟨l, h1, fun env hp sch hv decompress D => ?_⟩
  obtain ⟨l', L, t', h3, h4, h5⟩ := h2 env hp sch hv decompress D
  unfold TextBack at h5
  rw [if_pos hd] at h5
  subst h5
  exact ⟨l', L, h3, h4⟩

theorem newline_not_plain (pr : Nat → Bool) (s : Bytes) : ¬Plain pr (10 :: s) := by
  intro h
  have h : Plain pr (encNat 10 ++ s) := h
  rw [plain_enc pr (by left; omega)] at h
  have := h.1
  unfold Printable at this
  omega

example : ¬Plain exText.printable (whiteRun (lit "\nHi")).data ∧ ((textData exText [whiteRun (lit "\nHi")] 1 1).getD []).length ≤ 10000000 ∧
    Plain exText.printable (lit "Hi \"you\"") :=
  ⟨newline_not_plain _ _, by decide +kernel, "Hi \"you\"".toList, by decide, by unfold Printable; decide⟩

end Limage
