import Verif.Proofs.Raster
import Verif.Props.Color
/-!
# Properties of raster images (C21–C23)
-/
namespace Limage
open Spec

/-! ## C21 -/

/-- **C21.**  Every well-formed program (any interleaving of creating images, taking sub-images of
any of them and writing through any of them) runs without panicking, and afterwards every read of
every image at every point returns what the map specification says. -/
theorem C21_raster_is_map {π : Type} (z : π) (ops : List (ROp π)) (hw : WF 0 ops) :
    ∃ s, RState.run z ⟨[], []⟩ ops = some s ∧
      s.imgs.length = ((SState.init z).run z ops).views.length ∧
      ∀ (i : Nat) (m : Raster), s.imgs[i]? = some m →
        ∃ w, ((SState.init z).run z ops).views[i]? = some w ∧
          ∀ p, Raster.get z s.heap m p = some (w.at z ((SState.init z).run z ops) p) := by
  obtain ⟨s, bases, h1, inv, -, -⟩ := run_ok z ops (inv_init z) hw
  refine ⟨s, h1, inv.ilen, ?_⟩
  intro i m hm
  obtain ⟨w, hv, -⟩ := inv.img i m hm
  exact ⟨w, hv, fun p => get_ok z inv hm hv p⟩

example : WF (π := Nat) 0 [.new ⟨-1, -1, 3, 2⟩, .sub 0 ⟨0, 0, 9, 9⟩, .set 1 ⟨1, 1⟩ 7, .set 0 ⟨9, 9⟩ 1] := by
  simp [WF]

open Classical in
/-- a write through a view -/
noncomputable def Spec.SState.write {π : Type} (s : SState π) (w : View) (p : Pt) (v : π) : SState π :=
  ⟨s.nCanvas, fun c q => if c = w.canvas ∧ q = p ∧ w.region p then v else s.canvas c q, s.views⟩

open Classical in
theorem run_sets {π : Type} (z : π) (ws : List (Pt × π)) (s : SState π) (w : View)
    (hv : s.views[0]? = some w) :
    (s.run z (ws.map fun w => .set 0 w.1 w.2)).views = s.views ∧
    ∀ p, (s.run z (ws.map fun w => .set 0 w.1 w.2)).canvas w.canvas p =
      if w.region p then lastWrite (s.canvas w.canvas p) p ws else s.canvas w.canvas p := by
  induction ws generalizing s with
  | nil => simp [SState.run, lastWrite]
  | cons a ws ih =>
    simp only [List.map_cons, SState.run]
    have e : s.step z (.set 0 a.1 a.2) = s.write w a.1 a.2 := by
      simp only [SState.step, hv, SState.write]
    rw [e]
    obtain ⟨h1, h2⟩ := ih (s.write w a.1 a.2) hv
    refine ⟨h1, ?_⟩
    intro p
    rw [h2]
    simp only [SState.write]
    by_cases hr : w.region p
    · simp only [if_pos hr, lastWrite, List.reverse_cons, List.find?_append]
      cases hf : ws.reverse.find? (fun w => decide (w.1 = p)) with
      | some b => simp
      | none =>
        by_cases hp : p = a.1
        · subst hp; simp [hr]
        · simp [hp, Ne.symm hp]
    · simp only [if_neg hr]
      rw [if_neg]
      rintro ⟨-, rfl, h⟩
      exact hr h

/-- **C21**, for one image: after any list of writes a read returns the last value written at that
point, the zero pixel where nothing was written and the zero pixel outside the bounds. -/
theorem C21_last_write {π : Type} (z : π) (r : Rect) (hr : 0 ≤ (r.x1 - r.x0) * (r.y1 - r.y0))
    (ws : List (Pt × π)) :
    ∃ h m, RState.run z ⟨[], []⟩ (.new r :: ws.map fun w => .set 0 w.1 w.2) = some ⟨h, [m]⟩ ∧
      m.rect = r ∧ ∀ p, (inRect r p → Raster.get z h m p = some (lastWrite z p ws)) ∧
        (¬ inRect r p → Raster.get z h m p = some z) := by
  have wf : ∀ ws : List (Pt × π), WF 1 (ws.map fun w => ROp.set 0 w.1 w.2) := by
    intro ws; induction ws with
    | nil => exact trivial
    | cons a ws ih => exact ⟨by omega, ih⟩
  have hw : WF 0 (ROp.new r :: ws.map fun w => ROp.set 0 w.1 w.2) := ⟨hr, wf ws⟩
  obtain ⟨s1, b1, h1, inv1, hw1, -, -, hnew⟩ := step_ok z (inv_init z) _ _ hw
  obtain ⟨s, bases, h2, inv, -, hpre⟩ := run_ok z _ inv1 hw1
  have hv0 : ((SState.init z).step z (.new r)).views[0]? = some ⟨0, inRect r⟩ := rfl
  obtain ⟨e1, e2⟩ := run_sets z ws ((SState.init z).step z (.new r)) ⟨0, inRect r⟩ hv0
  have hl : s.imgs.length = 1 := by rw [inv.ilen, e1]; rfl
  obtain ⟨-, him⟩ := hnew r rfl
  rw [him] at hpre
  have himgs : s.imgs = [⟨0, 0, (r.dx * r.dy).toNat, r.dx, r⟩] := by
    have := hpre.eq_of_length (by simp [hl])
    simpa using this.symm
  refine ⟨s.heap, ⟨0, 0, (r.dx * r.dy).toNat, r.dx, r⟩, ?_, ?_, ?_⟩
  · rw [RState.run, h1, Option.bind_some, h2]
    exact congrArg some (by rw [← himgs])
  · rfl
  · intro p
    have hg := get_ok z inv (i := 0) (m := ⟨0, 0, (r.dx * r.dy).toNat, r.dx, r⟩) (by rw [himgs]; rfl)
      (by rw [e1]; exact hv0) p
    rw [hg]
    unfold View.at
    constructor
    · intro hp
      rw [if_pos hp, e2, if_pos hp]
      simp [SState.step, SState.init]
    · intro hp
      rw [if_neg hp]

example : 0 ≤ ((3 : Int) - (-1)) * (2 - (-1)) := by decide

/-- a value stored by a program, or the zero value -/
theorem canvas_all {π : Type} (z : π) (P : π → Prop) (hz : P z) (ops : List (ROp π))
    (ho : ∀ i p v, ROp.set i p v ∈ ops → P v) (s : SState π) (hs : ∀ c p, P (s.canvas c p)) :
    ∀ c p, P ((s.run z ops).canvas c p) := by
  induction ops generalizing s with
  | nil => exact hs
  | cons op ops ih =>
    rw [SState.run]
    apply ih (fun i p v h => ho i p v (List.mem_cons_of_mem _ h))
    intro c p
    cases op with
    | new r => simp only [SState.step]; split; exact hz; exact hs ..
    | set i q v =>
      simp only [SState.step]
      split
      · exact hs ..
      · dsimp only
        split
        · exact ho i q v (List.mem_cons_self ..)
        · exact hs ..
    | sub i r => simp only [SState.step]; split <;> exact hs ..

theorem paletteIndex_lt (pal : List Color) (c : Color) (h : pal ≠ []) :
    paletteIndex pal c < pal.length := by
  have key : ∀ (vs : List Color) (i ret : Nat) (best : UInt32) (n : Nat), i + vs.length ≤ n →
      ret < n → paletteIndexFrom c vs i ret best < n := by
    intro vs
    induction vs with
    | nil => intro i ret best n _ h; exact h
    | cons v vs ih =>
      intro i ret best n h1 h2
      simp only [List.length_cons] at h1
      unfold paletteIndexFrom
      dsimp only
      split
      · split
        · omega
        · exact ih _ _ _ _ (by omega) (by omega)
      · exact ih _ _ _ _ (by omega) h2
  have : 0 < pal.length := List.length_pos_iff.2 h
  exact key pal 0 0 _ _ (by omega) this

/-- **C21** for `PalettedAlpha.At`: in a program that writes with `Set`, with a palette of 1 to 256
colours, reading the colour of any image at any point does not panic. -/
theorem C21_paletted_at_total (pal : List Color) (h1 : pal ≠ []) (h2 : pal.length ≤ 256)
    (ops : List (ROp IdxPix)) (hw : WF 0 ops)
    (ho : ∀ i p v, ROp.set i p v ∈ ops → ∃ c, v = IdxPix.ofColor pal c) :
    ∃ s, RState.run ⟨0, 0⟩ ⟨[], []⟩ ops = some s ∧
      ∀ (i : Nat) (m : Raster), s.imgs[i]? = some m → ∀ p, ∃ v c,
        Raster.get ⟨0, 0⟩ s.heap m p = some v ∧ v.toColor pal = some c := by
  obtain ⟨s, h, -, hg⟩ := C21_raster_is_map (⟨0, 0⟩ : IdxPix) ops hw
  refine ⟨s, h, ?_⟩
  intro i m hm p
  obtain ⟨w, -, hg⟩ := hg i m hm
  have hlen : 0 < pal.length := List.length_pos_iff.2 h1
  have hall := canvas_all (⟨0, 0⟩ : IdxPix) (fun v => v.i.toNat < pal.length) hlen ops (by
    intro i p v hv
    obtain ⟨c, rfl⟩ := ho i p v hv
    have := paletteIndex_lt pal c h1
    simp only [IdxPix.ofColor, UInt8.toNat_ofNat']
    omega) (SState.init ⟨0, 0⟩) (fun _ _ => hlen)
  have hv : ∀ v : IdxPix, v.i.toNat < pal.length → ∃ c, v.toColor pal = some c := by
    intro v hv
    unfold IdxPix.toColor
    rw [List.getElem?_eq_getElem hv]
    exact ⟨_, rfl⟩
  obtain ⟨c, hc⟩ := hv (w.at ⟨0, 0⟩ ((SState.init ⟨0, 0⟩).run ⟨0, 0⟩ ops) p) (by
    unfold View.at; split
    · exact hall ..
    · exact hlen)
  exact ⟨_, c, hg p, hc⟩

example : ([.gray 0, .gray 255] : List Color) ≠ [] ∧ ([.gray 0, .gray 255] : List Color).length ≤ 256 := by
  decide

/-- **C21** (limit): `SetIndexAlpha` accepts an index outside the palette, and `At` then panics. -/
theorem C21_paletted_index_outside :
    IdxPix.toColor [.gray 0] ⟨1, 255⟩ = none := by decide

/-- the last index of the palette is still fine -/
example : IdxPix.toColor [.gray 0, .gray 9] ⟨1, 255⟩ ≠ none := by decide

/-! ## C22 -/

theorem wf_append {π : Type} (n : Nat) (a b : List (ROp π)) :
    WF n (a ++ b) ↔ WF n a ∧ WF (n + (a.filter fun o => match o with | .set .. => false | _ => true).length) b := by
  induction a generalizing n with
  | nil => simp [WF]
  | cons o a ih =>
    cases o with
    | new r =>
      simp only [List.cons_append, WF, ih, List.filter_cons, if_true, List.length_cons, and_assoc]
      simp only [Nat.add_assoc, Nat.add_comm 1]
    | set i p v =>
      simp only [List.cons_append, WF, ih, List.filter_cons, and_assoc]
      rfl
    | sub i r =>
      simp only [List.cons_append, WF, ih, List.filter_cons, if_true, List.length_cons, and_assoc]
      simp only [Nat.add_assoc, Nat.add_comm 1]

theorem run_append {π : Type} (z : π) (s : RState π) (a b : List (ROp π)) :
    s.run z (a ++ b) = (s.run z a).bind fun s' => s'.run z b := by
  induction a generalizing s with
  | nil => rfl
  | cons o a ih =>
    simp only [List.cons_append, RState.run, Option.bind_assoc]
    congr 1
    funext s'
    exact ih s'

/-- one program, run from a state reached by a well-formed program -/
theorem reach {π : Type} (z : π) (ops : List (ROp π)) (hw : WF 0 ops) (s : RState π)
    (h : RState.run z ⟨[], []⟩ ops = some s) : ∃ t bases, Inv s t bases := by
  obtain ⟨s', bases, h', inv, -⟩ := run_ok z ops (inv_init z) hw
  rw [h] at h'
  injection h' with h'
  subst h'
  exact ⟨_, _, inv⟩

/-- **C22.**  In every state reached by a program, `SubImage r` of image `i` succeeds; its bounds
are the points of `r` in the image, at those points it shows the image's pixel (the zero pixel
elsewhere), and every other image is left as it was. -/
theorem C22_subimage_shows {π : Type} (z : π) (ops : List (ROp π)) (hw : WF 0 ops) (s : RState π)
    (h : RState.run z ⟨[], []⟩ ops = some s) (i : Nat) (m : Raster) (hm : s.imgs[i]? = some m)
    (r : Rect) :
    ∃ m', s.step z (.sub i r) = some ⟨s.heap, s.imgs ++ [m']⟩ ∧
      (∀ p, inRect m'.rect p ↔ inRect r p ∧ inRect m.rect p) ∧
      (∀ p, inRect m'.rect p → Raster.get z s.heap m' p = Raster.get z s.heap m p) ∧
      (∀ p, ¬ inRect m'.rect p → Raster.get z s.heap m' p = some z) := by
  obtain ⟨t, bases, inv⟩ := reach z ops hw s h
  have hi := (List.getElem?_eq_some_iff.1 hm).1
  obtain ⟨w, hv, ok⟩ := inv.img i m hm
  obtain ⟨m', hs, ok'⟩ := sub_ok ok r
  have hstep : s.step z (.sub i r) = some ⟨s.heap, s.imgs ++ [m']⟩ := by
    simp only [RState.step, hm, Option.bind_some, hs]; rfl
  obtain ⟨s1, b1, e1, inv1, -⟩ := step_ok z inv (.sub i r) [] ⟨hi, trivial⟩
  rw [hstep] at e1
  injection e1 with e1
  subst e1
  have hreg : ∀ p, inRect m'.rect p ↔ inRect r p ∧ inRect m.rect p := by
    intro p
    rw [← mem_iff, ok'.region]
    dsimp only
    rw [← ok.region, mem_iff]
  have hvs : (t.step z (.sub i r)).views = t.views ++ [⟨w.canvas, fun p => inRect r p ∧ w.region p⟩] := by
    simp only [SState.step, hv]
  have hcv : (t.step z (.sub i r)).canvas = t.canvas := by simp only [SState.step, hv]
  refine ⟨m', hstep, hreg, ?_, ?_⟩
  · intro p hp
    have g1 := get_ok z inv1 (i := s.imgs.length) (m := m')
      (w := ⟨w.canvas, fun p => inRect r p ∧ w.region p⟩) (by simp)
      (by rw [hvs, inv.ilen]; simp) p
    have g2 := get_ok z inv hm hv p
    dsimp only at g1
    rw [g1, g2]
    have hp' := (hreg p).1 hp
    have hw' : w.region p := by rw [← ok.region, mem_iff]; exact hp'.2
    unfold View.at
    dsimp only
    rw [if_pos hw', if_pos ⟨hp'.1, hw'⟩, hcv]
  · intro p hp
    unfold Raster.get
    rw [if_neg (by rw [mem_iff]; exact hp)]

/-- an image of 4 by 4 pixels and its middle -/
example : ∃ s, RState.run (0 : Nat) ⟨[], []⟩ [.new ⟨0, 0, 4, 4⟩, .set 0 ⟨1, 1⟩ 7, .sub 0 ⟨1, 1, 3, 3⟩] = some s ∧
    s.imgs[1]?.bind (fun m => Raster.get 0 s.heap m ⟨1, 1⟩) = some 7 := ⟨_, rfl, rfl⟩

open Classical in
/-- **C22.**  Images created from the same original (through any nesting of sub-images) share
pixels: a write through image `i` at `p` never panics, changes what image `j` shows at no point
other than `p`, changes nothing if `p` is outside image `i` or the images have different origins,
and is visible in image `j` at `p` otherwise.  Both images show the same pixel wherever both are
defined and they share their origin. -/
theorem C22_write_shared {π : Type} (z : π) (ops : List (ROp π)) (hw : WF 0 ops) (s : RState π)
    (h : RState.run z ⟨[], []⟩ ops = some s) (i j : Nat) (m n : Raster) (hm : s.imgs[i]? = some m)
    (hn : s.imgs[j]? = some n) (wi wj : View)
    (hi : ((SState.init z).run z ops).views[i]? = some wi)
    (hj : ((SState.init z).run z ops).views[j]? = some wj) (p : Pt) (v : π) :
    ∃ heap, s.step z (.set i p v) = some ⟨heap, s.imgs⟩ ∧
      (∀ q, q ≠ p → Raster.get z heap n q = Raster.get z s.heap n q) ∧
      (¬ inRect m.rect p ∨ wi.canvas ≠ wj.canvas →
        Raster.get z heap n p = Raster.get z s.heap n p) ∧
      (inRect m.rect p → wi.canvas = wj.canvas → inRect n.rect p →
        Raster.get z heap n p = some v ∧ Raster.get z heap m p = some v) := by
  obtain ⟨s', bases, h', inv, -⟩ := run_ok z ops (inv_init z) hw
  rw [h] at h'
  injection h' with h'
  subst h'
  have hlt := (List.getElem?_eq_some_iff.1 hm).1
  obtain ⟨s1, b1, e1, inv1, -⟩ := step_ok z inv (.set i p v) [] ⟨hlt, trivial⟩
  generalize (SState.init z).run z ops = t at *
  obtain ⟨wi', hi', oki⟩ := inv.img i m hm
  rw [hi] at hi'; injection hi' with hi'; subst hi'
  obtain ⟨wj', hj', okj⟩ := inv.img j n hn
  rw [hj] at hj'; injection hj' with hj'; subst hj'
  have himgs : s1.imgs = s.imgs := by
    simp only [RState.step, hm, Option.bind_some] at e1
    obtain ⟨hh, -, rfl⟩ := Option.map_eq_some_iff.1 e1
    rfl
  have ht : t.step z (.set i p v) = t.write wi p v := by
    simp only [SState.step, hi, SState.write]
  rw [ht] at inv1
  have gn := get_ok z inv1 (i := j) (m := n) (by rw [himgs]; exact hn) hj
  have gm := get_ok z inv1 (i := i) (m := m) (by rw [himgs]; exact hm) hi
  have gn0 := get_ok z inv hn hj
  have ri : ∀ q, inRect m.rect q ↔ wi.region q := fun q => by rw [← oki.region, mem_iff]
  have rj : ∀ q, inRect n.rect q ↔ wj.region q := fun q => by rw [← okj.region, mem_iff]
  refine ⟨s1.heap, ?_, ?_, ?_, ?_⟩
  · rw [e1, ← himgs]
  · intro q hq
    rw [gn, gn0]
    unfold View.at SState.write
    dsimp only
    have : ¬ (wj.canvas = wi.canvas ∧ q = p ∧ wi.region p) := fun h => hq h.2.1
    rw [if_neg this]
  · intro hc
    rw [gn, gn0]
    unfold View.at SState.write
    dsimp only
    have : ¬ (wj.canvas = wi.canvas ∧ p = p ∧ wi.region p) := by
      rintro ⟨a, -, b⟩
      rcases hc with hc | hc
      · exact hc ((ri p).2 b)
      · exact hc a.symm
    rw [if_neg this]
  · intro a b c
    rw [gn, gm]
    simp only [View.at, SState.write]
    have a' := (ri p).1 a
    have c' := (rj p).1 c
    rw [if_pos c', if_pos a', if_pos ⟨b.symm, trivial, a'⟩, if_pos ⟨trivial, trivial, a'⟩]
    exact ⟨rfl, rfl⟩

/-- The hypotheses of C22 are met by an image and two nested sub-images of it. -/
example : ∃ s, RState.run (0 : Nat) ⟨[], []⟩
      [.new ⟨-1, -1, 3, 2⟩, .sub 0 ⟨0, 0, 9, 9⟩, .sub 1 ⟨1, 1, 2, 2⟩] = some s ∧
    ∃ m n, s.imgs[0]? = some m ∧ s.imgs[2]? = some n ∧ inRect m.rect ⟨1, 1⟩ ∧ inRect n.rect ⟨1, 1⟩ := by
  refine ⟨_, rfl, _, _, rfl, rfl, ?_, ?_⟩ <;> simp [inRect] <;> decide

/-- Images derived from each other have the same canvas: a sub-image has its parent's. -/
theorem C22_subimage_same_origin {π : Type} (z : π) (t : SState π) (i : Nat) (w : View)
    (hv : t.views[i]? = some w) (r : Rect) :
    ∃ w', (t.step z (.sub i r)).views[t.views.length]? = some w' ∧ w'.canvas = w.canvas := by
  refine ⟨⟨w.canvas, fun p => inRect r p ∧ w.region p⟩, ?_, rfl⟩
  simp [SState.step, hv]

example : (⟨1, fun _ _ => 0, [⟨0, fun _ => True⟩]⟩ : SState Nat).views[0]? = some ⟨0, fun _ => True⟩ := rfl

/-! ## C23 -/

/-- **C23**, `RGB`: every pixel of an `RGB` image is opaque, and `Opaque` says so. -/
theorem C23_rgb (l : List RGBPix) (p : RGBPix) :
    rgbOpaque l = true ∧ p.toColor.rgba32.a = 0xffff := by
  refine ⟨rfl, ?_⟩
  simp [RGBPix.toColor, Color.rgba32]

example : rgbOpaque [⟨0, 0, 0⟩, ⟨1, 2, 3⟩] = true ∧ (RGBPix.toColor ⟨1, 2, 3⟩).rgba32.a = 0xffff := by decide

theorem grayOpaque_iff (l : List GrayPix) : grayOpaque l = true ↔ ∀ c ∈ l, c.a = 255 := by
  induction l with
  | nil => simp [grayOpaque]
  | cons c l ih =>
    unfold grayOpaque
    by_cases h : c.a = 255 <;> simp [h, ih]

theorem idxOpaque_iff (l : List IdxPix) : idxOpaque l = true ↔ ∃ c ∈ l, c.a ≠ 255 := by
  induction l with
  | nil => simp [idxOpaque]
  | cons c l ih =>
    unfold idxOpaque
    by_cases h : c.a = 255 <;> simp [h, ih]

/-- every pixel shown by an image is in the range of its slice -/
theorem pix_of_get {π : Type} (z : π) {s : RState π} {t : SState π} {bases : List Rect}
    (inv : Inv s t bases) {i : Nat} {m : Raster} (hm : s.imgs[i]? = some m) {p : Pt}
    (hp : inRect m.rect p) : ∃ v, Raster.get z s.heap m p = some v ∧ v ∈ Raster.pix s.heap m := by
  obtain ⟨w, hv, ok⟩ := inv.img i m hm
  have hg := get_ok z inv hm hv p
  refine ⟨_, hg, ?_⟩
  obtain ⟨b, hb, hc, hpb, hidx, l1, l2⟩ := index_ok ok hp
  have hlt : m.arr < s.heap.length := by
    rw [inv.hlen]; exact (List.getElem?_eq_some_iff.1 hb).1
  have ha := List.getElem?_eq_getElem hlt
  have hval := (inv.arr m.arr b _ hb ha).2 p hpb
  have hr : w.region p := (ok.region p).1 ((mem_iff ..).2 hp)
  unfold View.at Raster.pix
  rw [if_pos hr, ← hc, ha]
  dsimp only [Option.getD_some]
  apply List.mem_of_getElem? (i := (baseIdx b p).toNat - m.off)
  rw [List.getElem?_take_of_lt (by omega), List.getElem?_drop,
    show m.off + ((baseIdx b p).toNat - m.off) = (baseIdx b p).toNat by omega]
  exact hval

/-- **C23**, `GrayAlpha`, half that holds for all images: when `Opaque` answers true every pixel
in the bounds has full alpha. -/
theorem C23_gray_sound (ops : List (ROp GrayPix)) (hw : WF 0 ops) (s : RState GrayPix)
    (h : RState.run ⟨0, 0⟩ ⟨[], []⟩ ops = some s) (i : Nat) (m : Raster) (hm : s.imgs[i]? = some m)
    (ho : grayOpaque (Raster.pix s.heap m) = true) (p : Pt) (hp : inRect m.rect p) :
    ∃ v, Raster.get ⟨0, 0⟩ s.heap m p = some v ∧ v.a = 255 := by
  obtain ⟨t, bases, inv⟩ := reach _ ops hw s h
  obtain ⟨v, hv, hmem⟩ := pix_of_get ⟨0, 0⟩ inv hm hp
  exact ⟨v, hv, (grayOpaque_iff _).1 ho v hmem⟩

example : grayOpaque [⟨3, 255⟩, ⟨0, 255⟩] = true := by decide

/-- every pixel in the slice of a whole image is shown at some point -/
theorem get_of_pix {π : Type} (z : π) (pre post : List (ROp π)) (r : Rect) (hx : r.x0 ≤ r.x1)
    (hw : WF 0 (pre ++ .new r :: post)) (s0 s : RState π)
    (h0 : RState.run z ⟨[], []⟩ pre = some s0)
    (h : RState.run z ⟨[], []⟩ (pre ++ .new r :: post) = some s) :
    ∃ m, s.imgs[s0.imgs.length]? = some m ∧ m.rect = r ∧
      ∀ v ∈ Raster.pix s.heap m, ∃ p, inRect r p ∧ Raster.get z s.heap m p = some v := by
  have hwa := (wf_append 0 pre _).1 hw
  obtain ⟨s0', b0, h0', inv0, -⟩ := run_ok z pre (inv_init z) hwa.1
  rw [h0] at h0'; injection h0' with h0'; subst h0'
  have hcount : ∀ (pre : List (ROp π)) (a s : RState π), a.run z pre = some s →
      s.imgs.length = a.imgs.length + (pre.filter fun o => match o with | .set .. => false | _ => true).length := by
    intro pre
    induction pre with
    | nil => intro a s h; simp only [RState.run] at h; injection h with h; subst h; simp
    | cons o pre ih =>
      intro a s h
      simp only [RState.run] at h
      obtain ⟨s1, e1, e2⟩ := Option.bind_eq_some_iff.1 h
      have := ih _ _ e2
      cases o with
      | new r =>
        simp only [RState.step] at e1
        obtain ⟨x, -, rfl⟩ := Option.map_eq_some_iff.1 e1
        simp only [List.length_append, List.length_cons, List.length_nil] at this
        simp only [List.filter_cons, if_true, List.length_cons]; omega
      | set i p v =>
        simp only [RState.step] at e1
        obtain ⟨m, -, e1⟩ := Option.bind_eq_some_iff.1 e1
        obtain ⟨x, -, rfl⟩ := Option.map_eq_some_iff.1 e1
        simpa [List.filter_cons] using this
      | sub i r =>
        simp only [RState.step] at e1
        obtain ⟨m, -, e1⟩ := Option.bind_eq_some_iff.1 e1
        obtain ⟨x, -, rfl⟩ := Option.map_eq_some_iff.1 e1
        simp only [List.length_append, List.length_cons, List.length_nil] at this
        simp only [List.filter_cons, if_true, List.length_cons]; omega
  have hc := hcount pre _ _ h0
  have hwb : WF s0.imgs.length (.new r :: post) := by
    rw [hc]; exact hwa.2
  obtain ⟨s1, b1, e1, inv1, hw1, -, -, hnew⟩ := step_ok z inv0 _ _ hwb
  obtain ⟨s2, b2, e2, inv2, p2, q2⟩ := run_ok z post inv1 hw1
  have hs : s2 = s := by
    rw [run_append, h0, Option.bind_some, RState.run, e1, Option.bind_some, e2] at h
    injection h
  subst hs
  obtain ⟨hb1, hi1⟩ := hnew r rfl
  have hm : s2.imgs[s0.imgs.length]? = some ⟨b0.length, 0, (r.dx * r.dy).toNat, r.dx, r⟩ := by
    obtain ⟨x, hx⟩ := q2
    rw [← hx, hi1, List.append_assoc, List.getElem?_append_right (Nat.le_refl _)]
    simp
  have hb : b2[b0.length]? = some r := by
    obtain ⟨x, hx⟩ := p2
    rw [← hx, hb1, List.append_assoc, List.getElem?_append_right (Nat.le_refl _)]
    simp
  refine ⟨_, hm, rfl, ?_⟩
  intro v hv
  obtain ⟨w, hvw, ok⟩ := inv2.img _ _ hm
  have hlt : b0.length < s2.heap.length := by
    rw [inv2.hlen]; exact (List.getElem?_eq_some_iff.1 hb).1
  have ha := List.getElem?_eq_getElem hlt
  obtain ⟨k1, k2⟩ := inv2.arr _ r _ hb ha
  unfold Raster.pix at hv
  dsimp only at hv
  rw [ha] at hv
  dsimp only [Option.getD_some] at hv
  rw [List.drop_zero] at hv
  obtain ⟨k, hk⟩ := List.mem_iff_getElem?.1 (List.mem_of_mem_take hv)
  have hkl := (List.getElem?_eq_some_iff.1 hk).1
  obtain ⟨p, hp, hpk⟩ := baseIdx_surj (b := r) (k := (k : Int)) hx (by omega) (by omega)
  refine ⟨p, hp, ?_⟩
  obtain ⟨b', g1, g2, g3, g4, -, -⟩ := index_ok ok (p := p) hp
  dsimp only at g1
  rw [hb] at g1; injection g1 with g1; subst g1
  unfold Raster.get
  rw [if_pos ((mem_iff ..).2 hp), g4]
  dsimp only
  rw [ha, Option.bind_some, hpk]
  exact hk

/-- **C23**, `GrayAlpha`, images made by `NewGrayAlpha` (whatever was drawn on them, directly or
through sub-images): `Opaque` is true exactly when every pixel in the bounds has full alpha. -/
theorem C23_gray_whole (pre post : List (ROp GrayPix)) (r : Rect) (hx : r.x0 ≤ r.x1)
    (hw : WF 0 (pre ++ .new r :: post)) (s0 s : RState GrayPix)
    (h0 : RState.run ⟨0, 0⟩ ⟨[], []⟩ pre = some s0)
    (h : RState.run ⟨0, 0⟩ ⟨[], []⟩ (pre ++ .new r :: post) = some s) :
    ∃ m, s.imgs[s0.imgs.length]? = some m ∧ m.rect = r ∧
      (grayOpaque (Raster.pix s.heap m) = true ↔
        ∀ p, inRect r p → ∃ v, Raster.get ⟨0, 0⟩ s.heap m p = some v ∧ v.a = 255) := by
  obtain ⟨m, hm, hr, hall⟩ := get_of_pix ⟨0, 0⟩ pre post r hx hw s0 s h0 h
  refine ⟨m, hm, hr, ?_, ?_⟩
  · intro ho p hp
    exact C23_gray_sound _ hw s h _ m hm ho p (by rw [hr]; exact hp)
  · intro ho
    rw [grayOpaque_iff]
    intro c hc
    obtain ⟨p, hp, hg⟩ := hall c hc
    obtain ⟨v, hv, hv2⟩ := ho p hp
    rw [hg] at hv; injection hv with hv; subst hv
    exact hv2

example : WF (π := GrayPix) 0 ([.new ⟨0, 0, 1, 1⟩] ++ .new ⟨-1, 0, 0, 1⟩ :: [.set 1 ⟨-1, 0⟩ ⟨9, 255⟩]) := by
  simp [WF]

/-- **C23** is false of `GrayAlpha` sub-images: `Opaque` scans the whole rest of the pixel array, so
an opaque pixel's sub-image is reported not opaque because of pixels outside it. -/
theorem C23_gray_subimage_refuted :
    ∃ s m, RState.run (⟨0, 0⟩ : GrayPix) ⟨[], []⟩
        [.new ⟨0, 0, 2, 1⟩, .set 0 ⟨0, 0⟩ ⟨9, 255⟩, .sub 0 ⟨0, 0, 1, 1⟩] = some s ∧
      s.imgs[1]? = some m ∧ m.rect = ⟨0, 0, 1, 1⟩ ∧
      (∀ p, inRect m.rect p → Raster.get ⟨0, 0⟩ s.heap m p = some ⟨9, 255⟩) ∧
      grayOpaque (Raster.pix s.heap m) = false := by
  refine ⟨⟨[[⟨9, 255⟩, ⟨0, 0⟩]], [⟨0, 0, 2, 2, ⟨0, 0, 2, 1⟩⟩, ⟨0, 0, 2, 2, ⟨0, 0, 1, 1⟩⟩]⟩,
    ⟨0, 0, 2, 2, ⟨0, 0, 1, 1⟩⟩, rfl, rfl, rfl, ?_, by decide⟩
  rintro ⟨x, y⟩ ⟨h1, h2, h3, h4⟩
  have e1 : x = 0 := by simp at h1 h2; omega
  have e2 : y = 0 := by simp at h3 h4; omega
  subst e1 e2
  decide

/-- **C23** is false of `PalettedAlpha` images: one opaque pixel, `Opaque` answers false. -/
theorem C23_paletted_refuted :
    ∃ s m, RState.run (⟨0, 0⟩ : IdxPix) ⟨[], []⟩ [.new ⟨0, 0, 1, 1⟩, .set 0 ⟨0, 0⟩ ⟨0, 255⟩] = some s ∧
      s.imgs[0]? = some m ∧
      (∀ p, inRect m.rect p → Raster.get ⟨0, 0⟩ s.heap m p = some ⟨0, 255⟩) ∧
      idxOpaque (Raster.pix s.heap m) = false := by
  refine ⟨⟨[[⟨0, 255⟩]], [⟨0, 0, 1, 1, ⟨0, 0, 1, 1⟩⟩]⟩, ⟨0, 0, 1, 1, ⟨0, 0, 1, 1⟩⟩, rfl, rfl, ?_,
    by decide⟩
  rintro ⟨x, y⟩ ⟨h1, h2, h3, h4⟩
  have e1 : x = 0 := by simp at h1 h2; omega
  have e2 : y = 0 := by simp at h3 h4; omega
  subst e1 e2
  decide

/-- **C23**, what `PalettedAlpha.Opaque` computes: on every image made by `NewPalettedAlpha` the
exact negation of the property. -/
theorem C23_paletted_inverted (pre post : List (ROp IdxPix)) (r : Rect) (hx : r.x0 ≤ r.x1)
    (hw : WF 0 (pre ++ .new r :: post)) (s0 s : RState IdxPix)
    (h0 : RState.run ⟨0, 0⟩ ⟨[], []⟩ pre = some s0)
    (h : RState.run ⟨0, 0⟩ ⟨[], []⟩ (pre ++ .new r :: post) = some s) :
    ∃ m, s.imgs[s0.imgs.length]? = some m ∧ m.rect = r ∧
      (idxOpaque (Raster.pix s.heap m) = true ↔
        ¬ ∀ p, inRect r p → ∃ v, Raster.get ⟨0, 0⟩ s.heap m p = some v ∧ v.a = 255) := by
  obtain ⟨m, hm, hr, hall⟩ := get_of_pix ⟨0, 0⟩ pre post r hx hw s0 s h0 h
  obtain ⟨t, bases, inv⟩ := reach _ _ hw s h
  refine ⟨m, hm, hr, ?_⟩
  rw [idxOpaque_iff]
  constructor
  · rintro ⟨c, hc, hne⟩ hf
    obtain ⟨p, hp, hg⟩ := hall c hc
    obtain ⟨v, hv, hv2⟩ := hf p hp
    rw [hg] at hv; injection hv with hv; subst hv
    exact hne hv2
  · intro hn
    by_contra hcon
    apply hn
    intro p hp
    obtain ⟨v, hv, hmem⟩ := pix_of_get (⟨0, 0⟩ : IdxPix) inv hm (by rw [hr]; exact hp)
    refine ⟨v, hv, ?_⟩
    by_contra hne
    exact hcon ⟨v, hmem, hne⟩

example : WF (π := IdxPix) 0 ([] ++ .new ⟨0, 0, 1, 1⟩ :: [.set 0 ⟨0, 0⟩ ⟨0, 255⟩]) := by simp [WF]

end Limage
