import Verif.Proofs.OraExample
import Verif.Spec.Png
/-!
# A library that keeps pixels

A PNG library for which the assumptions of the theorems about pixels in OpenRaster files hold: it stores the pixels of images with an ordinary colour
model with 16 bits per channel and alpha, and grey images as such, and refuses all other images.
-/
namespace Limage
open Spec

/-- the bytes of a colour -/
def pixBytes (c : NRGBA64) : Bytes :=
  [(c.r >>> 8).toUInt8, c.r.toUInt8, (c.g >>> 8).toUInt8, c.g.toUInt8, (c.b >>> 8).toUInt8, c.b.toUInt8, (c.a >>> 8).toUInt8, c.a.toUInt8]

/-- colours, so that their end can be found -/
def encPix : List NRGBA64 → Bytes
  | [] => [0]
  | c :: cs => 1 :: (pixBytes c ++ encPix cs)

theorem high_low {x y : UInt16} (h1 : (x >>> 8).toUInt8 = (y >>> 8).toUInt8) (h2 : x.toUInt8 = y.toUInt8) : x = y := by
  apply UInt16.toNat_inj.1
  have e1 := congrArg UInt8.toNat h1
  have e2 := congrArg UInt8.toNat h2
  have hx := x.toNat_lt
  have hy := y.toNat_lt
  rw [UInt16.toNat_toUInt8, UInt16.toNat_toUInt8, UInt16.toNat_shiftRight, UInt16.toNat_shiftRight] at e1
  rw [UInt16.toNat_toUInt8, UInt16.toNat_toUInt8] at e2
  have e8 : (8 : UInt16).toNat % 16 = 8 := rfl
  rw [e8, Nat.shiftRight_eq_div_pow, Nat.shiftRight_eq_div_pow] at e1
  omega

theorem encPix_inj : ∀ {s t : List NRGBA64}, encPix s = encPix t → s = t
  | [], [], _ => rfl
  | [], _ :: _, h => by injection h with h _; exact absurd h (by decide)
  | _ :: _, [], h => by injection h with h _; exact absurd h (by decide)
  | ⟨r, g, b, a⟩ :: s, ⟨r', g', b', a'⟩ :: t, h => by
    injection h with _ h
    have h : _ :: _ :: _ :: _ :: _ :: _ :: _ :: _ :: encPix s = _ :: _ :: _ :: _ :: _ :: _ :: _ :: _ :: encPix t := h
    injection h with h1 h
    injection h with h2 h
    injection h with h3 h
    injection h with h4 h
    injection h with h5 h
    injection h with h6 h
    injection h with h7 h
    injection h with h8 h
    have e1 : r = r' := high_low h1 h2
    have e2 : g = g' := high_low h3 h4
    have e3 : b = b' := high_low h5 h6
    have e4 : a = a' := high_low h7 h8
    rw [e1, e2, e3, e4, encPix_inj h]

/-- a number for each format -/
def kindByte : PngKind → UInt8
  | .g8 => 0
  | .g16 => 1
  | .tc8 => 2
  | .tca8 => 3
  | .tc16 => 4
  | .tca16 => 5

/-- the format, the size and the pixels of an image -/
def encPic (s : PngKind × Nat × Nat × List NRGBA64) : Bytes := kindByte s.1 :: (encB (itoa s.2.1) ++ (encB (itoa s.2.2.1) ++ encPix s.2.2.2))

theorem encPic_inj {s t : PngKind × Nat × Nat × List NRGBA64} (h : encPic s = encPic t) : s = t := by
  injection h with h0 h
  obtain ⟨h1, h2⟩ := encB_inj h
  obtain ⟨h3, h4⟩ := encB_inj h2
  have a := (itoa_nat s.2.1).2.2
  have b := (itoa_nat s.2.2.1).2.2
  rw [h1, (itoa_nat t.2.1).2.2] at a
  rw [h3, (itoa_nat t.2.2.1).2.2] at b
  obtain ⟨s0, s1, s2, s3⟩ := s
  obtain ⟨t0, t1, t2, t3⟩ := t
  have a : t1 = s1 := a
  have b : t2 = s2 := b
  have c : s3 = t3 := encPix_inj h4
  have d : s0 = t0 := by
    have h0 : kindByte s0 = kindByte t0 := h0
    revert h0
    cases s0 <;> cases t0 <;> decide
  rw [a, b, c, d]

/-- the points of an image of a given size -/
def gridPts (w h : Nat) : List Pt := (List.range h).flatMap fun (y : Nat) => (List.range w).map fun (x : Nat) => ⟨x, y⟩

theorem mem_gridPts {w h : Nat} {q : Pt} : q ∈ gridPts w h ↔ Rect.mem q ⟨0, 0, w, h⟩ = true := by
  unfold gridPts Rect.mem
  simp only [List.mem_flatMap, List.mem_map, List.mem_range, Bool.and_eq_true, decide_eq_true_eq]
  constructor
  · rintro ⟨y, hy, x, hx, rfl⟩
    dsimp only
    omega
  · rintro hq
    refine ⟨q.y.toNat, by omega, q.x.toNat, by omega, ?_⟩
    obtain ⟨x, y⟩ := q
    dsimp only at *
    rw [Int.toNat_of_nonneg (by omega), Int.toNat_of_nonneg (by omega)]

/-- what is stored of a colour -/
def kept (k : PngKind) (c : Color) : NRGBA64 :=
  match k with
  | .g8 => ⟨(grayModel c).toUInt16, 0, 0, 0⟩
  | .g16 => ⟨gray16Model c, 0, 0, 0⟩
  | .tc16 => ⟨c.rgba32.r.toUInt16, c.rgba32.g.toUInt16, c.rgba32.b.toUInt16, 0xffff⟩
  | .tca8 => ⟨(nrgbaModel c).1.toUInt16, (nrgbaModel c).2.1.toUInt16, (nrgbaModel c).2.2.1.toUInt16, (nrgbaModel c).2.2.2.toUInt16⟩
  | _ => nrgba64Model c

/-- what is read of it -/
def keptColor (k : PngKind) (c : NRGBA64) : Color :=
  match k with
  | .g8 => .gray c.r.toUInt8
  | .g16 => .gray16 c.r
  | .tc16 => .rgba64 c.r c.g c.b c.a
  | .tca8 => .nrgba c.r.toUInt8 c.g.toUInt8 c.b.toUInt8 c.a.toUInt8
  | _ => .nrgba64 c

/-- the pixels of an image, if all can be looked at -/
def gridOf (k : PngKind) (i : Img) (b : Rect) : Option (List NRGBA64) :=
  (gridPts b.dx.toNat b.dy.toNat).mapM fun q => (i.at (fun _ => 0) ⟨b.x0 + q.x, b.y0 + q.y⟩ 0).map fun c => kept k c.1

/-- the picture that is read -/
def picOf (s : PngKind × Nat × Nat × List NRGBA64) : Leaf :=
  ⟨⟨0, 0, s.2.1, s.2.2.1⟩, s.1.model, fun q => (s.2.2.2[(gridPts s.2.1 s.2.2.1).idxOf q]?).map (keptColor s.1)⟩

open Classical in
/-- without writing PNG files -/
noncomputable def pixEnv₀ : OraEnv :=
  { libEnv₀ with decodeImage := fun d => if h : ∃ s, encPic s = d then some (picOf h.choose) else none }

/-- the colour model is an ordinary one, and no palette -/
def Direct (i : Img) : Prop :=
  match i.colorModel with
  | some .other => True
  | some .gray => True
  | some .gray16 => True
  | some (.alphaPalette _) => True
  | _ => False

instance (i : Img) : Decidable (Direct i) := by
  unfold Direct
  split <;> infer_instance

/-- the format used for an image -/
def kindOf (drops : Img → Bool) (i : Img) : PngKind :=
  match i.colorModel with
  | some .gray => .g8
  | some .gray16 => .g16
  | _ => if drops i then .tc16 else .tca16

/-- images with an ordinary colour model are written with their pixels, thumbnails and layers without -/
noncomputable def pixPng (drops : Img → Bool) (p : Pic) : OraRes Bytes :=
  match p.bounds pixEnv₀ with
  | none => .panic
  | some b =>
    if 0 < b.dx ∧ 0 < b.dy then
      match p with
      | .full (.image i) =>
        if Direct i then
          match gridOf (kindOf drops i) i b with
          | some cs => .ok (encPic (kindOf drops i, b.dx.toNat, b.dy.toNat, cs))
          | none => .panic
        else .err .size
      | _ => .ok (encPic (.tca16, b.dx.toNat, b.dy.toNat, []))
    else .err .size

/-- a library as it is assumed to be; it drops the alpha of some images -/
noncomputable def pixEnv (drops : Img → Bool) : OraEnv := { pixEnv₀ with png := pixPng drops }

theorem pixEnv_bounds (drops : Img → Bool) (p : Pic) : p.bounds (pixEnv drops) = p.bounds pixEnv₀ := by cases p <;> rfl

theorem pixEnv_decode (drops : Img → Bool) (s : PngKind × Nat × Nat × List NRGBA64) : (pixEnv drops).decodeImage (encPic s) = some (picOf s) := by
  have hs : ∃ t, encPic t = encPic s := ⟨_, rfl⟩
  have : (pixEnv drops).decodeImage (encPic s) = some (picOf hs.choose) := dif_pos hs
  rw [this, encPic_inj hs.choose_spec]

theorem pixEnv_png {drops : Img → Bool} {p : Pic} {d : Bytes} (h : (pixEnv drops).png p = .ok d) : ∃ b k cs, p.bounds (pixEnv drops) = some b ∧ 0 < b.dx ∧
    0 < b.dy ∧ d = encPic (k, b.dx.toNat, b.dy.toNat, cs) ∧ ∀ i, p = .full (.image i) → Direct i ∧ k = kindOf drops i ∧ gridOf k i b = some cs := by
  rw [pixEnv_bounds]
  have h : pixPng drops p = OraRes.ok d := h
  unfold pixPng at h
  cases hb : p.bounds pixEnv₀ with
  | none => rw [hb] at h; cases h
  | some b =>
    rw [hb] at h
    dsimp only at h
    split at h
    · next h0 =>
      split at h
      · next i =>
        split at h
        · next hc =>
          split at h
          · next cs hcs =>
            cases h
            exact ⟨b, _, cs, rfl, h0.1, h0.2, rfl, fun i' hi => by cases hi; exact ⟨hc, rfl, hcs⟩⟩
          · cases h
        · cases h
      · next hn =>
        cases h
        exact ⟨b, _, [], rfl, h0.1, h0.2, rfl, fun i hi => absurd hi (hn i)⟩
    · cases h

theorem pixEnv_lib (drops : Img → Bool) : OraLib (pixEnv drops) where
  xml := libEnv_lib.xml
  png p d h := by
    obtain ⟨b, drop, cs, h1, h2, h3, rfl, -⟩ := pixEnv_png h
    refine ⟨b, h1, h2, h3, fun _ _ => ⟨_, pixEnv_decode _ _, ?_⟩⟩
    show (⟨0, 0, (b.dx.toNat : Int), (b.dy.toNat : Int)⟩ : Rect) = _
    rw [Int.toNat_of_nonneg (by omega), Int.toNat_of_nonneg (by omega)]
  format := libEnv_lib.format

theorem mapM_getElem? {α β : Type} (f : α → Option β) : ∀ {xs : List α} {ys : List β}, xs.mapM f = some ys →
    ∀ (k : Nat) (x : α), xs[k]? = some x → ∃ y, f x = some y ∧ ys[k]? = some y
  | [], _, _, _, _, hx => by simp at hx
  | a :: xs, ys, h, k, x, hx => by
    rw [List.mapM_cons] at h
    cases hf : f a with
    | none => rw [hf] at h; cases h
    | some y =>
      rw [hf] at h
      cases hm : xs.mapM f with
      | none => rw [hm] at h; cases h
      | some zs =>
        rw [hm] at h
        have h : some (y :: zs) = some ys := h
        cases h
        cases k with
        | zero =>
          simp only [List.getElem?_cons_zero, Option.some.injEq] at hx
          subst hx
          exact ⟨y, hf, rfl⟩
        | succ k =>
          simp only [List.getElem?_cons_succ] at hx ⊢
          exact mapM_getElem? f hm k x hx

theorem pixEnv_pixels (drops : Img → Bool) : PngPixels (pixEnv drops) (fun _ => 0) (kindOf drops) := by
  intro i d L b cm hd hL hb hcm _
  obtain ⟨b', drop, cs, h1, h2, h3, rfl, h4⟩ := pixEnv_png hd
  have h1 : i.bounds = some b' := h1
  rw [hb] at h1
  cases h1
  rw [pixEnv_decode] at hL
  cases hL
  obtain ⟨h5, rfl, h6⟩ := h4 i rfl
  unfold Direct at h5
  rw [hcm] at h5
  have hk : kindOf drops i ∈ pngKinds cm ∧ (kindOf drops i = .g8 ∨ kindOf drops i = .g16 ∨ kindOf drops i = .tc16 ∨ kindOf drops i = .tca16) := by
    unfold kindOf
    rw [hcm]
    cases cm <;> first | exact h5.elim | (cases drops i <;> simp [pngKinds])
  obtain ⟨hk1, hk2⟩ := hk
  generalize kindOf drops i = k at *
  refine ⟨?_, ?_, fun q hq => ?_⟩
  · exact hk1
  · rfl
  have hmem : q ∈ gridPts b.dx.toNat b.dy.toNat := mem_gridPts.2 hq
  obtain ⟨y, e1, e2⟩ := mapM_getElem? _ h6 _ q (List.getElem?_eq_some_iff.2 ⟨List.idxOf_lt_length_of_mem hmem, List.getElem_idxOf _⟩)
  rw [Option.map_eq_some_iff] at e1
  obtain ⟨⟨c, n'⟩, e3, e4⟩ := e1
  refine ⟨0, n', c, e3, ?_⟩
  show (cs[(gridPts b.dx.toNat b.dy.toNat).idxOf q]?).map (keptColor k) = _
  rw [e2, ← e4]
  rcases hk2 with rfl | rfl | rfl | rfl
  · show some (Color.gray _) = some (Color.gray _)
    rw [show (kept .g8 c).r = (grayModel c).toUInt16 from rfl, UInt8.toUInt8_toUInt16]
  all_goals rfl

/-! ### An image -/

/-- a picture of a given size, with a given colour -/
def plain (w h : Int) (c : Color) : Leaf := ⟨⟨0, 0, w, h⟩, .other, fun _ => some c⟩

/-- a translucent layer in the middle, on a group at the origin with a hidden layer -/
def pixelTree : List Layer :=
  [⟨lit "a", ⟨1, 1, 3, 2⟩, Mode.screen, false, 0, .leaf (plain 2 1 (.nrgba64 ⟨1, 2, 30000, 40000⟩))⟩,
    ⟨[], ⟨0, 0, 3, 2⟩, Mode.normal, false, 0, .group [⟨lit "b", ⟨0, 0, 3, 2⟩, Mode.multiply, true, 0, .leaf (plain 3 2 (.lrgb 7 8 9))⟩,
      ⟨lit "c", ⟨0, 0, 3, 2⟩, Mode.normal, false, 0, .leaf (plain 3 2 (.rgba 70 8 9 255))⟩]⟩]

theorem pixelTree_written : ∃ es, oraEncode (pixEnv fun _ => false) (fun _ => false) false (.image (.group pixelTree)) = .ok ⟨none, some es⟩ := ⟨_, rfl⟩

theorem plain_readably (w h : Int) (c : Color) (hw : w < 2 ^ 31) (hh : h < 2 ^ 31) : Readably (.leaf (plain w h c)) := fun b hb => by
  cases hb
  simp [plain, Rect.dx, Rect.dy]
  omega

theorem pixelTree_leaves : leavesAll pixelTree = [.leaf (plain 2 1 (.nrgba64 ⟨1, 2, 30000, 40000⟩)), .leaf (plain 3 2 (.lrgb 7 8 9)),
    .leaf (plain 3 2 (.rgba 70 8 9 255))] := rfl

theorem pixelTree_readable : ∀ i ∈ leavesAll pixelTree, Readably i := by
  rw [pixelTree_leaves]
  intro i hi
  simp only [List.mem_cons, List.not_mem_nil, or_false] at hi
  rcases hi with rfl | rfl | rfl <;> exact plain_readably _ _ _ (by decide) (by decide)

end Limage
