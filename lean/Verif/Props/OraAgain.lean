import Verif.Props.OraPixels
/-!
# C112: saving again as OpenRaster what was loaded
-/
namespace Limage
open Spec

/-! ### Names -/

theorem decodeRune_take {s : Bytes} {w c : Nat} (h : decodeRune s = some (w, c)) : s.take w = encNat c ∧ c.isValidChar ∧ 0 < w := by
  unfold decodeRune at h
  split at h
  · cases h
  next b0 s =>
  have h0 := b0.toNat_lt
  by_cases c1 : b0 < 0x80
  · rw [if_pos c1] at h
    cases h
    have c1 : b0.toNat < 128 := c1
    refine ⟨?_, .inl (by omega), by omega⟩
    unfold encNat
    rw [if_pos (by omega)]
    simp
  rw [if_neg c1] at h
  have c1 : ¬ b0.toNat < 128 := c1
  by_cases c2 : b0 < 0xc2
  · rw [if_pos c2] at h; cases h
  rw [if_neg c2] at h
  have c2 : ¬ b0.toNat < 194 := c2
  by_cases c3 : b0 < 0xe0
  · rw [if_pos c3] at h
    have c3 : b0.toNat < 224 := c3
    split at h
    · next b1 s =>
      split at h
      · next hb =>
        cases h
        have g1 : 128 ≤ b1.toNat := hb.1
        have g2 : b1.toNat ≤ 191 := hb.2
        refine ⟨?_, .inl (by omega), by omega⟩
        unfold encNat
        rw [if_neg (by omega), if_pos (by omega), u8_eq (x := b0) (by omega), u8_eq (x := b1) (by omega)]
        rfl
      · cases h
    · cases h
  rw [if_neg c3] at h
  have c3 : ¬ b0.toNat < 224 := c3
  by_cases c4 : b0 < 0xf0
  · rw [if_pos c4] at h
    have c4 : b0.toNat < 240 := c4
    split at h
    · next b1 b2 s =>
      by_cases hb : (if b0 = 0xe0 then 0xa0 else 0x80) ≤ b1 ∧ b1 ≤ (if b0 = 0xed then 0x9f else 0xbf) ∧ 0x80 ≤ b2 ∧ b2 ≤ 0xbf
      · rw [if_pos hb] at h
        cases h
        obtain ⟨g1, g2, g3, g4⟩ := hb
        have g3 : 128 ≤ b2.toNat := g3
        have g4 : b2.toNat ≤ 191 := g4
        have g1 : (if b0.toNat = 224 then 160 else 128) ≤ b1.toNat := by
          by_cases hb : b0 = 0xe0
          · rw [if_pos hb] at g1; rw [if_pos (by rw [hb]; rfl)]; exact g1
          · rw [if_neg hb] at g1; rw [if_neg (fun h : b0.toNat = 224 => hb (UInt8.toNat_inj.1 h))]; exact g1
        have g2 : b1.toNat ≤ (if b0.toNat = 237 then 159 else 191) := by
          by_cases hb : b0 = 0xed
          · rw [if_pos hb] at g2; rw [if_pos (by rw [hb]; rfl)]; exact g2
          · rw [if_neg hb] at g2; rw [if_neg (fun h : b0.toNat = 237 => hb (UInt8.toNat_inj.1 h))]; exact g2
        have hlo : 160 ≤ b1.toNat ∨ 225 ≤ b0.toNat ∧ 128 ≤ b1.toNat := by split at g1 <;> omega
        have hhi : b1.toNat ≤ 159 ∨ b0.toNat ≠ 237 ∧ b1.toNat ≤ 191 := by split at g2 <;> omega
        clear g1 g2
        refine ⟨?_, ?_, by omega⟩
        · unfold encNat
          rw [if_neg (by omega), if_neg (by omega), if_pos (by omega), u8_eq (x := b0) (by omega), u8_eq (x := b1) (by omega),
            u8_eq (x := b2) (by omega)]
          rfl
        · unfold Nat.isValidChar
          omega
      · rw [if_neg hb] at h; cases h
    · cases h
  rw [if_neg c4] at h
  have c4 : ¬ b0.toNat < 240 := c4
  by_cases c5 : b0 < 0xf5
  · rw [if_pos c5] at h
    have c5 : b0.toNat < 245 := c5
    split at h
    · next b1 b2 b3 s =>
      by_cases hb : (if b0 = 0xf0 then 0x90 else 0x80) ≤ b1 ∧ b1 ≤ (if b0 = 0xf4 then 0x8f else 0xbf) ∧
          0x80 ≤ b2 ∧ b2 ≤ 0xbf ∧ 0x80 ≤ b3 ∧ b3 ≤ 0xbf
      · rw [if_pos hb] at h
        cases h
        obtain ⟨g1, g2, g3, g4, g5, g6⟩ := hb
        have g3 : 128 ≤ b2.toNat := g3
        have g4 : b2.toNat ≤ 191 := g4
        have g5 : 128 ≤ b3.toNat := g5
        have g6 : b3.toNat ≤ 191 := g6
        have g1 : (if b0.toNat = 240 then 144 else 128) ≤ b1.toNat := by
          by_cases hb : b0 = 0xf0
          · rw [if_pos hb] at g1; rw [if_pos (by rw [hb]; rfl)]; exact g1
          · rw [if_neg hb] at g1; rw [if_neg (fun h : b0.toNat = 240 => hb (UInt8.toNat_inj.1 h))]; exact g1
        have g2 : b1.toNat ≤ (if b0.toNat = 244 then 143 else 191) := by
          by_cases hb : b0 = 0xf4
          · rw [if_pos hb] at g2; rw [if_pos (by rw [hb]; rfl)]; exact g2
          · rw [if_neg hb] at g2; rw [if_neg (fun h : b0.toNat = 244 => hb (UInt8.toNat_inj.1 h))]; exact g2
        have hlo : 144 ≤ b1.toNat ∨ 241 ≤ b0.toNat ∧ 128 ≤ b1.toNat := by split at g1 <;> omega
        have hhi : b1.toNat ≤ 143 ∨ b0.toNat ≠ 244 ∧ b1.toNat ≤ 191 := by split at g2 <;> omega
        clear g1 g2
        refine ⟨?_, ?_, by omega⟩
        · unfold encNat
          rw [if_neg (by omega), if_neg (by omega), if_neg (by omega), u8_eq (x := b0) (by omega), u8_eq (x := b1) (by omega),
            u8_eq (x := b2) (by omega), u8_eq (x := b3) (by omega)]
          rfl
        · unfold Nat.isValidChar
          omega
      · rw [if_neg hb] at h; cases h
    · cases h
  · rw [if_neg c5] at h; cases h

theorem xmlClean_text (f : Nat) : ∀ s : Bytes, XmlText (xmlClean f s) := by
  have hnil : XmlText [] := ⟨[], rfl, fun c hc => by cases hc⟩
  have hcons : ∀ {v : Nat} {t : Bytes}, v.isValidChar → xmlChar v = true → XmlText t → XmlText (encNat v ++ t) := by
    rintro v t hv hx ⟨cs, rfl, hcs⟩
    refine ⟨Char.ofNatAux v hv :: cs, ?_, ?_⟩
    · rw [List.flatMap_cons, enc_char]
      rfl
    · intro c hc
      rcases List.mem_cons.1 hc with rfl | hc
      · have e : (Char.ofNatAux v hv).val.toNat = v := rfl
        rw [e]
        unfold xmlChar at hx
        simp only [Bool.or_eq_true, Bool.and_eq_true, decide_eq_true_eq] at hx
        dsimp only
        omega
      · exact hcs c hc
  have hbad : ∀ {t : Bytes}, XmlText t → XmlText ([0xef, 0xbf, 0xbd] ++ t) := fun {t} ht => by
    have := hcons (v := 0xfffd) (.inr (by omega)) (by decide) ht
    exact this
  induction f with
  | zero => intro s; unfold xmlClean; exact hnil
  | succ f ih =>
    intro s
    cases s with
    | nil => unfold xmlClean; exact hnil
    | cons b s =>
      unfold xmlClean
      cases hd : decodeRune (b :: s) with
      | none => exact hbad (ih s)
      | some x =>
        obtain ⟨w, c⟩ := x
        obtain ⟨h1, h2, -⟩ := decodeRune_take hd
        dsimp only
        by_cases hx : xmlChar c = true
        · rw [if_pos hx, h1]
          exact hcons h2 hx (ih _)
        · rw [if_neg hx]
          exact hbad (ih _)

/-- what was read from XML is read again as it is -/
theorem xmlBack_idem (s : Bytes) : xmlBack (xmlBack s) = xmlBack s := xmlBack_text (xmlClean_text _ s)

/-! ### Pixels -/

/-- the formats in which an image that was read from a file of a format is written: with the same number of bits, grey if it was grey -/
def Spec.PngKind.again : PngKind → List PngKind
  | .g8 => [.g8]
  | .g16 => [.g16]
  | .tc8 | .tca8 => [.tc8, .tca8]
  | .tc16 | .tca16 => [.tc16, .tca16]

/-- Images that `image.Decode` has read from files that `png.Encode` has written are written again in a format with as many bits, and the `Opaque` methods
of these images (`image.Gray`, `image.Gray16`, `image.RGBA`, `image.NRGBA`, `image.RGBA64` and `image.NRGBA64`) are right. -/
def Spec.Rereads (env : OraEnv) (kind : Img → PngKind) : Prop :=
  ∀ i d L, env.png (.full (.image i)) = .ok d → env.decodeImage d = some L → kind (.leaf L) ∈ (kind i).again ∧ TellsOpaque kind (.leaf L)

theorem opaque64_rgba (n : NRGBA64) (h : n.a = 0xffff) : n.rgba = ⟨n.r.toUInt32, n.g.toUInt32, n.b.toUInt32, 0xffff⟩ := by
  have hx : ∀ x : UInt16, x.toUInt32 * (0xffff : UInt16).toUInt32 / 0xffff = x.toUInt32 := by
    intro x
    apply UInt32.toNat_inj.1
    have := x.toNat_lt
    rw [UInt32.toNat_div, UInt32.toNat_mul, UInt16.toNat_toUInt32, show (0xffff : UInt16).toUInt32.toNat = 65535 from rfl,
      show (0xffff : UInt32).toNat = 65535 from rfl, Nat.mod_eq_of_lt (by omega)]
    omega
  unfold NRGBA64.rgba
  rw [h, hx, hx, hx]
  rfl

theorem back_again {k k' : PngKind} (h : k' ∈ k.again) (c : Color) (hd : k'.drops = true → (k.back c).rgba32.a = 0xffff) :
    (k'.back (k.back c)).toNRGBA = (k.back c).toNRGBA := by
  have h8 : ∀ r g b : UInt8, Opaque8 (Color.rgba r g b 255).rgba32 r g b := fun r g b => ⟨widen32_nat _, widen32_nat _, widen32_nat _, rfl⟩
  have hn : ∀ r g b : UInt8, Opaque8 (Color.nrgba r g b 255).rgba32 r g b := fun r g b => by
    rw [nrgba_opaque]
    exact ⟨widen32_nat _, widen32_nat _, widen32_nat _, rfl⟩
  have h16 : ∀ x : UInt16, x.toUInt32.toUInt16 = x := fun x => UInt16.toUInt16_toUInt32 x
  cases k with
  | g8 => cases List.mem_singleton.1 h; rfl
  | g16 => cases List.mem_singleton.1 h; rfl
  | tc8 =>
    have h : k' = .tc8 ∨ k' = .tca8 := by simpa [PngKind.again] using h
    exact back_opaque8 k' _ (h8 _ _ _) (fun hk => by rcases h with rfl | rfl <;> cases hk)
  | tca8 =>
    have h : k' = .tc8 ∨ k' = .tca8 := by simpa [PngKind.again] using h
    rcases h with rfl | rfl
    · have hd := hd rfl
      unfold PngKind.back at hd ⊢
      dsimp only at hd ⊢
      generalize nrgbaModel c = x at *
      obtain ⟨r, g, b, a⟩ := x
      have : a = 255 := by
        have := congrArg UInt32.toNat hd
        have : (widen32 a).toNat = 65535 := this
        rw [widen32_nat] at this
        exact UInt8.toNat_inj.1 (by show a.toNat = 255; omega)
      subst this
      exact back_opaque8 .tc8 (.nrgba r g b 255) (hn _ _ _) (fun hk => by cases hk)
    · rfl
  | tc16 =>
    have h : k' = .tc16 ∨ k' = .tca16 := by simpa [PngKind.again] using h
    unfold PngKind.back
    generalize c.rgba32.r.toUInt16 = r
    generalize c.rgba32.g.toUInt16 = g
    generalize c.rgba32.b.toUInt16 = b
    rcases h with rfl | rfl
    · dsimp only [Color.rgba32]
      rw [h16, h16, h16]
    · rfl
  | tca16 =>
    have h : k' = .tc16 ∨ k' = .tca16 := by simpa [PngKind.again] using h
    rcases h with rfl | rfl
    · have hd := hd rfl
      unfold PngKind.back at hd ⊢
      dsimp only at hd ⊢
      generalize nrgba64Model c = n at *
      have ha : n.a = 0xffff := by
        have hd : n.a.toUInt32 = 0xffff := hd
        rw [← h16 n.a, hd]
        rfl
      have e : (Color.nrgba64 n).rgba32 = _ := opaque64_rgba n ha
      rw [e]
      dsimp only
      rw [h16, h16, h16]
      show nrgba64Model (Color.rgba64 n.r n.g n.b 0xffff) = n
      have : nrgba64Model (Color.rgba64 n.r n.g n.b 0xffff) = ⟨n.r.toUInt32.toUInt16, n.g.toUInt32.toUInt16, n.b.toUInt32.toUInt16, 0xffff⟩ := rfl
      rw [this, h16, h16, h16]
      cases n
      cases ha
      rfl
    · rfl

/-! ### C112 -/

theorem alike_bounds {P : Layer → Layer → Prop} (hP : ∀ l l', P l l' → l'.bounds = l.bounds) {g g' : List Layer} (h : Alike P g g') :
    g.map (fun l => l.bounds) = g'.map (fun l => l.bounds) := by
  induction h with
  | nil => rfl
  | single _ _ h _ ih => rw [List.map_cons, List.map_cons, ih, hP _ _ h]
  | group _ _ _ h _ _ ih => rw [List.map_cons, List.map_cons, ih, hP _ _ h]

/-- what is read of layers that fit can be stored without a change -/
theorem read_lossless {env : OraEnv} {ρ : Nat → UInt16} {kind : Img → PngKind} (hp : PngPixels env ρ kind) (hk : Rereads env kind)
    {limits : Pt} {g g' : List Layer} (h : Alike (fun l l' => SamePlace env l l' ∧ l'.mode ∈ svgModes ∧ l'.transparency = 0) g g')
    (hf : FitAll limits g) (hr : ∀ i ∈ leavesAll g, Readably i) (hc : ∀ i ∈ leavesAll g, ∃ cm, i.colorModel = some cm ∧ cm.isPalette = false) :
    LosslessAll kind g' ∧ FitAll limits g' ∧ ∀ i ∈ leavesAll g', Readably i := by
  induction h with
  | nil => exact ⟨trivial, trivial, fun i hi => by cases hi⟩
  | @single l l' ls ls' h1 h2 h3 _ ih =>
    rw [leavesAll_cons, leaves_single h1] at hr hc
    rw [fitAll_cons] at hf
    obtain ⟨i1, i2, i3⟩ := ih hf.2.2 (fun x hx => hr x (List.mem_append_right _ hx)) (fun x hx => hc x (List.mem_append_right _ hx))
    obtain ⟨⟨p1, p2⟩, p3, p4⟩ := h3
    obtain ⟨L, q1, ⟨d, hd, hL⟩, q2⟩ := p2 h1
    obtain ⟨cm, u4, u5⟩ := hc l.image (by simp)
    obtain ⟨cb, hc1, hc2, hc3⟩ := fit_single h1 hf.2.1
    obtain ⟨-, v1, v2⟩ := hp l.image d L cb cm hd hL hc1 u4 u5
    obtain ⟨w1, w2⟩ := hk _ _ _ hd hL
    have hrr := hr l.image (by simp) cb hc1
    refine ⟨?_, ?_, ?_⟩
    · rw [losslessAll_cons, q1]
      refine ⟨⟨p3, p4⟩, ⟨L.bounds, L.model, rfl, by rw [q2], by rw [q2], rfl, by rw [v1]; cases kind l.image <;> rfl, fun q hq => ?_⟩, i1⟩
      obtain ⟨n, n', c, f1, f2⟩ := v2 q hq
      have hat : ∀ σ m, (Img.leaf L).at σ q m = some ((kind l.image).back c, m) := fun σ m => by rw [Img.at, f2]; rfl
      exact ⟨_, hat, back_again w1 c fun hdr => w2 hdr _ rfl ρ q 0 _ _ hq (hat ρ 0)⟩
    · rw [fitAll_cons, p1, q1]
      refine ⟨hf.1, ?_, i2⟩
      show L.bounds.dx = _ ∧ L.bounds.dy = _
      rw [q2]
      simp [Rect.dx, Rect.dy]
    · intro x hx
      rw [leavesAll_cons, q1] at hx
      rcases List.mem_append.1 hx with hx | hx
      · have hx : x ∈ [Img.leaf L] := hx
        rw [List.mem_singleton] at hx
        subst hx
        intro b hb
        have hb : some L.bounds = some b := hb
        cases hb
        rw [q2]
        simp only [Rect.dx, Rect.dy] at *
        omega
      · exact i3 x hx
  | @group l l' ls ls' g g' h1 h2 h4 h3 _ ih1 ih2 =>
    rw [leavesAll_cons, h1, leaves] at hr hc
    rw [fitAll_cons, h1, Fit] at hf
    obtain ⟨hf1, ⟨f1, f2, f3, f4⟩, hf3⟩ := hf
    obtain ⟨i1, i2, i3⟩ := ih2 hf3 (fun x hx => hr x (List.mem_append_right _ hx)) (fun x hx => hc x (List.mem_append_right _ hx))
    obtain ⟨j1, j2, j3⟩ := ih1 f4 (fun x hx => hr x (List.mem_append_left _ hx)) (fun x hx => hc x (List.mem_append_left _ hx))
    obtain ⟨⟨p1, p2⟩, p3, p4⟩ := h3
    refine ⟨?_, ?_, ?_⟩
    · rw [losslessAll_cons, h2, Lossless]
      exact ⟨⟨p3, p4⟩, j1, i1⟩
    · rw [fitAll_cons, h2, Fit, p1]
      exact ⟨hf1, ⟨f1, f2, f3.trans (groupBounds_congr (alike_bounds (fun _ _ h => h.1.1) h4)), j2⟩, i2⟩
    · intro x hx
      rw [leavesAll_cons, h2, leaves] at hx
      rcases List.mem_append.1 hx with hx | hx
      · exact j3 x hx
      · exact i3 x hx

/-- every layer of a tree -/
inductive Spec.Every (P : Layer → Prop) : List Layer → Prop
  | nil : Every P []
  | single {l ls} : NotGroup l.image → P l → Every P ls → Every P (l :: ls)
  | group {l ls g} : l.image = .group g → Every P g → P l → Every P ls → Every P (l :: ls)

theorem Spec.Alike.every {P : Layer → Layer → Prop} {Q : Layer → Prop} (hQ : ∀ l l', P l l' → Q l') {g g' : List Layer} (h : Alike P g g') : Every Q g' := by
  induction h with
  | nil => exact .nil
  | single _ h2 h3 _ ih => exact .single h2 (hQ _ _ h3) ih
  | group _ h2 _ h4 _ ih1 ih2 => exact .group h2 ih1 (hQ _ _ h4) ih2

theorem Spec.Every.alike {P : Layer → Layer → Prop} {Q : Layer → Prop} {g g' : List Layer} (h : Every Q g) (h' : Alike P g g') :
    Alike (fun l l' => P l l' ∧ Q l) g g' := by
  induction h' with
  | nil => exact .nil
  | single h1 h2 h3 _ ih =>
    cases h with
    | single _ k1 k2 => exact .single h1 h2 ⟨h3, k1⟩ (ih k2)
    | group k1 => exact absurd k1 (h1 _)
  | group h1 h2 _ h4 _ ih1 ih2 =>
    cases h with
    | single k1 => exact absurd h1 (k1 _)
    | group k1 k3 k4 k5 =>
      rw [h1] at k1
      cases k1
      exact .group h1 h2 (ih1 k3) ⟨h4, k4⟩ (ih2 k5)

/-- Two layers with everything the same; if they are not groups, then their pictures have the same bounds and cannot be told apart. -/
def SameLayer (l l' : Layer) : Prop :=
  (l'.name = l.name ∧ l'.bounds = l.bounds ∧ l'.mode = l.mode ∧ l'.invisible = l.invisible ∧ l'.transparency = l.transparency) ∧
  (NotGroup l.image → ∃ L L', l.image = .leaf L ∧ l'.image = .leaf L' ∧ L'.bounds = L.bounds ∧
    ∀ q, Rect.mem q L.bounds = true → ∃ c c', L.pixel q = some c ∧ L'.pixel q = some c' ∧ c'.toNRGBA = c.toNRGBA)

/-- what is read of layers that are stored without a change is the same -/
theorem same_again {env : OraEnv} {ρ : Nat → UInt16} {kind : Img → PngKind} (hp : PngPixels env ρ kind) {limits : Pt} {g g' : List Layer}
    (h : Alike (fun l l' => SamePlace env l l' ∧ l'.name = l.name ∧ l'.transparency = l.transparency ∧ l'.invisible = l.invisible ∧ l'.mode = l.mode ∧
      (NotGroup l.image → ∃ L, l.image = .leaf L)) g g') (hl : LosslessAll kind g) (hf : FitAll limits g) : Alike SameLayer g g' := by
  induction h with
  | nil => exact .nil
  | @single l l' ls ls' h1 h2 h3 _ ih =>
    rw [losslessAll_cons] at hl
    rw [fitAll_cons] at hf
    obtain ⟨⟨p1, p2⟩, p3, p4, p5, p6, p7⟩ := h3
    refine .single h1 h2 ⟨⟨p3, p1, p6, p5, p4⟩, fun _ => ?_⟩ (ih hl.2.2 hf.2.2)
    obtain ⟨L, hL⟩ := p7 h1
    obtain ⟨L', q1, ⟨d, hd, hd'⟩, q2⟩ := p2 h1
    obtain ⟨b, cm, u1, u2, u3, u4, u5, u6⟩ := lossless_single h1 hl.2.1
    have hfi := hf.2.1
    rw [hL] at u1 u4 u6 hfi
    have u1 : some L.bounds = some b := u1
    cases u1
    have hfi : L.bounds.dx = l.bounds.dx ∧ L.bounds.dy = l.bounds.dy := hfi
    have hb : L'.bounds = L.bounds := by
      rw [q2, ← hfi.1, ← hfi.2]
      simp only [Rect.dx, Rect.dy]
      rw [u2, u3, Int.sub_zero, Int.sub_zero]
      cases hLb : L.bounds
      rw [hLb] at u2 u3
      cases u2
      cases u3
      rfl
    refine ⟨L, L', hL, q1, hb, fun q hq => ?_⟩
    rw [hL] at hd
    obtain ⟨-, -, v⟩ := hp (.leaf L) d L' L.bounds cm hd hd' rfl u4 u5
    obtain ⟨n, n', c, f1, f2⟩ := v q (by rw [hb]; exact hq)
    rw [u2, u3, Int.zero_add, Int.zero_add] at f1
    obtain ⟨c₀, w1, w2⟩ := u6 q hq
    have hat := (w1 ρ n).symm.trans f1
    injection hat with hat
    cases hat
    refine ⟨c, _, ?_, f2, w2⟩
    have f1 : (L.pixel q).map (fun c => (c, n)) = some (c, n) := f1
    cases hx : L.pixel q with
    | none => rw [hx] at f1; cases f1
    | some x => rw [hx] at f1; cases f1; rfl
  | @group l l' ls ls' g g' h1 h2 h4 h3 _ ih1 ih2 =>
    rw [losslessAll_cons, h1, Lossless] at hl
    rw [fitAll_cons, h1, Fit] at hf
    obtain ⟨⟨p1, p2⟩, p3, p4, p5, p6, p7⟩ := h3
    exact .group h1 h2 (ih1 hl.2.1 hf.2.1.2.2.2) ⟨⟨p3, p1, p6, p5, p4⟩, fun hng => absurd h1 (hng _)⟩ (ih2 hl.2.2 hf.2.2)

/-- **C112** (the part that holds): a picture that was loaded from a file with layers on the canvas, which have the sizes of their images and are in groups at
the origin, is saved and loaded again with every name, position, mode and pixel, and looks the same at every point.
Full statement: every loaded picture; false by `C112_refuted`. -/
theorem C112_again_partial {env : OraEnv} (hl : OraLib env) {ρ : Nat → UInt16} {kind : Img → PngKind} (hp : PngPixels env ρ kind) (hk : Rereads env kind)
    (fails : Nat → Bool) (c : Bool) (g : List Layer) (hm : IntSize (.image (.group g))) (hf : FitAll ⟨(groupBounds g).dx, (groupBounds g).dy⟩ g)
    (hr : ∀ i ∈ leavesAll g, Readably i) (hc : ∀ i ∈ leavesAll g, ∃ cm, i.colorModel = some cm ∧ cm.isPalette = false) (es : List ZipEntry)
    (h : oraEncode env fails c (.image (.group g)) = .ok ⟨none, some es⟩) :
    ∃ g', oraDecode env es = .ok g' ∧ ∀ fails' c' es', oraEncode env fails' c' (.image (.group g')) = .ok ⟨none, some es'⟩ →
      ∃ g'', oraDecode env es' = .ok g'' ∧ Alike SameLayer g' g'' ∧
        ∀ (σ : Nat → UInt16) (p : Pt) (n : Nat), (Img.group g'').at σ p n = (Img.group g').at σ p n := by
  have hnear : ∀ {fails c g es}, IntSize (.image (.group g)) → FitAll ⟨(groupBounds g).dx, (groupBounds g).dy⟩ g →
      oraEncode env fails c (.image (.group g)) = .ok ⟨none, some es⟩ → NearAll g := by
    intro fails c g es hm hf h
    obtain ⟨_, les, _, _, -, hh, -, -, -⟩ := oraEntries_ok (encode_entries h)
    have hh : Holds env _ (leavesAll g) _ := hh
    exact fitAll_near (hm _ rfl).1.2 (hm _ rfl).2.2 g hf (fun x hx => by
      obtain ⟨d, hd⟩ := holds_png env _ _ _ hh x hx
      obtain ⟨c, h1, h2, h3, -⟩ := hl.png _ _ hd
      exact ⟨c, h1, h2, h3⟩)
  obtain ⟨b, g', hb, h1, h2⟩ := C61_back hl fails c _ g rfl hm (hnear hm hf h) hr es h
  have hb : some (groupBounds g) = some b := hb
  cases hb
  obtain ⟨h3, h4, -⟩ := back_fit hl h2 rfl hf hr
  have hmode : ∀ m : Mode, (if m ∈ svgModes then m else Mode.normal) ∈ svgModes := fun m => by
    by_cases hm : m ∈ svgModes
    · rw [if_pos hm]; exact hm
    · rw [if_neg hm]; decide
  have h5 : Alike (fun _ l' => l'.mode ∈ svgModes ∧ l'.transparency = 0 ∧ XmlText l'.name ∧ (NotGroup l'.image → ∃ L, l'.image = .leaf L)) g g' :=
    h2.alike (fun o l i _ _ => ⟨hmode _, rfl, xmlClean_text _ _, fun _ => ⟨i, rfl⟩⟩)
      (fun o l g g' _ _ => ⟨hmode _, rfl, xmlClean_text _ _, fun hg => absurd rfl (hg g')⟩)
  have hgb : groupBounds g' = groupBounds g := (groupBounds_congr h4).symm
  obtain ⟨k1, k2, k3⟩ := read_lossless hp hk ((h3.and h5).imp fun l l' ⟨a, b, c, _⟩ => ⟨a, b, c⟩) hf hr hc
  have hm' : IntSize (.image (.group g')) := fun b hb => by
    have hb : some (groupBounds g') = some b := hb
    rw [hgb] at hb
    exact hm b hb
  rw [← hgb] at k2
  refine ⟨g', h1, fun fails' c' es' h' => ?_⟩
  obtain ⟨g'', e1, e2⟩ := C88_looks_partial hl hp fails' c' _ g' rfl _ rfl hm' k2 k3 k1 es' h'
  refine ⟨g'', e1, ?_, e2⟩
  obtain ⟨g₂, e3, e4⟩ := C60_partial hl fails' c' _ g' rfl hm' (hnear hm' k2 h') k3 es' h'
  obtain ⟨g₃, e5, e6⟩ := C61_partial hl fails' c' _ g' rfl _ rfl hm' k2 k3 es' h'
  rw [e1] at e3 e5
  cases e3
  cases e5
  have h6 := h5.every (Q := fun l' => l'.mode ∈ svgModes ∧ l'.transparency = 0 ∧ XmlText l'.name ∧ (NotGroup l'.image → ∃ L, l'.image = .leaf L))
    fun _ _ h => h
  exact same_again hp ((h6.alike (e6.and e4)).imp fun l l' ⟨⟨a, b, c, d⟩, e, f, g, h⟩ => ⟨a, b g, (c f).1, (c f).2, d e, h⟩) k1 k2

theorem pixEnv_rereads : Rereads (pixEnv fun _ => false) (kindOf fun _ => false) := by
  intro i d L hd hL
  obtain ⟨b, k, cs, h1, h2, h3, rfl, h4⟩ := pixEnv_png hd
  obtain ⟨h5, rfl, h6⟩ := h4 i rfl
  rw [pixEnv_decode] at hL
  cases hL
  have hk : kindOf (fun _ => false) i = .g8 ∨ kindOf (fun _ => false) i = .g16 ∨ kindOf (fun _ => false) i = .tca16 := by
    unfold kindOf
    split
    · exact .inl rfl
    · exact .inr (.inl rfl)
    · exact .inr (.inr rfl)
  generalize kindOf (fun _ => false) i = k at *
  rcases hk with rfl | rfl | rfl
  · exact ⟨List.mem_singleton_self _, fun hd => by cases hd⟩
  · exact ⟨List.mem_singleton_self _, fun hd => by cases hd⟩
  · exact ⟨List.mem_cons_of_mem _ (List.mem_singleton_self _), fun hd => by cases hd⟩

theorem pixEnv_stored {drops : Img → Bool} {i : Img} {L : Leaf} (h : Stored (pixEnv drops) i L) :
    ∃ b cs, i.bounds = some b ∧ gridOf (kindOf drops i) i b = some cs ∧ L = picOf (kindOf drops i, b.dx.toNat, b.dy.toNat, cs) := by
  obtain ⟨d, hd, hL⟩ := h
  obtain ⟨b, k, cs, h1, h2, h3, rfl, h4⟩ := pixEnv_png hd
  obtain ⟨h5, rfl, h6⟩ := h4 i rfl
  rw [pixEnv_decode] at hL
  cases hL
  exact ⟨b, cs, h1, h6, rfl⟩

/-- what is read of the example can be written -/
theorem pixelTree_again {limits : Pt} (hl : limits = ⟨3, 2⟩) {g' : List Layer} (h : Back (pixEnv fun _ => false) limits ⟨0, 0⟩ pixelTree g') :
    ∃ es', oraEncode (pixEnv fun _ => false) (fun _ => false) false (.image (.group g')) = .ok ⟨none, some es'⟩ := by
  subst hl
  cases h with
  | group h1 => cases h1
  | single _ h2 h3 =>
  cases h3 with
  | single h4 => exact absurd rfl (h4 _)
  | group h4 h5 h6 =>
  cases h4
  cases h6
  cases h5 with
  | group h7 => cases h7
  | single _ h8 h9 =>
  cases h9 with
  | group h10 => cases h10
  | single _ h11 h12 =>
  cases h12
  obtain ⟨b, cs, e1, e2, rfl⟩ := pixEnv_stored h2
  cases e1
  cases e2
  obtain ⟨b, cs, e1, e2, rfl⟩ := pixEnv_stored h8
  cases e1
  cases e2
  obtain ⟨b, cs, e1, e2, rfl⟩ := pixEnv_stored h11
  cases e1
  cases e2
  exact ⟨_, rfl⟩

/-- a picture with a group, a hidden layer and a translucent pixel -/
example : ∃ es g' es' g'', oraEncode (pixEnv fun _ => false) (fun _ => false) false (.image (.group pixelTree)) = .ok ⟨none, some es⟩ ∧
    oraDecode (pixEnv fun _ => false) es = .ok g' ∧
    oraEncode (pixEnv fun _ => false) (fun _ => false) false (.image (.group g')) = .ok ⟨none, some es'⟩ ∧
    oraDecode (pixEnv fun _ => false) es' = .ok g'' ∧ Alike SameLayer g' g'' := by
  obtain ⟨es, h⟩ := pixelTree_written
  obtain ⟨g', h1, h2⟩ := C112_again_partial (pixEnv_lib _) (pixEnv_pixels _) pixEnv_rereads _ _ _ (fun b hb => by cases hb; decide)
    (by
      unfold pixelTree
      simp only [FitAll, Fit]
      refine ⟨by decide, ⟨rfl, rfl⟩, by decide, ⟨trivial, trivial, rfl, by decide, ⟨rfl, rfl⟩, by decide, ⟨rfl, rfl⟩, trivial⟩, trivial⟩)
    pixelTree_readable (fun i hi => by
      rw [pixelTree_leaves] at hi
      simp only [List.mem_cons, List.not_mem_nil, or_false] at hi
      rcases hi with rfl | rfl | rfl <;> exact ⟨_, rfl, rfl⟩) es h
  obtain ⟨b, g₂, hb, e1, e2⟩ := C61_back (pixEnv_lib _) _ _ _ _ rfl (fun b hb => by cases hb; decide) (by simp [pixelTree, NearAll, Near]) pixelTree_readable es h
  rw [h1] at e1
  cases e1
  cases hb
  obtain ⟨es', h'⟩ := pixelTree_again rfl e2
  obtain ⟨g'', h3, h4, -⟩ := h2 _ _ es' h'
  exact ⟨es, g', es', g'', h, h1, h', h3, h4⟩

/-- C112, false: Where a loaded picture begins is not stored: a picture that was loaded from a file with a canvas of two pixels, of which the layer has
the second, is saved with a canvas of one pixel, on which the layer is not; nothing of it is seen when the file is loaded. -/
theorem C112_refuted {env : OraEnv} (hl : OraLib env) (fails fails' : Nat → Bool) (c c' : Bool) (L : Leaf) (hx : L.bounds.dx = 1) (hy : L.bounds.dy = 1)
    (name top : Bytes) (es : List ZipEntry)
    (h : oraEncode env fails c (.layer ⟨top, ⟨0, 0, 2, 1⟩, Mode.normal, false, 0, .group [⟨name, ⟨1, 0, 2, 1⟩, Mode.normal, false, 0, .leaf L⟩]⟩) =
      .ok ⟨none, some es⟩) :
    ∃ l', oraDecode env es = .ok [l'] ∧ l'.bounds = ⟨1, 0, 2, 1⟩ ∧ ∀ es', oraEncode env fails' c' (.image (.group [l'])) = .ok ⟨none, some es'⟩ →
      ∃ l'', oraDecode env es' = .ok [l''] ∧ l''.bounds = Rect.zero ∧ ∀ σ p n, (Img.group [l'']).at σ p n = some (.alpha 0, n) := by
  have hread : ∀ {L : Leaf}, L.bounds.dx = 1 → L.bounds.dy = 1 → ∀ i ∈ leavesAll [⟨name, ⟨1, 0, 2, 1⟩, Mode.normal, false, 0, .leaf L⟩], Readably i := by
    intro L hx hy i hi
    have hi : i ∈ [Img.leaf L] := hi
    rw [List.mem_singleton] at hi
    subst hi
    intro b hb
    cases hb
    rw [hx, hy]
    decide
  have hst : ∀ {L L' : Leaf}, L.bounds.dx = 1 → L.bounds.dy = 1 → Stored env (.leaf L) L' → L'.bounds = ⟨0, 0, 1, 1⟩ := by
    rintro L L' hx hy ⟨d, hd, hL⟩
    obtain ⟨b, hb, -, -, hsz⟩ := hl.png _ _ hd
    cases hb
    obtain ⟨L'', e1, e2⟩ := hsz (by rw [hx]; decide) (by rw [hy]; decide)
    rw [hL] at e1
    cases e1
    rw [e2, hx, hy]
  have hsz : ∀ {m : OraInput} {b : Rect}, m.bounds = some b → (-2 ^ 63 ≤ b.dx ∧ b.dx < 2 ^ 63) ∧ (-2 ^ 63 ≤ b.dy ∧ b.dy < 2 ^ 63) → IntSize m := by
    intro m b hb hs b' hb'
    rw [hb] at hb'
    cases hb'
    exact hs
  obtain ⟨b, g', hb, h1, h2⟩ := C61_back hl fails c _ _ rfl (hsz (b := ⟨0, 0, 2, 1⟩) rfl (by decide)) (by simp [NearAll, Near]) (hread hx hy) es h
  have hb : some (⟨0, 0, 2, 1⟩ : Rect) = some b := hb
  cases hb
  cases h2 with
  | group h3 => cases h3
  | @single _ _ _ _ L' h3 h4 h5 =>
    cases h5
    have hL' := hst hx hy h4
    refine ⟨_, h1, ?_, fun es' h' => ?_⟩
    · rw [hL']
      rfl
    rw [hL'] at h'
    have h' : oraEncode env fails' c' (.image (.group [⟨xmlBack name, ⟨1, 0, 2, 1⟩, Mode.normal, false, 0, .leaf L'⟩])) = .ok ⟨none, some es'⟩ := h'
    obtain ⟨b, g'', hb, k1, k2⟩ := C61_back hl fails' c' _ _ rfl (hsz (b := ⟨1, 0, 2, 1⟩) rfl (by decide)) (by simp [NearAll, Near])
      (fun i hi => by
        have hi : i ∈ [Img.leaf L'] := hi
        rw [List.mem_singleton] at hi
        subst hi
        intro b hb
        cases hb
        rw [hL']
        decide) es' h'
    have hb : some (⟨1, 0, 2, 1⟩ : Rect) = some b := hb
    cases hb
    cases k2 with
    | group h3 => cases h3
    | @single _ _ _ _ L'' k3 k4 k5 =>
      cases k5
      have hL'' := hst (by rw [hL']; rfl) (by rw [hL']; rfl) k4
      have hz : ∀ l : Layer, l.bounds = Rect.zero → ∀ σ p n, (Img.group [l]).at σ p n = some (.alpha 0, n) := by
        intro l hl σ p n
        rw [Img.at, layersAt_cons, layersAt_nil, Option.bind_some]
        unfold drawLayer
        have hm : ¬ Rect.mem p l.bounds = true := by
          rw [hl]
          unfold Rect.mem Rect.zero
          simp only [Bool.and_eq_true, decide_eq_true_eq]
          omega
        dsimp only
        rw [if_pos hm, ite_self]
      have hb : oraPlaced ⟨(⟨1, 0, 2, 1⟩ : Rect).dx, (⟨1, 0, 2, 1⟩ : Rect).dy⟩ ⟨0, 0⟩ ⟨1, 0, 2, 1⟩ L''.bounds = Rect.zero := by
        rw [hL'']
        rfl
      exact ⟨_, k1, hb, hz _ hb⟩

/-- such a picture, with a red pixel -/
example : ∃ es l' es' l'', oraEncode (pixEnv fun _ => false) (fun _ => false) false (.layer ⟨[], ⟨0, 0, 2, 1⟩, Mode.normal, false, 0,
      .group [⟨lit "a", ⟨1, 0, 2, 1⟩, Mode.normal, false, 0, .leaf (plain 1 1 (.rgba 255 0 0 255))⟩]⟩) = .ok ⟨none, some es⟩ ∧
    oraDecode (pixEnv fun _ => false) es = .ok [l'] ∧ l'.bounds = ⟨1, 0, 2, 1⟩ ∧
    oraEncode (pixEnv fun _ => false) (fun _ => false) false (.image (.group [l'])) = .ok ⟨none, some es'⟩ ∧
    oraDecode (pixEnv fun _ => false) es' = .ok [l''] ∧ l''.bounds = Rect.zero := by
  obtain ⟨es, h⟩ : ∃ es, oraEncode (pixEnv fun _ => false) (fun _ => false) false (.layer ⟨[], ⟨0, 0, 2, 1⟩, Mode.normal, false, 0,
      .group [⟨lit "a", ⟨1, 0, 2, 1⟩, Mode.normal, false, 0, .leaf (plain 1 1 (.rgba 255 0 0 255))⟩]⟩) = .ok ⟨none, some es⟩ := ⟨_, rfl⟩
  obtain ⟨l', h1, h2, h3⟩ := C112_refuted (pixEnv_lib _) _ (fun _ => false) _ false _ rfl rfl _ _ es h
  obtain ⟨b, g₂, hb, e1, e2⟩ := C61_back (pixEnv_lib _) _ _ _ _ rfl (fun b hb => by cases hb; decide) (by simp [NearAll, Near]) (fun i hi => by
    have hi : i ∈ [Img.leaf (plain 1 1 (.rgba 255 0 0 255))] := hi
    rw [List.mem_singleton] at hi
    subst hi
    exact plain_readably _ _ _ (by decide) (by decide)) es h
  rw [h1] at e1
  cases e1
  cases hb
  have hw : ∃ es', oraEncode (pixEnv fun _ => false) (fun _ => false) false (.image (.group [l'])) = .ok ⟨none, some es'⟩ := by
    cases e2 with
    | group h7 => cases h7
    | single _ h8 h9 =>
    obtain ⟨b, cs, e1, e2, rfl⟩ := pixEnv_stored h8
    cases e1
    cases e2
    exact ⟨_, rfl⟩
  obtain ⟨es', h'⟩ := hw
  obtain ⟨l'', h4, h5, -⟩ := h3 es' h'
  exact ⟨es, l', es', l'', h, h1, h2, h', h4, h5⟩

end Limage
