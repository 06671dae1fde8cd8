import Verif.Proofs.ReadFile
import Verif.Spec.XcfAny
/-! Reading pixels in files of any version. -/
namespace Limage
open Spec

/-- the decoder's number for a version -/
def Spec.Version.mode (V : Version) : UInt32 := if V.wide then 2 else if V.precision then 1 else 0

/-- bytes of an offset -/
def Spec.Version.size (V : Version) : Nat := if V.wide then 8 else 4

theorem off_length (V : Version) (n : Nat) : (V.off n).length = V.size := by
  unfold Version.off Version.size
  rw [be_length]

theorem size_ge (V : Version) : 4 ≤ V.size := by
  unfold Version.size; split <;> omega

theorem u64_small {n : Nat} (h : n < 2 ^ 32) : UInt64.ofNat n = (UInt32.ofNat n).toUInt64 := by
  apply UInt64.toNat_inj.1
  rw [UInt32.toNat_toUInt64, u32_toNat h, UInt64.toNat_ofNat']
  omega

theorem off_consumes (V : Version) {n : Nat} (h : n < 2 ^ 32) : Consumes (readPtr V.mode) (V.off n) (UInt32.ofNat n).toUInt64 := by
  unfold readPtr Version.mode Version.off
  cases V.wide with
  | true =>
    rw [if_neg (by rw [if_pos rfl]; decide)]
    unfold readUint64
    have h8 := readFull_consumes (be 8 n)
    rw [be_length] at h8
    refine h8.map ?_
    rw [fromBE_be, Nat.mod_eq_of_lt (by omega), u64_small h]
  | false =>
    rw [if_pos (by cases V.precision <;> decide)]
    exact (u32_be n).map rfl

theorem offs_consumes (V : Version) : ∀ (ps : List Nat), (∀ p ∈ ps, p < 2 ^ 32) → Consumes (readPtrs V.mode ps.length) (ps.flatMap V.off)
    (ps.map fun p => (UInt32.ofNat p).toUInt64)
  | [], _ => Consumes.pure _
  | p :: ps, h => by
    rw [List.flatMap_cons]
    exact (off_consumes V (h p (by simp))).bind ((offs_consumes V ps fun q hq => h q (by simp [hq])).map rfl)

theorem flatMap_off_length (V : Version) (ps : List Nat) : (ps.flatMap V.off).length = V.size * ps.length := by
  induction ps with
  | nil => simp
  | cons p ps ih => rw [List.flatMap_cons, List.length_append, ih, off_length, List.length_cons, Nat.mul_succ]; omega

/-- an offset of zero begins with a number zero -/
theorem off_zero (V : Version) : ∃ rest, V.off 0 = num 0 ++ rest := by
  unfold Version.off
  cases V.wide
  · exact ⟨[], rfl⟩
  · exact ⟨num 0, rfl⟩

theorem tileAt_lt {D : Bytes} {p bpp : Nat} {px : List Bytes} (h : TileAt (D.take maxString) p bpp px) (hb : 1 ≤ bpp) (hp : px ≠ []) :
    p < maxString := by
  obtain ⟨codes, hcl, hat, henc⟩ := h
  have h0 := henc 0 (by omega)
  have hne := h0.ne (by simpa using hp)
  have : codes.flatten ≠ [] := by
    intro h
    rw [List.flatten_eq_nil_iff] at h
    have h1 : codes.getD 0 [] ∈ codes := by
      rw [List.getD_eq_getElem?_getD, List.getElem?_eq_getElem (by omega), Option.getD_some]
      exact List.getElem_mem _
    exact hne (h _ h1)
  have h2 := hasAt_lt hat this
  have := List.length_pos_iff.2 this
  omega

/-- with one channel, the pixels are the channel -/
theorem planes_one : ∀ {px : List Bytes}, (∀ bs ∈ px, bs.length = 1) → (planes 1 px).flatten = px.flatten
  | [], _ => rfl
  | bs :: px, h => by
    have ih := planes_one fun b hb => h b (List.mem_cons_of_mem _ hb)
    have h1 := h bs (List.mem_cons_self ..)
    match bs, h1 with
    | [v], _ =>
      simp only [planes, List.range_one, List.map_cons, List.map_nil, List.flatten_cons, List.flatten_nil, List.append_nil] at ih ⊢
      rw [ih]
      rfl

/-- a tile as the format has it is a tile as it is read, if it is compressed or there is one channel -/
theorem tileIn_holds {D : Bytes} {rle : Bool} {t bpp : Nat} {px : List Bytes} (h : TileIn D rle t bpp px) (hf : rle = true ∨ bpp = 1)
    (hpx : ∀ bs ∈ px, bs.length = bpp) : TileHolds D rle t bpp px := by
  unfold TileIn at h
  unfold TileHolds
  rcases hf with rfl | rfl
  · exact h
  · rw [planes_one hpx]
    exact h

theorem tileHolds_lt {D : Bytes} {rle : Bool} {p bpp : Nat} {px : List Bytes} (h : TileHolds (D.take maxString) rle p bpp px) (hb : 1 ≤ bpp)
    (hp : px ≠ []) : p < maxString := by
  unfold TileHolds at h
  cases rle with
  | true => exact tileAt_lt h hb hp
  | false =>
    have h : HasAt (D.take maxString) p (planes bpp px).flatten := h
    have hl := flatten_const_length (planes bpp px) (planes_each rfl)
    rw [planes_length] at hl
    have : 0 < px.length * bpp := Nat.mul_pos (List.length_pos_iff.2 hp) hb
    have hne : (planes bpp px).flatten ≠ [] := by
      intro h0
      rw [h0, List.length_nil] at hl
      omega
    have := hasAt_lt h hne
    omega

/-- The hierarchy and the level at `p` are read. -/
theorem readLevel_in {D : Bytes} {V : Version} {c : Ctx} (hm : c.mode = V.mode) {rle : Bool} (hc : (c.compression != 0) = rle)
    {p bpp w h : Nat} (hb1 : 1 ≤ bpp) (hf : rle = true ∨ bpp = 1)
    {b : Rect} {Shows : Pt → Bytes → Prop} (hat : PixelsIn (D.take maxString) V rle p b bpp Shows)
    (hlen : ∀ q bs, Shows q bs → bs.length = bpp) (hw : b.dx = w) (hh : b.dy = h) (hw0 : 0 < w) (hh0 : 0 < h)
    (hw2 : w < 2 ^ 32) (hh2 : h < 2 ^ 32) (kind : UInt32) (hkb : bppOk kind (UInt32.ofNat bpp) = true) :
    LevelRead D c p bpp w h kind fun x y bs => Shows ⟨b.x0 + x, b.y0 + y⟩ bs := by
  have hmax : maxString = 16777216 := rfl
  obtain ⟨level, tiles, more, h1, h2, h3⟩ := hat
  rw [hw, hh, tilesAlong_nat, tilesAlong_nat] at h3
  have htl := h3.length_eq
  rw [tileList_length] at htl
  have hne : ∀ a b : Bytes, a.length = 4 → a ++ b ≠ [] := by
    intro a b ha h0
    have := congrArg List.length h0
    rw [List.length_append, List.length_nil] at this
    omega
  have e1 : int b.dx ++ int b.dy ++ num bpp ++ V.off level ++ more.flatMap V.off ++ V.off 0 =
    int b.dx ++ (int b.dy ++ (num bpp ++ (V.off level ++ (more.flatMap V.off ++ V.off 0)))) := by simp only [List.append_assoc]
  obtain ⟨zr, hz⟩ := off_zero V
  have e2 : int b.dx ++ int b.dy ++ tiles.flatMap V.off ++ V.off 0 =
    int b.dx ++ (int b.dy ++ (tiles.flatMap V.off ++ (num 0 ++ zr))) := by rw [hz]; simp only [List.append_assoc]
  rw [e1] at h1
  rw [e2] at h2
  have s1 := sees_at h1 (hne _ _ (num_length _))
  have s2 := sees_at h2 (hne _ _ (num_length _))
  have l1 := hasAt_lt h1 (hne _ _ (num_length _))
  have l2 := hasAt_lt h2 (hne _ _ (num_length _))
  rw [hw, hh] at s1 s2 h1 h2 l1 l2
  have hil : ∀ x, (int x).length = 4 := fun x => num_length _
  simp only [List.length_append, hil, num_length, flatMap_off_length] at l1 l2
  have hs4 : 4 * tiles.length ≤ V.size * tiles.length := Nat.mul_le_mul_right _ (size_ge V)
  -- few tiles
  have hnt : tileCount w * tileCount h ≤ 4194304 := by omega
  have htw : 1 ≤ tileCount w := by unfold tileCount; omega
  have hth : 1 ≤ tileCount h := by unfold tileCount; omega
  have hcw : tileCount w ≤ 4194304 := Nat.le_trans (Nat.le_mul_of_pos_right _ hth) hnt
  have hch : tileCount h ≤ 4194304 := Nat.le_trans (Nat.le_mul_of_pos_left _ htw) hnt
  have hww : w ≤ 64 * tileCount w := by unfold tileCount; omega
  have hhh : h ≤ 64 * tileCount h := by unfold tileCount; omega
  have hwh : w * h ≤ 17179869184 := by
    calc w * h ≤ (64 * tileCount w) * (64 * tileCount h) := Nat.mul_le_mul hww hhh
      _ = 4096 * (tileCount w * tileCount h) := by
        rw [Nat.mul_mul_mul_comm]
      _ ≤ 4096 * 4194304 := Nat.mul_le_mul_left _ hnt
      _ = 17179869184 := rfl
  -- the tiles
  have hgood : TilesGood D rle bpp (fun x y bs => Shows ⟨b.x0 + x, b.y0 + y⟩ bs) tiles (tileGrid w h) := by
    unfold TilesGood
    rw [tileGrid_eq, List.forall₂_map_right_iff]
    have hmem : ∀ ij ∈ tileList (tileCount w) (tileCount h), ij.1 < tileCount w ∧ ij.2 < tileCount h := by
      rintro ⟨i, j⟩ hij
      exact mem_tileList.1 hij
    generalize tileList (tileCount w) (tileCount h) = tl at h3 hmem
    clear htl hnt h2 s2 l2 e2 hs4
    induction h3 with
    | nil => exact .nil
    | cons hab _ ih =>
      rename_i t ij _ _ _
      refine .cons ?_ (ih fun ij hij => hmem ij (by simp [hij]))
      obtain ⟨i, j⟩ := ij
      obtain ⟨hi, hj⟩ := hmem (i, j) (by simp)
      obtain ⟨px, hpx, hsh⟩ := hab
      dsimp only at hsh hi hj ⊢
      rw [pointsOf_eq b w h i j hw hh] at hsh
      have hall : ∀ bs ∈ px, bs.length = bpp := by
        intro bs hbs
        obtain ⟨q, _, hq⟩ := forall₂_mem_right hsh hbs
        exact hlen q bs hq
      refine ⟨tileOf_size hi hj, px, tileIn_holds hpx hf hall, ?_, hall, ?_⟩
      · rw [← hsh.length_eq, pointGrid_length]
      · intro x y bs hxy hbs
        unfold Tile.holds at hxy
        have hg := pointGrid_get (fun x y => (⟨b.x0 + 64 * i + x, b.y0 + 64 * j + y⟩ : Pt)) (tileOf w h i j).w (tileOf w h i j).h
          (x - (tileOf w h i j).x) (y - (tileOf w h i j).y) (by omega) (by omega)
        have := forall₂_get hsh hg hbs
        show Shows _ _
        have ex : b.x0 + 64 * (i : Int) + ((x - (tileOf w h i j).x : Nat) : Int) = b.x0 + x := by
          have : (tileOf w h i j).x = 64 * i := rfl
          omega
        have ey : b.y0 + 64 * (j : Int) + ((y - (tileOf w h i j).y : Nat) : Int) = b.y0 + y := by
          have : (tileOf w h i j).y = 64 * j := rfl
          omega
        rwa [ex, ey] at this
  have htp : ∀ t ∈ tiles, t < 2 ^ 32 := by
    intro t ht
    have : ∀ {ts : List Nat} {gs : List Tile}, TilesGood D rle bpp (fun x y bs => Shows ⟨b.x0 + x, b.y0 + y⟩ bs) ts gs → t ∈ ts → t < 2 ^ 32 := by
      intro ts gs hf
      induction hf with
      | nil => intro h; cases h
      | cons ha _ ih =>
        intro h
        rcases List.mem_cons.1 h with rfl | h
        · obtain ⟨⟨g1, _⟩, px, g2, g3, _⟩ := ha
          have := tileHolds_lt g2 hb1 (by intro h0; rw [h0, List.length_nil] at g3; omega)
          omega
        · exact ih h
    exact this hgood ht
  refine ⟨by omega, hwh, by omega, by omega, tiles, level + (4 + (4 + (V.size * tiles.length + 4))), htl, by omega, ?_, by rw [hc]; exact hgood⟩
  unfold readLevel
  rw [M.bind_ok (int_consumes _ _ s1.left)]
  have s1 := s1.right
  rw [M.bind_ok (int_consumes _ _ s1.left)]
  have s1 := s1.right
  rw [u32_nat, u32_nat, if_neg (by simp)]
  rw [M.bind_ok (num_consumes _ _ s1.left)]
  have s1 := s1.right
  rw [if_neg (by simp [hkb])]
  rw [hm, M.bind_ok (off_consumes V (by omega) _ s1.left), M.bind_ok (goto_any (D := D) (by omega) rfl rfl rfl)]
  rw [M.bind_ok (int_consumes _ _ s2.left)]
  have s2 := s2.right
  rw [M.bind_ok (int_consumes _ _ s2.left)]
  have s2 := s2.right
  rw [u32_nat, u32_nat, if_neg (by simp), u32_toNat hw2, u32_toNat hh2]
  have ht : readTiles c w h ((readerAt D level |>.adv (int w).length).adv (int h).length) = .ok (tiles.map fun p => (UInt32.ofNat p).toUInt64,
      ((readerAt D level |>.adv (int w).length).adv (int h).length).adv (tiles.flatMap V.off).length) := by
    unfold readTiles
    unfold allocate
    rw [if_neg (by unfold maxAlloc; omega), show ((pure () : M Unit) >>= _) _ = _ from M.bind_ok rfl, hm, ← htl]
    exact offs_consumes V tiles htp _ s2.left
  rw [M.bind_ok ht]
  have s2 := s2.right
  rw [M.bind_ok (num_consumes _ _ s2.left)]
  rw [if_neg (by decide)]
  simp only [R.adv, readerAt, hil, num_length, flatMap_off_length, Nat.add_assoc]
  rfl

end Limage
