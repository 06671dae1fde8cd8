import Verif.Props.Decode
/-! # The loops over tiles, counter by counter (C46) -/
namespace Limage

/-! ## The loops as they are written -/

/-- image_decode.go:156-169, 206-219: position and size of the tile of the counters `x` and `y`, in 32 bits -/
def tileAt (width height x y : UInt32) : Tile :=
  let w := width - x
  let w := if w > 64 then 64 else w
  let h := height - y
  let h := if h > 64 then 64 else h
  ⟨x.toNat, y.toNat, w.toNat, h.toNat⟩

/-- image_decode.go:157-159, 207-210: `for x := …; x < width; x += 64 { d.Goto(tiles[0]); tiles = tiles[1:]; … }`, at most as many times as the first
argument says -/
def rowLoop {σ : Type} (width height y : UInt32) (body : Tile → σ → M σ) : Nat → UInt32 → List UInt64 → σ → M (List UInt64 × σ)
  | 0, _, _, _ => M.hang
  | f + 1, x, tiles, s =>
    if x < width then
      match tiles with
      | [] => M.panic
      | p :: tiles => do
        goto p
        let s ← body (tileAt width height x y) s
        rowLoop width height y body f (x + 64) tiles s
    else pure (tiles, s)

/-- image_decode.go:156, 206: `for y := …; y < height; y += 64 { … }` around it; both loops run at most as many times as the numbers say -/
def rowsLoop {σ : Type} (width height : UInt32) (body : Tile → σ → M σ) (inner : Nat) : Nat → UInt32 → List UInt64 → σ → M σ
  | 0, _, _, _ => M.hang
  | f + 1, y, tiles, s =>
    if y < height then do
      let (tiles, s) ← rowLoop width height y body inner 0 tiles s
      rowsLoop width height body inner f (y + 64) tiles s
    else pure s

/-! ## Proofs -/

theorem rowLoop_ends {σ : Type} {width height y x : UInt32} {body : Tile → σ → M σ} (h : ¬ x < width) (f : Nat) (tiles : List UInt64) (s : σ) (r : R) :
    rowLoop width height y body (f + 1) x tiles s r = .ok ((tiles, s), r) := by
  rw [rowLoop.eq_def]
  dsimp only
  rw [if_neg h]
  rfl

theorem rowLoop_out {σ : Type} {width height y x : UInt32} {body : Tile → σ → M σ} (h : x < width) (f : Nat) (s : σ) (r : R) :
    rowLoop width height y body (f + 1) x [] s r = .panic := by
  rw [rowLoop.eq_def]
  dsimp only
  rw [if_pos h]
  rfl

theorem rowLoop_turn {σ : Type} {width height y x : UInt32} {body : Tile → σ → M σ} (h : x < width) (f : Nat) (p : UInt64) (tiles : List UInt64) (s : σ) (r : R) :
    rowLoop width height y body (f + 1) x (p :: tiles) s r = (goto p >>= fun _ => body (tileAt width height x y) s >>= fun s =>
      rowLoop width height y body f (x + 64) tiles s) r := by
  rw [rowLoop.eq_def]
  dsimp only
  rw [if_pos h]

/-- the tiles with their pointers, and the pointers left -/
def goRest {σ : Type} (body : Tile → σ → M σ) : List Tile → List UInt64 → σ → M (List UInt64 × σ)
  | [], ps, s => pure (ps, s)
  | _ :: _, [], _ => M.panic
  | t :: ts, p :: ps, s => do
    goto p
    let s ← body t s
    goRest body ts ps s

theorem bind_app {α β : Type} (m : M α) (f : α → M β) (r : R) : (m >>= f) r = match m r with
    | .ok (a, r) => f a r
    | .panic => .panic
    | .hang => .hang := rfl

theorem go_append {σ : Type} (body : Tile → σ → M σ) (b : List Tile) : ∀ (a : List Tile) (ps : List UInt64) (s : σ) (r : R),
    tileLoop.go body (a ++ b) ps s r = (goRest body a ps s >>= fun x => tileLoop.go body b x.1 x.2) r
  | [], ps, s, r => rfl
  | _ :: _, [], s, r => rfl
  | t :: ts, p :: ps, s, r => by
    rw [List.cons_append, tileLoop.go, goRest, bind_app, bind_app, bind_app]
    cases goto p r with
    | panic => rfl
    | hang => rfl
    | ok x =>
      dsimp only
      rw [bind_app, bind_app]
      cases body t s x.2 with
      | panic => rfl
      | hang => rfl
      | ok z =>
        dsimp only
        rw [go_append body b ts ps z.1 z.2, bind_app]

theorem u32_mul64 {i : Nat} (h : 64 * i < 2 ^ 32) : (UInt32.ofNat (64 * i)).toNat = 64 * i := by
  rw [UInt32.toNat_ofNat']
  omega

theorem u32_step (i : Nat) : UInt32.ofNat (64 * i) + 64 = UInt32.ofNat (64 * (i + 1)) := by
  rw [Nat.mul_add, UInt32.ofNat_add]
  rfl

theorem tileAt_eq {width height : UInt32} {i j : Nat} (hi : 64 * i < width.toNat) (hj : 64 * j < height.toNat) :
    tileAt width height (UInt32.ofNat (64 * i)) (UInt32.ofNat (64 * j)) =
      ⟨64 * i, 64 * j, min (width.toNat - 64 * i) 64, min (height.toNat - 64 * j) 64⟩ := by
  have hw := width.toNat_lt
  have hh := height.toNat_lt
  have e1 := u32_mul64 (i := i) (by omega)
  have e2 := u32_mul64 (i := j) (by omega)
  have key : ∀ (a b : UInt32), b.toNat < a.toNat → (if a - b > 64 then (64 : UInt32) else a - b).toNat = min (a.toNat - b.toNat) 64 := by
    intro a b hab
    have e : (a - b).toNat = a.toNat - b.toNat := UInt32.toNat_sub_of_le _ _ (UInt32.le_iff_toNat_le.2 (by omega))
    have h64 : (64 : UInt32).toNat = 64 := rfl
    by_cases h : a - b > 64
    · rw [if_pos h]
      have h := UInt32.lt_iff_toNat_lt.1 h
      rw [h64, e] at h
      rw [h64]
      omega
    · rw [if_neg h, e]
      have h : ¬ (64 : UInt32).toNat < (a - b).toNat := fun h' => h (UInt32.lt_iff_toNat_lt.2 h')
      rw [h64, e] at h
      omega
  unfold tileAt
  dsimp only
  rw [key _ _ (by rw [e1]; exact hi), key _ _ (by rw [e2]; exact hj), e1, e2]

/-- one row without wrapping -/
theorem rowLoop_eq {σ : Type} (body : Tile → σ → M σ) {width height : UInt32} (hw : width.toNat ≤ 0xffffffc0) {j : Nat} (hj : 64 * j < height.toNat) :
    ∀ (k i f : Nat) (ps : List UInt64) (s : σ) (r : R), i + k = tileCount width.toNat → k < f →
    rowLoop width height (UInt32.ofNat (64 * j)) body f (UInt32.ofNat (64 * i)) ps s r =
      goRest body ((List.range' i k).map fun i => ⟨64 * i, 64 * j, min (width.toNat - 64 * i) 64, min (height.toNat - 64 * j) 64⟩) ps s r
  | 0, i, f + 1, ps, s, r, hi, _ => by
    unfold tileCount at hi
    rw [rowLoop_ends]
    · rfl
    · rw [UInt32.lt_iff_toNat_lt, u32_mul64 (by omega)]
      omega
  | k + 1, i, f + 1, ps, s, r, hi, hf => by
    have hi' : 64 * i < width.toNat := by unfold tileCount at hi; omega
    have hlt := width.toNat_lt
    have hx : UInt32.ofNat (64 * i) < width := by rw [UInt32.lt_iff_toNat_lt, u32_mul64 (by omega)]; exact hi'
    rw [List.range'_succ, List.map_cons]
    cases ps with
    | nil => rw [rowLoop_out hx]; rfl
    | cons p ps =>
      rw [rowLoop_turn hx, tileAt_eq hi' hj, goRest, bind_app, bind_app]
      cases goto p r with
      | panic => rfl
      | hang => rfl
      | ok x =>
        dsimp only
        rw [bind_app, bind_app]
        cases body _ s x.2 with
        | panic => rfl
        | hang => rfl
        | ok z =>
          dsimp only
          rw [u32_step, rowLoop_eq body hw hj k (i + 1) f ps z.1 z.2 (by omega) (by omega)]

theorem rowsLoop_eq {σ : Type} (body : Tile → σ → M σ) {width height : UInt32} (hw : width.toNat ≤ 0xffffffc0) (hh : height.toNat ≤ 0xffffffc0)
    {inner : Nat} (hin : tileCount width.toNat < inner) : ∀ (k j f : Nat) (ps : List UInt64) (s : σ) (r : R), j + k = tileCount height.toNat → k < f →
    rowsLoop width height body inner f (UInt32.ofNat (64 * j)) ps s r =
      tileLoop.go body ((List.range' j k).flatMap fun j => (List.range (tileCount width.toNat)).map fun i =>
        ⟨64 * i, 64 * j, min (width.toNat - 64 * i) 64, min (height.toNat - 64 * j) 64⟩) ps s r
  | 0, j, f + 1, ps, s, r, hj, _ => by
    unfold tileCount at hj
    rw [rowsLoop, if_neg]
    · cases ps <;> rfl
    · rw [UInt32.lt_iff_toNat_lt, u32_mul64 (by omega)]
      omega
  | k + 1, j, f + 1, ps, s, r, hj, hf => by
    have hj' : 64 * j < height.toNat := by unfold tileCount at hj; omega
    rw [rowsLoop, if_pos (by rw [UInt32.lt_iff_toNat_lt, u32_mul64 (by omega)]; exact hj'), List.range'_succ, List.flatMap_cons, go_append, bind_app, bind_app]
    have h0 : (0 : UInt32) = UInt32.ofNat (64 * 0) := rfl
    rw [h0, rowLoop_eq body hw hj' (tileCount width.toNat) 0 inner ps s r (by omega) hin, ← List.range_eq_range']
    cases goRest body _ ps s r with
    | panic => rfl
    | hang => rfl
    | ok x =>
      dsimp only
      rw [u32_step, rowsLoop_eq body hw hh hin k (j + 1) f x.1.1 x.1.2 x.2 (by omega) (by omega)]

/-- `m` returns or panics -/
def Ends {α : Type} (m : M α) : Prop := ∀ r, m r ≠ .hang

/-- counters that are multiples of 64 are below such a limit whenever they wrap -/
theorem below_limit {n : UInt32} (hn : n.toNat > 0xffffffc0) (i : Nat) : UInt32.ofNat (64 * i) < n := by
  rw [UInt32.lt_iff_toNat_lt, UInt32.toNat_ofNat']
  omega

theorem rowLoop_wraps {σ : Type} (body : Tile → σ → M σ) (hb : ∀ t s, Ends (body t s)) {width height y : UInt32} (hw : width.toNat > 0xffffffc0) :
    ∀ (ps : List UInt64) (i f : Nat) (s : σ) (r : R), ps.length < f → rowLoop width height y body f (UInt32.ofNat (64 * i)) ps s r = .panic
  | [], i, f + 1, s, r, _ => by
    exact rowLoop_out (below_limit hw i) f s r
  | p :: ps, i, f + 1, s, r, hf => by
    rw [rowLoop_turn (below_limit hw i), bind_app]
    cases hg : goto p r with
    | panic => cases hg
    | hang => cases hg
    | ok x =>
      dsimp only
      rw [bind_app]
      cases e : body (tileAt width height (UInt32.ofNat (64 * i)) y) s x.2 with
      | panic => rfl
      | hang => exact (hb _ _ _ e).elim
      | ok z =>
        dsimp only
        rw [u32_step]
        exact rowLoop_wraps body hb hw ps (i + 1) f z.1 z.2 (by simpa using hf)

/-- a row takes at least one pointer, or there is none -/
theorem goRest_takes {σ : Type} (body : Tile → σ → M σ) (hb : ∀ t s, Ends (body t s)) : ∀ (ts : List Tile) (ps : List UInt64) (s : σ) (r : R),
    goRest body ts ps s r = .panic ∨ ∃ s' r', goRest body ts ps s r = .ok ((ps.drop ts.length, s'), r')  ∧ ts.length ≤ ps.length
  | [], ps, s, r => .inr ⟨s, r, rfl, Nat.zero_le _⟩
  | _ :: _, [], s, r => .inl rfl
  | t :: ts, p :: ps, s, r => by
    rw [goRest, bind_app]
    cases hg : goto p r with
    | panic => cases hg
    | hang => cases hg
    | ok x =>
      dsimp only
      rw [bind_app]
      cases e : body t s x.2 with
      | panic => exact .inl rfl
      | hang => exact (hb _ _ _ e).elim
      | ok z =>
        dsimp only
        rcases goRest_takes body hb ts ps z.1 z.2 with h | ⟨s'', r'', h, hl⟩
        · exact .inl h
        · exact .inr ⟨s'', r'', by simpa using h, by simpa using hl⟩

theorem rowsLoop_wraps {σ : Type} (body : Tile → σ → M σ) (hb : ∀ t s, Ends (body t s)) {width height : UInt32} (hw0 : width ≠ 0)
    (hw : width.toNat ≤ 0xffffffc0) (hh : height.toNat > 0xffffffc0) {inner : Nat} (hin : tileCount width.toNat < inner) :
    ∀ (f : Nat) (ps : List UInt64) (j : Nat) (s : σ) (r : R), ps.length < f → rowsLoop width height body inner f (UInt32.ofNat (64 * j)) ps s r = .panic
  | f + 1, ps, j, s, r, hf => by
    have hpos : 0 < tileCount width.toNat := by
      have : width.toNat ≠ 0 := fun h => hw0 (UInt32.toNat_inj.1 h)
      unfold tileCount
      omega
    have hj : 64 * (j % 2 ^ 26) < height.toNat := by omega
    have e : UInt32.ofNat (64 * j) = UInt32.ofNat (64 * (j % 2 ^ 26)) := by
      apply UInt32.toNat_inj.1
      rw [UInt32.toNat_ofNat', UInt32.toNat_ofNat']
      omega
    rw [rowsLoop, if_pos (below_limit hh j), bind_app]
    have h0 : (0 : UInt32) = UInt32.ofNat (64 * 0) := rfl
    rw [e, h0, rowLoop_eq body hw hj (tileCount width.toNat) 0 inner ps s r (by omega) hin]
    rcases goRest_takes body hb ((List.range' 0 (tileCount width.toNat)).map fun i =>
      ⟨64 * i, 64 * (j % 2 ^ 26), min (width.toNat - 64 * i) 64, min (height.toNat - 64 * (j % 2 ^ 26)) 64⟩) ps s r with h | ⟨s', r', h, hl⟩
    · rw [h]
    · rw [h]
      dsimp only
      rw [u32_step]
      refine rowsLoop_wraps body hb hw0 hw hh hin f _ _ s' r' ?_
      rw [List.length_map, List.length_range'] at hl ⊢
      rw [List.length_drop]
      omega

theorem rowsLoop_empty {σ : Type} (body : Tile → σ → M σ) {height : UInt32} {inner : Nat} (hin : 0 < inner) (f : Nat) (y : UInt32) (ps : List UInt64) (s : σ) (r : R) :
    rowsLoop 0 height body inner (f + 1) y ps s r = if y < height then rowsLoop 0 height body inner f (y + 64) ps s r else .ok (s, r) := by
  rw [rowsLoop]
  split
  · obtain ⟨k, rfl⟩ : ∃ k, inner = k + 1 := ⟨inner - 1, by omega⟩
    rw [bind_app, rowLoop_ends (by decide)]
  · rfl

theorem rowsLoop_forever {σ : Type} (body : Tile → σ → M σ) {height : UInt32} (hh : height.toNat > 0xffffffc0) {inner : Nat} (hin : 0 < inner) :
    ∀ (f j : Nat) (ps : List UInt64) (s : σ) (r : R), rowsLoop 0 height body inner f (UInt32.ofNat (64 * j)) ps s r = .hang
  | 0, _, _, _, _ => rfl
  | f + 1, j, ps, s, r => by
    rw [rowsLoop_empty body hin, if_pos (below_limit hh j), u32_step]
    exact rowsLoop_forever body hh hin f (j + 1) ps s r

/-- **C46** (the loops over tiles).  With enough turns the loops as they are written, with counters of 32 bits, do what `tileLoop` says; where `tileLoop` says
that they run forever, no number of turns is enough. -/
theorem C46_loops {σ : Type} (body : Tile → σ → M σ) (hb : ∀ t s, Ends (body t s)) (width height : UInt32) (tiles : List UInt64) (s : σ) (r : R) :
    ∃ N, ∀ inner f, N ≤ inner → N ≤ f → rowsLoop width height body inner f 0 tiles s r = tileLoop width.toNat height.toNat tiles s body r := by
  have h0 : (0 : UInt32) = UInt32.ofNat (64 * 0) := rfl
  refine ⟨tileCount width.toNat + tileCount height.toNat + tiles.length + 2, fun inner f hi hf => ?_⟩
  unfold tileLoop
  by_cases hw0 : width = 0
  · subst hw0
    rw [if_pos (show (0 : UInt32).toNat = 0 from rfl)]
    by_cases hh : height.toNat > 0xffffffc0
    · rw [if_pos hh, h0]
      exact rowsLoop_forever body hh (by omega) f 0 tiles s r
    · have hz : tileCount (UInt32.ofNat (64 * 0)).toNat = 0 := rfl
      rw [if_neg hh, h0, rowsLoop_eq body (by decide) (by omega) (by rw [hz]; omega) (tileCount height.toNat) 0 f tiles s r (by omega) (by omega)]
      have : (List.range (tileCount (UInt32.ofNat (64 * 0)).toNat)) = [] := rfl
      rw [this]
      simp only [List.map_nil]
      have e : ∀ l : List Nat, (l.flatMap fun _ => ([] : List Tile)) = [] := by
        intro l
        induction l with
        | nil => rfl
        | cons a l ih => rw [List.flatMap_cons, ih]; rfl
      rw [e]
      cases tiles <;> rfl
  · have hw0' : width.toNat ≠ 0 := fun h => hw0 (UInt32.toNat_inj.1 h)
    rw [if_neg hw0']
    by_cases hh0 : height.toNat = 0
    · rw [if_pos hh0]
      obtain ⟨f, rfl⟩ : ∃ k, f = k + 1 := ⟨f - 1, by omega⟩
      rw [rowsLoop, if_neg (by rw [UInt32.lt_iff_toNat_lt, hh0]; exact Nat.not_lt_zero _)]
    · rw [if_neg hh0]
      by_cases hw : width.toNat > 0xffffffc0
      · rw [if_pos (.inl hw)]
        obtain ⟨f, rfl⟩ : ∃ k, f = k + 1 := ⟨f - 1, by omega⟩
        rw [rowsLoop, if_pos (by rw [UInt32.lt_iff_toNat_lt]; exact Nat.pos_of_ne_zero hh0), bind_app, h0,
          rowLoop_wraps body hb hw tiles 0 inner s r (by omega)]
        rfl
      · by_cases hh : height.toNat > 0xffffffc0
        · rw [if_pos (.inr hh), h0]
          exact rowsLoop_wraps body hb hw0 (by omega) hh (by omega) f tiles 0 s r (by omega)
        · rw [if_neg (by omega), h0, rowsLoop_eq body (by omega) (by omega) (by omega) (tileCount height.toNat) 0 f tiles s r (by omega) (by omega),
            ← List.range_eq_range']
          rfl

theorem runs_ends {α : Type} {m : M α} (h : ∀ D, Runs True D m) : Ends m := by
  intro r e
  have := h r.data r rfl
  rw [e] at this
  exact this

/-- the bodies of the loops over tiles -/
theorem bodies_end (c : Ctx) (bpp : Nat) : (∀ t s, Ends (eagerTile c bpp t s)) ∧ (∀ t s, Ends ((fun (_ : Tile) (_ : Unit) => (M.panic : M Unit)) t s)) ∧
    ∀ (t : Tile) (ts : List (List Bytes)), Ends (do let bs ← readChannels (t.w * t.h) bpp; return ts ++ [bs]) :=
  ⟨fun t s => runs_ends fun _ => eagerTile_runs c bpp t s, fun _ _ _ h => (by cases h),
    fun t ts => runs_ends fun _ => (readChannels_runs _ _).bind fun _ => Runs.pure _⟩

/-- **C46** (reading an image).  What the model reads of an image is what the loops as they are written read. -/
theorem C46_images (c : Ctx) (kind bpp : Nat) (width height : UInt32) (tiles : List UInt64) (r : R) :
    ∃ N, ∀ inner f, N ≤ inner → N ≤ f →
      readEager c kind bpp width.toNat height.toNat tiles r = (if kind < 6 then (do
          allocate (width.toNat * height.toNat) (pixelSize kind)
          let s ← rowsLoop width height (eagerTile c bpp) inner f 0 tiles ⟨Rle.start, List.replicate 16384 0, fun _ _ => List.replicate bpp 0⟩
          return some ⟨kind, width.toNat, height.toNat, c.palette, s.px⟩ : M (Option EagerImg))
        else do
          let _ ← rowsLoop width height (fun _ _ => M.panic) inner f 0 tiles ()
          return none) r ∧
      readLazy c kind bpp width.toNat height.toNat tiles r = (do
        allocate tiles.length 24
        let ts ← rowsLoop width height (fun t ts => do
          let bs ← readChannels (t.w * t.h) bpp
          return ts ++ [bs]) inner f 0 tiles []
        if kind < 6 then return some ⟨kind, width.toNat, height.toNat, c.palette, ts⟩ else return none : M (Option LazyImg)) r := by
  obtain ⟨h1, h2, h3⟩ := bodies_end c bpp
  obtain ⟨N1, hN1⟩ := C46_loops _ h1 width height tiles ⟨Rle.start, List.replicate 16384 0, fun _ _ => List.replicate bpp 0⟩ r
  obtain ⟨N2, hN2⟩ := C46_loops _ h2 width height tiles () r
  obtain ⟨N3, hN3⟩ := C46_loops _ h3 width height tiles [] r
  refine ⟨N1 + N2 + N3, fun inner f hi hf => ⟨?_, ?_⟩⟩
  · unfold readEager
    split
    · unfold allocate
      split
      · rfl
      · show (tileLoop width.toNat height.toNat tiles _ _ >>= _) r = (rowsLoop width height _ inner f 0 tiles _ >>= _) r
        rw [bind_app, bind_app, hN1 inner f (by omega) (by omega)]
    · rw [bind_app, bind_app, hN2 inner f (by omega) (by omega)]
  · unfold readLazy allocate
    split
    · rfl
    · show (tileLoop width.toNat height.toNat tiles _ _ >>= _) r = (rowsLoop width height _ inner f 0 tiles _ >>= _) r
      rw [bind_app, bind_app, hN3 inner f (by omega) (by omega)]

/-- **C46** (the loop that does not end).  The loops run forever, however many turns they may take, if and only if the width is 0 and the height above
0xffffffc0. -/
theorem C46_forever {σ : Type} (body : Tile → σ → M σ) (hb : ∀ t s, Ends (body t s)) (width height : UInt32) (tiles : List UInt64) (s : σ) (r : R) :
    (∀ N, ∃ inner f, N ≤ inner ∧ N ≤ f ∧ rowsLoop width height body inner f 0 tiles s r = .hang) ↔ width = 0 ∧ height.toNat > 0xffffffc0 := by
  constructor
  · intro h
    obtain ⟨N, hN⟩ := C46_loops body hb width height tiles s r
    obtain ⟨inner, f, h1, h2, h3⟩ := h N
    rw [hN inner f h1 h2] at h3
    by_cases hw : width.toNat = 0
    · refine ⟨UInt32.toNat_inj.1 hw, ?_⟩
      unfold tileLoop at h3
      rw [if_pos hw] at h3
      by_cases hh : height.toNat > 0xffffffc0
      · exact hh
      · rw [if_neg hh] at h3
        cases h3
    · exfalso
      unfold tileLoop at h3
      rw [if_neg hw] at h3
      by_cases hh : height.toNat = 0
      · rw [if_pos hh] at h3
        cases h3
      · rw [if_neg hh] at h3
        by_cases hx : width.toNat > 0xffffffc0 ∨ height.toNat > 0xffffffc0
        · rw [if_pos hx] at h3
          cases h3
        · rw [if_neg hx, ← List.append_nil (tileGrid _ _), go_append, bind_app] at h3
          rcases goRest_takes body hb (tileGrid width.toNat height.toNat) tiles s r with h | ⟨s', r', h, -⟩
          · rw [h] at h3
            cases h3
          · rw [h] at h3
            dsimp only at h3
            cases hd : tiles.drop (tileGrid width.toNat height.toNat).length <;> rw [hd] at h3 <;> cases h3
  · rintro ⟨rfl, hh⟩ N
    exact ⟨N + 1, N, Nat.le_succ _, Nat.le_refl _, rowsLoop_forever body hh (Nat.succ_pos _) N 0 tiles s r⟩

-- a body that returns, and sizes that are read to the end, run out of pointers or run forever
example : (∀ (t : Tile) (n : Nat), Ends (pure (n + t.w) : M Nat)) ∧
    rowsLoop 100 1 (fun t n => pure (n + t.w)) 5 5 0 [7, 9] 0 (newReader []) = .ok (100, ⟨[], maxString, 9, none⟩) ∧
    rowsLoop 100 1 (fun t n => pure (n + t.w)) 5 5 0 [7] 0 (newReader []) = .panic ∧
    (0xffffffc1 : UInt32).toNat > 0xffffffc0 :=
  ⟨fun _ _ _ h => (by cases h), by rfl, by rfl, by decide⟩

end Limage
