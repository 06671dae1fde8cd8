import Verif.Model.OraConfig
import Verif.Props.OraEntries
/-!
# C128: `ora.DecodeConfig` and `ora.Decode`
-/
namespace Limage

namespace Spec

/-- the configuration is that of the picture: its colour model and its size -/
def ConfigOf (c : OraConfig) (g : List Layer) : Prop :=
  (Img.group g).colorModel = some c.colorModel ∧ ∃ b, (Img.group g).bounds = some b ∧ c.width = b.dx ∧ c.height = b.dy

/-- the claim in full: what `DecodeConfig` tells is true of what `Decode` returns -/
def ConfigAgrees : Prop :=
  ∀ (env : OraEnv) (files : List ZipEntry) (g : List Layer), oraDecode env files = .ok g → ∃ c, oraConfig env files = .ok c ∧ ConfigOf c g

/-- an archive with a document in which the canvas has that width, and a grey picture of 10 by 8 points -/
def canvasEnv (w : Bytes) : OraEnv :=
  { exampleEnv with
    xmlRead := fun _ => (document [] [(lit "w", w), (lit "h", lit "8")] [] [] [.elem (lit "layer") [(lit "src", lit "a")] []] [], true)
    decodeImage := fun _ => some ⟨⟨0, 0, 10, 8⟩, .gray, fun _ => some (.gray 7)⟩ }

end Spec
open Spec

/-- **C128**: an error of `DecodeConfig` is the error of `Decode`. -/
theorem C128_errors (env : OraEnv) (files : List ZipEntry) (e : OraErr) (h : oraConfig env files = .err e) : oraDecode env files = .err e := by
  unfold oraConfig oraDecodeConfig at h
  unfold oraDecode
  cases hs : oraStart env files with
  | ok a => rw [hs] at h; cases h
  | err e' => rw [hs] at h; cases h; rfl
  | panic => rw [hs] at h; cases h
  | hang => rw [hs] at h; cases h

-- no canvas: both return the error
example : oraConfig (canvasEnv (lit "x")) exampleFiles = .err .number := rfl

/-- **C128**: for every archive that `Decode` reads, `DecodeConfig` returns the size of a canvas at the origin that all of the picture is on, and that is
the size of the picture if one of its layers fills the canvas.  Missing: the size of all other pictures, and the colour model (both are refuted below). -/
theorem C128_size_partial (env : OraEnv) (files : List ZipEntry) (g : List Layer) (h : oraDecode env files = .ok g) :
    ∃ c b, oraConfig env files = .ok c ∧ (Img.group g).bounds = some b ∧ inside b ⟨0, 0, c.width, c.height⟩ ∧
      (∀ l ∈ g, l.bounds = ⟨0, 0, c.width, c.height⟩ → 0 < c.width → 0 < c.height → b = ⟨0, 0, c.width, c.height⟩ ∧ c.width = b.dx ∧ c.height = b.dy) := by
  obtain ⟨w, h', hc, hon⟩ := C65_canvas env files g h
  obtain ⟨b, hb, hin⟩ := C24_smallest g ⟨0, 0, w, h'⟩ fun l hl p hp => by
    have := hon l hl p (by unfold inRect at hp; simp [Rect.mem]; omega)
    unfold inRect; dsimp only; omega
  refine ⟨⟨.other, w, h'⟩, b, by unfold oraConfig; rw [hc]; rfl, hb, hin, fun l hl he hw hh => ?_⟩
  obtain ⟨b', hb', hl'⟩ := C24_contains g l hl
  cases hb.symm.trans hb'
  rw [he] at hl'
  dsimp only at *
  have h1 := hl' ⟨0, 0⟩ (by unfold inRect; dsimp only; omega)
  have h2 := hl' ⟨w - 1, h' - 1⟩ (by unfold inRect; dsimp only; omega)
  have h3 := hin ⟨b.x0, b.y0⟩ (by unfold inRect at h1 ⊢; dsimp only at h1 ⊢; omega)
  have h4 := hin ⟨b.x1 - 1, b.y1 - 1⟩ (by unfold inRect at h1 ⊢; dsimp only at h1 ⊢; omega)
  unfold inRect at h1 h2 h3 h4
  dsimp only at h1 h2 h3 h4
  have : b = ⟨0, 0, w, h'⟩ := by
    obtain ⟨x0, y0, x1, y1⟩ := b
    dsimp only at *
    have : x0 = 0 ∧ y0 = 0 ∧ x1 = w ∧ y1 = h' := by omega
    obtain ⟨rfl, rfl, rfl, rfl⟩ := this
    rfl
  refine ⟨this, ?_, ?_⟩ <;> rw [this] <;> simp [Rect.dx, Rect.dy]

-- a layer that fills the canvas
example : ∃ g l, oraDecode (canvasEnv (lit "10")) exampleFiles = .ok g ∧ oraConfig (canvasEnv (lit "10")) exampleFiles = .ok ⟨.other, 10, 8⟩ ∧ l ∈ g ∧
    l.bounds = ⟨0, 0, 10, 8⟩ := by
  refine ⟨_, _, rfl, rfl, .head _, ?_⟩
  decide +kernel

/-- **C128**: the claim is false: the picture may be smaller than the canvas. -/
theorem C128_refuted : ¬ConfigAgrees := by
  intro h
  obtain ⟨c, hc, -, b, hb, hw, -⟩ := h exampleEnv exampleFiles _ rfl
  cases hc
  cases hb
  revert hw
  decide +kernel

/-- **C128**: the colour model is wrong for every picture with a grey layer on top, as it is always that of `color.NRGBA`. -/
theorem C128_model_refuted (env : OraEnv) (files : List ZipEntry) (g : List Layer) (hg : (Img.group g).colorModel = some .gray) (c : OraConfig)
    (hc : oraConfig env files = .ok c) : ¬ConfigOf c g := by
  intro h
  obtain ⟨w, -, hc⟩ := OraRes.bind_ok hc
  cases hc
  cases hg.symm.trans h.1

-- such a picture, of the size of its canvas
example : ∃ g, oraDecode (canvasEnv (lit "10")) exampleFiles = .ok g ∧ (Img.group g).colorModel = some .gray ∧
    (Img.group g).bounds = some ⟨0, 0, 10, 8⟩ := ⟨_, rfl, rfl, by decide +kernel⟩

/-- **C128**: the width that `DecodeConfig` returns may be negative, while `Decode` returns a picture without points. -/
theorem C128_negative_refuted : ∃ env files g, oraDecode env files = .ok g ∧ oraConfig env files = .ok ⟨.other, -5, 8⟩ ∧
    (Img.group g).bounds = some ⟨0, 0, 0, 0⟩ := ⟨canvasEnv (lit "-5"), exampleFiles, _, rfl, rfl, by decide +kernel⟩

end Limage
