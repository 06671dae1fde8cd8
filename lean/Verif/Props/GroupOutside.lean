import Verif.Props.AnyFile
/-! # Groups that begin outside the canvas (C89) -/
namespace Limage
open Spec

/-- A grey file (version 3) with a canvas of one pixel and a group of 2 x 1 that begins one pixel to the left of the canvas; in it is a layer of one
pixel, on the canvas. -/
def groupOutside : Bytes :=
  [103, 105, 109, 112, 32, 120, 99, 102, 32, 118, 48, 48, 51, 0] ++ be 4 1 ++ be 4 1 ++ be 4 1 ++
  be 4 17 ++ be 4 1 ++ [1] ++ be 4 0 ++ be 4 0 ++ be 4 59 ++ be 4 115 ++ be 4 0 ++ be 4 0 ++
  -- 59: group
  be 4 2 ++ be 4 1 ++ be 4 3 ++ be 4 0 ++ be 4 15 ++ be 4 8 ++ [255, 255, 255, 255] ++ be 4 0 ++ be 4 29 ++ be 4 0 ++ be 4 0 ++ be 4 0 ++
  be 4 0 ++ be 4 0 ++
  -- 115: layer
  be 4 1 ++ be 4 1 ++ be 4 3 ++ be 4 0 ++ be 4 30 ++ be 4 8 ++ be 4 0 ++ be 4 0 ++ be 4 0 ++ be 4 0 ++ be 4 163 ++ be 4 0 ++
  -- 163: hierarchy, 183: level, 199: tile
  be 4 1 ++ be 4 1 ++ be 4 2 ++ be 4 183 ++ be 4 0 ++ be 4 1 ++ be 4 1 ++ be 4 199 ++ be 4 0 ++ [0, 100, 0, 255]

def groupOutsideLayers : List Layer :=
  [⟨[], ⟨-1, 0, 1, 1⟩, Mode.normal, false, 0, .group
    [⟨[], ⟨1, 0, 2, 1⟩, Mode.normal, false, 0, .leaf ⟨⟨0, 0, 1, 1⟩, .grayAlpha, fun _ => some (.grayAlpha 100 255)⟩⟩]⟩]

theorem groupOutside_file : FileIn (groupOutside.take maxString) ⟨[118, 48, 48, 51], false, false⟩ greyCoding
    (Handled (greyCoding.typ == 2)) (fun _ => true) ⟨0, 0, 1, 1⟩ (placed groupOutsideLayers 0 0 0 []) := by
  rw [List.take_of_length_le (by decide +kernel)]
  refine ⟨fun _ _ => rfl, 0, [(17, [1])], [59, 115], [], ?_, by decide +kernel, .cons ?_ (.cons ?_ .nil)⟩
  · exact plain_props _ 1 rfl rfl _ (by simp) (by simp) _
  · refine ⟨[0, 0, 0, 0], [(15, int (-1) ++ int 0), (29, [])], 0, 0, .inr rfl, ?_, by decide +kernel, Nat.zero_le _, rfl⟩
    refine ⟨by decide, ⟨[], ?_, by simp, by simp, .inl ⟨rfl, rfl⟩⟩, .inr (.inr rfl), .inr rfl, .inl (by decide), .inr rfl,
      .inr (by decide), .inl (by decide)⟩
    intro p hp
    simp only [List.mem_cons, List.not_mem_nil, or_false] at hp
    rcases hp with rfl | rfl
    · exact .offsets
    · exact .group rfl
  · refine ⟨[0, 0, 0, 0], [(30, num 0 ++ num 0)], 163, 0, .inr rfl, ?_, by decide +kernel, ⟨⟨0, 0, 1, 1⟩, rfl, ?_⟩, rfl⟩
    · refine ⟨by decide, ⟨[], ?_, by simp, by simp, .inl ⟨rfl, rfl⟩⟩, .inr (.inr rfl), .inr rfl, .inr ⟨rfl, rfl⟩, .inr rfl,
        .inl (by decide), .inr rfl⟩
      intro p hp
      simp only [List.mem_cons, List.not_mem_nil, or_false] at hp
      subst hp
      exact .path (by decide)
    · refine ⟨183, [199], [], by decide +kernel, by decide +kernel, .cons ?_ .nil⟩
      refine ⟨[[100, 255]], ⟨[[0, 100], [0, 255]], rfl, by decide +kernel, ?_⟩, .cons ⟨0, 0, .grayAlpha 100 255, rfl, rfl⟩ .nil⟩
      intro k hk
      have h2 : k < 2 := hk
      have : k = 0 ∨ k = 1 := by omega
      rcases this with rfl | rfl <;> exact encodes_one _

/-- Layers in groups that begin outside the canvas are moved: the file shows the grey 100 on its only pixel; the image that is read shows nothing there,
since the layer is placed by where the group began before it was cut. -/
theorem C89_group_refuted :
    FileIn (groupOutside.take maxString) ⟨[118, 48, 48, 51], false, false⟩ greyCoding (Handled (greyCoding.typ == 2)) (fun _ => true)
      ⟨0, 0, 1, 1⟩ (placed groupOutsideLayers 0 0 0 []) ∧
    ((Img.group groupOutsideLayers).at (fun _ => 0) ⟨0, 0⟩ 0).map (·.1.rgba32) = some (Color.gray 100).rgba32 ∧
    (colorRead (decodeImage exEnv exSched true groupOutside) ⟨0, 0⟩).map (·.toNRGBA.a) = some 0 :=
  ⟨groupOutside_file, by decide +kernel, by decide +kernel⟩

end Limage
