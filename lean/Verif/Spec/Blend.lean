import Mathlib.Algebra.Order.Floor.Ring
import Mathlib.Data.Rat.Floor
/-!
# Specification of blending

Colour channels as rational numbers in [0,1].  Nothing here refers to the model.
-/
namespace Limage.Spec

/-- A 16-bit channel value as a fraction of full intensity. -/
def unit (x : UInt16) : ℚ := (x.toNat : ℚ) / 65535

/-- Union of two independent coverages. -/
def union (a b : ℚ) : ℚ := a + b - a * b

def multiply (x y : ℚ) : ℚ := x * y
def screen (x y : ℚ) : ℚ := 1 - (1 - x) * (1 - y)
def difference (x y : ℚ) : ℚ := max x y - min x y
def addition (x y : ℚ) : ℚ := min 1 (x + y)
def subtract (x y : ℚ) : ℚ := max 0 (x - y)
def darken (x y : ℚ) : ℚ := min x y
def lighten (x y : ℚ) : ℚ := max x y
def divide (x y : ℚ) : ℚ := if y = 0 then (if x = 0 then 0 else 1) else min 1 (x / y)
def dodge (x y : ℚ) : ℚ := if y = 1 then (if x = 0 then 0 else 1) else min 1 (x / (1 - y))
def burn (x y : ℚ) : ℚ := if y = 0 then (if x = 1 then 1 else 0) else max 0 (1 - (1 - x) / y)
/-- mid grey as the code defines it: 0x7fff of 0xffff -/
def mid : ℚ := 32767 / 65535
def grainExtract (x y : ℚ) : ℚ := min 1 (max 0 (x - y + mid))
def grainMerge (x y : ℚ) : ℚ := min 1 (max 0 (x + y - mid))
def hardLight (x y : ℚ) : ℚ := if y ≤ 1 / 2 then multiply x (2 * y) else screen x (2 * y - 1)
/-- Overlay of OpenRaster / GIMP: x over itself, steered by y. -/
def overlay (x y : ℚ) : ℚ := x * (x + 2 * y * (1 - x))

/-- Scale a fraction to a channel value, rounding down. -/
def down (q : ℚ) : ℤ := ⌊65535 * q⌋
/-- Scale a fraction to a channel value, rounding up. -/
def up (q : ℚ) : ℤ := ⌈65535 * q⌉

end Limage.Spec
