import Mathlib.Analysis.SpecialFunctions.Trigonometric.Basic
import Mathlib.Algebra.BigOperators.Ring.Finset
/-!
# Specification: the inverse DCT of T.81 (A.3.3) over the reals
-/

namespace Jpeg.Spec

open Real Finset

/-- The normalisation factor: `1 / sqrt 2` for index zero, one otherwise. -/
noncomputable def dctScale (k : Nat) : ℝ := if k = 0 then 1 / √2 else 1

/-- T.81 A.3.3: the sample in row `y`, column `x` (before the level shift) of the block whose
coefficient in row `v`, column `u` is `F v u`. -/
noncomputable def realIdct (F : Nat → Nat → ℝ) (y x : Nat) : ℝ :=
  1 / 4 * ∑ u ∈ range 8, ∑ v ∈ range 8, dctScale u * dctScale v * F v u *
    cos ((2 * x + 1) * u * π / 16) * cos ((2 * y + 1) * v * π / 16)

/-- The inverse DCT of size `n` (4 or 2) of the low frequency corner of a block, scaled so that a block with
only a DC coefficient has the same value as at full size: `1/8` of the coefficient. (For `n = 8` it is
`realIdct`.) -/
noncomputable def reducedIdct (n : Nat) (F : Nat → Nat → ℝ) (y x : Nat) : ℝ :=
  1 / 4 * ∑ u ∈ range n, ∑ v ∈ range n, dctScale u * dctScale v * F v u *
    cos ((2 * x + 1) * u * π / (2 * n)) * cos ((2 * y + 1) * v * π / (2 * n))

end Jpeg.Spec
