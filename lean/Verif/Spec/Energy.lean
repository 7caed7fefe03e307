import Verif.Spec.Requantised
import Mathlib.Analysis.Real.Sqrt
import Mathlib.Algebra.BigOperators.Intervals
/-!
# Specification: the mean square difference of two pictures

The DCT keeps lengths: the squares of the differences of the 64 samples of two blocks have the sum of the squares of the
differences of their coefficients (Parseval). The quality of a picture can therefore be measured without decoding it.
-/

namespace Jpeg.Spec
open Finset

/-- The root of the sum of the squares over the 64 places of a block; an eighth of it is the root mean square. -/
noncomputable def blockLength (g : Nat → Nat → ℝ) : ℝ := √(∑ r ∈ range 8, ∑ x ∈ range 8, g r x ^ 2)

/-- The dequantised coefficient in row `k`, column `l` of the block in row `R`, column `C` of the blocks of a component at
full resolution (`H` blocks of it in an MCU, side by side). -/
def BaselineFile.coefficientAt (f : BaselineFile) (H i R C k l : Nat) : Option Int :=
  f.coefficient (R * ceilDiv f.x (8 * H) + C / H) i (C % H) k l

end Jpeg.Spec
