import Mathlib.Analysis.Real.Sqrt
import Mathlib.Algebra.BigOperators.Intervals
/-!
# Specification: the mean square over a picture
-/

namespace Jpeg.Spec
open Finset

/-- The root of the mean of the squares over `h` lines of `w` places. -/
noncomputable def rootMeanSquare (h w : Nat) (g : Nat → Nat → ℝ) : ℝ :=
  √((∑ Y ∈ range h, ∑ X ∈ range w, g Y X ^ 2) / (h * w))

end Jpeg.Spec
