import Verif.Spec.Colourless
import Verif.Spec.Requantised
/-!
# Specification: the mean of a block

The DC coefficient is 8 times the mean of the 64 samples of a block, as difference from 128 (A.3.3): the coefficients of
the other frequencies do not change it.
-/

namespace Jpeg.Spec

/-- The dequantised DC coefficient of the block in row `R`, column `C` of the blocks of a component at full resolution
(`H` blocks of it in an MCU, side by side). -/
def BaselineFile.dcAt (f : BaselineFile) (H i R C : Nat) : Option Int :=
  f.coefficient (R * ceilDiv f.x (8 * H) + C / H) i (C % H) 0 0

/-- Sum over the 64 places of a block. -/
def blockSum (g : Nat → Nat → Int) : Int :=
  ((List.range 8).map fun r => ((List.range 8).map fun x => g r x).sum).sum

end Jpeg.Spec
