import Verif.Spec.Requantised
/-!
# Specification: small changes of the coefficients

Quantising a picture again, with other tables, or dropping small coefficients, changes the dequantised coefficients by a
little.
-/

namespace Jpeg.Spec

/-- The sum of the differences of the coefficients of two blocks, in magnitude. -/
def blockChange (F F' : Nat → Nat → Int) : Nat :=
  ((List.range 8).map fun l => ((List.range 8).map fun k => (F k l - F' k l).natAbs).sum).sum

/-- Two files of the same sizes whose dequantised coefficients differ by at most `D` in every block, in sum. -/
structure NearCoefficients (f f' : BaselineFile) (D : Nat) : Prop where
  factors : List.Forall₂ (fun c c' => c.h = c'.h ∧ c.v = c'.v) f.comps f'.comps
  x : f.x = f'.x
  y : f.y = f'.y
  present : ∀ n i j k l, (f.coefficient n i j k l).isSome = (f'.coefficient n i j k l).isSome
  change : ∀ n i j, blockChange (fun k l => (f.coefficient n i j k l).getD 0) (fun k l => (f'.coefficient n i j k l).getD 0) ≤ D

end Jpeg.Spec
