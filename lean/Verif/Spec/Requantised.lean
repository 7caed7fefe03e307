import Verif.Spec.Baseline
/-!
# Specification: the same picture with other quantisation tables

The standard reconstructs a coefficient as the product of what is coded and the entry of the table (F.2.1.4); the
picture is made from these products.
-/

namespace Jpeg.Spec

/-- The coefficient in row `k`, column `l` of block `j` of component `i` in MCU `n`, dequantised. -/
def BaselineFile.coefficient (f : BaselineFile) (n i j k l : Nat) : Option Int :=
  (f.comps[i]?.bind f.quantOf).bind fun q => f.intervals.flatten[n]?.bind fun m => m[i]?.bind fun blocks =>
    blocks[j]?.map fun b => dequantised q b k l

/-- Two files with the same coefficients. -/
structure SameCoefficients (f f' : BaselineFile) : Prop where
  factors : List.Forall₂ (fun c c' => c.h = c'.h ∧ c.v = c'.v) f.comps f'.comps
  x : f.x = f'.x
  y : f.y = f'.y
  products : ∀ n i j k l, k < 8 → l < 8 → f.coefficient n i j k l = f'.coefficient n i j k l

end Jpeg.Spec
