import Verif.Spec.Local
/-!
# Specification: sampling factors of the same ratios

A.1.1: the size of a component is that of the image times its sampling factors divided by the largest ones. Factors
that are all twice as large say the same; the blocks are only interleaved differently (A.2.3).
-/

namespace Jpeg.Spec

/-- `f`, with largest factors `H` and `V`, and `f'`, with `H'` and `V'`, have components of the same sizes with the same
blocks and quantisation tables. -/
structure SameRatios (f f' : BaselineFile) (H V H' V' : Nat) : Prop where
  x : f.x = f'.x
  y : f.y = f'.y
  ratios : List.Forall₂ (fun c c' => c.h * H' = c'.h * H ∧ c.v * V' = c'.v * V ∧ f.quantOf c = f'.quantOf c') f.comps f'.comps
  blocks : ∀ i c c', f.comps[i]? = some c → f'.comps[i]? = some c' → ∀ Y X, Y < ceilDiv (f.y * c.v) V →
    X < ceilDiv (f.x * c.h) H → f.blockAt H i c Y X = f'.blockAt H' i c' Y X

end Jpeg.Spec
