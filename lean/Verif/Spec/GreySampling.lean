import Verif.Spec.Colourless
/-!
# Specification: pictures without colour whose files subsample the chrominance differently

How many samples of the chrominance a file has for a pixel does not matter when they are all zero: A.2 only orders the
blocks of the luminance differently.
-/

namespace Jpeg.Spec

/-- All components but the first are zero. -/
def Achromatic (f : BaselineFile) : Prop :=
  ∀ m ∈ f.intervals.flatten, ∀ i, i ≠ 0 → ∀ blocks, m[i]? = some blocks → ∀ b ∈ blocks, ZeroBlock b

/-- `f`, with largest factors `H` and `V`, and `f'`, with `H'` and `V'`, are the same picture without colour: a sample
of luminance for every pixel, and the same coefficients in the blocks that cover a pixel. -/
structure SameGrey (f f' : BaselineFile) (H V H' V' : Nat) : Prop where
  x : f.x = f'.x
  y : f.y = f'.y
  zero : Achromatic f
  zero' : Achromatic f'
  luminance : ∃ c c' q q', f.comps[0]? = some c ∧ f'.comps[0]? = some c' ∧ f.quantOf c = some q ∧ f'.quantOf c' = some q' ∧
    (c.h = H ∧ c.v = V) ∧ (c'.h = H' ∧ c'.v = V') ∧
    ∀ Y X, Y < f.y → X < f.x → ∃ b b', f.blockAt H 0 c Y X = some b ∧ f'.blockAt H' 0 c' Y X = some b' ∧
      ∀ k i, k < 8 → i < 8 → dequantised q b k i = dequantised q' b' k i

end Jpeg.Spec
