import Verif.Spec.Local
/-!
# Specification: cutting out a part of a picture without decoding it

A rectangle whose upper left corner is a corner of MCUs is cut out of a picture by keeping its MCUs (`jpegtran -crop`).
-/

namespace Jpeg.Spec

/-- `f'` is the part of `f` that begins with the MCU in row `R0`, column `C0`. -/
structure Cropped (f f' : BaselineFile) (H V R0 C0 : Nat) : Prop where
  scales : SameScales f f'
  x : 8 * H * C0 + f'.x ≤ f.x
  y : 8 * V * R0 + f'.y ≤ f.y
  mcus : ∀ R C, R < ceilDiv f'.y (8 * V) → C < ceilDiv f'.x (8 * H) → f'.mcuAt H R C = f.mcuAt H (R0 + R) (C0 + C)

/-- Place `a` of a line (or column) of `n'` pixels, cut out of one of `n` pixels at `start`, where components may have
one sample for several pixels (`S` is the largest sampling factor), does not depend on what was cut off: it is not the
first (or one of the first `k`) unless nothing was cut off there, nor the last. -/
def OffCuts (S k start n' n a : Nat) : Prop := S = 1 ∨ (k ≤ a ∨ start = 0) ∧ (a + 1 < n' ∨ start + n' = n)

end Jpeg.Spec
