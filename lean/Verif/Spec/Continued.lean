import Verif.Spec.Reading
/-!
# Specification: data that end early
-/

namespace Jpeg.Spec

/-- `c'` is the data `c` of a restart interval, or these with zero bytes behind them; the latter only if none of the
bytes of `c` is `0xFF`. -/
def Continued (c c' : List UInt8) : Prop :=
  c' = c ∨ (∀ b ∈ c, b ≠ 0xFF) ∧ ∃ n, c' = c ++ List.replicate n 0

end Jpeg.Spec
