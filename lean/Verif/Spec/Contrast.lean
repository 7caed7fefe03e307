import Verif.Spec.Added
import Mathlib.Algebra.Order.Field.Rat
/-!
# Specification: change of contrast

With all coefficients of a picture multiplied by `t`, the differences of the samples from 128 are multiplied by `t`.
-/

namespace Jpeg.Spec

/-- The coefficients of component `i` of `g` are `t i` times those of `f`. -/
structure Scaled (t : Nat → ℚ) (f g : BaselineFile) : Prop where
  shape : SameShape f g
  products : ∀ n i j k l a, k < 8 → l < 8 → f.coefficient n i j k l = some a →
    ∃ b, g.coefficient n i j k l = some b ∧ (b : ℚ) = t i * a

/-- The same coded coefficients, with every entry of the quantisation table of component `i` multiplied by `t i`. -/
structure TablesScaled (t : Nat → ℚ) (f g : BaselineFile) : Prop where
  shape : SameShape f g
  mcus : g.intervals.flatten = f.intervals.flatten
  tables : ∀ i c c' q, f.comps[i]? = some c → g.comps[i]? = some c' → f.quantOf c = some q →
    ∃ q', g.quantOf c' = some q' ∧ ∀ n, ((q'.getD n 0 : Nat) : ℚ) = t i * (q.getD n 0 : Nat)

/-- The difference of `b` from 128 is `t` times that of `a`, and limited to 0..255, up to `e` for `b` and for `a` (whose
error is multiplied by `t` too); if `a` has not been limited itself. -/
def ContrastOf (t e : ℚ) (a b : UInt8) : Prop :=
  0 < a.toNat → a.toNat < 255 → |(b.toNat : ℚ) - max 0 (min (128 + t * (a.toNat - 128)) 255)| ≤ e * (1 + |t|)

end Jpeg.Spec
