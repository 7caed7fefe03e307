import Verif.Spec.Added
import Mathlib.Algebra.Order.Ring.Rat
import Mathlib.Data.Rat.Cast.Order
/-!
# Specification: pictures blended

With coefficients `s * F + t * G` the differences of the samples from 128 are `s` times those of one picture plus `t` times
those of another; with `s + t = 1` one picture is faded into the other.
-/

namespace Jpeg.Spec

/-- The coefficients of `b` are `s` times those of `f` plus `t` times those of `g`. -/
structure Blended (s t : ℚ) (f g b : BaselineFile) : Prop where
  left : SameShape f b
  right : SameShape g b
  products : ∀ n i j k l a a', k < 8 → l < 8 → f.coefficient n i j k l = some a → g.coefficient n i j k l = some a' →
    ∃ c, b.coefficient n i j k l = some c ∧ (c : ℚ) = s * a + t * a'

/-- The difference of `v` from 128 is `s` times that of `a` plus `t` times that of `b`, limited to 0..255, up to `e` for each
of the three (the errors of `a` and `b` are multiplied too); if neither `a` nor `b` has been limited itself. -/
def BlendOf (s t e : ℚ) (a b v : UInt8) : Prop :=
  (0 < a.toNat ∧ a.toNat < 255) → (0 < b.toNat ∧ b.toNat < 255) →
    |(v.toNat : ℚ) - max 0 (min (128 + s * (a.toNat - 128) + t * (b.toNat - 128)) 255)| ≤ e * (1 + |s| + |t|)

end Jpeg.Spec
