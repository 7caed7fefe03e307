import Verif.Spec.Contrast
import Verif.Spec.Colourless
/-!
# Specification: change of saturation

With the coefficients of the chrominance multiplied by `s` and those of the luminance left as they are, the differences
of the channels from the luminance `0.299 R + 0.587 G + 0.114 B` (BT.601) are multiplied by `s`.
-/

namespace Jpeg.Spec

/-- Factors of the components: the luminance stays. -/
def chrominance (s : ℚ) (i : Nat) : ℚ := if i = 0 then 1 else s

/-- Luminance of a colour. -/
def luminanceOf (r g b : UInt8) : ℚ := (299 * r.toNat + 587 * g.toNat + 114 * b.toNat) / 1000

/-- The channel `a` of the colour `r`, `g`, `b` has become `a'`: its difference from the luminance of the colour is
multiplied by `s`, the result limited to 0..255, up to `e` for each of the two colours; if no channel of the colour has been
limited. -/
def SaturationOf (s e : ℚ) (r g b a a' : UInt8) : Prop :=
  (∀ z ∈ [r, g, b], 0 < z.toNat ∧ z.toNat < 255) →
    |(a'.toNat : ℚ) - max 0 (min (luminanceOf r g b + s * (a.toNat - luminanceOf r g b)) 255)| ≤ e * (1 + |s|)

end Jpeg.Spec
