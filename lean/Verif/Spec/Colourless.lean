import Verif.Spec.Local
/-!
# Specification: the colour taken out of a picture without decoding

Without chrominance (all its coefficients zero) a picture is grey; its grey is the luminance of the coloured picture,
`0.299 R + 0.587 G + 0.114 B` (BT.601).
-/

namespace Jpeg.Spec

/-- A block of zeros. -/
def ZeroBlock (b : BlockData) : Prop := b.dc = 0 ∧ ∀ z ∈ b.zz, z = 0

/-- `f'` has the luminance of `f` and no chrominance. -/
structure Colourless (f f' : BaselineFile) : Prop where
  x : f.x = f'.x
  y : f.y = f'.y
  luminance : ∃ c c', f.comps[0]? = some c ∧ f'.comps[0]? = some c' ∧ c.h = c'.h ∧ c.v = c'.v ∧ f.quantOf c = f'.quantOf c'
  mcus : List.Forall₂ (fun m m' => m[0]? = m'[0]? ∧ ∀ i, i ≠ 0 → ∀ blocks, m'[i]? = some blocks → ∀ b ∈ blocks, ZeroBlock b)
    f.intervals.flatten f'.intervals.flatten

/-- A thousand times the luminance of a colour. -/
def luminance1000 (r g b : UInt8) : Int := 299 * r.toNat + 587 * g.toNat + 114 * b.toNat

/-- The grey `v` is the luminance of the colour up to rounding: not much smaller unless a channel has been limited
from below, not much larger unless one has been limited from above. -/
def GreyOf (r g b v : UInt8) : Prop :=
  (0 < r.toNat → 0 < g.toNat → 0 < b.toNat → luminance1000 r g b ≤ 1000 * v.toNat + 501) ∧
  (r.toNat < 255 → g.toNat < 255 → b.toNat < 255 → 1000 * v.toNat ≤ luminance1000 r g b + 501)

end Jpeg.Spec
