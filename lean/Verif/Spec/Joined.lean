import Verif.Spec.Local
/-!
# Specification: pictures joined without decoding them

One below the other: the MCUs of the first, then those of the second. Side by side: the rows of MCUs one after the other.
-/

namespace Jpeg.Spec

/-- `s` is `f` with `g` below it. The first ends with a whole row of MCUs. -/
structure Stacked (f g s : BaselineFile) (V : Nat) : Prop where
  upper : SameScales s f
  lower : SameScales s g
  widthUpper : f.x = s.x
  widthLower : g.x = s.x
  whole : f.y % (8 * V) = 0
  y : s.y = f.y + g.y
  mcus : s.intervals.flatten = f.intervals.flatten ++ g.intervals.flatten

/-- `s` is `f` with `g` to its right. The first ends with a whole column of MCUs. -/
structure Beside (f g s : BaselineFile) (H V : Nat) : Prop where
  left : SameScales s f
  right : SameScales s g
  heightLeft : f.y = s.y
  heightRight : g.y = s.y
  whole : f.x % (8 * H) = 0
  x : s.x = f.x + g.x
  mcus : ∀ R, R < ceilDiv s.y (8 * V) →
    (∀ C, C < f.x / (8 * H) → s.mcuAt H R C = f.mcuAt H R C) ∧
    ∀ C, C < ceilDiv g.x (8 * H) → s.mcuAt H R (f.x / (8 * H) + C) = g.mcuAt H R C

end Jpeg.Spec
