/-!
# Specification: upsampling

A component is a function `f` from (row, column) to sample values, of `w` columns and `h` rows.
-/

namespace Jpeg.Spec

/-- Weighted mean `3:1`, rounded. -/
def tri (near far : Nat) : Nat := (3 * near + far + 2) / 4

/-- Doubling a line of `w` samples horizontally with the triangle filter: the outermost samples are
kept, every other output sample is three parts its own input sample and one part the neighbour on the
side where it lies. -/
def doubleLine (w : Nat) (f : Nat → Nat) (x : Nat) : Nat :=
  if x = 0 then f 0
  else if x = 2 * w - 1 then f (w - 1)
  else if x % 2 = 0 then tri (f (x / 2)) (f (x / 2 - 1))
  else tri (f (x / 2)) (f (x / 2 + 1))

/-- The second nearest of `h` input rows for an output row of twice the resolution: the previous one
for even rows, the next one for odd rows, within the component. -/
def farRow (h row : Nat) : Nat := if row % 2 = 0 then row / 2 - 1 else min (row / 2 + 1) (h - 1)

/-- Doubling vertically: three parts nearest row, one part second nearest. -/
def doubleRows (h : Nat) (f : Nat → Nat → Nat) (row x : Nat) : Nat :=
  tri (f (row / 2) x) (f (farRow h row) x)

/-- Doubling in both directions: weights 9:3:3:1, rounded once; 3:1 at the left and right border. -/
def doubleBoth (w h : Nat) (f : Nat → Nat → Nat) (row x : Nat) : Nat :=
  let t := fun i => 3 * f (row / 2) i + f (farRow h row) i
  if x = 0 then (t 0 + 2) / 4
  else if x = 2 * w - 1 then (t (w - 1) + 2) / 4
  else if x % 2 = 0 then (3 * t (x / 2) + t (x / 2 - 1) + 8) / 16
  else (3 * t (x / 2) + t (x / 2 + 1) + 8) / 16

/-- Nearest neighbour. -/
def nearest (hs vs : Nat) (f : Nat → Nat → Nat) (row x : Nat) : Nat := f (row / vs) (x / hs)

/-- The upsampled component: `w` by `h` samples `f`, sampling factors `ch` by `cv` of `hmax` by
`vmax`, for an image of `x0` by `y0` pixels. Ratio 1 in both directions: the samples themselves; ratio
2 in one or both: triangle filter; anything else: nearest neighbour. A direction in which the image
has only one pixel has ratio 1. -/
def upsampled (x0 y0 hmax vmax ch cv w h : Nat) (f : Nat → Nat → Nat) (row x : Nat) : Nat :=
  if (ch = hmax ∨ x0 = 1) ∧ (cv = vmax ∨ y0 = 1) then f row x
  else if 2 * ch = hmax ∧ (cv = vmax ∨ y0 = 1) then doubleLine w (f row) x
  else if (ch = hmax ∨ x0 = 1) ∧ 2 * cv = vmax then doubleRows h f row x
  else if 2 * ch = hmax ∧ 2 * cv = vmax then doubleBoth w h f row x
  else nearest (hmax / ch) (vmax / cv) f row x

end Jpeg.Spec
