import Verif.Model.Basic
/-!
# Specification: fixed point inverse DCT and sample clamping

The two-pass inverse DCT of stb_image/libjpeg written as a matrix: entry `(j, k)` is
`4096 * sqrt 2 * cos ((2 j + 1) k π / 16)` (`4096` for `k = 0`) up to two units; how well it
approximates the real transform is a theorem (C51).
-/

namespace Jpeg.Spec

/-- Clamping to a sample. -/
def saturate (x : Int) : UInt8 := if x < 0 then 0 else if 255 < x then 255 else UInt8.ofNat x.toNat

/-- The transform matrix, scaled by 4096. -/
def idctMatrix : List (List Int) := [
  [4096, 5683, 5352, 4816, 4096, 3219, 2217, 1131],
  [4096, 4816, 2217, -1129, -4096, -5681, -5350, -3218],
  [4096, 3219, -2217, -5681, -4096, 1132, 5350, 4816],
  [4096, 1131, -5352, -3218, 4096, 4816, -2217, -5680],
  [4096, -1131, -5352, 3218, 4096, -4816, -2217, 5680],
  [4096, -3219, -2217, 5681, -4096, -1132, 5350, -4816],
  [4096, -4816, 2217, 1129, -4096, 5681, -5350, 3218],
  [4096, -5683, 5352, -4816, 4096, -3219, 2217, -1131]]

/-- Scalar product. -/
def dot (a b : List Int) : Int := (List.zipWith (· * ·) a b).sum

/-- Row `j` of the matrix. -/
def idctMatrixRow (j : Nat) : List Int := idctMatrix.getD j []

/-- First pass: entry `j` of column `i`. `F k i` is the dequantised coefficient in row `k`, column
`i`; the result is scaled by four and rounded to nearest. -/
def idctPass1 (F : Nat → Nat → Int) (j i : Nat) : Int :=
  (dot (idctMatrixRow j) ((List.range 8).map fun k => F k i) + 512) / 1024

/-- Second pass: the sample in row `r`, column `x`, rounded to nearest and shifted to `0..255`, not
yet clamped. -/
def idctSample (F : Nat → Nat → Int) (r x : Nat) : Int :=
  (dot (idctMatrixRow x) ((List.range 8).map fun k => idctPass1 F r k) + 65536) / 131072 + 128

end Jpeg.Spec
