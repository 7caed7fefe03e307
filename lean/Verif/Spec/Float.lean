import Mathlib.Data.Rat.Floor
import Mathlib.Algebra.Order.Field.Rat
/-!
# Specification: floating point arithmetic, as far as its results do not depend on the details

An operation on binary floating point numbers is the exact operation followed by a rounding (IEEE 754, 5.4).
-/

namespace Jpeg.Spec

/-- A rounding to `p` significant bits, in the range of exponents that occurs here: numbers with so many bits are left
alone, and all others are changed by at most one part in `2^p`. Round to nearest (ties to even or not) is one of
these; nothing more is used of it. -/
structure Rounding (p : Nat) (rnd : ℚ → ℚ) : Prop where
  exact : ∀ (m : ℤ) (k : Nat), |m| ≤ 2 ^ p → k ≤ 64 → rnd (m / 2 ^ k) = m / 2 ^ k
  near : ∀ x : ℚ, 1 / 2 ^ 64 ≤ |x| → |x| ≤ 2 ^ 64 → |rnd x - x| ≤ |x| / 2 ^ p

/-- Truncation towards zero to an unsigned integer (`as usize`: negative numbers become 0). -/
def truncNat (x : ℚ) : Nat := ⌊x⌋.toNat

/-- Truncation towards zero to an integer (`as i32`). -/
def truncInt (x : ℚ) : Int := if 0 ≤ x then ⌊x⌋ else ⌈x⌉

/-- `f32::fract`: what is left when the whole part is taken away. -/
def fractQ (rnd : ℚ → ℚ) (x : ℚ) : ℚ := rnd (x - truncInt x)

/-- The near row of an output row (upsampler.rs:229, 261), every operation rounded. -/
def rowNear (rnd : ℚ → ℚ) (row : Nat) : ℚ := rnd (rnd row / 2)

/-- The far row (upsampler.rs:232, 264), every operation rounded. -/
def rowFar (rnd : ℚ → ℚ) (row height : Nat) : ℚ :=
  let near := rowNear rnd row
  min (rnd (rnd (near + rnd (fractQ rnd near * 3)) - 1 / 4)) (rnd ((height - 1 : Nat) : ℚ))

/-- `fix!` (color_conversion.rs:134-139) of a decimal literal, every operation rounded, the literal too. -/
def fix (rnd : ℚ → ℚ) (x : ℚ) : Int := truncInt (rnd (rnd (rnd x * 65536) + 1 / 2))

/-- `stbi_f2f` (idct.rs:444-446) of a decimal literal, every operation rounded, the literal too. -/
def f2f (rnd : ℚ → ℚ) (x : ℚ) : Int := truncInt (rnd (rnd (rnd x * 4096) + 1 / 2))

end Jpeg.Spec
