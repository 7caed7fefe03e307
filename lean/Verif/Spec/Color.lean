import Verif.Spec.Idct
import Mathlib.Data.Rat.Defs
import Mathlib.Algebra.Order.Field.Rat
/-!
# Specification: ITU-R BT.601 full range colour conversion (JFIF)
-/

namespace Jpeg.Spec

/-- Red of the exact conversion. -/
def bt601R (y _cb cr : UInt8) : ℚ := y.toNat + 1402 / 1000 * ((cr.toNat : ℚ) - 128)
/-- Green. -/
def bt601G (y cb cr : UInt8) : ℚ :=
  y.toNat - 34414 / 100000 * ((cb.toNat : ℚ) - 128) - 71414 / 100000 * ((cr.toNat : ℚ) - 128)
/-- Blue. -/
def bt601B (y cb _cr : UInt8) : ℚ := y.toNat + 1772 / 1000 * ((cb.toNat : ℚ) - 128)

/-- Limiting to the range of a sample. -/
def limit (v : ℚ) : ℚ := max 0 (min v 255)

end Jpeg.Spec
