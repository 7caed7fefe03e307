import Verif.Spec.Baseline
/-!
# Specification: values beyond the range of a sample

The inverse transform of coefficients that no picture has gives values below 0 and above 255; samples are limited to
0..255 (T.81 A.3.1, F.2.1.5). The decoder looks them up in a table of 1024 entries.
-/

namespace Jpeg.Spec

/-- The value among -256..767 that differs by a multiple of 1024. -/
def around (v : Int) : Int := (v + 256) % 1024 - 256

namespace BaselineFile

variable (f : BaselineFile)

/-- No dequantised coefficient is larger than `2^16` in magnitude. -/
def Moderately : Prop :=
  ∀ (i : Nat) (c : FileComponent) (q : List Nat), f.comps[i]? = some c → f.quantOf c = some q →
    ∀ m ∈ f.intervals.flatten, ∀ blocks, m[i]? = some blocks → ∀ b ∈ blocks,
      ∀ k j, k < 8 → j < 8 → -2 ^ 16 ≤ dequantised q b k j ∧ dequantised q b k j ≤ 2 ^ 16

/-- The value in row `Y`, column `X` of component `i` before it is limited. -/
def value (H i Y X : Nat) : Int :=
  match f.comps[i]? with
  | none => 0
  | some c =>
    match f.blockAt H i c Y X, f.quantOf c with
    | some b, some q => idctSample (dequantised q b) (Y % 8) (X % 8)
    | _, _ => 0

/-- Component `i`, limited after reduction modulo 1024, upsampled, in row `row`, column `col` of the picture. -/
def aroundSample (H V i row col : Nat) : Nat :=
  match f.comps[i]? with
  | none => 0
  | some c => upsampled f.x f.y H V c.h c.v (ceilDiv (f.x * c.h) H) (ceilDiv (f.y * c.v) V)
      (fun r k => (saturate (around (f.value H i r k))).toNat) row col

end BaselineFile

end Jpeg.Spec
