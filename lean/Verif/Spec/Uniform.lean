import Verif.Spec.Baseline
/-!
# Specification: pictures of one colour
-/

namespace Jpeg.Spec

/-- Component `i` of the file has the sample value `s` everywhere: all its blocks have a DC coefficient only,
which dequantised lies within the range of the clamp table and, divided by 8, rounded to the nearest integer
(halves up), level shifted by 128 and limited to 0..255, is `s`. -/
def BaselineFile.Uniform (f : BaselineFile) (i : Nat) (s : UInt8) : Prop :=
  ∀ (c : FileComponent) (q : List Nat), f.comps[i]? = some c → f.quantOf c = some q →
    ∀ m ∈ f.intervals.flatten, ∀ blocks, m[i]? = some blocks → ∀ b ∈ blocks,
      (∀ z ∈ b.zz, z = 0) ∧
      ∃ v : Int, v = b.dc * (q.getD 0 0 : Nat) ∧ -3076 ≤ v ∧ v ≤ 5115 ∧
        (s.toNat : Int) = min 255 (max 0 ((v + 4) / 8 + 128))

end Jpeg.Spec
