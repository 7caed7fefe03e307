import Verif.Spec.Local
/-!
# Specification: two files with a component in common
-/

namespace Jpeg.Spec

/-- Component `i` is the same in the two files: factors, quantisation table and coefficients. -/
structure SameComponent (f f' : BaselineFile) (i : Nat) : Prop where
  comp : ∃ c c', f.comps[i]? = some c ∧ f'.comps[i]? = some c' ∧ c.h = c'.h ∧ c.v = c'.v ∧ f.quantOf c = f'.quantOf c'
  mcus : List.Forall₂ (fun m m' => m[i]? = m'[i]?) f.intervals.flatten f'.intervals.flatten

/-- Neither 0 nor 255: not limited. -/
def Unlimited (v : UInt8) : Prop := 0 < v.toNat ∧ v.toNat < 255

end Jpeg.Spec
