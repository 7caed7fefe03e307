import Verif.Spec.Local
/-!
# Specification: inks exchanged

The four components of a CMYK picture are treated alike: which of them is which is decided by their order in the frame
header alone.
-/

namespace Jpeg.Spec

/-- Component `j` of `f'` is component `i` of `f`. -/
structure SameInk (f f' : BaselineFile) (i j : Nat) : Prop where
  comp : ∃ c c', f.comps[i]? = some c ∧ f'.comps[j]? = some c' ∧ c.h = c'.h ∧ c.v = c'.v ∧ f.quantOf c = f'.quantOf c'
  mcus : List.Forall₂ (fun m m' => m[i]? = m'[j]?) f.intervals.flatten f'.intervals.flatten

end Jpeg.Spec
