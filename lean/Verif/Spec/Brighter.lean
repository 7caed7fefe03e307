import Verif.Spec.Baseline
/-!
# Specification: a brighter picture
-/

namespace Jpeg.Spec

/-- An MCU that is nowhere darker: the DC coefficients of the first component are at least as large, all
others are the same. -/
inductive BrighterMcu : Mcu → Mcu → Prop
  | mk {y y' : List BlockData} {others : List (List BlockData)} :
      List.Forall₂ (fun b b' => b.dc ≤ b'.dc ∧ b.zz = b'.zz) y y' → BrighterMcu (y :: others) (y' :: others)

/-- `f'` is the picture of `f` or a brighter one: same size, sampling factors and quantisation tables, and MCUs
that are nowhere darker. Nothing else needs to be the same. -/
structure Brighter (f f' : BaselineFile) : Prop where
  x : f.x = f'.x
  y : f.y = f'.y
  comps : List.Forall₂ (fun c c' => c.h = c'.h ∧ c.v = c'.v ∧ f.quantOf c = f'.quantOf c') f.comps f'.comps
  mcus : List.Forall₂ BrighterMcu f.intervals.flatten f'.intervals.flatten

end Jpeg.Spec
