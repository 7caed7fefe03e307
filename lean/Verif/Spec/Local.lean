import Verif.Spec.Baseline
/-!
# Specification: what a pixel depends on
-/

namespace Jpeg.Spec

/-- A picture of `n` bytes per pixel: three components that are not RGB, or four that are CMYK (by the Adobe segment, if
there is one; `before` is what earlier files said). -/
def BaselineFile.Coloured (f : BaselineFile) (before : Option Nat) (n : Nat) : Prop :=
  f.comps.length = n ∧ (n = 3 ∧ f.transform before ≠ some 0 ∨ n = 4 ∧ f.transform before = some 0)

/-- Same sampling factors and quantisation tables. -/
def SameScales (f f' : BaselineFile) : Prop :=
  List.Forall₂ (fun c c' => c.h = c'.h ∧ c.v = c'.v ∧ f.quantOf c = f'.quantOf c') f.comps f'.comps

/-- The MCU in row `R`, column `C` of the MCUs (A.2.4). -/
def BaselineFile.mcuAt (f : BaselineFile) (H R C : Nat) : Option Mcu :=
  f.intervals.flatten[R * ceilDiv f.x (8 * H) + C]?

/-- The same row or column, or one next to it. -/
def NextTo (a b : Nat) : Prop := a ≤ b + 1 ∧ b ≤ a + 1

/-- The MCUs around row `R`, column `C` are the same in two files. -/
def SameAround (f f' : BaselineFile) (H R C : Nat) : Prop :=
  ∀ R' C', NextTo R' R → NextTo C' C → C' < ceilDiv f.x (8 * H) → f.mcuAt H R' C' = f'.mcuAt H R' C'

end Jpeg.Spec
