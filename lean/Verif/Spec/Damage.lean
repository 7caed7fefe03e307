import Verif.Spec.Baseline
/-!
# Specification: files with damaged restart intervals

Restart markers confine damage (T.81 E.1.4, F.1.1.5): data of a restart interval is decoded on its own. Nothing
here refers to the decoder.
-/

namespace Jpeg.Spec

/-- `bytes` is what is left of an encoding of the restart intervals in front of `tail`, the first of them
being number `j` of the scan: the data of those with numbers in `bad` is arbitrary (byte-stuffed: without
markers), all others and all restart markers are as `ScanBytes` says. -/
inductive DamagedScan (codes : List (Code × Code)) (tail : List UInt8) (bad : Nat → Prop) :
    Nat → List (List Mcu) → List UInt8 → Prop
  | last {j ms data} : (¬ bad j → IntervalData codes ms data) →
      DamagedScan codes tail bad j [ms] (stuff data ++ tail)
  | cons {j ms rest data bytes} (k : Nat) : (¬ bad j → IntervalData codes ms data) →
      DamagedScan codes tail bad (j + 1) rest bytes →
      DamagedScan codes tail bad j (ms :: rest)
        (stuff data ++ (List.replicate k 0xFF ++ 0xFF :: UInt8.ofNat (0xD0 + j % 8) :: bytes))

/-- Sample `pos` of a component with factor `c` out of a largest factor `m` may contribute to place `place` of the
picture: it is the sample at that place if the component is not subsampled, and otherwise less than two
samples from the place `place * c / m` that corresponds to it. -/
def Near (m c place pos : Nat) : Prop :=
  if c = m then pos = place else place * c / m ≤ pos + 1 ∧ pos ≤ place * c / m + 1

namespace BaselineFile

variable (f : BaselineFile)

/-- No sample that may contribute to row `row`, column `col` of the picture is in an MCU of a restart interval
in `bad`; `r` is the restart interval, MCU number `n` is in interval `n / r` (0 if `r` is 0). -/
def Untouched (r H V : Nat) (bad : Nat → Prop) (row col : Nat) : Prop :=
  ∀ c ∈ f.comps, ∀ Y X, Y < ceilDiv (f.y * c.v) V → X < ceilDiv (f.x * c.h) H →
    Near V c.v row Y → Near H c.h col X →
    ¬ bad ((Y / 8 / c.v * ceilDiv f.x (8 * H) + X / 8 / c.h) / r)

end BaselineFile

end Jpeg.Spec
