import Verif.Spec.Damage
/-!
# Specification: files whose restart intervals are damaged from some place on

Nothing here refers to the decoder.
-/

namespace Jpeg.Spec

/-- `bytes` is what is left of an encoding of the restart intervals in front of `tail`, the first of them being
number `j` of the scan: the data of interval `i` begins with an encoding of its first `good i` MCUs (of all of
them if there are fewer) and is arbitrary (byte-stuffed: without markers) behind that. Restart markers are as
`ScanBytes` says. -/
inductive TornScan (codes : List (Code × Code)) (tail : List UInt8) (good : Nat → Nat) :
    Nat → List (List Mcu) → List UInt8 → Prop
  | last {j ms data} : IntervalData codes (ms.take (good j)) data →
      TornScan codes tail good j [ms] (stuff data ++ tail)
  | cons {j ms rest data bytes} (k : Nat) : IntervalData codes (ms.take (good j)) data →
      TornScan codes tail good (j + 1) rest bytes →
      TornScan codes tail good j (ms :: rest)
        (stuff data ++ (List.replicate k 0xFF ++ 0xFF :: UInt8.ofNat (0xD0 + j % 8) :: bytes))

/-- All samples that may contribute to row `row`, column `col` of the picture are in intact MCUs; `r` is the
restart interval, MCU number `n` is number `n % r` of interval `n / r` (number `n` of interval 0 if `r` is 0). -/
def BaselineFile.Intact (f : BaselineFile) (r H V : Nat) (good : Nat → Nat) (row col : Nat) : Prop :=
  ∀ c ∈ f.comps, ∀ Y X, Y < ceilDiv (f.y * c.v) V → X < ceilDiv (f.x * c.h) H →
    Near V c.v row Y → Near H c.h col X →
    (Y / 8 / c.v * ceilDiv f.x (8 * H) + X / 8 / c.h) % r <
      good ((Y / 8 / c.v * ceilDiv f.x (8 * H) + X / 8 / c.h) / r)

end Jpeg.Spec
