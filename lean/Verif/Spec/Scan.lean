import Verif.Spec.Encode
import Verif.Spec.Bits
/-!
# Specification: entropy coded segments of a scan (T.81 B.1.1.5, B.2, E.1.4)

The MCUs of a scan are cut into restart intervals. Predictors start from zero in each interval, each
interval is padded to whole bytes and byte-stuffed, and consecutive intervals are separated by the
restart markers RST0, RST1, .., RST7, RST0, ...
-/

namespace Jpeg.Spec

/-- An MCU: per component its blocks in order. -/
abbrev Mcu := List (List BlockData)

/-- The block in natural (row by row) order: the coefficient at cell `p` is the one whose place in
the zig-zag sequence is `p`. -/
def BlockData.block (b : BlockData) : List Int :=
  (List.range 64).map fun p => (b.dc :: b.zz).getD (((List.range 64).map zigzag).idxOf p) 0

/-- Encodings of consecutive MCUs, predictors carried on. -/
inductive McusBits (codes : List (Code × Code)) : List Int → List Mcu → List Bool → List Int → Prop
  | nil {ps} : McusBits codes ps [] [] ps
  | cons {ps m ms x y qs rs} : McuBits codes ps m x qs → McusBits codes qs ms y rs →
      McusBits codes ps (m :: ms) (x ++ y) rs

/-- `data` is an encoding of a restart interval: predictors start at zero, bits of any value complete
the last byte. (The standard says up to seven of them; more, whole bytes included, are allowed here.) -/
def IntervalData (codes : List (Code × Code)) (mcus : List Mcu) (data : List UInt8) : Prop :=
  ∃ bits pad qs, McusBits codes (List.replicate codes.length 0) mcus bits qs ∧
    bitsOf data = bits ++ pad

/-- `bytes` is an encoding of the restart intervals in front of `tail`, the first restart marker
being RST`n`. Markers may be preceded by any number `k` of fill bytes `0xFF`. -/
inductive ScanBytes (codes : List (Code × Code)) (tail : List UInt8) :
    Nat → List (List Mcu) → List UInt8 → Prop
  | last {n ms data} : IntervalData codes ms data → ScanBytes codes tail n [ms] (stuff data ++ tail)
  | cons {n ms rest data bytes} (k : Nat) : IntervalData codes ms data →
      ScanBytes codes tail ((n + 1) % 8) rest bytes →
      ScanBytes codes tail n (ms :: rest)
        (stuff data ++ (List.replicate k 0xFF ++ 0xFF :: UInt8.ofNat (0xD0 + n) :: bytes))

/-- `data` is an encoding of a restart interval if it is read behind the bits `left`. -/
def IntervalDataAfter (codes : List (Code × Code)) (left : List Bool) (mcus : List Mcu) (data : List UInt8) : Prop :=
  ∃ bits pad qs, McusBits codes (List.replicate codes.length 0) mcus bits qs ∧
    left ++ bitsOf data = bits ++ pad

/-- `bytes` is an encoding of the restart intervals in front of `tail` if the first of them is read behind the
bits `left`; the others start anew. -/
inductive ScanBytesAfter (codes : List (Code × Code)) (tail : List UInt8) :
    List Bool → Nat → List (List Mcu) → List UInt8 → Prop
  | last {left n ms data} : IntervalDataAfter codes left ms data →
      ScanBytesAfter codes tail left n [ms] (stuff data ++ tail)
  | cons {left n ms rest data bytes} (k : Nat) : IntervalDataAfter codes left ms data →
      ScanBytesAfter codes tail [] ((n + 1) % 8) rest bytes →
      ScanBytesAfter codes tail left n (ms :: rest)
        (stuff data ++ (List.replicate k 0xFF ++ 0xFF :: UInt8.ofNat (0xD0 + n) :: bytes))

/-- The same, and `pad` are the bits behind the last MCU. -/
inductive ScanPadded (codes : List (Code × Code)) (tail : List UInt8) (pad : List Bool) :
    List Bool → Nat → List (List Mcu) → List UInt8 → Prop
  | last {left n ms data bits qs} : McusBits codes (List.replicate codes.length 0) ms bits qs →
      left ++ bitsOf data = bits ++ pad → ScanPadded codes tail pad left n [ms] (stuff data ++ tail)
  | cons {left n ms rest data bytes} (k : Nat) : IntervalDataAfter codes left ms data →
      ScanPadded codes tail pad [] ((n + 1) % 8) rest bytes →
      ScanPadded codes tail pad left n (ms :: rest)
        (stuff data ++ (List.replicate k 0xFF ++ 0xFF :: UInt8.ofNat (0xD0 + n) :: bytes))

/-- The restart intervals are what interval length `r` prescribes: with `r = 0` there is just one,
otherwise all but the last have `r` MCUs and the last has at least one and at most `r` (an empty scan
has a single empty interval). -/
def IntervalsOk (r : Nat) (intervals : List (List Mcu)) : Prop :=
  if r = 0 then intervals.length = 1
  else intervals = [[]] ∨ ∃ init last, intervals = init ++ [last] ∧ (∀ i ∈ init, i.length = r) ∧
    1 ≤ last.length ∧ last.length ≤ r

end Jpeg.Spec
