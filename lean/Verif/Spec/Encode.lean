import Verif.Spec.Magnitude
import Verif.Spec.Huffman
import Verif.Spec.ZigZag
/-!
# Specification: encoding of blocks (T.81 F.1.2)

Relations, so that every admissible encoder is covered, plus the standard encoder as a function.
-/

namespace Jpeg.Spec

/-- A Huffman code as seen by an encoder: code lengths and symbol values in order. -/
structure Code where
  counts : List UInt8
  values : List UInt8

/-- `bits` is a code word for `sym`. -/
def Code.For (c : Code) (sym : Nat) (bits : List Bool) : Prop :=
  ∃ k v, k < (codeSizes c.counts).length ∧ c.values[k]? = some v ∧ v.toNat = sym ∧
    bits = codeWord (codeSizes c.counts) k

/-- Encodings of a DC difference: category, then additional bits (T.81 F.1.2.1). Categories go up
to 11 (8 bit samples). -/
def DcBits (c : Code) (diff : Int) (bits : List Bool) : Prop :=
  category diff ≤ 11 ∧ ∃ b, c.For (category diff) b ∧ bits = b ++ additional diff

/-- Encodings of a list of AC coefficients in zig-zag order (T.81 F.1.2.2): runs of up to 15 zeros
before a non-zero value, `ZRL` for 16 zeros, `EOB` when only zeros are left. The last two are no
encoder's, and the standard does not say what they mean: a run or a `ZRL` that goes past the last
coefficient. They are taken like an `EOB`. -/
inductive AcBits (c : Code) : List Int → List Bool → Prop
  | done : AcBits c [] []
  | eob {l b} : l ≠ [] → (∀ x ∈ l, x = 0) → c.For 0x00 b → AcBits c l b
  | zrl {l b bs} : l ≠ [] → c.For 0xF0 b → AcBits c l bs →
      AcBits c (List.replicate 16 0 ++ l) (b ++ bs)
  | coef {r v l b bs} : r ≤ 15 → v ≠ 0 → category v ≤ 15 → c.For (16 * r + category v) b →
      AcBits c l bs → AcBits c (List.replicate r 0 ++ v :: l) (b ++ additional v ++ bs)
  | over {r v l b} : l ≠ [] → (∀ x ∈ l, x = 0) → l.length ≤ r → r ≤ 15 → v ≠ 0 → category v ≤ 15 →
      c.For (16 * r + category v) b → AcBits c l (b ++ additional v)
  | overZrl {l b} : l ≠ [] → (∀ x ∈ l, x = 0) → l.length ≤ 16 → c.For 0xF0 b → AcBits c l b

/-- Encodings of a block given as DC difference and 63 AC coefficients in zig-zag order. -/
def BlockBits (dc ac : Code) (diff : Int) (zz : List Int) (bits : List Bool) : Prop :=
  zz.length = 63 ∧ ∃ b₁ b₂, DcBits dc diff b₁ ∧ AcBits ac zz b₂ ∧ bits = b₁ ++ b₂

/-- 16 bit two's complement. -/
def wrap16 (x : Int) : Int := (x + 2 ^ 15) % 2 ^ 16 - 2 ^ 15

/-- `block` holds, in natural order, the DC value and the AC coefficients `zz`. -/
def BlockIs (dc : Int) (zz : List Int) (block : List Int) : Prop :=
  block.length = 64 ∧ block[0]? = some dc ∧
    ∀ k, k < 63 → block[zigzag (k + 1)]? = zz[k]?

/-! ## MCUs -/

/-- A block to be encoded: its DC value and its 63 AC coefficients in zig-zag order. -/
structure BlockData where
  dc : Int
  zz : List Int

/-- The decoded block holds the data. -/
def BlockData.Is (b : BlockData) (block : List Int) : Prop := BlockIs b.dc b.zz block

/-- Encodings of consecutive blocks of one component. The first integer is the DC value of the
preceding block, the second the DC value of the last block. Differences count modulo `2^16`. -/
inductive BlocksBits (cd ca : Code) : Int → List BlockData → List Bool → Int → Prop
  | nil {p} : BlocksBits cd ca p [] [] p
  | cons {p b diff bs x y q} : BlockBits cd ca diff b.zz x → b.dc = wrap16 (p + diff) →
      BlocksBits cd ca b.dc bs y q → BlocksBits cd ca p (b :: bs) (x ++ y) q

/-- Encodings of an MCU: the blocks of the first component, then those of the second, and so on,
each component with its own codes and its own predictor (T.81 A.2.3). -/
inductive McuBits : List (Code × Code) → List Int → List (List BlockData) → List Bool → List Int →
    Prop
  | nil {ps} : McuBits [] ps [] [] ps
  | cons {cd ca cs p ps bs mcu x y q qs} : BlocksBits cd ca p bs x q → McuBits cs ps mcu y qs →
      McuBits ((cd, ca) :: cs) (p :: ps) (bs :: mcu) (x ++ y) (q :: qs)

/-! ## The standard encoder -/

/-- First code word of a symbol. -/
def Code.find (c : Code) (sym : Nat) : Option (List Bool) :=
  match c.values.findIdx? (fun v => v.toNat == sym) with
  | some k => if k < (codeSizes c.counts).length then some (codeWord (codeSizes c.counts) k) else none
  | none => none

/-- T.81 figure F.1. -/
def encodeDc (c : Code) (diff : Int) : Option (List Bool) :=
  if category diff ≤ 11 then (c.find (category diff)).map (· ++ additional diff) else none

/-- T.81 figure F.2; `run` is the number of zeros seen since the last non-zero value. -/
def encodeAc (c : Code) : Nat → List Int → Option (List Bool)
  | run, [] => if run = 0 then some [] else c.find 0x00
  | run, v :: rest =>
    if v = 0 then encodeAc c (run + 1) rest
    else if category v ≤ 15 then
      (if run < 16 then some [] else c.find 0xF0).bind fun z =>
      (c.find (16 * (run % 16) + category v)).bind fun b =>
      (encodeAc c 0 rest).bind fun bs =>
      some ((List.replicate (run / 16) z).flatten ++ b ++ additional v ++ bs)
    else none

/-- The standard encoding of a block. -/
def encodeBlock (dc ac : Code) (diff : Int) (zz : List Int) : Option (List Bool) :=
  (encodeDc dc diff).bind fun b₁ =>
  (encodeAc ac 0 zz).bind fun b₂ =>
  some (b₁ ++ b₂)

end Jpeg.Spec
