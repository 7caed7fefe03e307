import Verif.Spec.Bits
/-!
# Specification: canonical Huffman codes (T.81 annex C)

Independent of the code generation procedure: the code word of the `k`-th symbol is the beginning
of the binary expansion of the Kraft sum of the symbols before it.
-/

namespace Jpeg.Spec

/-- T.81 figure C.1: the code lengths in order; `counts[i]` codes of length `l + i + 1`. -/
def sizesFrom : Nat → List UInt8 → List Nat
  | _, [] => []
  | l, n :: rest => List.replicate n.toNat (l + 1) ++ sizesFrom (l + 1) rest

/-- The code lengths described by a DHT segment. -/
def codeSizes (counts : List UInt8) : List Nat := sizesFrom 0 counts

/-- Kraft sum of a list of code lengths, in units of `2^-16`. -/
def kraft (sizes : List Nat) : Nat := (sizes.map fun l => 2 ^ (16 - l)).sum

/-- The code word of symbol `k`: the first `sizes[k]` bits of the Kraft sum of the symbols before
it (T.81 figure C.2 in closed form). -/
def codeWord (sizes : List Nat) (k : Nat) : List Bool :=
  (bitsN 16 (kraft (sizes.take k))).take (sizes[k]?.getD 0)

/-- The code lengths can be realised by a prefix code. -/
def KraftOk (sizes : List Nat) : Prop := kraft sizes ≤ 2 ^ 16

end Jpeg.Spec
