/-!
# Specification: bits, byte stuffing, end of entropy coded data

Written from T.81 (B.1.1.5, F.1.2.3), independent of the model.
-/

namespace Jpeg.Spec

/-- The `n` low bits of `x`, most significant first. -/
def bitsN : Nat → Nat → List Bool
  | 0, _ => []
  | n + 1, x => x.testBit n :: bitsN n x

/-- Number written by a list of bits, most significant first. -/
def natOfBits (l : List Bool) : Nat := l.foldl (fun a b => 2 * a + b.toNat) 0

/-- The bits of a byte string, most significant bit of each byte first. -/
def bitsOf (data : List UInt8) : List Bool := data.flatMap fun b => bitsN 8 b.toNat

/-- Byte stuffing: a zero byte after each `0xFF`. -/
def stuff : List UInt8 → List UInt8
  | [] => []
  | b :: rest => if b = 0xFF then 0xFF :: 0x00 :: stuff rest else b :: stuff rest

/-- `t` starts with a marker: `0xFF` and a byte other than zero (possibly a fill byte). -/
def StartsWithMarker (t : List UInt8) : Prop := ∃ m rest, t = 0xFF :: m :: rest ∧ m ≠ 0

/-- The data bytes of an entropy coded segment: stuffed zeros removed, up to the first marker (or to
the end, an incomplete `0xFF` at the very end not counting). -/
def unstuff : List UInt8 → List UInt8
  | [] => []
  | [b] => if b = 0xFF then [] else [b]
  | b :: z :: rest =>
    if b = 0xFF then (if z = 0 then 0xFF :: unstuff rest else [])
    else b :: unstuff (z :: rest)

/-- What follows the entropy coded data: the input from the first marker on, if there is one. -/
def scanTail : List UInt8 → Option (List UInt8)
  | [] => none
  | [_] => none
  | b :: z :: rest =>
    if b = 0xFF then (if z = 0 then scanTail rest else some (b :: z :: rest))
    else scanTail (z :: rest)

/-- Zero bits. -/
def zeros (n : Nat) : List Bool := List.replicate n false

end Jpeg.Spec
