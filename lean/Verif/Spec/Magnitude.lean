import Verif.Spec.Bits
/-!
# Specification: magnitude categories (T.81 F.1.2.1, F.2.2.1)
-/

namespace Jpeg.Spec

/-- Magnitude category of a value (T.81 table F.1): the number of binary digits of `|v|`. -/
def category (v : Int) : Nat := if v = 0 then 0 else Nat.log2 v.natAbs + 1

/-- The additional bits of a value in its category (T.81 F.1.2.1): the value itself when positive,
the low-order bits of `v - 1` when negative. -/
def additional (v : Int) : List Bool :=
  bitsN (category v) (if 0 < v then v.toNat else (v + 2 ^ category v - 1).toNat)

/-- The EXTEND procedure, T.81 figure F.12. -/
def extendT81 (v : Int) (t : Nat) : Int := if v < 2 ^ (t - 1) then v + (-(2 ^ t) + 1) else v

/-- Values of consecutive groups of bits. -/
def chop : List Nat → List Bool → List Nat
  | [], _ => []
  | n :: rest, l => natOfBits (l.take n) :: chop rest (l.drop n)

end Jpeg.Spec
