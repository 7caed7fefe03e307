import Verif.Spec.Bits
/-!
# Specification: a stream of bits with backtracking

What a parser of bits expects from its input: a list of bits and a position in it. Independent of
the model.
-/

namespace Jpeg.Spec

/-- What a backtracking parser does with its input: take the next bit, remember the position,
go back to the `i`-th remembered position (counted from the latest). -/
inductive BitOp
  | next
  | mark
  | back (i : Nat)
  deriving DecidableEq, Repr

/-- The operations on a list of bits still to come, with the remembered positions. The result is the
bits taken, or `none` if a bit is asked for where none is left or a position was never
remembered. -/
def BitOp.run : List BitOp → List Bool → List (List Bool) → Option (List Bool)
  | [], _, _ => some []
  | .next :: _, [], _ => none
  | .next :: ops, b :: bits, marks => (run ops bits marks).map (b :: ·)
  | .mark :: ops, bits, marks => run ops bits (bits :: marks)
  | .back i :: ops, _, marks =>
    match marks[i]? with
    | none => none
    | some bits => run ops bits marks

end Jpeg.Spec
