/-!
# Specification: zig-zag order (T.81 figure A.6)

The walk over the anti-diagonals of an 8×8 block, alternating in direction.
-/

namespace Jpeg.Spec

/-- The cells `(row, column)` of anti-diagonal `d`, top right to bottom left. -/
def antiDiagonal (d : Nat) : List (Nat × Nat) :=
  ((List.range 8).filter fun r => r ≤ d ∧ d - r < 8).map fun r => (r, d - r)

/-- The whole walk: odd diagonals run downwards, even ones upwards. -/
def zigzagWalk : List (Nat × Nat) :=
  (List.range 15).flatMap fun d => if d % 2 = 1 then antiDiagonal d else (antiDiagonal d).reverse

/-- Position in row-major order of the `k`-th cell of the walk. -/
def zigzag (k : Nat) : Nat :=
  match zigzagWalk[k]? with
  | some (r, c) => 8 * r + c
  | none => 0

end Jpeg.Spec
