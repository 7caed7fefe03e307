import Verif.Model.Biterator
/-!
# `src/biterator.rs`, lines 116-175: the bit reader as a stream of booleans

`Biterator` implements the stream traits of combine. A checkpoint of the underlying slice is the
slice itself. `is_partial` (line 133) and `position` (line 173) only forward to the input and are
not modelled.
-/

namespace Jpeg.Biterator

/-- biterator.rs:128-132 `StreamOnce::uncons`: one bit; the error `()` becomes "end of input". -/
def uncons (s : Biterator) : Out Biterator Bool :=
  ((s.nextBits 1).bind fun i s => .ok (i != 0) s).mapErr fun f =>
    match f with
    | .unit => .eof
    | f => f

/-- biterator.rs:145 `type Checkpoint = (I::Checkpoint, u64, u8)`. -/
abbrev Checkpoint := List UInt8 × Nat × Nat

/-- biterator.rs:147-149 `ResetStream::checkpoint`. -/
def checkpoint (s : Biterator) : Checkpoint := (s.input, s.bits, s.count)

/-- biterator.rs:150-160 `ResetStream::reset` (resetting a slice does not fail). -/
def resetTo (_ : Biterator) (c : Checkpoint) : Biterator := ⟨c.1, c.2.1, c.2.2⟩

end Jpeg.Biterator
