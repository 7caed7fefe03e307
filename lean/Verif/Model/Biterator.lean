import Verif.Model.Basic
/-!
# `src/biterator.rs`

`Biterator<I>` over a byte slice. `input` is the list of bytes not yet taken from the underlying
stream; a checkpoint of the underlying stream is that list, resetting it is putting the list back.
`bits` is the `u64` buffer (always `< 2^64`), `count` the `u8` number of valid low bits.
-/

namespace Jpeg

/-- biterator.rs:10-14 `struct Biterator`. -/
structure Biterator where
  input : List UInt8
  bits : Nat
  count : Nat
  deriving DecidableEq, Repr

namespace Biterator

/-- biterator.rs:17-19 `Biterator::new`. -/
def new (input : List UInt8) : Biterator := ⟨input, 0, 0⟩

/-- biterator.rs:49-52 `Biterator::reset`: forget the buffered bits. -/
def reset (s : Biterator) : Biterator := { s with bits := 0, count := 0 }

/-- biterator.rs:68-72 and 74-79 `peek_bits` / `peek_bits_u8`:
`(bits >> (count - n)) & ((1 << n) - 1)`. The two Rust functions differ only in the result type
(`u16`, `u8`), which loses nothing for `n ≤ 16` resp. `n ≤ 8`. The underflow of `count - n`
(debug assertion) and a shift by 64 or more are panics. -/
def peekBits (s : Biterator) (n : Nat) : Except Fail Nat :=
  if s.count < n then .error (.panic .bitUnderflow)
  else if 64 ≤ s.count - n ∨ 64 ≤ n then .error (.panic .shiftOverflow)
  else .ok ((s.bits >>> (s.count - n)) &&& ((1 <<< n) - 1))

/-- biterator.rs:63-66 `consume_bits`. -/
def consumeBits (s : Biterator) (n : Nat) : Out Biterator Unit :=
  if s.count < n then .fail (.panic .bitUnderflow) s
  else .ok () { s with count := s.count - n }

/-- biterator.rs:97-100: `while self.count <= 56 { self.bits <<= 8; self.count += 8; }`.
The first argument is fuel; eight rounds suffice (`count` grows by 8 each round). -/
def padZeros : Nat → Nat → Nat → Nat × Nat
  | 0, bits, count => (bits, count)
  | fuel + 1, bits, count =>
    if count ≤ 56 then padZeros fuel ((bits <<< 8) % 2 ^ 64) (count + 8) else (bits, count)

/-- biterator.rs:83-105, the `while self.count <= 56` loop of `fill_bits`.
`cp` is the checkpoint taken at biterator.rs:82; the list is `self.input`.
Structural recursion on the input: each round takes at least one byte.

On a marker (`0xFF` followed by a non-zero byte) the underlying stream is reset to the checkpoint
and one byte is taken for each step of `(checkpoint.2..self.count - 8).step_by(8)`. -/
def fillLoop (cp : Biterator) : List UInt8 → Nat → Nat → Out Biterator Unit
  | input, bits, count =>
    if 56 < count then .ok () ⟨input, bits, count⟩
    else
      match input with
      | [] => .fail .unit ⟨[], bits, count⟩
      | b :: rest =>
        let bits := ((bits <<< 8) % 2 ^ 64) ||| b.toNat
        let count := count + 8
        if b = 0xFF then
          match rest with
          | [] => .fail .unit ⟨[], bits, count⟩
          | z :: rest' =>
            if z ≠ 0 then
              -- lines 90-93: reset, then `uncons` once per byte buffered since the checkpoint
              let k := (count - 8 - cp.count + 7) / 8
              if cp.input.length < k then .fail .unit ⟨[], bits, count⟩
              else
                -- line 94: `self.bits &= !0xFF`
                let bits := bits &&& (2 ^ 64 - 1 - 0xFF)
                let (bits, count) := padZeros 8 bits count
                .ok () ⟨cp.input.drop k, bits, count⟩
            else fillLoop cp rest' bits count
        else fillLoop cp rest bits count

/-- biterator.rs:81-106 `fill_bits`. -/
def fillBits (s : Biterator) : Out Biterator Unit := fillLoop s s.input s.bits s.count

/-- biterator.rs:54-61 `next_bits`. -/
def nextBits (s : Biterator) (n : Nat) : Out Biterator Nat :=
  (if s.count < n then fillBits s else .ok () s).bind fun _ s =>
  (Out.ofExcept (s.peekBits n) s).bind fun v s =>
  (s.consumeBits n).bind fun _ s =>
  .ok v s

end Biterator

/-- biterator.rs:109-114 `extend`, on the 32 bit words the Rust code uses. Called with `1 ≤ t`
only (huffman.rs:180, lib.rs:1080, 1132 guard it); `t = 0` would overflow `t - 1` in Rust. -/
def extend (v t : Nat) : Int :=
  let vt : BitVec 32 := 1#32 <<< (t - 1)
  let v : BitVec 32 := BitVec.ofNat 32 v
  let mask : BitVec 32 := (v - vt).sshiftRight 31 &&& ((BitVec.allOnes 32 <<< t) + 1#32)
  ((v + mask).setWidth 16).toInt

/-- biterator.rs:44-47 `receive_extend`. -/
def Biterator.receiveExtend (s : Biterator) (n : Nat) : Out Biterator Int :=
  (s.nextBits n).bind fun v s => .ok (extend v n) s

end Jpeg
