import Verif.Model.Basic
/-!
# `src/marker.rs`
-/

namespace Jpeg

/-- marker.rs:14-33 `Marker`. -/
inductive Marker
  | SOI | SOF (i : Nat) | DHT | DQT | DRI | SOS | RST (n : Nat) | APP (n : Nat) | COM | EOI
  deriving DecidableEq, Repr

/-- marker.rs:72-86, the `satisfy_map` closure. -/
def markerOfByte (b : UInt8) : Option Marker :=
  let n := b.toNat
  if n = 0xD8 then some .SOI
  else if 0xC0 ≤ n ∧ n ≤ 0xC2 then some (.SOF (n - 0xC0))
  else if n = 0xC4 then some .DHT
  else if n = 0xDB then some .DQT
  else if n = 0xDD then some .DRI
  else if n = 0xDA then some .SOS
  else if 0xD0 ≤ n ∧ n ≤ 0xD7 then some (.RST (n - 0xD0))
  else if 0xE0 ≤ n ∧ n ≤ 0xEF then some (.APP (n - 0xE0))
  else if n = 0xD9 then some .EOI
  else if n = 0xFE then some .COM
  else none

/-- marker.rs:57-90 `marker`, as one pass over the bytes. `seenFF` says whether the byte before the
list ends a run of `0xFF` (then we are inside `take_while1`), i.e. the combinators
`sep_by1((take_until_byte(0xFF), take_while1(0xFF)), byte(0x00))` followed by `satisfy_map`:

* outside a run: any byte but `0xFF` is skipped by `take_until_byte`;
* inside a run: `0xFF` prolongs it, `0x00` is the separator and starts over, anything else is
  handed to `satisfy_map`. -/
def markerAux : Bool → List UInt8 → Except Fail (Marker × List UInt8)
  | _, [] => .error .eof
  | false, b :: rest => markerAux (b == 0xFF) rest
  | true, b :: rest =>
    if b = 0xFF then markerAux true rest
    else if b = 0 then markerAux false rest
    else
      match markerOfByte b with
      | some m => .ok (m, rest)
      | none => .error (.err .markerExpected)

/-- marker.rs:57-90 `marker`. -/
def marker (l : List UInt8) : Except Fail (Marker × List UInt8) := markerAux false l

end Jpeg
