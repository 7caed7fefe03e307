import Verif.Spec.Geometry
import Verif.Model.Marker
/-!
# Specification: markers and segments of a file (T.81 annex B)

Only the byte layout; nothing here refers to the parsers. From the model come the names of the
markers (`Marker`).
-/

namespace Jpeg.Spec

/-- T.81 table B.1, the markers this decoder knows: the byte behind the `0xFF`. -/
def markerCode : Marker → Nat
  | .SOF i => 0xC0 + i
  | .DHT => 0xC4
  | .RST n => 0xD0 + n
  | .SOI => 0xD8
  | .EOI => 0xD9
  | .SOS => 0xDA
  | .DQT => 0xDB
  | .DRI => 0xDD
  | .APP n => 0xE0 + n
  | .COM => 0xFE

/-- The indices that exist: `SOF0..SOF2`, `RST0..RST7`, `APP0..APP15`. -/
def MarkerExists : Marker → Prop
  | .SOF i => i ≤ 2
  | .RST n => n ≤ 7
  | .APP n => n ≤ 15
  | _ => True

/-- At position `i` stands `0xFF`, followed by the code `c`; `0xFF00` is a stuffed data byte and
`0xFFFF` a fill byte, neither is a marker (B.1.1.2, B.1.1.5). -/
def MarkerAt (l : List UInt8) (i : Nat) (c : UInt8) : Prop :=
  l[i]? = some 0xFF ∧ l[i + 1]? = some c ∧ c ≠ 0 ∧ c ≠ 0xFF

/-- A 16 bit number, most significant byte first. -/
def be16 (n : Nat) : List UInt8 := [UInt8.ofNat (n / 256), UInt8.ofNat (n % 256)]

/-- The two bytes of a marker. -/
def markerBytes (m : Marker) : List UInt8 := [0xFF, UInt8.ofNat (markerCode m)]

/-- Length field and content of a marker segment; the length counts its own two bytes
(B.1.1.4). -/
def segmentOf (payload : List UInt8) : List UInt8 := be16 (payload.length + 2) ++ payload

/-- A whole marker segment. -/
def markerSegment (m : Marker) (payload : List UInt8) : List UInt8 :=
  markerBytes m ++ segmentOf payload

/-- One table of a DHT segment (B.2.4.2). -/
structure HuffmanDef where
  /-- class 1 (AC) or 0 (DC) -/
  ac : Bool
  dest : Nat
  counts : List UInt8
  values : List UInt8

/-- Its bytes. -/
def HuffmanDef.bytes (t : HuffmanDef) : List UInt8 :=
  UInt8.ofNat ((if t.ac then 16 else 0) + t.dest) :: (t.counts ++ t.values)

/-- Destination 0 to 3, sixteen counts, as many values as they announce. -/
def HuffmanDef.Ok (t : HuffmanDef) : Prop :=
  t.dest ≤ 3 ∧ t.counts.length = 16 ∧ t.values.length = (t.counts.map UInt8.toNat).sum

/-- One table of a DQT segment (B.2.4.1); the values in zig-zag order. -/
structure QuantDef where
  /-- precision 1 (16 bit values) or 0 (8 bit values) -/
  wide : Bool
  dest : Nat
  values : List Nat

/-- Its bytes. -/
def QuantDef.bytes (t : QuantDef) : List UInt8 :=
  UInt8.ofNat ((if t.wide then 16 else 0) + t.dest) ::
    (if t.wide then t.values.flatMap be16 else t.values.map UInt8.ofNat)

/-- Destination 0 to 3, 64 values of the announced width. -/
def QuantDef.Ok (t : QuantDef) : Prop :=
  t.dest ≤ 3 ∧ t.values.length = 64 ∧ ∀ v ∈ t.values, v < if t.wide then 65536 else 256

/-- The last element of a list that satisfies a condition: of several definitions for one
destination the last one counts (B.2.4). -/
def lastWith {α : Type} (p : α → Bool) (l : List α) : Option α := (l.filter p).getLast?

/-- One component of a scan header (B.2.3): component selector and table selectors. -/
structure ScanComponent where
  id : UInt8
  dc : Nat
  ac : Nat

/-- The scan header (B.2.3) behind its length field. -/
def scanHeader (comps : List ScanComponent) (ss se : UInt8) (ah al : Nat) : List UInt8 :=
  UInt8.ofNat comps.length :: (comps.flatMap fun c => [c.id, UInt8.ofNat (c.dc * 16 + c.ac)]) ++
    [ss, se, UInt8.ofNat (ah * 16 + al)]

end Jpeg.Spec
