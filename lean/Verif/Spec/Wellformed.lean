import Verif.Spec.Baseline
/-!
# Specification: what a marker segment must contain

Layout of the segments in front of the entropy coded data (T.81 B.2). Bytes behind the part that is laid down
are allowed in frame headers, DRI and Adobe segments.
-/

namespace Jpeg.Spec

/-- The Huffman tables that can be used: 1 to 256 codes that fit into the code space. -/
def HuffmanDef.Usable (t : HuffmanDef) : Prop :=
  t.Ok ∧ 1 ≤ t.values.length ∧ t.values.length ≤ 256 ∧ KraftOk (codeSizes t.counts)

/-- Content of a well-formed segment, by marker. -/
def WellFormed : Marker → List UInt8 → Prop
  | .DQT, p => ∃ ts : List QuantDef, p = ts.flatMap QuantDef.bytes ∧ ∀ t ∈ ts, t.Ok
  | .DHT, p => ∃ ts : List HuffmanDef, p = ts.flatMap HuffmanDef.bytes ∧ ∀ t ∈ ts, t.Usable
  | .DRI, p => 2 ≤ p.length
  | .SOF _, p => ∃ (precision : UInt8) (y x : Nat) (cs : List HeaderComponent) (extra : List UInt8),
      p = frameHeader precision y x cs ++ extra ∧ y < 2 ^ 16 ∧ x < 2 ^ 16 ∧ 1 ≤ cs.length ∧ cs.length ≤ 255 ∧
      ∀ c ∈ cs, 1 ≤ c.h ∧ c.h ≤ 4 ∧ 1 ≤ c.v ∧ c.v ≤ 4
  | .APP n, p => n = 14 → ∃ (five : List UInt8) (t : UInt8) (extra : List UInt8),
      p = [0x41, 0x64, 0x6F, 0x62, 0x65, 0x00] ++ five ++ t :: extra ∧ five.length = 5 ∧ t.toNat ≤ 2
  | _, _ => False

/-- The contents this decoder does not survive: a Huffman table without codes (with debug assertions also one
with more than 256) behind usable ones, a frame without components. -/
def Fatal (debug : Bool) : Marker → List UInt8 → Prop
  | .DHT, p => ∃ (ts : List HuffmanDef) (t : HuffmanDef) (after : List UInt8),
      p = ts.flatMap HuffmanDef.bytes ++ (t.bytes ++ after) ∧ (∀ t ∈ ts, t.Usable) ∧ t.Ok ∧
      (t.values = [] ∨ debug = true ∧ 256 < t.values.length)
  | .SOF _, p => ∃ (precision : UInt8) (y x : Nat) (extra : List UInt8),
      p = frameHeader precision y x [] ++ extra ∧ y < 2 ^ 16 ∧ x < 2 ^ 16
  | _, _ => False

/-- Component identifiers of the frame header in force: the last one, or what was known before. -/
def idsAfter (known : Option (List UInt8)) (segs : List (Marker × List UInt8)) (ids : List UInt8) : Prop :=
  (∃ before i precision y x cs extra after,
    segs = before ++ (.SOF i, frameHeader precision y x cs ++ extra) :: after ∧ cs.length ≤ 255 ∧
    (∀ s ∈ after, ∀ j, s.1 ≠ .SOF j) ∧ ids = cs.map (·.id)) ∨
  ((∀ s ∈ segs, ∀ j, s.1 ≠ .SOF j) ∧ known = some ids)

/-- A scan header for a frame with these component identifiers: one to four components of the frame, in the
order of the frame and none twice (of components with equal identifiers the first is meant). -/
def ScanHeaderFor (ids : List UInt8) (p : List UInt8) : Prop :=
  ∃ (cs : List ScanComponent) (ss se : UInt8) (ah al : Nat) (extra : List UInt8) (places : List Nat),
    p = scanHeader cs ss se ah al ++ extra ∧ ah < 16 ∧ al < 16 ∧ 1 ≤ cs.length ∧ cs.length ≤ 4 ∧
    (∀ c ∈ cs, c.dc < 16 ∧ c.ac < 16) ∧
    List.Forall₂ (fun c i => ids[i]? = some c.id ∧ ∀ j, j < i → ids[j]? ≠ some c.id) cs places ∧
    places.Pairwise (· < ·)

end Jpeg.Spec
