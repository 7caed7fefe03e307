import Verif.Spec.File
import Verif.Spec.Scan
import Verif.Spec.Idct
import Verif.Spec.Upsample
import Mathlib.Data.List.Forall2
/-!
# Specification: a whole sequential file and the picture it encodes

The byte layout (T.81 B.2) and the picture, from the coded blocks to the samples of the components.
Nothing here refers to the decoder; from the model come only the names of the markers.
-/

namespace Jpeg.Spec

/-! ## Layout -/

/-- A segment that defines tables, sets the restart interval, is meant for an application, says how the
colours are coded (Adobe's APP14: version, two words of flags, transform), or is a comment; or fill bytes
in front of the next marker (B.1.1.2). -/
inductive TableSegment
  | dqt (ts : List QuantDef)
  | dht (ts : List HuffmanDef)
  | dri (r : Nat)
  | app (n : Nat) (content : List UInt8)
  | adobe (version flags0 flags1 transform : Nat)
  | com (content : List UInt8)
  | fill (k : Nat)

/-- Its marker (fill bytes have none, the value is not used). -/
def TableSegment.marker : TableSegment → Marker
  | .dqt _ => .DQT
  | .dht _ => .DHT
  | .dri _ => .DRI
  | .app n _ => .APP n
  | .adobe _ _ _ _ => .APP 14
  | .com _ => .COM
  | .fill _ => .COM

/-- What stands behind its length field. -/
def TableSegment.content : TableSegment → List UInt8
  | .dqt ts => ts.flatMap QuantDef.bytes
  | .dht ts => ts.flatMap HuffmanDef.bytes
  | .dri r => be16 r
  | .app _ c => c
  | .adobe v f g t => [0x41, 0x64, 0x6F, 0x62, 0x65] ++ be16 v ++ be16 f ++ be16 g ++ [UInt8.ofNat t]
  | .com c => c
  | .fill _ => []

/-- The segment. -/
def TableSegment.bytes : TableSegment → List UInt8
  | .fill k => List.replicate k 0xFF
  | s => markerSegment s.marker s.content

/-- Well-formed: tables as the standard demands, Huffman tables not empty and no more than the 256
possible values, application segments other than APP14, Adobe's with version below 256 (it is 100) and
transform 0, 1 or 2, no bytes in a comment, length field included, that look like a marker; the length fits
its field. (Other APP14 segments and such comments: C56, C40.) -/
def TableSegment.Ok (s : TableSegment) : Prop :=
  s.content.length + 2 < 65536 ∧
  match s with
  | .dqt ts => ∀ t ∈ ts, t.Ok
  | .dht ts => ∀ t ∈ ts, t.Ok ∧ 1 ≤ t.values.length ∧ t.values.length ≤ 256 ∧ KraftOk (codeSizes t.counts)
  | .dri r => r < 65536
  | .app n _ => n ≤ 15 ∧ n ≠ 14
  | .adobe v _ _ t => v < 256 ∧ t ≤ 2
  | .com c => ∀ j m, ¬ MarkerAt (segmentOf c) j m
  | .fill _ => True

/-- The quantisation tables defined, in order. -/
def quantDefs (l : List TableSegment) : List QuantDef :=
  l.flatMap fun | .dqt ts => ts | _ => []

/-- The Huffman tables defined, in order. -/
def huffmanDefs (l : List TableSegment) : List HuffmanDef :=
  l.flatMap fun | .dht ts => ts | _ => []

/-- The restart intervals set, in order. -/
def restartDefs (l : List TableSegment) : List Nat :=
  l.flatMap fun | .dri r => [r] | _ => []

/-- The colour transforms of Adobe segments, in order. -/
def transformDefs (l : List TableSegment) : List Nat :=
  l.flatMap fun | .adobe _ _ _ t => [t] | _ => []

/-- The values of a Huffman table include an end of band run (EOB1 to EOB14, T.81 G.1.2.2), which only
progressive files use. -/
def HasEobRun (values : List UInt8) : Prop :=
  ∃ v ∈ values, v.toNat % 16 = 0 ∧ 1 ≤ v.toNat / 16 ∧ v.toNat / 16 ≤ 14

/-- No restart interval is set, and no AC table has end of band runs. -/
structure PlainTables (l : List TableSegment) : Prop where
  interval : ∀ r ∈ restartDefs l, r = 0
  tables : ∀ t ∈ huffmanDefs l, t.ac = true → ¬ HasEobRun t.values

/-- A component: what the frame header says, and the table selectors of the scan header. -/
structure FileComponent extends HeaderComponent where
  dc : Nat
  ac : Nat

/-- A file with one frame and one scan of all components. -/
structure BaselineFile where
  /-- what was defined before, in earlier files, and is still in force: the abbreviated format (B.4, B.5) -/
  earlier : List TableSegment := []
  /-- segments in front of the frame header -/
  before : List TableSegment
  /-- SOF0 or SOF1 -/
  sof : Nat
  precision : UInt8
  /-- lines -/
  y : Nat
  /-- samples per line -/
  x : Nat
  comps : List FileComponent
  /-- segments between frame header and scan header -/
  after : List TableSegment
  /-- the MCUs, in restart intervals -/
  intervals : List (List Mcu)
  /-- the entropy coded data, with restart markers, and the EOI marker (with fill bytes) -/
  data : List UInt8

namespace BaselineFile

variable (f : BaselineFile)

/-- The segments in order. -/
def segments : List TableSegment := f.before ++ f.after

/-- All definitions in order. -/
def tables : List TableSegment := f.earlier ++ f.segments

/-- The file. -/
def bytes : List UInt8 :=
  markerBytes .SOI ++ (f.before.flatMap TableSegment.bytes ++
    (markerSegment (.SOF f.sof) (frameHeader f.precision f.y f.x (f.comps.map (·.toHeaderComponent))) ++
      (f.after.flatMap TableSegment.bytes ++
        (markerSegment .SOS (scanHeader (f.comps.map fun c => ⟨c.id, c.dc, c.ac⟩) 0 63 0 0) ++ f.data))))

/-- The restart interval in force; `r` is the one in force before the file. -/
def interval (r : Nat) : Nat := (restartDefs f.segments).getLast?.getD r

/-- The colour transform in force (if any); `t` is the one in force before the file. -/
def transform (t : Option Nat) : Option Nat :=
  match (transformDefs f.segments).getLast? with
  | none => t
  | some t => some t

/-- The quantisation table of a component, in zig-zag order. -/
def quantOf (c : FileComponent) : Option (List Nat) :=
  (lastWith (fun t => t.dest == c.tq.toNat) (quantDefs f.tables)).map (·.values)

/-- The DC code of a component. -/
def dcCode (c : FileComponent) : Option Code :=
  (lastWith (fun t => !t.ac && t.dest == c.dc) (huffmanDefs f.tables)).map fun t => ⟨t.counts, t.values⟩

/-- The AC code of a component. -/
def acCode (c : FileComponent) : Option Code :=
  (lastWith (fun t => t.ac && t.dest == c.ac) (huffmanDefs f.tables)).map fun t => ⟨t.counts, t.values⟩

/-- The file is laid out as the standard says: `H`, `V` are the largest sampling factors, `codes` the
Huffman codes of the components and `r` the restart interval. -/
structure Laid (r H V : Nat) (codes : List (Code × Code)) : Prop where
  tables : ∀ s ∈ f.tables, s.Ok
  sof : f.sof ≤ 1
  x : 1 ≤ f.x ∧ f.x < 2 ^ 16
  y : f.y < 2 ^ 16
  count : 1 ≤ f.comps.length ∧ f.comps.length ≤ 4
  ids : (f.comps.map (·.id)).Nodup
  factors : ∀ c ∈ f.comps, 1 ≤ c.h ∧ c.h ≤ 4 ∧ 1 ≤ c.v ∧ c.v ≤ 4
  hmax : Largest (·.h) f.comps H
  vmax : Largest (·.v) f.comps V
  /-- at most ten blocks per MCU (B.2.3) -/
  ten : (f.comps.map fun c => c.h * c.v).sum ≤ 10
  /-- one component: factors 1 (with others an MCU would still be one block, A.2.2; that order is not covered) -/
  single : f.comps.length = 1 → H = 1 ∧ V = 1
  quant : ∀ c ∈ f.comps, ∃ q, f.quantOf c = some q
  huffman : List.Forall₂ (fun c code => f.dcCode c = some code.1 ∧ f.acCode c = some code.2) f.comps codes
  /-- `ceil(x / 8H) * ceil(y / 8V)` MCUs (A.2.4) -/
  mcus : f.intervals.flatten.length = ceilDiv f.x (8 * H) * ceilDiv f.y (8 * V)
  /-- with `h * v` blocks of each component (A.2.3) -/
  blocks : ∀ m ∈ f.intervals.flatten, m.map List.length = f.comps.map fun c => c.h * c.v
  restarts : IntervalsOk r f.intervals

/-- … and the data are an encoding of these MCUs. -/
structure Valid (r H V : Nat) (codes : List (Code × Code)) : Prop extends f.Laid r H V codes where
  data : ∃ k, ScanBytes codes (List.replicate k 0xFF ++ markerBytes .EOI) 0 f.intervals f.data

/-! ## Picture -/

/-- The block that covers row `Y`, column `X` of component `i` (A.2.3, A.2.4): MCUs go row by row, and so
do the blocks of the component within an MCU. -/
def blockAt (H i : Nat) (c : FileComponent) (Y X : Nat) : Option BlockData :=
  (f.intervals.flatten[Y / 8 / c.v * ceilDiv f.x (8 * H) + X / 8 / c.h]?).bind fun m =>
    m[i]?.bind fun blocks => blocks[Y / 8 % c.v * c.h + X / 8 % c.h]?

end BaselineFile

/-- The dequantised coefficient in row `k`, column `i` of a block: the product of coefficient and table
entry with the place in zig-zag order that belongs to the cell. -/
def dequantised (q : List Nat) (b : BlockData) (k i : Nat) : Int :=
  let n := ((List.range 64).map zigzag).idxOf (8 * k + i)
  (b.dc :: b.zz).getD n 0 * (q.getD n 0 : Nat)

namespace BaselineFile

variable (f : BaselineFile)

/-- Sample in row `Y`, column `X` of component `i`. -/
def sample (H i Y X : Nat) : UInt8 :=
  match f.comps[i]? with
  | none => 0
  | some c =>
    match f.blockAt H i c Y X, f.quantOf c with
    | some b, some q => saturate (idctSample (dequantised q b) (Y % 8) (X % 8))
    | _, _ => 0

/-- Component `i` upsampled, in row `row`, column `col` of the picture. -/
def upsampledSample (H V i row col : Nat) : Nat :=
  match f.comps[i]? with
  | none => 0
  | some c => upsampled f.x f.y H V c.h c.v (ceilDiv (f.x * c.h) H) (ceilDiv (f.y * c.v) V)
      (fun r k => (f.sample H i r k).toNat) row col

/-- The coefficients are those of a picture: dequantised at most `2^16` in magnitude, and no value before
clamping more than 256 below or 512 above the sample range. -/
def InRange : Prop :=
  ∀ (i : Nat) (c : FileComponent) (q : List Nat), f.comps[i]? = some c → f.quantOf c = some q →
    ∀ m ∈ f.intervals.flatten, ∀ blocks, m[i]? = some blocks → ∀ b ∈ blocks,
      (∀ k j, k < 8 → j < 8 → -2 ^ 16 ≤ dequantised q b k j ∧ dequantised q b k j ≤ 2 ^ 16) ∧
      ∀ k j, k < 8 → j < 8 → -256 ≤ idctSample (dequantised q b) k j ∧
        idctSample (dequantised q b) k j ≤ 767

/-- Sampling factors this decoder can render: integer ratios, no component with half the columns and all
the lines unless the width is even and (for vertical factors 1 and a multiple of 8 lines) at most `8 h`,
no incomplete last group of columns for other ratios than 1 and 2. (The exceptions are defects: C29,
C32.) -/
def Renderable (H V : Nat) : Prop :=
  ∀ c ∈ f.comps, H % c.h = 0 ∧ V % c.v = 0 ∧
    (2 * c.h = H → (c.v = V ∨ f.y = 1) → f.x ≠ 1 →
      f.x % 2 = 0 ∧ (V = 1 → f.y % 8 = 0 → f.x ≤ 8 * c.h)) ∧
    (¬ ((c.h = H ∨ f.x = 1 ∨ 2 * c.h = H) ∧ (c.v = V ∨ f.y = 1 ∨ 2 * c.v = V)) → f.x % (H / c.h) = 0)

end BaselineFile

end Jpeg.Spec
