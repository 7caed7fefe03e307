import Verif.Spec.Panics
import Verif.Spec.Huffman
import Verif.Spec.Baseline
/-!
# Specification: what each error says about the file

For every error the decoder reports, the fault in the file it names. Stated over the bytes of the file and the
decoder state at the moment of the error.
-/

namespace Jpeg.Spec

/-- The number of the first component with the given identifier. -/
def FirstWith (cs : List Component) (id : UInt8) (i : Nat) : Prop :=
  (∃ c, cs[i]? = some c ∧ c.id = id) ∧ ∀ j c, j < i → cs[j]? = some c → c.id ≠ id

/-- Both sampling factors of a component (T.81 table B.2: one byte, two halves) are 1 to 4. -/
def SamplingOk (hv : UInt8) : Prop :=
  1 ≤ hv.toNat / 16 ∧ hv.toNat / 16 ≤ 4 ∧ 1 ≤ hv.toNat % 16 ∧ hv.toNat % 16 ≤ 4

/-- The six bytes that open an Adobe segment: `Adobe`, zero. -/
def adobeName : List UInt8 := [0x41, 0x64, 0x6F, 0x62, 0x65, 0]

/-- Errors about a marker, or about the content of a segment by itself. -/
inductive SegmentError (cfg : Cfg) (file : List UInt8) : ErrKind → Prop
  /-- a marker code the decoder does not know -/
  | unknownMarker (pre rest : List UInt8) (c : UInt8) : file = pre ++ 0xFF :: c :: rest → c ≠ 0 → c ≠ 0xFF →
      (∀ m, MarkerExists m → markerCode m ≠ c.toNat) → SegmentError cfg file .markerExpected
  /-- a frame header with a sampling factor 0 or above 4, in one of the components announced -/
  | samplingFactor (i : Nat) (p : UInt8) (y x : Nat) (n : UInt8) (before : List UInt8) (k : Nat) (id hv : UInt8)
      (more : List UInt8) : before.length = 3 * k → k < n.toNat → ¬ SamplingOk hv →
      FileSegment cfg file (.SOF i) (p :: be16 y ++ be16 x ++ n :: (before ++ id :: hv :: more)) →
      SegmentError cfg file .samplingFactor
  /-- a Huffman table of a class other than 0 and 1, behind tables that are in order -/
  | tableClass (ts : List HuffmanDef) (b : UInt8) (more : List UInt8) : (∀ t ∈ ts, t.Ok) → 2 ≤ b.toNat / 16 →
      FileSegment cfg file .DHT (ts.flatMap HuffmanDef.bytes ++ b :: more) → SegmentError cfg file .tableClass
  /-- a Huffman table with a destination above 3 -/
  | tableDestination (ts : List HuffmanDef) (b : UInt8) (more : List UInt8) : (∀ t ∈ ts, t.Ok) →
      b.toNat / 16 ≤ 1 → 4 ≤ b.toNat % 16 →
      FileSegment cfg file .DHT (ts.flatMap HuffmanDef.bytes ++ b :: more) → SegmentError cfg file .dhtDestination
  /-- a Huffman table with more than 256 codes (without debug assertions) -/
  | manyCodes (ts : List HuffmanDef) (t : HuffmanDef) (more : List UInt8) : (∀ t ∈ ts, t.Ok) → t.Ok →
      cfg.debug = false → 256 < t.values.length →
      FileSegment cfg file .DHT (ts.flatMap HuffmanDef.bytes ++ (t.bytes ++ more)) →
      SegmentError cfg file .badHuffsize
  /-- a Huffman table with more codes than there is room for (T.81 annex C) -/
  | oversubscribed (ts : List HuffmanDef) (t : HuffmanDef) (more : List UInt8) : (∀ t ∈ ts, t.Ok) → t.Ok →
      ¬ KraftOk (codeSizes t.counts) →
      FileSegment cfg file .DHT (ts.flatMap HuffmanDef.bytes ++ (t.bytes ++ more)) →
      SegmentError cfg file .badHuffCode
  /-- a quantisation table of a precision other than 0 and 1, behind tables that are in order -/
  | quantPrecision (ts : List QuantDef) (b : UInt8) (more : List UInt8) : (∀ t ∈ ts, t.Ok) → 2 ≤ b.toNat / 16 →
      FileSegment cfg file .DQT (ts.flatMap QuantDef.bytes ++ b :: more) → SegmentError cfg file .dqtPrecision
  /-- a quantisation table with a destination above 3 -/
  | quantDestination (ts : List QuantDef) (b : UInt8) (more : List UInt8) : (∀ t ∈ ts, t.Ok) →
      b.toNat / 16 ≤ 1 → 4 ≤ b.toNat % 16 →
      FileSegment cfg file .DQT (ts.flatMap QuantDef.bytes ++ b :: more) → SegmentError cfg file .dqtDestination
  /-- an APP14 segment that does not open with `Adobe` -/
  | adobeTag (tag more : List UInt8) : tag.length = 6 → tag ≠ adobeName →
      FileSegment cfg file (.APP 14) (tag ++ more) → SegmentError cfg file .adobeTag
  /-- an Adobe segment with a transform other than 0, 1 and 2 -/
  | adobeTransform (five : List UInt8) (b : UInt8) (more : List UInt8) : five.length = 5 → 3 ≤ b.toNat →
      FileSegment cfg file (.APP 14) (adobeName ++ (five ++ b :: more)) → SegmentError cfg file .adobeTransform
  /-- a scan header announcing 0 or more than 4 components -/
  | componentCount (n : UInt8) (more : List UInt8) : n.toNat = 0 ∨ 4 < n.toNat →
      FileSegment cfg file .SOS (n :: more) → SegmentError cfg file .componentCount

/-- Errors about a scan header and its frame header. -/
inductive HeaderError (cfg : Cfg) (file : List UInt8) (frame : Option Frame) : ErrKind → Prop
  /-- a scan header without a frame header before it -/
  | noFrame (n : UInt8) (more : List UInt8) : frame = none → FileSegment cfg file .SOS (n :: more) →
      HeaderError cfg file frame .sosBeforeSof
  /-- a component of the scan the frame does not have -/
  | noSuchComponent (f : Frame) (n : UInt8) (before : List UInt8) (k : Nat) (id sel : UInt8) (more : List UInt8) :
      frame = some f → before.length = 2 * k → k < n.toNat → (∀ c ∈ f.components, c.id ≠ id) →
      FileSegment cfg file .SOS (n :: (before ++ id :: sel :: more)) → HeaderError cfg file frame .noSuchComponent
  /-- two components of the scan in another order than in the frame -/
  | componentOrder (f : Frame) (n : UInt8) (before : List UInt8) (k : Nat) (id sel id' sel' : UInt8)
      (i i' : Nat) (more : List UInt8) : frame = some f → before.length = 2 * k → k + 1 < n.toNat →
      FirstWith f.components id i → FirstWith f.components id' i' → i' < i →
      FileSegment cfg file .SOS (n :: (before ++ id :: sel :: id' :: sel' :: more)) →
      HeaderError cfg file frame .componentOrder
  /-- a component twice in a row -/
  | componentDuplicate (f : Frame) (n : UInt8) (before : List UInt8) (k : Nat) (id sel sel' : UInt8)
      (more : List UInt8) : frame = some f → before.length = 2 * k → k + 1 < n.toNat →
      FileSegment cfg file .SOS (n :: (before ++ id :: sel :: id :: sel' :: more)) →
      HeaderError cfg file frame .componentDuplicate

/-- Errors while a scan is read. -/
inductive ScanError (file : List UInt8) (d : Decoder) (scan : Scan) : ErrKind → Prop
  /-- a DC table that was never defined -/
  | unsetDc (h : ScanHeader) : scan.ss = 0 → h ∈ scan.headers → d.dcTables[h.dcSel]? = some none →
      ScanError file d scan .unsetDc
  /-- an AC table that was never defined -/
  | unsetAc (h : ScanHeader) : 1 < scan.se → h ∈ scan.headers → d.acTables[h.acSel]? = some none →
      ScanError file d scan .unsetAc
  /-- a DC table with a category above 11 -/
  | dcCategory (h : ScanHeader) (t : BaseTable) (v : UInt8) : scan.ss = 0 → h ∈ scan.headers →
      d.dcTables[h.dcSel]? = some (some t) → v ∈ t.values → 11 < v.toNat → ScanError file d scan .dcCategory
  /-- an AC table with end of band runs, which sequential files do not have -/
  | outOfBits (h : ScanHeader) (t : AcTable) : h ∈ scan.headers → d.acTables[h.acSel]? = some (some t) →
      HasEobRun t.table.values → ScanError file d scan .outOfBits
  /-- a restart marker out of turn -/
  | wrongRst (n : Nat) (pre rest : List UInt8) : 0 < d.restartInterval → n ≤ 7 →
      n ≠ d.scanState.expectedRstNum → file = pre ++ markerBytes (.RST n) ++ rest → ScanError file d scan .wrongRst
  /-- another marker where a restart marker is due -/
  | notRst (m : Marker) (pre rest : List UInt8) : 0 < d.restartInterval → MarkerExists m → (∀ n, m ≠ .RST n) →
      file = pre ++ markerBytes m ++ rest → ScanError file d scan .notRst

/-- Errors when the image is put together. -/
inductive RenderError (d : Decoder) : ErrKind → Prop
  /-- four components, and no Adobe segment to say what they are -/
  | fourComponents (frame : Frame) : d.frame = some frame → frame.components.length = 4 → d.colorTransform = none →
      RenderError d .fourComponents
  /-- three or four components, one of them with a resolution for which there is no upsampler -/
  | ratio (frame : Frame) (H V : Nat) (c : Component) : d.frame = some frame →
      frame.components.length = 3 ∨ frame.components.length = 4 ∧ d.colorTransform ≠ none →
      Largest (·.h) frame.components H → Largest (·.v) frame.components V → c ∈ frame.components →
      ¬ ((c.h = H ∨ frame.samplesPerLine = 1 ∨ 2 * c.h = H) ∧ (c.v = V ∨ frame.lines = 1 ∨ 2 * c.v = V)) →
      H % c.h ≠ 0 ∨ V % c.v ≠ 0 → RenderError d .nonIntegerSubsampling

end Jpeg.Spec
