import Verif.Spec.File
import Verif.Spec.Geometry
import Verif.Model.Decode
/-!
# Specification: the conditions under which the decoder panics

Stated over the bytes of the file and the decoder state at the moment of the panic (`frame` is the last
frame header, `scan` the current scan header).
-/

namespace Jpeg

/-- Failures of the model that stand for undefined behaviour of the program, not for a panic. -/
inductive PanicSite.Undefined : PanicSite → Prop
  | uninit : Undefined .uninit
  | unchecked : Undefined .unchecked

/-- The panics of the program: neither undefined behaviour nor a bound of the model. -/
def PanicSite.Real (p : PanicSite) : Prop := ¬ p.Undefined ∧ p ≠ .fuel

end Jpeg

namespace Jpeg.Spec

/-- Somewhere in the file stands a marker, followed by a segment with the given content. (In release
builds a length field below 2 wraps around and announces 65534 or 65535 bytes.) -/
def FileSegment (cfg : Cfg) (file : List UInt8) (m : Marker) (content : List UInt8) : Prop :=
  ∃ pre rest,
    (file = pre ++ markerBytes m ++ segmentOf content ++ rest) ∨
    (cfg.debug = false ∧ ∃ n, n < 2 ∧ content.length = 65534 + n ∧
      file = pre ++ markerBytes m ++ be16 n ++ content ++ rest)

/-- Panics while a table or header segment is read. -/
inductive SegmentPanic (cfg : Cfg) (file : List UInt8) : PanicSite → Prop
  /-- length field below 2 (with overflow checks) -/
  | shortLength (m : Marker) (n : Nat) (pre rest : List UInt8) : cfg.debug = true → n < 2 →
      file = pre ++ markerBytes m ++ be16 n ++ rest → SegmentPanic cfg file .segmentLen
  /-- a frame header announcing no components -/
  | emptyFrame (i : Nat) (p : UInt8) (y x : Nat) (more : List UInt8) :
      FileSegment cfg file (.SOF i) (p :: be16 y ++ be16 x ++ 0 :: more) →
      SegmentPanic cfg file .noComponents
  /-- a Huffman table without codes -/
  | emptyTable (before : List UInt8) (t : HuffmanDef) (after : List UInt8) : t.Ok → t.values = [] →
      FileSegment cfg file .DHT (before ++ t.bytes ++ after) → SegmentPanic cfg file .emptyHuffman
  /-- a Huffman table with more than 256 codes (with debug assertions) -/
  | bigTable (before : List UInt8) (t : HuffmanDef) (after : List UInt8) : cfg.debug = true → t.Ok →
      256 < t.values.length →
      FileSegment cfg file .DHT (before ++ t.bytes ++ after) → SegmentPanic cfg file .tooManyValues

/-- Panics while a scan is read. -/
inductive ScanPanic (cfg : Cfg) (d : Decoder) (frame : Frame) (scan : Scan) : PanicSite → Prop
  /-- progressive frame -/
  | progressive : frame.markerIndex = 2 → ScanPanic cfg d frame scan .progressive
  /-- the scan refers to the fifth or a later component -/
  | componentIndex (h : ScanHeader) : h ∈ scan.headers → 4 ≤ h.componentIndex →
      ScanPanic cfg d frame scan .index
  /-- end of the spectral band above 63 (with overflow checks) -/
  | shift : cfg.debug = true → scan.al = 0 → 64 ≤ scan.se → ScanPanic cfg d frame scan .shiftOverflow
  /-- table selector above 3 -/
  | selector (h : ScanHeader) : h ∈ scan.headers → 4 ≤ h.dcSel ∨ 4 ≤ h.acSel →
      ScanPanic cfg d frame scan .index
  /-- a DC table that was never defined, in a scan without DC coefficients -/
  | missingDc (h : ScanHeader) : h ∈ scan.headers → d.dcTables[h.dcSel]? = some none → scan.ss ≠ 0 →
      ScanPanic cfg d frame scan .missingDc
  /-- an AC table that was never defined, in a scan that ends with coefficient 0 or 1 -/
  | missingAc (h : ScanHeader) : h ∈ scan.headers → d.acTables[h.acSel]? = some none → scan.se ≤ 1 →
      ScanPanic cfg d frame scan .missingAc
  /-- a final scan of a frame with more than four components -/
  | manyComponents : 4 < frame.components.length → ScanPanic cfg d frame scan .arrayVecFull
  /-- quantisation table selector above 3 -/
  | quantSelector (c : Component) : c ∈ frame.components → 4 ≤ c.tq → ScanPanic cfg d frame scan .index
  /-- a quantisation table that was never defined -/
  | missingQuant (c : Component) : c ∈ frame.components → d.quantTables[c.tq]? = some none →
      ScanPanic cfg d frame scan .missingQuant
  /-- more than ten blocks in an MCU -/
  | manyBlocks : 10 < (frame.components.map fun c => c.v * c.h).sum →
      ScanPanic cfg d frame scan .missingCoefficients
  /-- a scan after which some component still lacks coefficients -/
  | incomplete (h : ScanHeader) (w : Nat) : h ∈ scan.headers →
      d.coefficientsFinished[h.componentIndex]? = some w → w ≠ 2 ^ 64 - 1 →
      ScanPanic cfg d frame scan .index

/-- Every component has its plane, of the size the frame asks for. -/
def PlanesFit (planes : List (List UInt8)) (frame : Frame) : Prop :=
  planes.map List.length = frame.components.map fun c => c.blockSize.width * c.blockSize.height * 64

/-- The frames the 2x1 upsampler cannot handle: some component with half the horizontal and the full
vertical resolution, and an odd width, or a multiple of 8 lines without vertical subsampling and more
columns than one MCU. -/
def HalfWidthDefect (frame : Frame) : Prop :=
  ∃ H V, Largest (·.h) frame.components H ∧ Largest (·.v) frame.components V ∧
    ∃ c ∈ frame.components, 2 * c.h = H ∧ (c.v = V ∨ frame.lines = 1) ∧ frame.samplesPerLine ≠ 1 ∧
      (frame.samplesPerLine % 2 = 1 ∨ (V = 1 ∧ frame.lines % 8 = 0 ∧ 8 * c.h < frame.samplesPerLine))

/-- Panics while the image is put together at the end. -/
inductive RenderPanic (cfg : Cfg) (d : Decoder) : PanicSite → Prop
  /-- no frame header at all -/
  | noFrame : d.frame = none → RenderPanic cfg d .noFrame
  /-- neither 3 nor 4 components -/
  | componentCount (frame : Frame) : d.frame = some frame → frame.components.length ≠ 3 →
      frame.components.length ≠ 4 → RenderPanic cfg d .componentCount
  /-- width 0 -/
  | noWidth (frame : Frame) : d.frame = some frame → frame.samplesPerLine = 0 → RenderPanic cfg d .zeroChunk
  /-- more or fewer planes than components: no scan for the last frame header, or one that left components out (with
  debug assertions) -/
  | planeCount (frame : Frame) : cfg.debug = true → d.frame = some frame → d.planes.length ≠ frame.components.length →
      RenderPanic cfg d .componentMismatch
  /-- fewer planes than components (without debug assertions) -/
  | missingPlane (frame : Frame) : cfg.debug = false → d.frame = some frame →
      d.planes.length < frame.components.length → RenderPanic cfg d .fixedSlice
  /-- planes of another size than the frame asks for -/
  | planeSize (frame : Frame) : d.frame = some frame → ¬ PlanesFit d.planes frame → RenderPanic cfg d .index
  /-- YCCK -/
  | ycck (frame : Frame) (t : AdobeColorTransform) : d.frame = some frame → frame.components.length = 4 →
      d.colorTransform = some t → t ≠ .unknown → RenderPanic cfg d .fixedSlice
  /-- the defect of the 2x1 upsampler -/
  | halfWidth (frame : Frame) : d.frame = some frame → HalfWidthDefect frame → RenderPanic cfg d .index

end Jpeg.Spec

namespace Jpeg

/-- The panics of overflow checks and debug assertions, which a release build does not contain. -/
inductive PanicSite.Checked : PanicSite → Prop
  | segmentLen : Checked .segmentLen
  | tooManyValues : Checked .tooManyValues
  | overflow : Checked .overflow
  | idctRows : Checked .idctRows
  | restartUnderflow : Checked .restartUnderflow
  | shiftOverflow : Checked .shiftOverflow
  | componentMismatch : Checked .componentMismatch

end Jpeg
