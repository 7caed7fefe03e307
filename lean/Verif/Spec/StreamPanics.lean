import Verif.Spec.Panics
/-!
# Specification: the conditions under which a streaming decoder panics

Stated over the buffered bytes and the decoder at the moment of the panic.
-/

namespace Jpeg.Spec

/-- The panics of one call of a streaming decoder. Those of `decode` (`Spec/Panics.lean`), without the one for
bytes behind the image, and one more. -/
inductive StreamPanic (cfg : Cfg) (buf : List UInt8) (d : Decoder) (p : PanicSite) : Prop
  /-- a table or header segment in the buffer -/
  | segment : SegmentPanic cfg buf p → StreamPanic cfg buf d p
  /-- a scan, begun in this call or an earlier one -/
  | scan (frame : Frame) (scan : Scan) : d.frame = some frame → d.scan = some scan →
      ScanPanic cfg d frame scan p → StreamPanic cfg buf d p
  /-- the end of an image -/
  | render : RenderPanic cfg d p → StreamPanic cfg buf d p
  /-- the restart counter, run down once more when the scan was resumed in front of a restart marker
  (with overflow checks) -/
  | restart : p = .restartUnderflow → cfg.debug = true → 0 < d.restartInterval →
      d.scanState.mcusLeftUntilRestart = 0 → StreamPanic cfg buf d p

end Jpeg.Spec
