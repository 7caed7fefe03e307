import Verif.Props.Whole
/-!
# Concrete files: a witness for every class of panics (C41), and files that decode

Each class of `Spec.SegmentPanic`, `Spec.ScanPanic` and `Spec.RenderPanic` occurs; the kernel runs the model
on a whole file for each.
-/

namespace Jpeg
open Spec

/-- What a result says about panics. -/
def panicOf {α : Type} : Except Fail α → Option PanicSite
  | .error (.panic p) => some p
  | _ => none

namespace Sample

/-- With overflow checks, sequential. -/
def dbg : Cfg := ⟨true, false⟩
/-- Three components without subsampling, quantisation table 0. -/
def ycc : List HeaderComponent := [⟨1, 1, 1, 0⟩, ⟨2, 1, 1, 0⟩, ⟨3, 1, 1, 0⟩]
/-- Five components. -/
def five : List HeaderComponent := ycc ++ [⟨4, 1, 1, 0⟩, ⟨5, 1, 1, 0⟩]
/-- Quantisation table 0, all eights. -/
def quant8 : List UInt8 := markerSegment .DQT (0 :: List.replicate 64 8)
/-- DC table 0: the code `0` for category 0. -/
def dc : List UInt8 := markerSegment .DHT ([0, 1] ++ List.replicate 15 0 ++ [0])
/-- AC table 0: the code `0` for end of block. -/
def ac : List UInt8 := markerSegment .DHT ([16, 1] ++ List.replicate 15 0 ++ [0])
/-- A frame header of type `i`. -/
def frame (i x y : Nat) (cs : List HeaderComponent) : List UInt8 :=
  markerSegment (.SOF i) (frameHeader 8 y x cs)
/-- A scan header. -/
def scan (cs : List ScanComponent) (ss se : UInt8) (al : Nat) : List UInt8 :=
  markerSegment .SOS (scanHeader cs ss se 0 al)
/-- The three components with tables 0. -/
def all3 : List ScanComponent := [⟨1, 0, 0⟩, ⟨2, 0, 0⟩, ⟨3, 0, 0⟩]
/-- A file. -/
def file (l : List (List UInt8)) : List UInt8 := markerBytes .SOI ++ l.flatten ++ markerBytes .EOI

end Sample
open Sample

/-- **C41** (refutation). `SegmentPanic`: length field below 2, frame header without components, Huffman
table without codes, Huffman table with more than 256 codes. -/
theorem C41_violated_segments :
    panicOf (decode dbg (file [markerBytes .DQT ++ be16 1])) = some .segmentLen ∧
    panicOf (decode dbg (file [markerSegment (.SOF 0) [8, 0, 1, 0, 1, 0]])) = some .noComponents ∧
    panicOf (decode dbg (file [markerSegment .DHT (List.replicate 17 0)])) = some .emptyHuffman ∧
    panicOf (decode dbg (file [markerSegment .DHT (0 :: List.replicate 14 0 ++ [2, 255] ++
      List.replicate 257 0)])) = some .tooManyValues := by
  refine ⟨?_, ?_, ?_, ?_⟩ <;> decide +kernel

/-- **C41** (refutation). `ScanPanic`, panics before the first MCU: progressive frame, fifth component,
band end 64, table selector 4, five components in a final scan. -/
theorem C41_violated_scan_start :
    panicOf (decode dbg (file [frame 2 8 0 ycc, scan all3 0 63 0])) = some .progressive ∧
    panicOf (decode dbg (file [frame 0 8 0 five, scan [⟨5, 0, 0⟩] 0 63 0])) = some .index ∧
    panicOf (decode dbg (file [frame 0 8 0 ycc, scan all3 0 64 0])) = some .shiftOverflow ∧
    panicOf (decode dbg (file [frame 0 8 0 ycc, scan [⟨1, 4, 0⟩] 0 63 0])) = some .index ∧
    panicOf (decode dbg (file [frame 0 8 0 five, dc, ac, scan all3 0 63 0])) = some .arrayVecFull := by
  refine ⟨?_, ?_, ?_, ?_, ?_⟩ <;> decide +kernel

/-- **C41** (refutation). `ScanPanic`, panics in an MCU or at the end of the scan: no DC table, no AC table,
no quantisation table, quantisation table 5, 18 blocks in an MCU, coefficients missing. -/
theorem C41_violated_scan_data :
    panicOf (decode dbg (file [frame 0 8 8 ycc, ac, scan all3 1 63 0, [0]])) = some .missingDc ∧
    panicOf (decode dbg (file [frame 0 8 8 ycc, dc, scan all3 0 1 0, [0]])) = some .missingAc ∧
    panicOf (decode dbg (file [frame 0 8 8 ycc, dc, ac, scan all3 0 63 0, [0]])) = some .missingQuant ∧
    panicOf (decode dbg (file [frame 0 8 8 [⟨1, 1, 1, 5⟩, ⟨2, 1, 1, 0⟩, ⟨3, 1, 1, 0⟩], dc, ac,
      scan all3 0 63 0, [0]])) = some .index ∧
    panicOf (decode dbg (file [quant8, frame 0 8 8 [⟨1, 4, 4, 0⟩, ⟨2, 1, 1, 0⟩, ⟨3, 1, 1, 0⟩], dc, ac,
      scan all3 0 63 0, [0, 0, 0, 0, 0, 0]])) = some .missingCoefficients ∧
    panicOf (decode dbg (file [frame 0 8 8 ycc, dc, ac, scan all3 0 5 0, [0]])) = some .index := by
  refine ⟨?_, ?_, ?_, ?_, ?_, ?_⟩ <;> decide +kernel

/-- **C41** (refutation). `RenderPanic` and trailing bytes: no frame header, one component, width 0, no
scan, a byte behind EOI. -/
theorem C41_violated_end :
    panicOf (decode dbg (file [])) = some .noFrame ∧
    panicOf (decode dbg (file [frame 0 8 8 [⟨1, 1, 1, 0⟩]])) = some .componentCount ∧
    panicOf (decode dbg (file [frame 0 0 8 ycc])) = some .zeroChunk ∧
    panicOf (decode dbg (file [frame 0 8 8 ycc])) = some .componentMismatch ∧
    panicOf (decode dbg (file [frame 0 8 0 ycc, dc, ac, scan all3 0 63 0] ++ [0])) = some .trailing := by
  refine ⟨?_, ?_, ?_, ?_, ?_⟩ <;> decide +kernel

/-- **C41** (refutation). `RenderPanic`, panics of upsampling and colour conversion: planes missing without debug
assertions, planes of an earlier and smaller frame, YCCK, the 2x1 upsampler. -/
theorem C41_violated_render :
    panicOf (decode ⟨false, false⟩ (file [frame 0 8 8 ycc])) = some .fixedSlice ∧
    panicOf (decode dbg (file [quant8, frame 0 8 8 ycc, dc, ac, scan all3 0 63 0, [0], frame 0 16 8 ycc])) = some .index ∧
    panicOf (decode dbg (file [markerSegment (.APP 14) [0x41, 0x64, 0x6F, 0x62, 0x65, 0, 100, 0, 0, 0, 0, 2], quant8,
      frame 0 8 8 (ycc ++ [⟨4, 1, 1, 0⟩]), dc, ac, scan (all3 ++ [⟨4, 0, 0⟩]) 0 63 0, [0]])) = some .fixedSlice ∧
    panicOf (decode dbg (file [quant8, frame 0 7 8 [⟨1, 2, 1, 0⟩, ⟨2, 1, 1, 0⟩, ⟨3, 1, 1, 0⟩], dc, ac, scan all3 0 63 0,
      [0]])) = some .index := by
  refine ⟨?_, ?_, ?_, ?_⟩ <;> decide +kernel

/-- A whole file that decodes: 8x8 pixels of grey. Meets the hypothesis of `C35_size`. -/
example : (match decode dbg (file [quant8, frame 0 8 8 ycc, dc, ac, scan all3 0 63 0, [0]]) with
    | .ok image => image == List.replicate 192 128
    | .error _ => false) = true := by decide +kernel

/-- A comment that meets the condition of `C40_file_partial`, in a file that decodes. -/
example : (match decode dbg (file [markerSegment .COM [0x68, 0x69], quant8, frame 0 8 8 ycc, dc, ac,
      scan all3 0 63 0, [0]]) with
    | .ok image => image == List.replicate 192 128
    | .error _ => false) = true := by decide +kernel

theorem hiComment : ∀ j c, ¬ MarkerAt (segmentOf [0x68, 0x69]) j c := by
  rintro j c ⟨h, -⟩
  have : (0xFF : UInt8) ∈ segmentOf [0x68, 0x69] := List.mem_of_getElem? h
  revert this
  decide

end Jpeg
