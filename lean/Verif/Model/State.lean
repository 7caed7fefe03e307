import Verif.Model.Huffman
import Verif.Model.Frame
import Verif.Model.ZigZag
/-!
# Decoder state (`src/lib.rs`)
-/

namespace Jpeg

/-- lib.rs:569-574 `ScanHeader`. -/
structure ScanHeader where
  componentIndex : Nat
  dcSel : Nat
  acSel : Nat
  deriving DecidableEq, Repr

/-- lib.rs:560-567 `Scan`. -/
structure Scan where
  headers : List ScanHeader
  ss : Nat
  se : Nat
  ah : Nat
  al : Nat
  deriving DecidableEq, Repr

/-- lib.rs:817-822 `AdobeColorTransform`. -/
inductive AdobeColorTransform | unknown | yCbCr | ycck
  deriving DecidableEq, Repr

/-- lib.rs:866-873 `ScanState`. `mcuRowCoefficients` is the array of ten blocks of 64;
`results` are the planes being filled, `none` marking bytes never written
(`Vec::set_len` on reserved memory, lib.rs:1284-1287). -/
structure ScanState where
  mcuRowCoefficients : List (List Int)
  dcPredictors : List Int
  eobRun : Nat
  expectedRstNum : Nat
  mcusLeftUntilRestart : Nat
  results : List (List (Option UInt8))
  deriving DecidableEq, Repr

/-- lib.rs:867, 878: `[0; MAX_BLOCKS_IN_MCU * BLOCK_SIZE]`, cut into blocks. -/
def zeroBlock : List Int := List.replicate 64 0

/-- lib.rs:875-886 `ScanState::default`. -/
def ScanState.default : ScanState :=
  { mcuRowCoefficients := List.replicate MAX_BLOCKS_IN_MCU zeroBlock
    dcPredictors := List.replicate MAX_COMPONENTS 0
    eobRun := 0, expectedRstNum := 0, mcusLeftUntilRestart := 0, results := [] }

/-- lib.rs:852-864 `Decoder`. -/
structure Decoder where
  frame : Option Frame
  scan : Option Scan
  acTables : List (Option AcTable)
  dcTables : List (Option BaseTable)
  quantTables : List (Option (List Nat))
  planes : List (List UInt8)
  colorTransform : Option AdobeColorTransform
  restartInterval : Nat
  coefficientsFinished : List Nat
  scanState : ScanState
  deriving DecidableEq, Repr

/-- lib.rs:851 `#[derive(Default)]`. -/
def Decoder.default : Decoder :=
  { frame := none, scan := none
    acTables := List.replicate MAX_HUFFMAN_TABLES none
    dcTables := List.replicate MAX_HUFFMAN_TABLES none
    quantTables := List.replicate MAX_QUANTIZATION_TABLES none
    planes := [], colorTransform := none, restartInterval := 0
    coefficientsFinished := List.replicate MAX_COMPONENTS 0
    scanState := ScanState.default }

/-- stream.rs:14, 124: the decoder state together with the bit reader it reads through. -/
structure St where
  dec : Decoder
  bi : Biterator
  deriving DecidableEq, Repr

/-- Replace the byte input, keeping buffered bits (`as_inner_mut`, stream.rs:46-48). -/
def St.setInput (s : St) (l : List UInt8) : St := { s with bi := { s.bi with input := l } }

end Jpeg
