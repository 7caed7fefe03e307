import Verif.Model.Block
import Verif.Model.Parser
import Verif.Model.Idct
/-!
# Scans: dequantisation into planes, restart markers, the MCU loop (`src/lib.rs`)
-/

namespace Jpeg

/-- lib.rs:1677-1690 `StepRange::next` iterated to exhaustion. `saturating_add` cannot saturate
here: offsets are below `2^64`. -/
def stepRangeGo (stop step : Nat) : Nat → Nat → List Nat
  | 0, _ => []
  | fuel + 1, start => if start < stop then start :: stepRangeGo stop step fuel (start + step) else []

/-- lib.rs:1665-1675 `step_range`: `0, step, 2*step, ..` below `steps * step`. -/
def stepRange (steps step : Nat) : List Nat := stepRangeGo (steps * step) step steps 0

/-- lib.rs:964-977: the blocks of one block row of an MCU. `start` is the offset into the plane of
the row's first sample. Takes blocks from `chunks`. -/
def dequantCols (cfg : Cfg) (c : Component) (q : List Nat) (start : Nat) :
    List Nat → List (List Int) → List (Option UInt8) →
    Except Fail (List (List Int) × List (Option UInt8))
  | [], chunks, plane => .ok (chunks, plane)
  | x :: xs, chunks, plane =>
    match chunks with
    | [] => .error (.panic .missingCoefficients)
    | b :: chunks =>
      -- `component_result_start[x..]`
      if plane.length < start + x then .error (.panic .index)
      else
        match dequantizeAndIdct cfg b q c.lineStride (plane.drop (start + x)) with
        | .error f => .error f
        | .ok out => dequantCols cfg c q start xs chunks (plane.take (start + x) ++ out)

/-- lib.rs:985-989: `for _ in 0..n { coefficients_chunks.next().expect("Missing coefficients") }`. -/
def skipChunks : Nat → List (List Int) → Except Fail (List (List Int))
  | 0, chunks => .ok chunks
  | _ + 1, [] => .error (.panic .missingCoefficients)
  | n + 1, _ :: chunks => skipChunks n chunks

/-- lib.rs:959-983: the block rows of one component of an MCU, starting at `mcuOffset`. -/
def dequantRows (cfg : Cfg) (c : Component) (q : List Nat) (mcuOffset : Nat) :
    List Nat → List (List Int) → List (Option UInt8) →
    Except Fail (List (List Int) × List (Option UInt8))
  | [], chunks, plane => .ok (chunks, plane)
  | y :: ys, chunks, plane =>
    if mcuOffset + y ≤ plane.length then
      match dequantCols cfg c q (mcuOffset + y) (stepRange c.h DCT_SIZE) chunks plane with
      | .error f => .error f
      | .ok (chunks, plane) => dequantRows cfg c q mcuOffset ys chunks plane
    else
      match skipChunks c.h chunks with
      | .error f => .error f
      | .ok chunks => dequantRows cfg c q mcuOffset ys chunks plane

/-- lib.rs:920-991: the loop over `izip!(&frame.components, &mut results)`. -/
def dequantComponents (cfg : Cfg) (quantTables : List (Option (List Nat))) (mcuX mcuY : Nat) :
    List Component → List (List (Option UInt8)) → List (List Int) →
    Except Fail (List (List (Option UInt8)))
  | c :: cs, plane :: planes, chunks =>
    match quantTables[c.tq]? with
    | none => .error (.panic .index)
    | some none => .error (.panic .missingQuant)
    | some (some q) =>
      let mcuOffset := mcuY * c.bytesPerMcuLine + mcuX * c.mcuSampleSize.width
      match (if mcuOffset ≤ plane.length then
          dequantRows cfg c q mcuOffset (stepRange c.v (c.lineStride * DCT_SIZE)) chunks plane
        else
          match skipChunks (c.v * c.h) chunks with
          | .error f => .error f
          | .ok chunks => .ok (chunks, plane)) with
      | .error f => .error f
      | .ok (chunks, plane) =>
        match dequantComponents cfg quantTables mcuX mcuY cs planes chunks with
        | .error f => .error f
        | .ok planes => .ok (plane :: planes)
  | _, planes, _ => .ok planes

/-- lib.rs:908-992 `Decoder::dequantize`. -/
def dequantize (cfg : Cfg) (mcuX mcuY : Nat) (d : Decoder) : Out Decoder Unit :=
  match d.frame with
  | none => .fail (.panic .noFrame) d
  | some frame =>
    match frame.codingProcess with
    | .error f => .fail f d
    | .ok .progressive => .fail (.panic .progressive) d
    | .ok _ =>
      match dequantComponents cfg d.quantTables mcuX mcuY frame.components d.scanState.results
          d.scanState.mcuRowCoefficients with
      | .error f => .fail f d
      | .ok results => .ok () { d with scanState := { d.scanState with results } }

/-- lib.rs:1325-1366 `handle_marker`. -/
def handleRestart (m : Marker) (s : St) : Out St Unit :=
  match m with
  | .RST n =>
    let ss := s.dec.scanState
    if n ≠ ss.expectedRstNum then .fail (.err .wrongRst) s
    else
      .ok () ⟨{ s.dec with scanState := { ss with
          dcPredictors := List.replicate MAX_COMPONENTS 0
          eobRun := 0
          expectedRstNum := (ss.expectedRstNum + 1) % 8
          mcusLeftUntilRestart := s.dec.restartInterval } }, s.bi.reset⟩
  | _ => .fail (.err .notRst) s

/-- lib.rs:1314-1387 `restart_parser`, run once per MCU. `mcus_left_until_restart -= 1` on zero
panics in debug builds and wraps in release builds. -/
def restartParser (cfg : Cfg) (mcuX mcuY : Nat) (s : St) : Out St Unit :=
  if s.dec.restartInterval > 0 then
    match s.dec.frame with
    | none => .fail (.panic .noFrame) s
    | some frame =>
      let isLast := mcuX = frame.mcuSize.width - 1 ∧ mcuY = frame.mcuSize.height - 1
      let ss := s.dec.scanState
      if ss.mcusLeftUntilRestart = 0 ∧ cfg.debug then .fail (.panic .restartUnderflow) s
      else
        let left := (ss.mcusLeftUntilRestart + 2 ^ 16 - 1) % 2 ^ 16
        let s : St := { s with dec := { s.dec with scanState := { ss with
            mcusLeftUntilRestart := left } } }
        if left = 0 ∧ ¬ isLast then
          match marker s.bi.input with
          | .error f => .fail f s
          | .ok (m, rest) => handleRestart m (s.setInput rest)
        else .ok () s
  else .ok () s

/-- lib.rs:1184-1207: one MCU: `decode_row`, `restart_parser`, then `dequantize`. -/
def mcuStep (cfg : Cfg) (produceData : Bool) (mcuY mcuX : Nat) (s : St) : Out St Unit :=
  (decodeRow s).bind fun _ s =>
  (restartParser cfg mcuX mcuY s).bind fun _ s =>
  if produceData then
    match dequantize cfg mcuX mcuY s.dec with
    | .ok () d => .ok () { s with dec := d }
    | .fail f d => .fail f { s with dec := d }
  else .ok () s

/-- lib.rs:1184 `iproduct!(0..height, 0..width)`: row major list of `(y, x)`. -/
def mcuList (size : Dim) : List (Nat × Nat) :=
  (List.range size.height).flatMap fun y => (List.range size.width).map fun x => (y, x)

/-- lib.rs:1172-1209 `iteration_decode_scanner`. -/
def mcuLoop (cfg : Cfg) (produceData : Bool) : List (Nat × Nat) → St → Out St Unit
  | [], s => .ok () s
  | (y, x) :: rest, s =>
    (mcuStep cfg produceData y x s).bind fun _ s => mcuLoop cfg produceData rest s

/-- lib.rs:1230-1232, 1246-1248: `headers.iter().any(|h| tables[sel].is_none())`;
an out of range selector panics. -/
def anyUnset {α : Type} (tables : List (Option α)) : List Nat → Except Fail Bool
  | [] => .ok false
  | sel :: rest =>
    match tables[sel]? with
    | none => .error (.panic .index)
    | some none => .ok true
    | some (some _) => anyUnset tables rest

/-- lib.rs:1280-1288: planes of the final size, not initialised. -/
def allocPlane (c : Component) : List (Option UInt8) :=
  List.replicate (c.blockSize.area * BLOCK_SIZE) none

/-- lib.rs:1225-1292: checks and (re)initialisation at the start of a scan. -/
def scanInit (produceData : Bool) (s : St) : Out St Unit :=
  match s.dec.frame, s.dec.scan with
  | some frame, some scan =>
    match (if scan.ss = 0 then anyUnset s.dec.dcTables (scan.headers.map (·.dcSel))
           else .ok false) with
    | .error f => .fail f s
    | .ok true => .fail (.err .unsetDc) s
    | .ok false =>
      match (if scan.se > 1 then anyUnset s.dec.acTables (scan.headers.map (·.acSel))
             else .ok false) with
      | .error f => .fail f s
      | .ok true => .fail (.err .unsetAc) s
      | .ok false =>
        let ss := { ScanState.default with mcusLeftUntilRestart := s.dec.restartInterval }
        if produceData then
          if MAX_COMPONENTS < frame.components.length then
            .fail (.panic .arrayVecFull) { s with dec := { s.dec with scanState := ss } }
          else
            .ok () { s with dec := { s.dec with scanState := { ss with
              results := frame.components.map allocPlane } } }
        else .ok () { s with dec := { s.dec with scanState := ss } }
  | _, _ => .fail (.panic .noFrame) s

/-- lib.rs:1285, 1308: a finished plane is plain `u8` data; bytes never written would be read uninitialised. -/
def initPlane : List (Option UInt8) → Except Fail (List UInt8)
  | [] => .ok []
  | none :: _ => .error (.panic .uninit)
  | some b :: rest =>
    match initPlane rest with
    | .error f => .error f
    | .ok bs => .ok (b :: bs)

/-- lib.rs:1299-1310: `mem::take(&mut results[header.component_index])` for each scan header. -/
def takeResults : List ScanHeader → List (List (Option UInt8)) → Except Fail (List (List UInt8))
  | [], _ => .ok []
  | h :: hs, results =>
    match results[h.componentIndex]? with
    | none => .error (.panic .index)
    | some plane =>
      match initPlane plane with
      | .error f => .error f
      | .ok p =>
        match takeResults hs (results.set h.componentIndex []) with
        | .error f => .error f
        | .ok ps => .ok (p :: ps)

/-- lib.rs:1211-1312 `decode_scan` with lib.rs:806-809, storing the planes. -/
def decodeScan (cfg : Cfg) (produceData : Bool) (s : St) : Out St Unit :=
  (scanInit produceData s).bind fun _ s =>
  match s.dec.frame, s.dec.scan with
  | some frame, some scan =>
    (mcuLoop cfg produceData (mcuList frame.mcuSize) s).bind fun _ s =>
    match takeResults scan.headers s.dec.scanState.results with
    | .error f => .fail f s
    | .ok planes => .ok () { s with dec := { s.dec with planes } }
  | _, _ => .fail (.panic .noFrame) s

/-- lib.rs:790-792: `coefficients_finished[i] |= 1 << j` for `j` in a range; `1 << j` with `j ≥ 64`
panics in debug builds and masks the shift amount in release builds. -/
def setFinished (cfg : Cfg) (i : Nat) : List Nat → List Nat → Except Fail (List Nat)
  | [], fin => .ok fin
  | j :: js, fin =>
    match fin[i]? with
    | none => .error (.panic .index)
    | some w =>
      if 64 ≤ j ∧ cfg.debug then .error (.panic .shiftOverflow)
      else setFinished cfg i js (fin.set i (w ||| (1 <<< (j % 64))))

/-- lib.rs:789-793, for all headers. -/
def setFinishedAll (cfg : Cfg) (js : List Nat) : List Nat → List Nat → Except Fail (List Nat)
  | [], fin => .ok fin
  | i :: is, fin =>
    match setFinished cfg i js fin with
    | .error f => .error f
    | .ok fin => setFinishedAll cfg js is fin

/-- lib.rs:796-799: `all(|h| coefficients_finished[h.component_index] == !0)`. -/
def allFinished (fin : List Nat) : List Nat → Except Fail Bool
  | [] => .ok true
  | i :: is =>
    match fin[i]? with
    | none => .error (.panic .index)
    | some w => if w = 2 ^ 64 - 1 then allFinished fin is else .ok false

/-- lib.rs:790: the inclusive range `start..=end`. -/
def inclusiveRange (a b : Nat) : List Nat := (List.range (b + 1 - a)).map (· + a)

/-- lib.rs:766-811 `sos`. -/
def sos (cfg : Cfg) (s : St) : Out St Unit :=
  match segmentBytes cfg s.bi.input with
  | .error f => .fail f s
  | .ok (payload, rest) =>
    let s := s.setInput rest
    match sosSegment s.dec.frame payload with
    | .error f => .fail f s
    | .ok (scan, _) =>
      let s : St := { s with dec := { s.dec with scan := some scan } }
      match s.dec.frame with
      | none => .fail (.err .sosBeforeSof) s
      | some frame =>
        match frame.codingProcess with
        | .error f => .fail f s
        | .ok .progressive => .fail (.panic .progressive) s
        | .ok _ =>
          let idx := scan.headers.map (·.componentIndex)
          match (if scan.al = 0 then
              setFinishedAll cfg (inclusiveRange scan.ss scan.se) idx s.dec.coefficientsFinished
            else .ok s.dec.coefficientsFinished) with
          | .error f => .fail f s
          | .ok fin =>
            let s : St := { s with dec := { s.dec with coefficientsFinished := fin } }
            match allFinished fin idx with
            | .error f => .fail f s
            | .ok isFinal => decodeScan cfg isFinal s

end Jpeg
