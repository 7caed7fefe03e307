import Verif.Model.Decode
/-!
# Decoding from a stream (`DecoderCodec`, `ReadDecoder`, `src/lib.rs`)

A streaming decoder is called with the bytes that have arrived, parses as far as it can and is called
again when more bytes are there. What it keeps between calls are the decoder, the bit buffer
(`bits`, `count`) and combine's partial parse state.

Modelled: where a parse can be suspended, what is kept, and what is done again on resumption.

* Inside a scan the suspension points are the MCUs: `decode_row` puts everything back and is tried
  again; a suspended `restart_parser` is rebuilt and its `factory` closure runs again
  (lib.rs:1367-1386), so the restart counter is decremented once more.
* Outside a scan combine's partial state of the segment parsers is represented by leaving the bytes
  from the marker on in the buffer and parsing the segment again.

Not modelled: combine's partial state itself, the buffering of `BufRead` and `BytesMut`.
-/

namespace Jpeg

/-- Which half of the pair `(decode_row, restart_parser)` (lib.rs:1184-1200) runs next. -/
inductive Phase | row | restart
  deriving DecidableEq, Repr

/-- lib.rs:1184-1207: state of a scan after a call. -/
inductive Run
  | done (s : St)
  | wait (phase : Phase) (todo : List (Nat × Nat)) (s : St)
  | failed (f : Fail) (s : St)
  deriving DecidableEq, Repr

/-- lib.rs:1184-1207 `iteration_decode_scanner`, resumed at the given MCU. A failure counts as "more
input needed" when it is an unexpected end of input. -/
def mcuResume (cfg : Cfg) (produceData : Bool) : Phase → List (Nat × Nat) → St → Run
  | _, [], s => .done s
  | phase, (y, x) :: rest, s =>
    match (if phase = .row then decodeRow s else .ok () s) with
    | .fail f s => if f = .eof then .wait .row ((y, x) :: rest) s else .failed f s
    | .ok () s =>
      match restartParser cfg x y s with
      | .fail f s => if f = .eof then .wait .restart ((y, x) :: rest) s else .failed f s
      | .ok () s =>
        if produceData then
          match dequantize cfg x y s.dec with
          | .fail f d => .failed f { s with dec := d }
          | .ok () d => mcuResume cfg produceData .row rest { s with dec := d }
        else mcuResume cfg produceData .row rest s

/-- lib.rs:1560, 1615 (`AnySendPartialState`): where a suspended decoder stands. -/
inductive Stage
  /-- before the marker of a segment -/
  | segments
  /-- inside a scan -/
  | scan (produceData : Bool) (phase : Phase) (todo : List (Nat × Nat))
  deriving DecidableEq, Repr

/-- lib.rs:1389-1417: outcome of one segment or scan. -/
inductive Step
  | next (s : St)
  | wait (stage : Stage) (s : St)
  | eoi (s : St)
  | failed (f : Fail) (s : St)
  deriving DecidableEq, Repr

/-- lib.rs:1295-1310 and 806-809: the end of a scan, storing the planes. -/
def scanEnd (s : St) : Out St Unit :=
  match s.dec.scan with
  | none => .fail (.panic .noFrame) s
  | some scan =>
    match takeResults scan.headers s.dec.scanState.results with
    | .error f => .fail f s
    | .ok planes => .ok () { s with dec := { s.dec with planes } }

/-- lib.rs:1184-1207, 1295-1310: a scan, started or resumed. -/
def scanStep (cfg : Cfg) (produceData : Bool) (phase : Phase) (todo : List (Nat × Nat)) (s : St) :
    Step :=
  match mcuResume cfg produceData phase todo s with
  | .wait phase todo s => .wait (.scan produceData phase todo) s
  | .failed f s => .failed f s
  | .done s =>
    match scanEnd s with
    | .fail f s => .failed f s
    | .ok () s => .next s

/-- lib.rs:766-800, 1225-1292: a SOS segment up to the first MCU. The result says whether the scan
produces data. -/
def sosStart (cfg : Cfg) (s : St) : Out St Bool :=
  match segmentBytes cfg s.bi.input with
  | .error f => .fail f s
  | .ok (payload, rest) =>
    let s := s.setInput rest
    match sosSegment s.dec.frame payload with
    | .error f => .fail f s
    | .ok (scan, _) =>
      let s : St := { s with dec := { s.dec with scan := some scan } }
      match s.dec.frame with
      | none => .fail (.err .sosBeforeSof) s
      | some frame =>
        match frame.codingProcess with
        | .error f => .fail f s
        | .ok .progressive => .fail (.panic .progressive) s
        | .ok _ =>
          let idx := scan.headers.map (·.componentIndex)
          match (if scan.al = 0 then
              setFinishedAll cfg (inclusiveRange scan.ss scan.se) idx s.dec.coefficientsFinished
            else .ok s.dec.coefficientsFinished) with
          | .error f => .fail f s
          | .ok fin =>
            let s : St := { s with dec := { s.dec with coefficientsFinished := fin } }
            match allFinished fin idx with
            | .error f => .fail f s
            | .ok isFinal => (scanInit isFinal s).bind fun _ s => .ok isFinal s

/-- lib.rs:1404-1414: one segment, from its marker on. When its bytes are not all there yet they stay
in the buffer. -/
def segmentStep (cfg : Cfg) (s : St) : Step :=
  match marker s.bi.input with
  | .error f => if f = .eof then .wait .segments s else .failed f s
  | .ok (m, rest) =>
    if m = .EOI then .eoi (s.setInput rest)
    else if m = .SOS then
      match sosStart cfg (s.setInput rest) with
      | .fail f s' => if f = .eof then .wait .segments (s'.setInput s.bi.input) else .failed f s'
      | .ok produceData s' =>
        match s'.dec.frame with
        | none => .failed (.panic .noFrame) s'
        | some frame => scanStep cfg produceData .row (mcuList frame.mcuSize) s'
    else
      match doSegment cfg m (s.setInput rest) with
      | .fail f s' => if f = .eof then .wait .segments (s'.setInput s.bi.input) else .failed f s'
      | .ok () s' => .next s'

/-- lib.rs:1389-1417: one segment or the rest of a scan. -/
def stageStep (cfg : Cfg) : Stage → St → Step
  | .segments, s => segmentStep cfg s
  | .scan produceData phase todo, s => scanStep cfg produceData phase todo s

/-- lib.rs:1557-1563, 1610-1617: a streaming decoder between calls. The bytes not yet used are `st.bi.input`. -/
structure Codec where
  stage : Stage
  st : St
  deriving DecidableEq, Repr

/-- lib.rs:1557-1569 `DecoderCodec::new`, 1623-1631 `ReadDecoder::new`. -/
def Codec.new : Codec := ⟨.segments, ⟨Decoder.default, Biterator.new []⟩⟩

/-- lib.rs:1575-1607, 1640-1652: what a call returns. -/
inductive Poll
  /-- `Ok(None)`: more bytes needed -/
  | pending (c : Codec)
  /-- `Ok(Some(image))` or the error of `upsample` -/
  | image (r : Except Fail (List UInt8)) (c : Codec)
  /-- a parse error or panic -/
  | failed (f : Fail) (s : St)

/-- `combine::stream::decode(decode_parser(), ..)` (lib.rs:1590, 1640): parse until an image is
complete, an error occurs or the bytes run out. `fuel` bounds the number of segments. -/
def codecRun (cfg : Cfg) : Nat → Stage → St → Poll
  | 0, _, s => .failed (.panic .fuel) s
  | fuel + 1, stage, s =>
    match stageStep cfg stage s with
    | .next s => codecRun cfg fuel .segments s
    | .wait stage s => .pending ⟨stage, s⟩
    | .failed f s => .failed f s
    | .eoi s =>
      match upsample cfg s.dec with
      | .error (.panic p) => .failed (.panic p) s
      | r => .image r ⟨.segments, s⟩

/-- lib.rs:1575-1607 `DecoderCodec::decode`, called with the buffered bytes. -/
def Codec.poll (cfg : Cfg) (c : Codec) : Poll :=
  if c.st.bi.input = [] then .pending c
  else codecRun cfg (c.st.bi.input.length + 2) c.stage c.st

/-- lib.rs:1575 (`buf: &mut BytesMut`): bytes arriving. -/
def Codec.push (c : Codec) (chunk : List UInt8) : Codec :=
  { c with st := c.st.setInput (c.st.bi.input ++ chunk) }

/-- lib.rs:1575-1607 and tests/test.rs: feeding a file in chunks, calling the decoder after each, until it
returns something; the remaining chunks are then still to come. -/
def Codec.feed (cfg : Cfg) (c : Codec) : List (List UInt8) → Poll × List (List UInt8)
  | [] => (.pending c, [])
  | chunk :: chunks =>
    match (c.push chunk).poll cfg with
    | .pending c => c.feed cfg chunks
    | p => (p, chunks)

end Jpeg
