import Verif.Model.State
import Verif.Model.Marker
/-!
# Segment parsers (`src/lib.rs`)

Bytes are read directly from the underlying stream (`DecoderStream`, stream.rs:36-99), not through
the bit buffer; `bits`/`count` of the bit reader are untouched.
-/

namespace Jpeg

/-- lib.rs:144-146: length and payload of a segment. `len - 2` on a `u16`: overflow panics in debug
builds and wraps in release builds. Returns `(payload, rest)`. -/
def segmentBytes (cfg : Cfg) (l : List UInt8) : Except Fail (List UInt8 × List UInt8) :=
  match beU16 l with
  | .error f => .error f
  | .ok (len, l) =>
    if len < 2 then
      if cfg.debug then .error (.panic .segmentLen)
      else takeBytes (len + 2 ^ 16 - 2) l
    else takeBytes (len - 2) l

/-- lib.rs:133-165 `segment`. The body sees the payload only; afterwards the stream continues behind
the segment, whatever the body left unread. `body` returns the new decoder state. -/
def segment (cfg : Cfg) (body : List UInt8 → Decoder → Out Decoder Unit) (s : St) : Out St Unit :=
  match segmentBytes cfg s.bi.input with
  | .error f => .fail f s
  | .ok (payload, rest) =>
    match body payload s.dec with
    | .ok () d => .ok () { (s.setInput rest) with dec := d }
    | .fail f d => .fail f { (s.setInput rest) with dec := d }

/-- lib.rs:367-372 `DHT`. -/
structure DHT where
  cls : TableClass
  dest : Nat
  codeLengths : List UInt8
  values : List UInt8
  deriving DecidableEq, Repr

/-- lib.rs:374-414 `huffman_table`. -/
def huffmanTable (l : List UInt8) : Except Fail (DHT × List UInt8) :=
  match split4Bit l with
  | .error f => .error f
  | .ok ((c, dest), l) =>
    match TableClass.new c with
    | none => .error (.err .tableClass)
    | some cls =>
      if ¬ dest < MAX_HUFFMAN_TABLES then .error (.err .dhtDestination)
      else
        match takeBytes 16 l with
        | .error f => .error f
        | .ok (lengths, l) =>
          match takeBytes (lengths.map (·.toNat)).sum l with
          | .error f => .error f
          | .ok (values, l) => .ok (⟨cls, dest, lengths, values⟩, l)

/-- lib.rs:1523-1534: build the table and store it. -/
def defineHuffman (cfg : Cfg) (t : DHT) (d : Decoder) : Out Decoder Unit :=
  match t.cls with
  | .ac =>
    match AcTable.new cfg t.codeLengths t.values with
    | .error f => .fail f d
    | .ok tab => .ok () { d with acTables := d.acTables.set t.dest (some tab) }
  | .dc =>
    match BaseTable.new cfg t.codeLengths t.values with
    | .error f => .fail f d
    | .ok tab => .ok () { d with dcTables := d.dcTables.set t.dest (some tab) }

/-- lib.rs:1522-1536: `repeat_skip_until(huffman_table() .., eof())`; each table takes at least 17
bytes, `fuel` bounds the number of rounds. -/
def dhtGo (cfg : Cfg) : Nat → List UInt8 → Decoder → Out Decoder Unit
  | 0, _, d => .fail (.panic .fuel) d
  | fuel + 1, l, d =>
    if l = [] then .ok () d
    else
      match huffmanTable l with
      | .error f => .fail f d
      | .ok (t, l) =>
        match defineHuffman cfg t d with
        | .fail f d => .fail f d
        | .ok () d => dhtGo cfg fuel l d

/-- lib.rs:1522-1536, body of a DHT segment. -/
def dhtBody (cfg : Cfg) (l : List UInt8) (d : Decoder) : Out Decoder Unit :=
  dhtGo cfg (l.length + 1) l d

/-- lib.rs:535 `count_min_max(64, 64, any())` into a `DQT` (lib.rs:483-495). -/
def bytesP : Nat → List UInt8 → Except Fail (List Nat × List UInt8)
  | 0, l => .ok ([], l)
  | n + 1, l =>
    match anyByte l with
    | .error f => .error f
    | .ok (b, l) =>
      match bytesP n l with
      | .error f => .error f
      | .ok (bs, l) => .ok (b.toNat :: bs, l)

/-- lib.rs:541 `count_min_max(64, 64, be_u16())`. -/
def wordsP : Nat → List UInt8 → Except Fail (List Nat × List UInt8)
  | 0, l => .ok ([], l)
  | n + 1, l =>
    match beU16 l with
    | .error f => .error f
    | .ok (b, l) =>
      match wordsP n l with
      | .error f => .error f
      | .ok (bs, l) => .ok (b :: bs, l)

/-- lib.rs:513-550 `dqt`: identifier and the 64 values in file order. -/
def dqt (l : List UInt8) : Except Fail ((Nat × List Nat) × List UInt8) :=
  match split4Bit l with
  | .error f => .error f
  | .ok ((precision, identifier), l) =>
    if precision > 1 then .error (.err .dqtPrecision)
    else if ¬ identifier < MAX_QUANTIZATION_TABLES then .error (.err .dqtDestination)
    else
      match (if precision = 0 then bytesP 64 l else wordsP 64 l) with
      | .error f => .error f
      | .ok (table, l) => .ok ((identifier, table), l)

/-- lib.rs:1537-1540: `repeat_skip_until(dqt() .., eof())`. -/
def dqtGo : Nat → List UInt8 → Decoder → Out Decoder Unit
  | 0, _, d => .fail (.panic .fuel) d
  | fuel + 1, l, d =>
    if l = [] then .ok () d
    else
      match dqt l with
      | .error f => .fail f d
      | .ok ((identifier, table), l) =>
        match quantizationTable table with
        | .error f => .fail f d
        | .ok q => dqtGo fuel l { d with quantTables := d.quantTables.set identifier (some q) }

/-- lib.rs:1537-1540, body of a DQT segment. -/
def dqtBody (l : List UInt8) (d : Decoder) : Out Decoder Unit := dqtGo (l.length + 1) l d

/-- lib.rs:1521, body of a SOF segment. -/
def sofBody (cfg : Cfg) (i : Nat) (l : List UInt8) (d : Decoder) : Out Decoder Unit :=
  match sof cfg i l with
  | .error f => .fail f d
  | .ok (frame, _) => .ok () { d with frame := some frame }

/-- lib.rs:552-558 `dri`, lib.rs:1541. -/
def driBody (l : List UInt8) (d : Decoder) : Out Decoder Unit :=
  match beU16 l with
  | .error f => .fail f d
  | .ok (r, _) => .ok () { d with restartInterval := r }

/-- lib.rs:824-842 `app_adobe`. -/
def appAdobe (l : List UInt8) : Except Fail AdobeColorTransform :=
  match takeBytes 6 l with
  | .error f => .error f
  | .ok (tag, l) =>
    if tag ≠ [0x41, 0x64, 0x6F, 0x62, 0x65, 0x00] then .error (.err .adobeTag)
    else
      match takeBytes 5 l with
      | .error f => .error f
      | .ok (_, l) =>
        match anyByte l with
        | .error f => .error f
        | .ok (b, _) =>
          if b = 0 then .ok .unknown
          else if b = 1 then .ok .yCbCr
          else if b = 2 then .ok .ycck
          else .error (.err .adobeTransform)

/-- lib.rs:1543-1546, body of an APP14 segment. -/
def adobeBody (l : List UInt8) (d : Decoder) : Out Decoder Unit :=
  match appAdobe l with
  | .error f => .fail f d
  | .ok t => .ok () { d with colorTransform := some t }

/-- lib.rs:613-621: `frame.components.iter().position(|c| c.component_identifier == id)`. -/
def findComponent (id : UInt8) : List Component → Option Nat
  | [] => none
  | c :: cs => if c.id = id then some 0 else (findComponent id cs).map (· + 1)

/-- lib.rs:596-649: the component list of a scan header. `maxIndex` is the closure variable
`max_index`. `as u8` of the index is exact: a frame has at most 255 components. -/
def scanHeadersP (frame : Option Frame) :
    Nat → Option Nat → List UInt8 → Except Fail (List ScanHeader × List UInt8)
  | 0, _, l => .ok ([], l)
  | n + 1, maxIndex, l =>
    match anyByte l with
    | .error f => .error f
    | .ok (id, l) =>
      match split4Bit l with
      | .error f => .error f
      | .ok ((dcSel, acSel), l) =>
        match frame with
        | none => .error (.err .sosBeforeSof)
        | some fr =>
          match findComponent id fr.components with
          | none => .error (.err .noSuchComponent)
          | some index =>
            match (match maxIndex with
              | none => none
              | some m =>
                if index < m then some ErrKind.componentOrder
                else if index = m then some ErrKind.componentDuplicate
                else none) with
            | some e => .error (.err e)
            | none =>
              match scanHeadersP frame n (some index) l with
              | .error f => .error f
              | .ok (hs, l) => .ok (⟨index, dcSel, acSel⟩ :: hs, l)

/-- lib.rs:576-669 `sos_segment`. -/
def sosSegment (frame : Option Frame) (l : List UInt8) : Except Fail (Scan × List UInt8) :=
  match anyByte l with
  | .error f => .error f
  | .ok (n, l) =>
    if ¬ (1 ≤ n.toNat ∧ n.toNat ≤ MAX_COMPONENTS) then .error (.err .componentCount)
    else
      match scanHeadersP frame n.toNat none l with
      | .error f => .error f
      | .ok (headers, l) =>
        match anyByte l with
        | .error f => .error f
        | .ok (ss, l) =>
          match anyByte l with
          | .error f => .error f
          | .ok (se, l) =>
            match split4Bit l with
            | .error f => .error f
            | .ok ((ah, al), l) =>
              .ok (⟨headers, ss.toNat, se.toNat, ah, al⟩, l)

end Jpeg
