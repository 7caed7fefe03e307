import Verif.Model.Scan
import Verif.Model.Color
import Verif.Model.Upsample
/-!
# The whole decoder (`src/lib.rs`)
-/

namespace Jpeg

/-- lib.rs:1462-1464: every line of a group is converted from the same colours. -/
def convertLines (f : ColorConvertFunc) (colors : List (List UInt8)) :
    List (List UInt8) → Except Fail (List (List UInt8))
  | [] => .ok []
  | line :: lines =>
    match f.convert line colors with
    | .error e => .error e
    | .ok l =>
      match convertLines f colors lines with
      | .error e => .error e
      | .ok ls => .ok (l :: ls)

/-- lib.rs:1474-1485 (sequential) and 1490-1496 (rayon): the output lines are processed in groups of
`vMax`. `row` is the index of the group's first line; `group` the index of the group.
The sequential code passes `row` to the upsampler, the rayon code passes the group index
(`enumerate` after `chunks`). Returns the lines of the image.

With rayon the line buffers are cloned per worker; the model threads one set of buffers through
(that the buffer contents do not matter is proved separately). -/
def upsampleGroups (cfg : Cfg) (f : ColorConvertFunc) (us : List UpsamplerComponent)
    (planes : List (List UInt8)) (width vMax : Nat) :
    Nat → Nat → Nat → List (List UInt8) → List (List UInt8) → Except Fail (List (List UInt8))
  | 0, _, _, _, lines => if lines = [] then .ok [] else .error (.panic .fuel)
  | fuel + 1, row, group, bufs, lines =>
    if lines = [] then .ok []
    else
      -- lines 1475-1482: the first line is always taken
      let n := max vMax 1
      match upsampleAndInterleaveRow cfg us planes bufs (if cfg.rayon then group else row) width with
      | .error e => .error e
      | .ok (colors, bufs) =>
        match convertLines f colors (lines.take n) with
        | .error e => .error e
        | .ok done =>
          match upsampleGroups cfg f us planes width vMax fuel (row + n) (group + 1) bufs
              (lines.drop n) with
          | .error e => .error e
          | .ok rest => .ok (done ++ rest)

/-- lib.rs:1419-1500 `upsample`: from planes to the interleaved image. -/
def upsample (cfg : Cfg) (d : Decoder) : Except Fail (List UInt8) :=
  match d.frame with
  | none => .error (.panic .noFrame)
  | some frame =>
    match chooseColorConvert frame.components.length d.colorTransform with
    | .error e => .error e
    | .ok f =>
      match upsamplerNew frame.components ⟨frame.samplesPerLine, frame.lines⟩ with
      | .error e => .error e
      | .ok us =>
        let lineSize := frame.samplesPerLine * frame.components.length
        match frame.maxV with
        | .error e => .error e
        | .ok vMax =>
          if lineSize = 0 then .error (.panic .zeroChunk)
          else
            match upsampleGroups cfg f us d.planes frame.samplesPerLine vMax (frame.lines + 1) 0 0
                (List.replicate 4 []) (List.replicate frame.lines (List.replicate lineSize 0)) with
            | .error e => .error e
            | .ok lines => .ok lines.flatten

/-- lib.rs:1502-1549 `do_segment`. -/
def doSegment (cfg : Cfg) (m : Marker) (s : St) : Out St Unit :=
  match m with
  | .SOI | .RST _ | .COM | .EOI => .ok () s
  | .SOF i => segment cfg (sofBody cfg i) s
  | .DHT => segment cfg (dhtBody cfg) s
  | .DQT => segment cfg dqtBody s
  | .DRI => segment cfg driBody s
  | .SOS => sos cfg s
  | .APP n => if n = 14 then segment cfg adobeBody s else segment cfg (fun _ d => .ok () d) s

/-- lib.rs:1404-1414: segments until the next marker is EOI, then that marker.
`fuel` bounds the number of segments; every segment takes at least two bytes. -/
def segmentLoop (cfg : Cfg) : Nat → St → Out St Unit
  | 0, s => .fail (.panic .fuel) s
  | fuel + 1, s =>
    match marker s.bi.input with
    | .error f => .fail f s
    | .ok (m, rest) =>
      if m = .EOI then .ok () (s.setInput rest)
      else
        (doSegment cfg m (s.setInput rest)).bind fun _ s => segmentLoop cfg fuel s

/-- lib.rs:1389-1417 `decode_parser`, run on a stream: the result of the parse is itself a `Result`
(the outcome of `upsample`). -/
def decodeParser (cfg : Cfg) (s : St) : Out St (Except Fail (List UInt8)) :=
  (segmentLoop cfg (s.bi.input.length + 1) s).bind fun _ s =>
  match upsample cfg s.dec with
  | .error (.panic p) => .fail (.panic p) s
  | r => .ok r s

/-- lib.rs:889-905 `Decoder::decode`: a fresh bit reader on the input and the (possibly used)
decoder. Trailing bytes panic. -/
def Decoder.decode (cfg : Cfg) (input : List UInt8) (d : Decoder) : Out Decoder (List UInt8) :=
  match decodeParser cfg ⟨d, Biterator.new input⟩ with
  | .fail f s => .fail f s.dec
  | .ok r s =>
    if s.bi.input ≠ [] then .fail (.panic .trailing) s.dec
    else
      match r with
      | .ok image => .ok image s.dec
      | .error f => .fail f s.dec

/-- lib.rs:1551-1555 `decode`. -/
def decode (cfg : Cfg) (input : List UInt8) : Except Fail (List UInt8) :=
  match Decoder.default.decode cfg input with
  | .ok image _ => .ok image
  | .fail f _ => .error f

end Jpeg
