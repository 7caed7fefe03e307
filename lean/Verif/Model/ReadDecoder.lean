import Verif.Model.Stream
/-!
# Decoding from a reader (`ReadDecoder`, `src/lib.rs`)

`ReadDecoder::decode` is `combine::decode!` around the parser of the streaming decoder: parse what is in the
buffer; when that is not enough read more and parse again, from where the parser stopped.

Modelled from the documented behaviour of combine 4.6, whose source is not part of the repository: the
order "parse, then read", that an I/O error is returned without losing anything, that a read of zero bytes
marks the end of the input for ever, and that at the end of the input a parser asking for more bytes is a
parse error.
-/

namespace Jpeg

/-- lib.rs:1610-1617 (`io::Read`, the reader inside): what one `read` of the underlying reader gives. The end of
a list of these stands for a reader that gives 0 bytes from then on. -/
inductive ReadResult
  | data (chunk : List UInt8)
  | error
  deriving DecidableEq, Repr

/-- lib.rs:1610-1617 `ReadDecoder`: what a streaming decoder keeps, and combine's `end_of_input`. The reader
itself is passed along separately, as the list of what it is going to give. -/
structure ReadDecoder where
  codec : Codec
  ended : Bool
  deriving DecidableEq, Repr

/-- lib.rs:1623-1631 `ReadDecoder::new`. -/
def ReadDecoder.new : ReadDecoder := ⟨Codec.new, false⟩

/-- lib.rs:1640-1662: what `ReadDecoder::decode` returns. -/
inductive Returned
  /-- `Ok(image)` or the error of `upsample` -/
  | image (r : Except Fail (List UInt8)) (d : ReadDecoder)
  /-- `Err(IoError::Io(..))`: an error of the reader; the call can be repeated -/
  | io (d : ReadDecoder)
  /-- a parse error or panic -/
  | failed (f : Fail) (s : St)

/-- lib.rs:1643 `decode_parser()` run on the buffered bytes, which may be none. -/
def Codec.run (cfg : Cfg) (c : Codec) : Poll := codecRun cfg (c.st.bi.input.length + 2) c.stage c.st

/-- lib.rs:1640-1652, the last round: at the end of the input a parser that needs more bytes fails. -/
def readEnd (cfg : Cfg) (c : Codec) : Returned :=
  match c.run cfg with
  | .pending c => .failed .eof c.st
  | .image r c => .image r ⟨c, true⟩
  | .failed f s => .failed f s

/-- lib.rs:1640-1652, the loop of `combine::decode!`. The second component is what the reader has still to
give. -/
def readLoop (cfg : Cfg) : Codec → List ReadResult → Returned × List ReadResult
  | c, [] =>
    match c.run cfg with
    | .pending c => (readEnd cfg c, [])
    | .image r c => (.image r ⟨c, false⟩, [])
    | .failed f s => (.failed f s, [])
  | c, r :: reads =>
    match c.run cfg with
    | .pending c =>
      match r with
      | .error => (.io ⟨c, false⟩, reads)
      | .data [] => (readEnd cfg c, reads)
      | .data (b :: bs) => readLoop cfg (c.push (b :: bs)) reads
    | .image i c => (.image i ⟨c, false⟩, r :: reads)
    | .failed f s => (.failed f s, r :: reads)

/-- lib.rs:1633-1662 `ReadDecoder::decode`. -/
def ReadDecoder.decode (cfg : Cfg) (d : ReadDecoder) (reads : List ReadResult) : Returned × List ReadResult :=
  if d.ended then (readEnd cfg d.codec, reads) else readLoop cfg d.codec reads

/-- tests/test.rs (a reader that blocks) and lib.rs:1640-1662: a program that calls `decode` again after an
error of the reader, at most `n` times. -/
def ReadDecoder.retry (cfg : Cfg) : Nat → ReadDecoder → List ReadResult → Returned × List ReadResult
  | 0, d, reads => d.decode cfg reads
  | n + 1, d, reads =>
    match d.decode cfg reads with
    | (.io d', rest) => d'.retry cfg n rest
    | r => r

end Jpeg
