import Verif.Model.Stream
/-!
# A `DecoderCodec` in tokio's `FramedRead`

`DecoderCodec` (lib.rs:1557-1608) implements `tokio_util::codec::Decoder`; a program uses it through `FramedRead`, a
stream of items, here until the stream ends or gives an error (`try_collect`, as in tests/test.rs).

Modelled from the documented behaviour of tokio-util 0.6.8, whose source is not part of the repository: after
each read the codec is called until it asks for more; a read of zero bytes means the end, whereupon the default
`decode_eof` calls the codec again and, when it asks for more, reports an error if bytes are left in the buffer
and ends the stream if none are. What the codec is called with after an error is not modelled.
-/

namespace Jpeg

/-- tests/test.rs:242, 281, 311 (the reader given to `FramedRead`): what one `poll_read` of the underlying
reader gives. The end of a list of these stands for a reader that gives 0 bytes from then on. -/
inductive PollRead
  | data (chunk : List UInt8)
  /-- `Poll::Pending`: the task is woken up later and reads again -/
  | pending
  | error
  deriving DecidableEq, Repr

/-- tests/test.rs:242, 281, 311-316 (`FramedRead` until it ends): how a stream ends. -/
inductive StreamEnd
  /-- `None` -/
  | finished
  /-- `Err`, "bytes remaining on stream" -/
  | remaining
  /-- `Err`, an error of the reader -/
  | io
  /-- `Err`, an error of the codec, or a panic -/
  | failed (f : Fail)
  deriving DecidableEq, Repr

/-- lib.rs:1575-1607 `DecoderCodec::decode` called until it asks for more or fails: the images, and the codec. `fuel`
bounds the number of images; each takes at least two bytes. -/
def Codec.drain (cfg : Cfg) : Nat → Codec → List (List UInt8) × Except Fail Codec
  | 0, _ => ([], .error (.panic .fuel))
  | fuel + 1, c =>
    match c.poll cfg with
    | .pending c => ([], .ok c)
    | .image (.ok image) c => (image :: (c.drain cfg fuel).1, (c.drain cfg fuel).2)
    | .image (.error f) _ => ([], .error f)
    | .failed f _ => ([], .error f)

/-- lib.rs:1571-1608 (the trait's own `decode_eof`): `decode_eof`, called until it gives no more images. -/
def Codec.collectEnd (cfg : Cfg) (c : Codec) : List (List UInt8) × StreamEnd :=
  match c.drain cfg (c.st.bi.input.length + 1) with
  | (images, .error f) => (images, .failed f)
  | (images, .ok c) => (images, if c.st.bi.input = [] then .finished else .remaining)

/-- tests/test.rs:242, 281, 311-316: the items of `FramedRead` over a reader, and how they end. -/
def Codec.collect (cfg : Cfg) : Codec → List PollRead → List (List UInt8) × StreamEnd
  | c, [] => c.collectEnd cfg
  | c, .pending :: reads => c.collect cfg reads
  | _, .error :: _ => ([], .io)
  | c, .data chunk :: reads =>
    if chunk = [] then c.collectEnd cfg
    else
      match (c.push chunk).drain cfg ((c.push chunk).st.bi.input.length + 1) with
      | (images, .error f) => (images, .failed f)
      | (images, .ok c) => (images ++ (c.collect cfg reads).1, (c.collect cfg reads).2)

end Jpeg
