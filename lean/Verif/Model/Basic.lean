/-!
# Results, failures, configuration

Shared vocabulary of the model, standing for language features (`Result`, `?`, panics) rather than functions.
-/

namespace Jpeg

/-- src/*.rs, lines given at each constructor: places where the Rust code can panic (explicitly or through an
index, slice, `unwrap`, overflow check or assertion). -/
inductive PanicSite
  /-- any slice/array index or range out of bounds -/
  | index
  /-- `huffsize[0]` on an empty table, huffman.rs:70 -/
  | emptyHuffman
  /-- `debug_assert!(values.len() <= 256)`, huffman.rs:63 -/
  | tooManyValues
  /-- `debug_assert!(self.count >= count)` / `count -= n` underflow, biterator.rs:64,69,75 -/
  | bitUnderflow
  /-- `UnZigZag::new` assertion, lib.rs:424 -/
  | unzigzagRange
  /-- fuel of a modelled `loop` exhausted (shown unreachable) -/
  | fuel
  /-- `len - 2` overflow in `segment`, lib.rs:146 -/
  | segmentLen
  /-- `.max().unwrap()` on a frame without components, lib.rs:310 -/
  | noComponents
  /-- `unimplemented!()` for progressive frames, lib.rs:785, 915 -/
  | progressive
  /-- `coding_process` on an unknown SOF index, lib.rs:205 -/
  | unknownSof
  /-- `1 << j` with `j >= 64`, lib.rs:791; shifts of the bit buffer, biterator.rs:71, 78 -/
  | shiftOverflow
  /-- "Missing DC table", lib.rs:1026 -/
  | missingDc
  /-- "Missing AC table", lib.rs:1030 -/
  | missingAc
  /-- "Missing quantization table", lib.rs:927 -/
  | missingQuant
  /-- `.expect("Missing coefficients")`, lib.rs:968,980,988 -/
  | missingCoefficients
  /-- `ArrayVec::push`/`extend`/`collect` beyond its capacity -/
  | arrayVecFull
  /-- u16 underflow of `mcus_left_until_restart`, lib.rs:1373 -/
  | restartUnderflow
  /-- `frame.as_ref().unwrap()` without frame, lib.rs:1434 -/
  | noFrame
  /-- `panic!("Invalid component count")`, color_conversion.rs:48 -/
  | componentCount
  /-- `fixed_slice!` length assertion -/
  | fixedSlice
  /-- `debug_assert_eq!(component_count, ..)`, upsampler.rs:58 -/
  | componentMismatch
  /-- `chunks_mut(0)` -/
  | zeroChunk
  /-- `assert!(rest.range().is_empty())`, lib.rs:902 -/
  | trailing
  /-- `debug_assert!(output.len() >= 8)`, idct.rs:264 -/
  | idctRows
  /-- arithmetic overflow with overflow checks on (other than the named ones) -/
  | overflow
  /-- `panic!("Unsupported IDCT scale")`, idct.rs:238 -/
  | idctScale
  /-- not a Rust panic: memory was handed out uninitialised (undefined behaviour) -/
  | uninit
  /-- not a Rust panic: an unchecked access left its array (undefined behaviour), lib.rs:451,
  color_conversion.rs:185 -/
  | unchecked
  deriving DecidableEq, Repr

/-- lib.rs:247, 385, 392, 523, 528, 593, 608, 618, 627, 632, 704, 745, 779, 830-839, 1085, 1142, 1237, 1253,
1333, 1357, 1409, upsampler.rs:107, color_conversion.rs:45 (error.rs:13-26): error values other than "unexpected
end of input". -/
inductive ErrKind
  | badHuffsize | badHuffCode | markerExpected
  | samplingFactor | tableClass | dhtDestination | dqtPrecision | dqtDestination
  | sosBeforeSof | noSuchComponent | componentOrder | componentDuplicate | componentCount
  | adobeTag | adobeTransform
  | unsetDc | unsetAc
  | dcCategory | outOfBits
  | wrongRst | notRst
  | fourComponents | nonIntegerSubsampling
  deriving DecidableEq, Repr

/-- lib.rs:105 `Result`, error.rs:13-26 `Error`, and panics: how a step can fail. -/
inductive Fail
  /-- the Rust error value `()` used by the bit level code -/
  | unit
  /-- combine's "unexpected end of input" -/
  | eof
  | err (e : ErrKind)
  | panic (p : PanicSite)
  deriving DecidableEq, Repr

/-- lib.rs:995-1059, for instance (`&mut` parameters and a `Result`): result of a state-mutating operation: the
state is returned on failure too. -/
inductive Out (σ : Type) (α : Type)
  | ok (a : α) (s : σ)
  | fail (f : Fail) (s : σ)
  deriving DecidableEq, Repr

namespace Out
variable {σ τ α β : Type}

/-- Sequencing, the operator `?`, for instance lib.rs:1079. -/
def bind (o : Out σ α) (k : α → σ → Out σ β) : Out σ β :=
  match o with
  | ok a s => k a s
  | fail f s => fail f s

@[simp] theorem bind_ok (a : α) (s : σ) (k : α → σ → Out σ β) : (ok a s).bind k = k a s := rfl
@[simp] theorem bind_fail (f : Fail) (s : σ) (k : α → σ → Out σ β) :
    (fail f s).bind k = fail f s := rfl

/-- `map_err`, for instance lib.rs:1079, 1092. -/
def mapErr (o : Out σ α) (g : Fail → Fail) : Out σ α :=
  match o with
  | ok a s => ok a s
  | fail f s => fail (g f) s

@[simp] theorem mapErr_ok (a : α) (s : σ) (g) : (ok a s).mapErr g = ok a s := rfl
@[simp] theorem mapErr_fail (f : Fail) (s : σ) (g) : (fail f s : Out σ α).mapErr g = fail (g f) s :=
  rfl

/-- Embedding of a pure fallible computation, for instance lib.rs:1237. -/
def ofExcept (e : Except Fail α) (s : σ) : Out σ α :=
  match e with
  | .ok a => ok a s
  | .error f => fail f s

@[simp] theorem ofExcept_ok (a : α) (s : σ) : ofExcept (.ok a) s = ok a s := rfl
@[simp] theorem ofExcept_error (f : Fail) (s : σ) : (ofExcept (.error f) s : Out σ α) = fail f s :=
  rfl

/-- The final state, for instance of `input` after lib.rs:1046-1053. -/
def state : Out σ α → σ
  | ok _ s => s
  | fail _ s => s

end Out

/-- Build configuration: Cargo.toml:16 and lib.rs:1470, 1488 (`rayon`), huffman.rs:63 (`debug_assert!` and overflow
checks). -/
structure Cfg where
  /-- overflow checks and `debug_assert!` enabled (dev/test profile) -/
  debug : Bool
  /-- cargo feature `rayon` -/
  rayon : Bool
  deriving DecidableEq, Repr

end Jpeg
