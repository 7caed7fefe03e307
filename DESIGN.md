# Formal model of combine-jpeg in Lean 4

The decoder of `/repo/src` is modelled function by function in Lean 4 and 111 properties
(`properties.jsonl`) are stated about the model. `MANIFEST.json` says which theorem settles which
property; 70 hold, 41 are false of the code and are refuted together with the strongest true part.

## 1. Trusted base

* The Lean 4.33.0 kernel. No `sorry`, no axiom of our own, no `native_decide`, no `bv_decide`.
* Axioms: at most `propext`, `Classical.choice`, `Quot.sound`. `AXIOMS.txt` lists them for every claimed
  theorem (written by `tools/gen_axioms.py` from `#print axioms`).
* Mathlib definitions that occur in statements: `Real`, `Real.cos`, `Real.sqrt`, rationals,
  `List.Forall₂`, `Finset.sum`.
* That the model is the code. The code was read, not run: there is no toolchain or network here. The
  model was written next to the source, every definition cites its lines, and three checks stand
  against misreading:
  * the model is executable. `green.jpg` of the repository's tests decodes to (35,177,77) everywhere as
    the test expects; `simple.jpg` and `simple-vertical.jpg` agree with the expected bytes of the tests
    bit for bit in every even row. Odd rows differ from them. This is the defect C33, also visible
    in the source. The kernel checks this (C84; the files are in `Spec/RepoImages`).
  * the properties are stated against independent specifications (section 3), so a misread function
    usually makes a proof fail.
  * mutation testing (`seeded/LOG.jsonl`): realistic wrong programs, applied to the model one at a time.
    `first_failing_declarations` is what the build reported. `theorems_failed` is derived from it: the
    property theorems that depend on one of these declarations. A proof that breaks does not show that the
    statement became false, so "killed" is weaker evidence than a refutation. Entries whose `file` is
    under `Verif/Spec` edit a specification, not the model; `auto` entries are generated edits.
* The meaning of `combine`'s parsers. Its sources are not available; the combinators used are modelled
  by their documentation (section 4).

## 2. What is modelled

`lean/Verif/Model`, one Lean definition per Rust function:

| module | source | content |
|---|---|---|
| `Basic` | – | results, failure values, panic sites, build configuration |
| `Biterator` | `biterator.rs` | 64-bit buffer, refill with unstuffing, consume, peek |
| `BitStream` | `biterator.rs` | the reader as a stream of booleans: `uncons`, checkpoints |
| `Huffman` | `huffman.rs` | table construction, lookup table, fast AC table, decoding, `extend` |
| `ZigZag` | `lib.rs` | `UNZIGZAG`, `UnZigZag`, `QuantizationTable` |
| `Frame` | `lib.rs` | frame header, f32 geometry (software rounding), component sizes |
| `Marker`, `Parser` | `marker.rs`, `lib.rs` | marker search, `segment`, DHT, DQT, DRI, SOS, APP14 |
| `State` | `lib.rs` | `Decoder`, `ScanState` |
| `Block` | `lib.rs` | `decode_block`, `decode_row` |
| `Scan` | `lib.rs` | `dequantize`, `restart_parser`, `decode_scan`, planes |
| `Clamp`, `Idct` | `clamp.rs`, `idct.rs` | clamp table, 8x8, 4x4, 2x2, 1x1 transforms, scale selection |
| `Color` | `color_conversion.rs` | all conversions and their selection |
| `Upsample` | `upsampler.rs` | all upsamplers, selection, rows |
| `Decode` | `lib.rs` | segment loop, `decode_parser`, `upsample`, `Decoder::decode` |
| `Stream` | `lib.rs` | `DecoderCodec`: suspension and resumption |
| `ReadDecoder` | `lib.rs` | `ReadDecoder`: the loop of `combine::decode!` around it; reads and I/O errors |
| `Framed` | `lib.rs` | `DecoderCodec` in `FramedRead`: reads, waits and errors of the reader, calls per read, `decode_eof`; tokio-util by its documentation |

Conventions:

* `&mut` becomes a returned state. A fallible function returns `ok a s | fail f s`; a failure carries the
  dirty state, so statements about what a failure leaves behind are real statements.
* `Fail`: `unit` (Rust's `Err(())`), `eof` (combine's unexpected end of input), `err k` (other errors),
  `panic site`. Every index, slice, `unwrap`, `expect`, `assert!`, `debug_assert!`, `unimplemented!` and
  overflow check that input can reach is an explicit `panic`.
* `Cfg.debug`: overflow checks and `debug_assert!` on (dev, test) or off (release). `Cfg.rayon`: the cargo
  feature.
* Bytes are `UInt8`; machine words are `Nat` with an explicit `% 2^w` or `BitVec`; `i16` values are `Int`
  reduced with `Int.bmod`; `Wrapping<i32>` is `BitVec 32`.
* `f32` in the frame header is modelled exactly (round to nearest even on dyadic rationals). The row
  arithmetic of the upsampler (f32) and the constants of the colour tables (f64) and the transform (f32) are modelled on integers; C76
  proves that every rounding of the operations gives the same.
* Loops without an evident bound take fuel; running out is the panic site `fuel`, proved unreachable (C50).

Unsafe code, site by site:

| site | model |
|---|---|
| `lib.rs:42,52` `fixed_slice!` | after a length assertion (panic `fixedSlice`), then safe |
| `lib.rs:112` `zero_data` | writes a slice to zero |
| `lib.rs:451` `get_unchecked_mut` | outside the block: panic site `unchecked` (undefined behaviour) |
| `lib.rs:1285` `set_len` | samples start as `none`; handing out a `none` is `uninit` (undefined behaviour) |
| `clamp.rs:14` | index proved in range (C21_clamp_index); the model's default value is never used |
| `color_conversion.rs:185` | outside the table: `unchecked` |
| `idct.rs:272-331` `MaybeUninit` | column pass writes `some`; C21_all_initialised |
| `stream.rs:20` `transmute` | `repr(transparent)` newtype; nothing to model |

C58 says no decode and no call of a codec ends in one of the two undefined sites.

## 3. Specifications

`lean/Verif/Spec`, written without the model's helpers: bits of bytes and byte stuffing; canonical codes by
Kraft sums; the zig-zag walk; T.81 magnitude categories; an encoder relation for blocks and MCUs; restart
intervals; segments and markers of a file; frame geometry by ceilings; the fixed point transform over the
integers and the inverse DCT of T.81 over the reals; BT.601 over the rationals; upsampling filters; panic
conditions; `Baseline`: a whole file (tables, application, Adobe and comment segments and fill bytes in any
order, frame, scan; tables may come from earlier files) as a record, its bytes, its validity and the picture it
encodes; `Exact`: that picture in real arithmetic; `Forward`: the
forward transform and what an encoder makes of a picture; `Reading`: the decoding procedures of F.2.2 as
functions on bit strings; `Band`: those of G.1.2 for bands, with the encoder of figures G.3 to G.6; `Continued`: data
with zeros behind them; `Float`: rounding, and the upsampler's and colour tables' expressions with each operation rounded; `BitStream`: a list of bits with remembered positions;
`Mean`: sums over a block; `Torn`: intervals intact up to some MCU; `Contrast`: coefficients multiplied by a factor; `Blend`: sums of multiples of the coefficients of two pictures; `GreySampling`: pictures without colour with the same luminance; `Energy`: root of the sum of squares over a block; `MeanSquare`: root mean square over a picture; `Ratios`: components of the same sizes and blocks with other factors; `Saturation`: differences from the luminance multiplied by a factor; `Inks`: a component of one file that is another of a second file; `Errors`: for every kind of error the fault of the file it stands for;
`Uniform`, `Brighter`, `Local`, `Flip`, `Transpose`, `Requantised`, `Limited`, `Lightened`, `Crop`, `Stable`, `Colourless`, `OneComponent`, `Rising`, `Added`, `Joined`: relations between two files (one colour, larger DC coefficients,
equal MCUs around a place, flipped, equal products, DC coefficients larger by a constant, part of a picture).

The encoder relation is as wide as the decoding procedures are: any code word of a symbol, end of block or runs
of 16 in any place, runs past the end of a block (the standard's procedures do not rule them out; the block ends),
any padding behind an interval. A file is `Laid` if everything but its data is as the standard says, `Valid` if the
data are also an encoding of its blocks.

`lean/Verif/Props` has the property theorems with a case beside each that meets the hypotheses;
`lean/Verif/Proofs` the lemmas.

## 4. What is not modelled

* combine: error contents and positions; its partial state inside a table or header segment of a stream.
  The latter is represented by leaving the bytes of the segment in the buffer and parsing it again when more
  have arrived. Inside a scan the suspension points are those of the code: `decode_row` is tried again, a
  suspended `restart_parser` is built again and its `factory` closure runs again.
* `BufRead`, `BytesMut`, tokio's tasks and buffer sizes, and calling a codec again after it has returned a parse error.
* `log` output, allocation failure, speed, the threads of rayon (the order of its chunks is shown not to
  matter, C34_buffers_irrelevant).
* Progressive frames: `decode_scan` refuses them; the first scans of block level progressive decoding are modelled (C12, C73).

## 5. Properties

| id | property | how |
|---|---|---|
| C01–C04 | bit reader | refinement of the reader state to a list of bits, over all histories |
| C05 | magnitudes | bit vectors to integers, every category |
| C06 | Huffman acceptance | equivalence with the Kraft condition, both directions |
| C07–C09 | Huffman decoding, lookup tables | left-aligned code intervals; tables proved irrelevant for every window |
| C10, C11 | zig-zag, DQT | anti-diagonal walk, complete finite table |
| C12, C13 | blocks | invariant on the coefficient index; inversion of an encoder relation |
| C14–C16 | DC prediction, MCUs | induction over blocks and MCUs |
| C17 | restart markers | history invariant of the counters |
| C18, C19 | geometry | error analysis of the f32 quotients, then arithmetic |
| C20 | planes | tiling: induction over MCUs |
| C21–C25 | transform, clamp | interval bounds over integers, wrapping and counterexamples at the bounds |
| C26, C27 | YCbCr | algebra over all triples, rationals |
| C28 | colour selection | decision table |
| C29–C31 | upsampling filters | column by column, all planes and line buffers |
| C32–C34 | upsampling of frames | exact set of frames that panic; which row a line shows; rayon |
| C35 | size | every path to an image |
| C36–C39 | markers, segments, tables, scan headers | equivalences between bytes and effect |
| C40, C56 | comments, application segments | commutation with the segment loop |
| C41 | panics | classification of every panic of every decode, with a witness file per class; for streams the same over an invariant of suspended scans (`Spec/StreamPanics`) |
| C42 | reuse | two decoder states related through a whole file |
| C43, C44 | streams | prefix monotonicity of every parser; codec runs refine the whole-file run; a codec that stopped for a restart marker (counter already run down) stays there or panics, by induction over the feeds |
| C45, C46, C47, C54, C55 | whole files by colour layout | composition: bytes, coefficients, planes, pixels |
| C48, C49, C57 | reduced transforms | bounds and reals |
| C50 | termination | fuel never runs out, progress per segment |
| C51 | accuracy | error analysis over the reals |
| C52 | separate scans | refutation for every file |
| C53 | builds | simulation between configurations, also of suspended streaming decoders |
| C58 | undefined behaviour | C41's classification; for streams an invariant of suspended scans |
| C59, C62 | same picture, same result; precision | two runs related through tables, planes and rendering |
| C60, C61 | tables of earlier files | what a history of files leaves in the table slots |
| C63 | end to end accuracy | error analysis of each stage over the reals, composed |
| C64 | encode, then decode | orthogonality of the DCT, Parseval and Cauchy-Schwarz for the quantisation error, then C63; an encoder is constructed for existence |
| C65 | cut off files | a run on a beginning that succeeds, or fails other than by the end of the input, goes the same way on the whole file (`Grows`, `Cut`), which would leave bytes over |
| C66 | damaged data | decoding of arbitrary data up to a marker leaves the bit buffer and the planes in a state from which the next interval decodes as if nothing had happened; planes as a function of the MCUs; reach of the upsampling filters |
| C67 | decision table | outcome of `upsample` for the frame of a valid file, case by case, on top of the end to end theorem for the scan |
| C68 | other processes | marker parser refuses the code behind any tables; progressive: frame and scan header parse for every file, then `unimplemented!()` |
| C69 | malformed headers | each segment parser inverted: accepted content is the byte layout of the specification, every other failure is an error except the two fatal kinds; induction over the segments in front |
| C70 | readers | as C43, over lists of reads; a reader that ends early as a run on the whole file that never gets the rest; any number of files by induction over them |
| C71 | reading | the decoding procedures of F.2.2 as functions on bit strings (`Spec/Reading`); soundness and completeness against the encoding relation of C45; `decode_block` fails wherever the reading is invalid, whatever the buffer state; any data as damage (C66) to the file that has everything readable filled in |
| C72 | waiting | the run on the bytes given so far against the run on all of them (C43), with failures classified: rendering and dequantisation never fail with an end of input, content parsers report the same with more bytes behind unless they report an end; undecodable data as in C71, for any bytes behind the end marker |
| C73 | bands | `readBand`, `readBandBlock(s)`: reading of a band with end-of-band runs (T.81 G.1.2) as functions on bit strings; induction over the number of coefficients left, with the coefficients read so far at their zig-zag places; the encoder of figures G.3 to G.6 is read back by induction over the blocks, with its pending run as the invariant |
| C74 | zeros behind data | two readers that agree up to zeros in front of a marker, in lockstep through `decode_block`, the MCU loop and the restart handling (`Proofs/Lockstep`, any relation kept by reading bits and by restart markers); every reading procedure is bounded by 1980 bits for each block, so that enough zeros complete any reading |
| C75 | size | a lower bound of 2 bits for each block against at most 1024 samples for each MCU and component; C74 for files without data |
| C76 | rounding | exactness on quarter integers below 2^20; error bounds far from the truncation steps for the constants |
| C77 | behind the scan | the run past the scan reaches the marker behind it; TablesAfter for the segments; rendering only looks at frame, planes and colour transform |
| C78 | 0 lines | a scan of no MCUs reads nothing; the loop skips restart markers and meets DNL, or EOI |
| C79 | stream of booleans | simulation of a list of bits with remembered positions; induction over the groups of eight bytes a refill takes |
| C80 | items of FramedRead | induction over the reads; the first answer of C43 is the first item, the codec then goes on with the rest; fuel lemma for the calls per read |
| C81 | stream that ends inside a file | C65 with the call at the end as a further piece; header segments arriving in part are worked off as far as they are complete |
| C82 | framing | induction over the segment loop: a scan needs a frame, planes need a scan, the loop ends at EOI; an image that is not empty needs planes (C50) except when no conversion takes place and `debug_assert_eq!` is compiled out |
| C83, C84 | any pieces; test images | induction over the segments: only a DRI marker, hence the bytes FF DD, sets the restart interval; a checker for end of band runs, proved sound; the images of tests/images run by the kernel |
| C85 | one colour | a DC coefficient alone gives a flat block, every upsampling filter keeps constants, only samples inside the component matter; C45 and C54 for the pixels |
| C86 | monotone | first column of the transform matrix is positive, division rounds monotonically; filters and colour conversion are monotone; C45 for the pixels of both files |
| C87 | locality | which rows and columns each filter reads, in MCUs; C45 for the pixels of both files; counterexample with rayon evaluated by the kernel |
| C88 | flips | symmetry of the transform matrix, first pass exact upside down; left to right the rounding of the first pass is off by at most one, which the second reduces to at most one; counterexample evaluated by the kernel |
| C89 | products | samples are functions of the products; C45 for the pixels of both files |
| C90 | limiting of values | the table of 1024 entries as reduction modulo 1024 (C24); C45 for the pixels, with this transform instead of the exact one; counterexample evaluated by the kernel |
| C91 | transposition, quarter turns | the sum over both passes without rounding is symmetric; the rounding of the first pass, weighted with a row of the matrix, is less than half a unit of the result, for both files; C88 upside down for the turn; counterexamples evaluated by the kernel |
| C92 | brightness | the first row of the matrix is constant and the scale of the first pass divides it, so the addition goes through both passes without rounding; C90 for the pixels |
| C93 | cutting out | both selections of a filter and all five filters commute with a shift by whole MCUs, away from the cuts; C45, C54 for the pixels; counterexample as for C87 |
| C94 | small changes | no entry of the matrix exceeds 5683, so one pass multiplies the sum of the changes by at most 5683 and rounds once; filters and limiting never enlarge differences, the colour conversion at most threefold |
| C95 | colour taken out | zero chrominance is the constant 128 before and after upsampling; the weighted sum of the three channel sums is the luminance up to the three roundings |
| C96 | errors | errors of every parser and of the block and restart decoders, with what was read before; induction over MCUs and segments; decision of `upsample`; the same for streaming and reading decoders, over all bytes they were given |
| C97 | faults are final | every parser on a longer input does the same up to missing data (`Grows`, proofs of C43 and C65), and the bound of the loop does not matter; prefix freeness from the trailing bytes panic |
| C98 | components act on their own colours | pixels of a file from its upsampled components, blocks transformed by whatever the code does (`blockwise`), then the closed form of the conversion; equal components give equal upsampled samples |
| C99 | upsampling keeps order and ramps | closed form of the filters (C29), monotone in each sample, between neighbouring columns and between lines; ramps by linear arithmetic; images through C45 and C54 |
| C100 | pictures added, negatives | both passes of the inverse transform are linear up to their rounding, whose errors are bounded together; upsampled samples are means of one, two or four with fixed weights (`upsampled_shape`); images through C45 and C54 |
| C101 | pictures joined | both are parts of the joined picture (C93); refuted with rayon and vertical subsampling |
| C102 | mean of a block | the columns of the integer matrix of the transform add up to zero exactly, except the first; only rounding remains, bounded by linear arithmetic; C49, C45, C54, C95. `Props/Blocks`: C86, C88, C91, C92, C94, C100 and C102 for the bytes `idct8x8` returns for a single block |
| C103 | damage in front of its place | the intact MCUs as in C45 (what follows their bits is arbitrary there), then C66's decoding of arbitrary data from the state reached |
| C104 | contrast | both passes of the transform, the interpolation and the colour conversion are linear up to rounding, and the rounding errors of both pictures are bounded together, over the rationals; C45, C54 |
| C105 | grey, subsampling | the luminance has a sample for every pixel, so its upsampling is the identity and its blocks are found whatever their order; zero chrominance gives 128 everywhere (C95); refuted for the vertical direction by two files of an 8x16 picture |
| C106 | mean square difference | the real inverse DCT keeps lengths (it is inverted by the forward DCT, for which Parseval is proved); the difference of two samples is the real transform of the difference of the coefficients up to the roundings (a thousand times the difference is put through both passes, so that its own roundings hardly count) and C51; triangle inequality for the length; C45, C54, C95; whole pictures by Minkowski's inequality over the blocks |
| C107 | ratios of the factors | the size of a component, the upsampler and its scale depend on the quotients of the factors only; blocks are found whatever their order; refuted for the vertical direction by two files of 8x16 pixels |
| C108 | saturation | the luminance samples are the same (C89's argument), the chrominance samples scaled (C104); the weights of BT.601 take the colour out of a pixel up to 0.501 (C95); triangle inequality |
| C109 | inks exchanged | byte `i` of a CMYK pixel is made from component `i` alone in the same way for all `i` (C54's argument without a range for the coefficients) |
| C110 | coefficients from the image | equal bytes leave a difference of length at most 9.9 + 1.3 per cent of itself (C106), no single coefficient exceeds the length, and multiples of an entry that differ by less are equal |
| C111 | blends | as C104 with three pictures: every rounding contributes its error once for the blend and multiplied by the factors for the two others (`error_blended`), through transform, interpolation and colour conversion; C45, C54 |

Partial means: the code violates the property. Then the negation is proved, with a witness or for
every file, and what remains true is proved under a name ending in `_partial`.

## 6. Defects of the code found this way

* Lines of a group with vertical factor above 1 all show the same row (C33), and rayon shows another one (C34).
* The 2x1 upsampler panics for some widths (C32); an incomplete last group of columns stays 0 (C29).
* Greyscale files never decode (C46); Adobe RGB files come out black (C47); YCCK files panic (C55); files
  with one scan per component panic (C52).
* A comment containing a marker-like pair is parsed as one (C40); an APP14 segment that is not Adobe's is an
  error (C56).
* Missing tables, selectors and counts out of range, progressive frames, short lengths, bytes behind the
  image panic instead of being reported (C41).
* A used decoder keeps frame, planes and colour transform (C42); a codec keeps left-over bits (C44): they are read
  as the first bits of the next picture's data, so that its picture is another one, or one that does not depend on
  its data at all (C44_data_ignored_violated). Every picture whose data do not end with a whole byte leaves bits over
  (C44_left_over_violated).
* Splitting a stream in front of a restart marker or inside an end of band run changes the result (C43, C70); a reader that ends in front of one makes a checked build panic.
* The transform's clamp aliases for large coefficients (C22, C24, C25 at their bounds).
* A file with tables only panics on a new decoder and returns the previous image on a used one (C61).
* The sample precision is ignored (C62).
* Every progressive file panics at its first scan header (C68).
* End of band runs in sequential scans are accepted, and so is data that ends early, which is continued with zero
  bits (C71).
* A streaming decoder waits for ever on a complete file with undecodable data or a segment cut short, and swallows
  everything behind it (C72).
* `decode_block` reads a band only if it has at least two AC coefficients (`index < end_of_selection`, lib.rs:1111):
  a band of one coefficient is skipped without reading its bits (C73).
* Data that end early are completed with zero bits, silently; if they contain `0xFF`, with bytes that have been read before,
  since the bytes dropped are counted without the stuffed zeros (C74).
* 148 bytes decode to an image of more than twelve gigabytes (C75).
* An Adobe segment behind the scan changes the colours or makes a decodable file panic (C77).
* Files whose number of lines comes in a DNL segment are refused; without the segment they give an empty image (C78).
* As a stream of booleans the bit reader reports the end of the input while up to 56 bits are left; the next attempt delivers them (C79).
* A stream that ends behind a header segment ends without an item and without an error (C81).
* The start of image marker is not required, and bytes in front of it are skipped; in builds without debug assertions a file without a scan is an image of zeros (C82).
* The tests for simple.jpg and simple-vertical.jpg fail: every odd row is that above it (C84, C33).
* With rayon a pixel of a vertically subsampled picture may depend on MCUs far away from it (C87, C33).
* Pictures turned left to right or by a quarter without decoding them come out slightly different, since the passes of
  the inverse DCT round in turn (C88, C91). This is usual for integer transforms and no defect in itself.
* A file without subsampling whose factors are all 1 by 2 gives another image than with factors 1 by 1 (C107, C33); a 4:2:2 picture of 16 by 8 pixels panics with factors 2, 1, 1 and decodes with 4, 2, 2 (C107, C32).
* A grey picture changes with the vertical subsampling of its (zero) chrominance (C105, C33).
* The clamp works modulo 1024: values just above 767 are shown as black, values just below -256 as white (C90).
