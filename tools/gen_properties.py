#!/usr/bin/env python3
"""Generates /verif/properties.jsonl (one JSON object per line)."""
import json
P=[]
def p(id,title,statement,quantifier,why,anchors): P.append(dict(id=id,title=title,statement=statement,quantifier=quantifier,why_tests_cant=why,anchors=anchors))
B="src/biterator.rs"; H="src/huffman.rs"; L="src/lib.rs"; I="src/idct.rs"; U="src/upsampler.rs"; C="src/color_conversion.rs"; K="src/clamp.rs"; M="src/marker.rs"
p("C01","Bit reader delivers the unstuffed bits in order","Reading an entropy-coded segment through the bit reader returns exactly the bits of its bytes, most significant bit first, with every stuffed 0x00 after 0xFF removed, whatever the sequence of request sizes.","every entropy-coded byte string followed by any marker, every buffer fill state, every sequence of request sizes 1..16","buffer refills interleave with stuffing and request sizes in unboundedly many ways",[f"{B}: Biterator::next_bits, fill_bits, peek_bits, consume_bits"])
p("C02","Bit reader never swallows a marker and pads with zeros","When the entropy-coded data ends at a marker, the reader supplies every remaining data bit, then at least eight zero bits, never returns marker bytes as data, and the marker parser run afterwards still finds that same marker. Zero bits for ever is only guaranteed when the last refill crossed no stuffed 0xFF.","every entropy-coded byte string, every marker, every history of refills","the position after a refill depends on how many stuffed bytes that particular refill crossed",[f"{B}: Biterator::fill_bits", f"{M}: marker"])
p("C03","Bit reads compose","Reading a+b bits in one request returns the same value and leaves the same stream as reading a bits and then b bits.","every reachable reader state, all a, b with 1<=a, 1<=b, a+b<=16","needs all buffer states and refill boundaries",[f"{B}: Biterator::next_bits"])
p("C04","Bit reader arithmetic is always defined","In every reachable state the bit count is at most 64, no shift is by 64 or more, no bit count subtraction underflows, and a successful refill leaves at least 57 bits.","every byte input and every sequence of reader operations the decoder performs","an invariant over all operation histories",[f"{B}: Biterator::{{fill_bits,peek_bits,peek_bits_u8,consume_bits}}"])
p("C05","Magnitude decoding inverts JPEG magnitude coding","For every non-zero value of at most 15 bits, taking the JPEG magnitude category and its additional bits and passing them to receive/extend gives the value back; the branch-free form equals the EXTEND procedure of T.81 F.2.2.1.","all categories 1..15 and all bit patterns of that length","65k patterns per category through bit tricks on three integer widths",[f"{B}: extend, Biterator::receive_extend"])
p("C06","Huffman table acceptance is exactly the Kraft condition","Building a table from 16 code counts with matching values succeeds exactly when there is at least one code, at most 256 codes and the Kraft sum is at most one; the empty table panics and over-full tables are errors.","every vector of 16 code counts and every value list of matching length","infinitely many tables; the failure branch is global to the whole vector",[f"{H}: BaseTable::new, huffsize"])
p("C07","Huffman decoding is prefix decoding of the canonical code","With any accepted table, decoding from any bit buffer returns value k and consumes exactly len(k) bits when the next bits start with the canonical code word of symbol k, and fails when no code word matches. At most one code word can match.","every accepted table, every bit buffer of at least 16 bits","all tables times all 16 bit windows",[f"{H}: BaseTable::new, decode, decode_inner"])
p("C08","The 8-bit lookup table never changes a result","For every accepted table and every window the lookup-table path returns the same symbol and length as the max-code search started at length one.","every accepted table and every 16 bit window","optimisation equivalence over all tables",[f"{H}: BaseTable::new (lut), decode_inner"])
p("C09","The fast AC table never changes a result","Whenever the fast AC path yields (value, run), the ordinary path (Huffman decode, then receive/extend of the low nibble) yields the same value, the same run and the same remaining bits.","every accepted AC table, every bit buffer","optimisation equivalence over all tables and windows",[f"{H}: AcTable::new, decode_fast_ac"])
p("C10","The zig-zag table is the JPEG zig-zag order","The table maps 0..63 one-to-one onto 0..63, and position k is the k-th cell of the anti-diagonal walk of an 8x8 block.","all 64 indices","a single swapped entry only distorts images with energy in those two coefficients",[f"{L}: UNZIGZAG, unzigzag"])
p("C11","Quantization tables are stored in natural order","After reading a DQT table its k-th value is stored at the k-th zig-zag cell, for 8 and 16 bit precision, and each of the 64 cells is written.","every 64 entry table, both precisions","all table contents",[f"{L}: QuantizationTable::new, dqt, DQT"])
p("C12","Block decoding is safe on any input","With accepted tables and any scan parameters and any bits, decoding a block never panics, never indexes outside the 64 coefficients, terminates, and writes AC coefficients only inside the selected band.","every accepted DC/AC table, scan band, approximation shift, bit stream, EOB run","adversarial bit streams are unbounded",[f"{L}: Decoder::decode_block, UnZigZag"])
p("C13","Block decoding inverts block encoding","For every block whose DC difference and AC values have codes in the tables, decoding the standard run-length/Huffman encoding of the block returns exactly that block in natural order and consumes exactly the encoding, whatever bits follow.","every accepted table pair, every encodable block, every following bit string","all blocks times all tables",[f"{L}: Decoder::decode_block", f"{H}: BaseTable::decode, AcTable::decode_fast_ac"])
p("C14","DC prediction accumulates differences modulo 2^16","The k-th DC coefficient of a component is the sum of the first k differences since the last restart (wrapping in 16 bits), kept separately per component, and predictors are zero at scan start and after each restart marker.","every sequence of blocks, components, and restarts","a history property",[f"{L}: Decoder::decode_block, decode_row, decode_scan, restart_parser"])
p("C15","A failed MCU decode leaves no trace","When decoding an MCU fails (for instance because the buffer ran out), the byte position, bit buffer, bit count, DC predictors and EOB run are exactly what they were before the attempt, so it can be retried.","every decoder state, every input, every failure point inside the MCU","the failure can occur after any block or symbol",[f"{L}: Decoder::decode_row"])
p("C16","MCU decoding inverts MCU encoding","For every scan with all frame components, decoding an MCU returns the blocks of component 0, then component 1, ... in order, each component contributing h*v blocks.","every component list with at most 10 blocks per MCU, every block content","all sampling layouts and contents",[f"{L}: Decoder::decode_row"])
p("C17","Restart markers are required exactly where JPEG puts them","With restart interval r>0 the decoder requires a restart marker after every r MCUs except after the last MCU of the scan, requires the numbers 0,1,..,7,0,.. in order, rejects any other marker, never underflows its counter, and with r=0 requires none.","every interval, MCU count and marker history","a history property over unbounded MCU sequences",[f"{L}: restart_parser, decode_scan"])
p("C18","Frame geometry computed in f32 is exact","The MCU counts and component sizes computed with 32 bit floating point equal the exact integer ceilings ceil(X/(8*Hmax)), ceil(X*h/Hmax) and likewise vertically.","every 16 bit size and all sampling factors 1..4","2^32 size pairs times sampling factors with rounding at every step",[f"{L}: sof"])
p("C19","Component planes cover the image without overflow","For every accepted frame header the 16 bit block counts do not overflow, every component plane is at least as large as the component, and the full-resolution plane has at least the image width and height.","every accepted frame header","all sizes and sampling layouts",[f"{L}: sof, decode_scan"])
p("C20","Every sample of every plane is written, at the right place","After a completed data-producing scan each byte of each component plane is initialised, and the sample at row Y, column X comes from row Y mod 8, column X mod 8 of the block at block coordinates (Y/8, X/8).","every frame geometry with at most 10 blocks per MCU and every coefficient content","uninitialised memory is handed out otherwise; depends on a tiling argument over all sizes",[f"{L}: Decoder::dequantize, decode_scan, step_range", f"{I}: dequantize_and_idct_block_8x8"])
p("C21","IDCT reads no uninitialised memory and never indexes out of the clamp table","For every coefficient block and quantization table all 64 intermediate values are written before being read, eight rows of eight samples are produced and every clamp index is below 1024; the 16x16 bit products never overflow.","all 64-coefficient blocks and quantization tables","2^2048 inputs",[f"{I}: dequantize_and_idct_block_8x8_inner, dequantize", f"{K}: stbi_clamp"])
p("C22","A block with only a DC coefficient decodes to a flat block","If all AC coefficients are zero, all 64 samples are equal: 128 plus the dequantized DC divided by eight, rounded to nearest, put through the clamp table; that is the saturated value exactly for products in -3076..5115 (5116 gives black instead of white).","every DC value and quantizer","all DC and quantizer pairs",[f"{I}: dequantize_and_idct_block_8x8_inner"])
p("C23","The IDCT zero shortcuts never change a sample","Skipping the column (row) kernel when its seven AC inputs are zero gives the same samples as running the kernel, whenever the dequantized DC term is below 2^19 in magnitude; beyond that bound it does not.","every block","optimisation equivalence over all blocks",[f"{I}: dequantize_and_idct_block_8x8_inner, kernel"])
p("C24","IDCT arithmetic does not wrap on legal coefficients","If every dequantized coefficient is at most 2^16 in magnitude, the samples equal the two-pass integer matrix formula evaluated over unbounded integers (through the clamp table); up to 2^11 no value before a shift wraps at all; at 2^17 wrapping becomes visible.","all blocks within the bound","all coefficient combinations",[f"{I}: kernel, kernel_x, kernel_t"])
p("C25","Sample clamping saturates","The clamp returns 0 below 0, 255 above 255 and the value itself in between. The code only does so for inputs in -256..767 (it aliases modulo 1024 beyond).","all 32 bit inputs","wrap-around aliases occur only far outside the usual range",[f"{K}: stbi_clamp, CLAMP_TABLE"])
p("C26","YCbCr conversion never indexes out of bounds","For every (Y, Cb, Cr) the three unchecked table indices lie in 0..1023 and the result equals saturating the three sums.","all 2^24 triples","the repository's safety test only covers triples with Cb = Cr",[f"{C}: ycbcr_to_rgb, clamp"])
p("C27","YCbCr conversion is BT.601 rounded to nearest","Each output channel is within one half (plus 1/500) of the exact BT.601 value clamped to 0..255, and Cb=Cr=128 gives R=G=B=Y.","all 2^24 triples","the repository checks four triples",[f"{C}: ycbcr_to_rgb"])
p("C28","Colour transform selection follows the Adobe marker","Three components select RGB pass-through exactly when Adobe transform 0 was seen, otherwise YCbCr; four components select CMYK for transform 0, YCCK for 1 or 2, and are an error without an Adobe marker; other counts are rejected.","all component counts and Adobe states","decision table over all counts",[f"{C}: choose_color_convert_func"])
p("C29","Upsampling filters","Each upsampler returns for each output column the documented interpolation: identity (1x1), 3:1 triangle horizontally (2x1), vertically (1x2), both (2x2), nearest neighbour (other integer ratios), wherever it returns.","all planes, sizes, rows, columns","all plane contents and sizes",[f"{U}: UpsamplerH1V1, UpsamplerH2V1, UpsamplerH1V2, UpsamplerH2V2, UpsamplerGeneric"])
p("C30","Upsampler selection","A component with integer subsampling ratio is always accepted and gets the upsampler of its ratio; a component is rejected as unsupported exactly when a ratio is non-integer, except that a direction in which the image has one pixel counts as ratio 1 if the other direction has ratio 1 or 2.","all sampling factors 1..4 and output sizes","decision logic over all combinations",[f"{U}: choose_upsampler, Upsampler::new"])
p("C31","Interpolated samples stay within their neighbours","Every sample produced by the interpolating upsamplers lies between the minimum and maximum of the input samples it interpolates; in particular no 8 bit truncation happens.","all input samples","all values",[f"{U}: upsample_row"])
p("C32","Upsampling a decoded frame does not panic","For every accepted frame whose planes come from a completed scan, building any output row succeeds. The code violates this for 2x1 subsampling.","all accepted frames with integer ratios and every row","panics depend on width parity and height modulo 8",[f"{U}: UpsamplerH2V1::upsample_row", f"{L}: upsample"])
p("C33","Each output line is computed from its own row","Output line y is the colour conversion of upsampled row y. The code violates this when the maximum vertical sampling factor exceeds one: all lines of a group show the group's first row.","all frames and rows","needs all rows of all vertical samplings",[f"{L}: upsample"])
p("C34","The rayon feature does not change the image","Sequential and parallel post-processing return the same bytes. The code violates this when the maximum vertical sampling factor exceeds one.","all frames, both build configurations","configuration equivalence for all inputs",[f"{L}: upsample (cfg feature rayon)"])
p("C35","A successful decode has the announced size","If decoding succeeds, the returned buffer has exactly width*height*components bytes of the last frame header and a frame is available on the decoder.","every byte string","all inputs",[f"{L}: Decoder::decode, upsample"])
p("C36","Marker search","The marker parser skips bytes that are not 0xFF, any number of fill bytes and stuffed FF00 pairs, and returns the first real marker and the bytes after it; inputs with no marker are reported as end of input; unknown marker codes are errors.","every byte string","all inputs",[f"{M}: marker"])
p("C37","Segments consume exactly their declared length","After a successful segment the reader is exactly length bytes after the length field started, whatever the content parser left unread, and the content parser sees only the segment's bytes. Lengths below two are a panic (overflow checks on).","every segment content and following bytes","all contents",[f"{L}: segment"])
p("C38","Table segments define exactly the named tables","A DHT or DQT segment that decodes replaces exactly the table slots it names (last definition wins) and leaves all others unchanged; destinations above 3, unknown classes or precisions are errors.","every segment content and prior table state","all contents",[f"{L}: do_segment, huffman_table, dqt"])
p("C39","Scan headers name existing components in frame order","A scan header is accepted only with 1..4 components that exist in the frame with strictly increasing frame index; a scan before any frame is an error.","every frame and header content","all headers",[f"{L}: sos_segment"])
p("C40","Comments do not affect decoding","Inserting a comment segment does not change the result. The code ignores the comment length, so this fails when the comment contains 0xFF followed by a marker code.","every comment body and following bytes","all comment contents",[f"{L}: do_segment (COM)", f"{M}: marker"])
p("C41","Malformed or unsupported files are reported as errors","decode returns Err rather than panicking on any input. The code violates this (empty frame, missing tables, progressive frames, grey images, trailing bytes, ...); each panic class has a witness and outside the listed conditions no panic occurs.","every byte string","adversarial inputs",[f"{L}: Decoder::decode and everything below it"])
p("C42","Decoding is independent of earlier decodes on the same Decoder","Decoding on a reused Decoder gives the same result as on a fresh one. The code keeps tables, frame, restart interval and colour transform, so this only holds for streams that define what they use.","every pair of inputs","histories",[f"{L}: Decoder"])
p("C43","Chunking does not change a streamed scan","Feeding a file to a streaming decoder in arbitrary chunks, suspending whenever data runs out, gives the same image or error as decoding it at once. With restart intervals the code violates this (the restart counter is decremented again on resume), and so it does when a chunk ends inside an end of band run (an error).","every split of every input","all chunkings",[f"{L}: DecoderCodec::decode, ReadDecoder::decode, decode_row, restart_parser"])
p("C44","Consecutive images on one streaming decoder","The second image decoded by a DecoderCodec or ReadDecoder equals decoding it alone. The code violates this: left-over bits of the first image stay in the bit buffer.","every pair of images","histories",[f"{L}: DecoderCodec::decode, ReadDecoder::decode"])
p("C45","End to end: decoding a baseline file returns the rendered picture","For every baseline three-component file laid out per T.81 (tables, frame header, one interleaved scan, optional restarts) decode succeeds and returns the picture obtained by dequantizing, inverse transforming, upsampling and colour converting the encoded blocks.","every picture size, content, table set and restart interval within the stated limits","all images",[f"{L}: decode"])
p("C46","Greyscale files decode","One-component baseline files decode to their luma plane. The code panics on them.","every one-component file","all images",[f"{C}: choose_color_convert_func", f"{L}: upsample"])
p("C47","Adobe RGB files decode to their samples","Three-component files with Adobe transform 0 decode to the interleaved component samples. The code returns an all-zero image.","every such file","all images",[f"{C}: color_convert_line_null"])
p("C48","IDCT scale selection","The scale chosen is the smallest of 1,2,4 whose scaled width or height reaches the requested one, else 8.","all sizes","2^64 size pairs",[f"{I}: choose_idct_size"])
p("C49","Reduced-size IDCTs agree on flat blocks","The 4x4 and 2x2 transforms of a DC-only block are flat with exactly the value of the 8x8 transform; the 1x1 transform truncates and is at most one below.","all DC values and quantizers within the bound","all values",[f"{I}: dequantize_and_idct_block_4x4, _2x2, _1x1"])
p("C50","Decoding terminates","Every loop of the decoder makes progress: the segment loop consumes input on every iteration, the coefficient loop advances its index, refills are bounded.","every byte string","termination",[f"{L}: decode_parser, decode_block", f"{B}: fill_bits"])
p("C51","IDCT accuracy","Every decoded sample differs from the real-valued inverse DCT of T.81 A.3.3 (level shifted, clamped) by at most 5/8 plus 1/5000 of the sum of the magnitudes of the dequantized coefficients.","all blocks with dequantized coefficients up to 2^16 whose exact samples lie in the clamp window; the integer formula: all coefficients","error bound over all coefficient combinations",[f"{I}: kernel, dequantize_and_idct_block_8x8_inner, stbi_f2f"])
p("C52","Files with one scan per component decode","A sequential file whose components come in separate scans decodes to the same image as the file with one interleaved scan. The code violates this: only the planes of the last scan are kept, so a three-component picture decodes only if the last scan header lists three components.","every file","all files",[f"{L}: decode_scan, do_segment (SOS), upsample", f"{U}: upsample_and_interleave_row"])
p("C53","Release builds agree with checked builds","For every input, a build with overflow checks and debug assertions either stops in such a check or returns exactly what the release build returns and leaves the same decoder.","every decoder state and byte string","configuration equivalence for all inputs",[f"{L}: segment, restart_parser, decode_scan, Decoder::dequantize", f"{H}: BaseTable::new", f"{U}: upsample_and_interleave_row", f"{I}: dequantize"])
p("C54","CMYK files decode to the inverted samples","Every four-component file laid out as the standard says with Adobe transform 0 decodes; byte i of pixel (x, y) is 255 minus the dequantised, transformed, clamped and upsampled sample of component i there. Without an Adobe transform the file is refused with the error meant for that. The code takes the samples of row y / V * V.","every picture, table, sampling factor and size","all files and pixels",[f"{C}: color_convert_line_cmyk, choose_color_convert_func", f"{L}: upsample"])
p("C55","YCCK files decode","Four-component files with an Adobe transform other than 0 decode to CMYK. The code panics: its conversion takes three lines and is given four.","every such file","all images",[f"{C}: color_convert_line_ycck", f"{U}: upsample_and_interleave_row"])
p("C56","Application segments do not affect decoding","Inserting an application segment that is not Adobe's does not change the result. The code refuses files with another APP14 segment; for all other application segments it holds.","every content and position","all contents",[f"{L}: do_segment, app_adobe"])
p("C57","Reduced transforms are the inverse DCT of the low frequencies","At scale 4 and 2 the samples are those of the 4- and 2-point inverse DCT of the low frequency corner of the block (same value as at full size for flat blocks), up to the stated rounding error; they are written to a square of that size and nowhere else; a square that does not fit and an unknown scale are panics.","every block, quantisation table, stride and output","real-valued accuracy for all coefficient blocks",[f"{I}: dequantize_and_idct_block, dequantize_and_idct_block_4x4, _2x2, _1x1"])
p("C58","No undefined behaviour","No file makes the decoder leave an array through one of its unchecked accesses (un-zig-zag, clamp tables of the colour conversion and of the transform) or hand out uninitialised memory (transform output, component planes), on any decoder state a program can reach, also when streaming.","every byte string, every reachable decoder, every split into chunks","undefined behaviour is invisible to tests",[f"{L}: UNZIGZAG, dequantize, results.set_len", f"{C}: clamp", f"{K}: clamp", f"{I}: dequantize_and_idct_block"])
p("C59","The image depends on the picture, not on how it is written down","Two sequential files laid out as the standard says with the same dimensions, sampling factors, quantisation tables and coefficients give the same result, whatever their component identifiers, table slots, Huffman codes, restart intervals, segment order, fill bytes, padding, comments and SOF0 or SOF1, on new and used decoders, provided that the same colour transform is in force.","every pair of such files and every pair of decoders","pairs of encodings of the same picture",[f"{L}: decode, do_segment, sos_segment, decode_scan"])
p("C60","Abbreviated images use the tables of earlier files","An image file that relies on tables defined by earlier files, decoded on the same decoder, gives the result of the file with these tables written out.","every file and every history of files before it","histories",[f"{L}: Decoder, do_segment"])
p("C61","Files with tables only","A file for table specifications (T.81 B.5) stores its tables and gives no image and no panic. The code panics on a new decoder, and returns the previous image on a used one.","every list of table segments, every decoder","histories",[f"{L}: decode_parser, upsample"])
p("C62","Files of other precision than 8 bits are refused","A frame header with a precision other than 8 is an error. The code ignores the precision.","every file and precision","all files",[f"{L}: sof, Frame"])
p("C63","End to end accuracy","Every channel of every pixel of a decoded three-component baseline file differs from the picture in exact arithmetic (real inverse DCT, linear interpolation, BT.601, no rounding) by at most 0.502 plus the weighted component errors, each 5/8 plus 1/5000 of the coefficient magnitudes of a block, plus 1/2 if subsampled: within 2.8 for full resolution files with coefficients up to 1000 per block. In CMYK files each byte differs by the error of its component only. The code takes the row y / V * V of the picture.","every picture, table set, size and sampling factors within the stated limits","error bound over all pictures",[f"{L}: decode", f"{I}: dequantize_and_idct_block_8x8_inner", f"{U}: upsample_row", f"{C}: ycbcr_to_rgb"])
p("C64","Encoding and decoding again gives the picture back","Take any RGB picture, convert it (BT.601), transform it (T.81 A.3.3), quantise to nearest and write it without subsampling in any way the standard permits: the decoder returns a picture of the same size whose channels differ from the original by at most half the Euclidean length of the quantisation tables (weighted as in BT.601) plus a stated rounding error below 11; likewise CMYK. Such a file exists for every picture; with quantisation tables of ones the picture comes back to within 20 of 255.","every picture, size, quantisation table of length up to 500, entropy code and layout","error bound over all pictures and encoders",[f"{L}: decode", f"{I}: dequantize_and_idct_block_8x8_inner", f"{C}: ycbcr_to_rgb, color_convert_line_cmyk"])
p("C65","Cut off files are errors, never images","A file that decodes, cut off at any byte, makes decode return an error (end of input; out of bits only if a table has end of band runs): no image and no panic. A streaming decoder that has been given a beginning of a file without restart intervals and end of band runs, in any pieces, keeps waiting for more.","every file that decodes, every reachable decoder, every cut, every split into chunks","all files and all cuts",[f"{L}: decode, decode_parser, DecoderCodec::decode"])
p("C66","Damage is confined to its restart intervals","Replace the entropy coded data of some restart intervals of a decodable three-component baseline file by any other bytes without markers (none, fewer or more): decoding returns an error, never a panic, or an image of the same size in which every pixel that no sample of a damaged interval contributes to is unchanged; without subsampling these are all pixels of the MCUs of the undamaged intervals.","every valid file, every set of damaged intervals, every replacement data, every reachable decoder","all corruptions",[f"{L}: decode_scan, restart_parser", f"{B}: Biterator::fill_bits", f"{U}: upsample_row"])
p("C67","Which well-formed sequential files decode","For every sequential file laid out as the standard says, decode's kind of result (image of width * height * components bytes, error, or panic) is determined by the number of components, the colour transform in force, the ratios of the sampling factors and the size, as in a table: fewer than three components panic; four without a colour transform are refused; ratios without an upsampler are refused; otherwise the file decodes, except YCCK and some files with horizontally halved components, which panic.","every valid file and every reachable decoder","all files",[f"{C}: choose_color_convert_func", f"{U}: Upsampler::new, upsample_and_interleave_row", f"{L}: upsample"])
p("C68","Files of other coding processes are refused with an error","Lossless, hierarchical, arithmetic coded and progressive files, and files with an unknown marker, make decode return an error. For progressive files the code violates this: every such file panics at its first scan.","every file of these processes, every reachable decoder, whatever follows the header","all files",[f"{M}: marker", f"{L}: sof, sos"])
p("C69","Header segments are accepted exactly if well formed","A frame header, quantisation, Huffman, restart interval, application or Adobe segment is accepted exactly if its content is laid out as the standard says; a file is refused with an error at its first malformed segment or at a first scan header that does not fit the frame header, whatever follows. The only contents that panic instead are Huffman tables without codes (with debug assertions also with more than 256) and frames without components.","every decoder, every list of well-formed segments before, every content of the segment, everything behind it","all segment contents",[f"{L}: segment, sof, huffman_table, dqt, dri, app_adobe, sos_segment, do_segment", f"{H}: BaseTable::new"])
p("C70","Reading a file from a reader gives what decode gives","ReadDecoder::decode on a reader that gives a file in pieces of any size, with I/O errors in between after which the caller calls again, returns the image decode returns for the file and keeps what follows it; a reader that ends before the file does gives an end of input error. With restart intervals and end of band runs the code violates this.","every file, reader, sequence of read sizes and I/O errors, every reachable decoder","all read patterns",[f"{L}: ReadDecoder::new, ReadDecoder::decode, decode_parser"])
p("C71","The image is the one that the entropy coded data describes","Read the bits between the markers of a sequential file with the decoding procedures of T.81 F.2.2. If they read as blocks, there is only one list of blocks that they are an encoding of, and the image is the picture of these; if they run into bits that no code word begins with, or a DC category above 11, decode returns an error, never a panic; an image is only returned for data of which every readable restart interval contributes its blocks. The code violates the claim that all other data is refused: end of band runs in sequential scans and data that ends early are accepted.","every byte string between the markers, every header laid out as the standard says, every reachable decoder","all entropy coded data, also such as no encoder writes",[f"{L}: decode_block, decode_row, decode_scan", f"{H}: DerivedTable::decode, AcTable::decode_fast_ac", f"{B}: Biterator::fill_bits, receive_extend"])
p("C72","A streaming decoder that has been given a whole file answers","A DecoderCodec or ReadDecoder that has been given a complete file, in any pieces, returns an image or reports an error; it asks for more input only as long as bytes are missing. The code violates this: undecodable entropy coded data and segments whose content ends before their length says so are taken for missing input, so that it waits for ever, whatever arrives.","every byte string, every split into chunks","all files and all splits",[f"{L}: DecoderCodec::decode, decode_block, do_segment", f"{H}: HuffmanTable::decode"])
p("C73","Scans over a band of coefficients","For a scan header that selects the coefficients Ss..Se with point transform Al, every block is decoded as T.81 G.1.2 (first scans) says: the DC value if Ss is 0, the AC coefficients of the band at their zig-zag places and multiplied by 2^Al, zeros elsewhere; an end-of-band run leaves the AC coefficients of so many blocks zero, and only of blocks that have AC coefficients in the band; bits that no code word begins with are refused. Bands encoded as in figures G.3 to G.6 come back. The code violates this for bands of a single AC coefficient: nothing is read.","every band, point transform, code, data, predictor and end-of-band run, every sequence of blocks","all encodings and run lengths",[f"{L}: decode_block, UnZigZag"])
p("C74","Data that end early","If the entropy coded data of a restart interval end before its MCUs do (the next marker follows), decoding goes on as if zero bits stood behind them: the image, the decoder afterwards, or the failure are those of the same file with zero bytes added to the data. So a file whose data, with zeros, read as MCUs decodes without an error to the full picture with these MCUs, and is refused if they read as invalid. The code violates this for data that contain 0xFF: bytes are read twice.","every laid out file, every way of cutting the data of its intervals short, every number of zeros, every decoder and configuration","where data end, relative to the bit buffer, in any interval of any file",[f"{I}: fill_bits, consume_bits",f"{L}: decode_scan"])
p("C75","Size of image and size of file","The size of a decoded image is bounded by a constant multiple of the size of the file (4096 bytes for each byte of a valid file). The code violates this for files whose data end early: 148 bytes give an image of any size up to 65535 by 65535 samples of three bytes.","every valid file, every decoder and configuration; every width and height for the violation","all files, all sizes",[f"{I}: fill_bits",f"{L}: sof, decode_scan"])
p("C76","Floating point rounding does not matter","The rows that a picture is interpolated from and the twelve constants of the inverse transform, computed in f32, and the constants of the colour tables, computed in f64, are the mathematically exact ones: any rounding of the operations to at least 20, 22 and 40 significant bits gives the same rows for every picture height up to 65535 and the same constants.","every rounding function, every row and height","all rounding modes and heights",[f"{U}: UpsamplerH1V2, UpsamplerH2V2",f"{C}: fix!, cr_to_r_fn, cb_to_b_fn, cr_to_g_fn, cb_to_g_fn",f"{I}: stbi_f2f"])
p("C77","Segments between the scan and the end of the image","What stands between the scan of a sequential file and EOI does not change the picture: tables, restart intervals, application segments and comments there have no effect on the result, but are kept for later files; an unknown marker there makes the file refused with an error. The code violates this for Adobe segments, which act as if they stood in front of the scan: they change the colours, or turn a file that decodes into one that panics.","every valid file, every list of well-formed segments, every decoder","all segments in all places",[f"{L}: do_segment, segments loop, upsample, app_adobe",f"{C}: choose_color_convert_func"])
p("C78","Number of lines defined after the scan","A frame header with 0 lines leaves the number of lines to a DNL segment behind the first scan (T.81 B.2.5): such a file decodes to a picture of that many lines, and is refused if the segment is missing. The code violates both: with the segment every such file is refused, without it every such file gives an image without pixels, whatever its data.","every laid out file with 0 lines, all data with and without restart markers, every decoder","all files with 0 lines",[f"{M}: marker",f"{L}: sof, decode_scan"])
p("C79","The bit reader as a stream of booleans","Read through combine's stream interface the bit reader is the list of the buffered bits, the data bits and eight zero bits in front of a marker: single bits, remembered positions and going back to them behave as on that list, n single bits are the digits of next_bits(n), and at the end of the input without a marker the end is reported when no bit is left, and only then. The code violates the last part: unless the number of data bytes is a multiple of eight the end is reported once while bits are left, which further attempts then deliver.","every reader state, all data, every sequence of take, remember and go back; every number of attempts","all programs over the stream interface",[f"{I}: uncons, checkpoint, reset, fill_bits"])
p("C80","A stream of images from an asynchronous reader","DecoderCodec in tokio's FramedRead over a reader that gives a file in pieces of any size, with any waiting in between: the stream has one item, the image decode returns for the file, and ends; two files one after the other give their two images; an error decode reports, or one of the reader, is the item instead. With restart intervals, end of band runs and bits left over by the first image the code violates this.","every file, every sequence of reads, waits and errors of the reader, every reachable decoder","all read patterns",[f"{L}: DecoderCodec::decode, decode_parser"])
p("C81","A stream that ends inside a file reports it","When the reader ends before the file is complete, the stream has no image for it and its last item is an error. The code violates the second part: cut behind any header segment, the stream ends as if there had been no file.","every file that decodes, every cut, every sequence of reads; every list of well-formed header segments","all cuts and read patterns",[f"{L}: DecoderCodec::decode"])
p("C82","Only data framed as a file are decoded","decode returns an image only for data that begin with the start of image marker, have a frame header and behind it a scan header, and end with the end of image marker. The code violates the first part: the marker at the start is not looked for, bytes in front of it are skipped; and, in builds without debug assertions, the third: a file without a scan is an image of zeros.","every byte string, every reachable decoder and configuration","all data",[f"{L}: decode, decode_parser, do_segment, upsample",f"{M}: marker"])
p("C83","Files that can be delivered in any pieces","A file that decode accepts, in which the bytes FF DD do not occur and whose AC tables have no end of band runs, may be delivered to a DecoderCodec in FramedRead and to a ReadDecoder in pieces of any size, with waiting and (for the ReadDecoder) errors in between: the result is that of decode. So the quickcheck tests partial_async_read_green and partial_sync_read_green hold for every sequence of reads.","every such file, every sequence of reads","the tests run random sequences; all of them are meant",[f"{L}: DecoderCodec::decode, ReadDecoder::decode","tests/test.rs: partial_async_read_green, partial_sync_read_green"])
p("C84","The images of the repository's tests","decode returns the bytes that tests/test.rs expects for green.jpg, simple.jpg and simple-vertical.jpg, however they are delivered. The code violates this for the latter two: the odd rows are those above them (C33).","every sequence of reads of these files","the tests run random sequences; all of them are meant",["tests/test.rs: green_basic, simple_basic, simple_vertical_combine, partial_async_read_simple, partial_sync_read_simple, simple_partial",f"{L}: upsample"])
p("C85","Pictures of one colour","A three-component baseline file whose components all have one sample value everywhere decodes to a picture whose pixels are all of the BT.601 colour of the three values (grey values exactly), a four-component Adobe file with transform 0 to the inverted values: for every size, restart interval, table set and every choice of sampling factors that the decoder can render, also those for which it uses the wrong rows, in debug and release builds, with and without rayon, on new and used decoders.","every file of one colour, every build","all sizes, sampling factors, tables and DC coefficients",[L+": decode, dequantize, upsample",U+": Upsampler::upsample_and_interleave_row",C+": color_convert_line_ycbcr, color_convert_line_cmyk"])
p("C86","A larger DC coefficient never makes a picture darker","Take two three-component baseline files of the same size, sampling factors and quantisation tables whose coefficients agree except that the DC coefficients of the first component of the second are at least as large: no byte of the second image is smaller than that of the first, however the two files are written, on new and used decoders, in every build.","every pair of such files that the decoder can render","pairs of pictures",[L+": decode",I+": dequantize_and_idct_block_8x8_inner",U+": upsample_row",C+": ycbcr_to_rgb"])
p("C87","A pixel depends on the MCUs around it only","A pixel of a YCbCr or CMYK baseline file without subsampling is determined by the MCU it lies in, the place within it and the quantisation tables: moving MCUs, within a picture or between pictures of any sizes, moves pixels, and cutting a picture along MCUs cuts the image. With subsampling it is determined by that MCU and those next to it. The code violates the latter with rayon and vertical subsampling: the last pixel of a column may change with an MCU far above.","every pair of files, all pixels, every decoder and build","pairs of pictures that agree only locally",[L+": decode, upsample",U+": upsample_row",I+": dequantize_and_idct_block_8x8_inner"])
p("C88","Lossless flips","Turn a picture upside down (left to right) without decoding it, by moving its MCUs and changing the signs of the coefficients of odd vertical (horizontal) frequency: the decoded image is upside down (left to right), exactly. This holds upside down for files without vertical subsampling; the code violates it with vertical subsampling, where it repeats lines, and left to right, where the two passes of the inverse DCT round differently: channels then differ by up to 3.","every picture whose flipped edge is made of whole MCUs, every decoder and build","pairs of pictures",[I+": dequantize_and_idct_block_8x8_inner",U+": upsample_row",L+": decode"])
p("C89","The image depends on the dequantised coefficients only","Two YCbCr or two CMYK baseline files of the same size and sampling factors whose coefficients, multiplied by the entries of their quantisation tables, are the same decode to the same image: coarse tables with small coefficients or fine tables with large ones, in whatever slots, with whatever Huffman codes and restart intervals.","every pair of such files, every pair of decoders, every build","pairs of pictures",[L+": dqt, decode",I+": dequantize_and_idct_block_8x8_inner"])
p("C90","Values beyond the range of a sample are limited to it","Coefficients of a picture after quantisation may give values below 0 and above 255 in the inverse transform. They are shown as 0 and 255: whiter than white is white. The code does so for values in -256..767 only, pixel by pixel; other values are first reduced modulo 1024 to that range, so that a picture of value 768 everywhere is black.","every file with dequantised coefficients up to 2^16 in magnitude, all pixels, every decoder and build","the values are sums of 64 products; extreme coefficients in all combinations",[I+": dequantize_and_idct_block_8x8_inner",K+": stbi_clamp",L+": decode"])
p("C91","Lossless transposition and quarter turns","Exchange the rows and columns of a picture without subsampling, or turn it by a quarter, without decoding it, by moving its MCUs and the coefficients within the blocks (and the entries of the quantisation tables): the decoded image has its rows and columns exchanged (is turned), exactly. The code violates this, since its inverse DCT rounds after the columns and again after the rows: channels differ, but by no more than 3.","every picture (for turns: of whole MCUs in height), every decoder and build","pairs of pictures",[I+": dequantize_and_idct_block_8x8_inner",L+": decode"])
p("C92","Change of brightness without decoding","Add 8k to the dequantised DC coefficient of every luminance block of a picture, without decoding it: every channel of every pixel of the decoded picture is larger by exactly k (smaller for negative k), limited to 0..255, wherever the luminance was and stays within 0..255. Do so with one ink of a CMYK picture: the byte of that ink changes by exactly -k, the other bytes not at all.","for all baseline files with luminance (or the ink) at full resolution and any subsampling of the other components that can be rendered, all k, tables, codes, restart intervals, decoders and build configurations","Brightness tools for JPEG files work on coefficients; that the result is a shift of exactly k, without rounding in either pass of the transform or in the colour conversion, is a statement about all coefficients.",[I+": dequantize_and_idct_block_8x8_inner",C+": color_convert_line_ycbcr",L+": decode"])
p("C93","Lossless cutting out of a part","Keep the MCUs of a rectangle of a picture, without decoding it, and announce the size of the rectangle: the decoded image is that part of the image of the whole picture, pixel by pixel. With subsampling the pixels next to a cut are excepted, since they are interpolated from both sides. The code violates this with the rayon feature and vertical subsampling: its lines come from other rows (C34), and where they come from depends on the place in the picture.","every picture, every rectangle that begins at a corner of MCUs, every decoder and build","pairs of pictures",[L+": decode",L+": upsample",U+": Upsampler"])
p("C94","Small changes of coefficients are small changes of the image","If the dequantised coefficients of two files of the same sizes differ by at most D in every block, in sum, then no byte of a CMYK image differs by more than D / 4 + 1 and no byte of an RGB image by more than three times that. So much at most is lost by quantising a picture again or by dropping small coefficients.","every pair of baseline files that can be rendered, whose values are in the range that is clamped properly; all tables, codes, restart intervals, decoders and builds","pairs of pictures; the errors of 64 coefficients, two roundings, interpolation and colour conversion in all combinations",[I+": dequantize_and_idct_block_8x8_inner",U+": upsample_row",C+": ycbcr_to_rgb",L+": decode"])
p("C95","Colour taken out without decoding","A three-component baseline file with all chrominance coefficients set to zero decodes to a grey picture (three equal channels), and the grey of a pixel is the luminance 0.299 R + 0.587 G + 0.114 B of the same pixel of the coloured file, up to 0.501; where a channel of the coloured pixel is 0 (255) the grey may be smaller (larger).","every pair of such files, every subsampling that can be rendered, every decoder and build","relation between two files for all pictures",[f"{C}: ycbcr_to_rgb, color_convert_line_ycbcr", f"{I}: dequantize_and_idct_block_8x8_inner", f"{U}: upsample_row"])
p("C96","Every error names a fault of the file","Whenever decode reports an error of one of its 23 kinds, the file has the fault the error is about: a marker code the decoder does not know; a segment with the field that is out of range, behind fields that are in order; a scan header naming a component the frame does not have, or components out of order; a table the scan selects but that was never defined, or that holds a value sequential files cannot have; a marker other than the restart marker due; or, at the end of the file, a frame for which there is no colour conversion or no upsampler. Each kind of error occurs.","every byte string, every reachable decoder and configuration","all files, also such as no encoder writes",[f"{L}: decode, do_segment, sof, dqt, huffman_table, app_adobe, sos_segment, decode_scan, decode_block, restart_parser, upsample", f"{M}: marker", f"{H}: BaseTable::new, AcTable::new", f"{U}: Upsampler::new, choose_upsampler", f"{C}: choose_color_convert_func"])
p('C97','What follows a fault does not matter',
"Once `Decoder::decode` has found a fault in a file, that is an error or panic other than missing data, it reports the same fault, with the decoder in the same state, for every file that begins with these bytes; no such file decodes to an image. (The one report that changes is that of an image whose components cannot be put together: with bytes behind the image it is the panic about these bytes.) Of two files one of which begins with the other at most one decodes. A streaming decoder that reports a fault reports the one `decode` gives for every file beginning with what it was fed, unless the data were split at a restart marker (C43).",
"for all decoders, all files and all continuations of them",
"a test tries one file, and not every continuation of it",
[L+':889-905',L+':1389-1417',L+':1557-1607',B+':81-105'])
p('C98','Components act on their own colours only',
"Of two baseline pictures of the same size that `decode` renders: if they differ in the second component (Cb) only, no red byte of the image differs, and where blue gets larger green does not; if they differ in the third component (Cr) only, no blue byte differs, and where red gets larger green does not; if they differ in the first component only, the three bytes of a pixel differ by the same amount unless they are 0 or 255; of four inks (CMYK) each byte depends on its own component alone. Whatever the coefficients, the other components' sampling factors and tables, the Huffman codes, the restart intervals, the decoders and the build.",
"for all pairs of valid baseline files with three components (YCbCr) or four (CMYK) and all coefficients, however large",
"a test compares two files; a mix-up of components that shows only for some coefficients or factors would pass",
[L+':1419-1500',C+':54-66',C+':84-94',C+':171-188'])
p('C99','Upsampling keeps order and straight ramps',
"If in every row of a component the samples do not get smaller from left to right, they do not in any line the upsampler makes of it (nor larger, if they do not get larger): interpolation adds no edges; the same from top to bottom, from one line to any line below it. A component of half the resolution whose samples change by the same multiple of 4 from column to column and from row to row comes out, away from the borders, as exactly the same ramp at the middles of the pixels. In an image of three components red does not get smaller from left to right if the samples of Y and Cr do not, blue if those of Y and Cb do not, green if those of Y do not get smaller and those of Cb and Cr do not get larger; and the other way round; each byte of a CMYK image follows its component; the same from top to bottom.",
"for all components, geometries, sampling factors, samples, lines and columns; for all valid baseline files whose coefficients are those of a picture",
"a test checks a few lines of samples; rounding that breaks the order in some neighbourhood would pass",
[U+':127-323',L+':1419-1500'])
p('C100','Pictures added and negatives made without decoding',
"If the dequantised coefficients of a picture are the sums of those of two others of the same size and sampling factors, and no value of the three leaves 0..255 before the colour conversion, its image is the sum of the two images, as differences from 128, up to rounding: within 1 for a sample, within 1 (2 with subsampling) for a byte of a CMYK image, within 4 (7 with subsampling) for a channel that is 0 or 255 in neither of the two. With the signs of all coefficients changed the image is the negative, with the same bounds.",
"for all valid baseline files with three components (YCbCr) or four (CMYK) that can be rendered, all tables, codes, restart intervals, decoders and builds",
"relation between three pictures; two roundings of the transform, the interpolation and the colour conversion in all combinations",
[I+': dequantize_and_idct_block_8x8_inner',U+': upsample_row',C+': ycbcr_to_rgb',L+': decode'])
p('C101','Pictures joined without decoding',
"Put the MCUs of a picture behind those of another of the same width that ends with a whole row of MCUs, and announce the sum of the heights: the decoded image is the image of the first followed by that of the second. Put them side by side: every line of the image is a line of the first followed by one of the second. With subsampling across the joint the pixels next to it are excepted, since they are interpolated from both sides. The code violates this with the rayon feature and vertical subsampling: the lines of the lower picture come from other rows (C34).",
"for all pairs of valid baseline files with three components (YCbCr) or four (CMYK) that can be rendered, as the joined one can, all tables, codes, restart intervals, decoders and builds",
"relation between three pictures of all sizes",
[L+': decode',L+': upsample',U+': Upsampler'])
p('C102','The mean of a block is its DC coefficient',
"The 64 samples the inverse transform makes of a block have the mean 128 + DC / 8, whatever the other coefficients are, up to 33 / 64 for the rounding of single samples. So the transform for a picture of an eighth of the size gives the means of the blocks (rounded down), and in a decoded image whose values stay within 0..255, without vertical subsampling, the mean of each ink (CMYK) or of the luminance (YCbCr, up to the rounding of the colours) over a block is the one its DC coefficient tells.",
"for all blocks of integers; for all valid baseline files with three components (YCbCr) or four (CMYK) that can be rendered, all blocks within the picture, all tables, codes, restart intervals, decoders and builds",
"sums of 64 samples with two roundings each, for all coefficients",
[I+': dequantize_and_idct_block_8x8_inner, dequantize_and_idct_block_1x1',C+': ycbcr_to_rgb',L+': decode'])
p('C103','Damage does not show in front of its place',
"If the entropy coded data of a restart interval is changed behind the bits of its first m MCUs, in any number of intervals and into any bytes without markers, decoding fails with an error and not a panic, or gives an image of the same size in which all pixels to which only intact MCUs contribute are as they were. Without restart markers and subsampling: the first m blocks of 8 by 8 pixels are as they were.",
"for all valid baseline files with three components (YCbCr) or four (CMYK) that can be rendered, all numbers of intact MCUs per interval, all replaced data, all tables, codes, decoders and builds",
"all damages of all files; the decoder looks ahead, so that bits behind an MCU take part in the decoding of it",
[B+': fill_buffer',H+': decode',L+': decode_scan, decode_row'])
p('C104','Contrast changed without decoding',
"If the dequantised coefficients of a picture are t times those of another of the same size and sampling factors, for instance because every entry of the quantisation tables has been multiplied by t, and no value of the two leaves 0..255 before the colour conversion, its image has t times the contrast: the difference of every value from the middle is t times what it was, up to rounding: e (1 + |t|), with e = 5/8 for a sample, 5/8 (9/8 with subsampling) for a byte of a CMYK image, 9/4 (29/8 with subsampling) for a channel of an image made from YCbCr that was neither 0 nor 255.",
"for all rational t (also negative), all valid baseline files with three components (YCbCr) or four (CMYK, a factor for each ink) that can be rendered, all tables, codes, restart intervals, decoders and builds",
"relation between two pictures for all factors; two roundings of the transform, the interpolation and the colour conversion in all combinations",
[I+': dequantize_and_idct_block_8x8_inner',U+': upsample_row',C+': ycbcr_to_rgb',L+': decode'])
p('C105','A picture without colour does not depend on how the colour is subsampled',
"Two files of the same picture without colour (all chrominance coefficients zero, the same luminance coefficients for every pixel) that subsample the chrominance differently give the same image.",
"for all valid baseline files with three components that can be rendered, coefficients up to 2^16, all tables, codes, restart intervals, decoders and builds; false for different vertical subsampling, where lines are repeated",
"relation between two files with a different order of their blocks and different upsampling, for all pictures",
[U+': upsample_row',C+': ycbcr_to_rgb',L+': decode'])
p('C106','The mean square difference of two pictures is that of their coefficients',
"The root of the sum of the squared differences of the 64 samples of two blocks is that of the squared differences of their dequantised coefficients, up to 9.9 (1.24 for the root mean square) and 1.3 per cent: for the values of the transform, for the bytes of a block (samples that have been limited can only be closer), for an ink of two CMYK pictures at full resolution, and for the luminance of two YCbCr pictures (up to 18 and 1.3 per cent) where no channel has been limited. Over whole pictures whose sides are multiples of eight the root mean squares agree likewise (up to 1.24 or 9/4, and 1.3 per cent).",
"for all pairs of blocks of integers; all pairs of valid baseline files of the same size that can be rendered, without vertical subsampling, no sample beyond 0..255; all tables, codes, restart intervals, decoders and builds",
"needs that the transform keeps lengths (Parseval), up to the rounding of both passes, for all blocks",
[I+': dequantize_and_idct_block_8x8_inner',C+': ycbcr_to_rgb',L+': decode'])
p('C107','Only the ratios of the sampling factors matter',
"Two files with the same blocks in their components and sampling factors of the same ratios to the largest ones (for instance all factors 2 by 1 and all factors 1 by 1, or 4:2:2 written with factors 4, 2, 2) give the same image; only the order of the blocks in the file differs, and the blocks beyond the edge.",
"for all valid baseline files with three components (YCbCr) or four (CMYK) that can be rendered, all coefficients, tables, codes, restart intervals, decoders and builds; false for different largest vertical factors, where lines are repeated",
"relation between two files with a different order of their blocks, for all pictures and factors",
[L+': decode_row, upsample',U+': choose_upsampler, upsample_row'])
p('C108','Saturation changed without decoding',
"If the dequantised chrominance coefficients of a picture are s times those of another and the luminance coefficients the same, for instance because every entry of the quantisation tables of the chrominance has been multiplied by s, and no sample of the two leaves 0..255 before the colour conversion, its image has s times the saturation: in every pixel of which no channel was limited, the difference of each channel from the luminance 0.299 R + 0.587 G + 0.114 B is s times what it was, limited to 0..255, up to 3 (1 + |s|); 17/8 (1 + |s|) without subsampling. The luminance of the pixel stays, up to rounding.",
"for all rational s (also negative), all valid baseline files with three components that can be rendered, all tables, codes, restart intervals, decoders and builds",
"relation between two pictures for all factors; roundings of the transform, the interpolation and the colour conversion in all combinations",
[I+': dequantize_and_idct_block_8x8_inner',U+': upsample_row',C+': ycbcr_to_rgb',L+': decode'])
p('C109','Inks exchanged without decoding',
"The inks of a CMYK picture are treated alike: if component j of a file is component i of another of the same size (same sampling factors, quantisation table and blocks), byte j of every pixel of its image is byte i of the same pixel of the other image. Files whose components are permuted give images whose bytes are permuted within the pixels.",
"for all valid baseline CMYK files that can be rendered, all coefficients, all pairs of components, all tables, codes, restart intervals, decoders and builds",
"all permutations of components of all pictures; the components share buffers, the order of the blocks in the file and the upsampler",
[L+': decode_row, upsample',U+': upsample_and_interleave_row',C+': color_convert_line_cmyk'])
p('C110','The coefficients can be read back from the image',
"Decoding loses nothing that was coded coarsely: if the images of two files of the same size agree in the 64 bytes of a CMYK ink in a block (no value outside 0..255), the dequantised coefficients of the block differ by at most 10, so with the same quantisation table, entries at least 11, they are the same. Likewise for the luminance of YCbCr pictures if the 64 pixels agree and no channel is limited: at most 18, the same with entries at least 19. With entries of 7 there are different blocks with the same bytes.",
"for all pairs of valid baseline files of the same size without vertical subsampling that can be rendered, the component at full resolution, all blocks within the picture, all tables, codes, restart intervals, decoders and builds",
"injectivity: all pairs of pictures; roundings of the transform and the colour conversion in all combinations",
[I+': dequantize_and_idct_block_8x8_inner',C+': ycbcr_to_rgb',L+': decode'])
p('C111','Pictures blended without decoding',
"If the dequantised coefficients of a picture are s times those of one picture plus t times those of another of the same size and sampling factors (with s + t = 1 a cross-fade), and no sample of the three leaves 0..255 before the colour conversion, its image is the blend of their images: every channel of every pixel is 128 + s (a - 128) + t (b - 128), limited to 0..255, up to 29/8 (1 + |s| + |t|), where the channels a and b were not limited; 9/4 (1 + |s| + |t|) without subsampling. The bytes of CMYK pictures are 127 + s (a - 127) + t (b - 127) up to 9/8 (1 + |s| + |t|), 5/8 (1 + |s| + |t|) without subsampling.",
"for all rational s and t (also negative), all valid baseline files with three components (YCbCr) or four (CMYK) that can be rendered, all tables, codes, restart intervals, decoders and builds",
"relation between three pictures for all pairs of factors; roundings of the transform, the interpolation and the colour conversion in all combinations",
[I+': dequantize_and_idct_block_8x8_inner',U+': upsample_row',C+': ycbcr_to_rgb',L+': decode'])
open('/verif/properties.jsonl','w').write(''.join(json.dumps(x)+'\n' for x in P))
print(len(P))
