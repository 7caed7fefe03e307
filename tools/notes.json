{
 "C01": {
  "status": "proved",
  "note": "Any valid state, any data, any marker, any request sizes 1..16."
 },
 "C02": {
  "status": "proved",
  "note": "Padding, marker kept, marker bytes never data, zeros for ever when no 0xFF is left to load; the replay witness shows the last condition is needed."
 },
 "C03": {
  "status": "proved",
  "note": "In front of a marker. Without a marker behind the data the refill of the split read can fail (C03_no_marker_witness)."
 },
 "C04": {
  "status": "proved",
  "note": "All histories of reader operations over any bytes; count underflow and shifts of 64 or more are explicit panics in the model."
 },
 "C05": {
  "status": "proved",
  "note": "All categories 1..15 and all bit patterns."
 },
 "C06": {
  "status": "proved",
  "note": "Complete case split over all count vectors with matching values."
 },
 "C07": {
  "status": "proved",
  "note": "Canonical codes are specified by Kraft sums, not by the generation procedure."
 },
 "C08": {
  "status": "proved",
  "note": ""
 },
 "C09": {
  "status": "proved",
  "note": "Any state, any input, including refills and failures."
 },
 "C10": {
  "status": "proved",
  "note": "Against the anti-diagonal walk, not a copied table."
 },
 "C11": {
  "status": "proved",
  "note": "Both precisions, from the segment body bytes to the stored table."
 },
 "C12": {
  "status": "proved",
  "note": "Any band, approximation, table pair, EOB run and input; progressive scans are covered at block level although the decoder refuses progressive frames."
 },
 "C13": {
  "status": "proved",
  "note": "For every admissible encoding (relation), the standard encoder being one; completeness of the encoder also shown."
 },
 "C14": {
  "status": "proved",
  "note": "Accumulation within a component, per component over the MCUs of an interval, zero at scan start and after each restart marker."
 },
 "C15": {
  "status": "proved",
  "note": "Including retry with more input, and that no failure is a panic when the selected tables exist."
 },
 "C16": {
  "status": "proved",
  "note": "At most ten blocks per MCU (the decoder's buffer)."
 },
 "C17": {
  "status": "proved",
  "note": "All intervals below 2^16 (the field is 16 bits), all MCU counts, all inputs; required, rejected, not required, counter, and acceptance of well-formed scans."
 },
 "C18": {
  "status": "proved",
  "note": "All 16-bit dimensions, all component lists accepted by the parser with 1..4 sampling factors; the f32 computation is modelled with round-to-nearest-even and proved equal to the exact ceilings."
 },
 "C19": {
  "status": "proved",
  "note": "For every accepted frame header: allocated planes cover the component, products fit the machine types."
 },
 "C21": {
  "status": "proved",
  "note": "All blocks and tables. C21_clamp_add: the checked addition in front of the table does not overflow."
 },
 "C22": {
  "status": "proved",
  "note": "All DC values and quantizers; the saturated form holds exactly for products -3076..5115, with counterexamples just outside."
 },
 "C23": {
  "status": "proved",
  "note": "All blocks whose shortcut columns have a first coefficient below 2^19; counterexample at 2^19."
 },
 "C24": {
  "status": "proved",
  "note": "Visible wrapping excluded up to 2^16 (counterexample below 2^17), any wrapping of pre-shift values up to 2^11."
 },
 "C25": {
  "status": "proved",
  "note": "All 32-bit values; saturation on -256..767, aliasing outside with counterexamples."
 },
 "C48": {
  "status": "proved",
  "note": "All sizes 1..65535; width 0 panics in debug builds."
 },
 "C49": {
  "status": "proved",
  "note": "All blocks with only a DC coefficient."
 },
 "C51": {
  "status": "proved",
  "note": "Real analysis over Mathlib's reals; constant 5/8 + sum|F|/5000. C51_constants: the twelve constants from the decimal literals of the source in single precision."
 },
 "C26": {
  "status": "proved",
  "note": "All 2^24 YCbCr triples by algebra, lifted to lines of any length; no wrapping, no table index out of range."
 },
 "C27": {
  "status": "proved",
  "note": "Against the real valued BT.601 equations, over the rationals."
 },
 "C28": {
  "status": "proved",
  "note": "Selection table, CMYK lines, YCCK panics."
 },
 "C20": {
  "status": "proved",
  "note": "Any coefficients, any accepted frame geometry; tiling by induction over MCUs."
 },
 "C29": {
  "status": "partial",
  "note": "All planes, rows, columns and old line buffers; fails only for the columns of an incomplete last group of the nearest neighbour upsampler, which are proved to come out 0 (C29_trailing_columns_violated)."
 },
 "C30": {
  "status": "proved",
  "note": "Complete decision, for arbitrary factors; frame level without panics."
 },
 "C31": {
  "status": "proved",
  "note": "Neighbours are the samples at most one row and column away; interpolating upsamplers only."
 },
 "C32": {
  "status": "partial",
  "note": "The code violates it. Exact characterisation: C32_no_panic_partial for all frames without the 2x1 defect, C32_violated proves the panic for all others."
 },
 "C33": {
  "status": "partial",
  "note": "The code violates it for vertical factors above 1 (C33_violated: lines of a group are always identical). C33_group_row says which row each line shows in every case."
 },
 "C34": {
  "status": "partial",
  "note": "The code violates it for vertical factors above 1 (C34_violated). Equality proved for vertical factor 1 or a single group of lines, for every decoder state; scheduling independence of the line buffers proved for all frames."
 },
 "C36": {
  "status": "proved",
  "note": "First marker position, unknown codes, no marker, and the converse."
 },
 "C37": {
  "status": "proved",
  "note": "SOF, DHT, DQT, DRI, APPn and scan headers; the wrap-around of lengths below 2 in release builds is part of the converse. Comments have no segment in the code, see C40."
 },
 "C38": {
  "status": "proved",
  "note": "Forward and converse; the eight Huffman and four quantisation slots, the last definition counts."
 },
 "C39": {
  "status": "proved",
  "note": "Acceptance as an equivalence; a scan before a frame and bad component counts are errors."
 },
 "C35": {
  "status": "proved",
  "note": "Every decoder state; on a new decoder the size is traced to a frame header in the file; only accepted frame headers change the frame. C35_streaming for images of a codec."
 },
 "C40": {
  "status": "partial",
  "note": "The code violates it (C40_violated: a comment FF D9 makes every file fail). Proved for comments without a marker-like byte pair: at every segment boundary (C40_comment_skipped_partial), for whole files behind table, header and application segments (C40_file_partial), and between scan and end (C40_behind_partial)."
 },
 "C41": {
  "status": "partial",
  "note": "The code violates it. C41_panics_listed_partial: every panic of every decode on every decoder a program can hold is in a listed class; C41_violated_*: a whole-file witness, run by the kernel, for the classes. Every class says which panic it is. C41_trailing: bytes behind a complete image make decode panic, for every file. C41_streaming_panics_listed_partial, C41_reader_panics_listed_partial: the same for every call of a streaming decoder and of a ReadDecoder; the classes are those of decode with the frame, tables and planes of the suspended decoder, and the restart counter."
 },
 "C50": {
  "status": "proved",
  "note": "The fuel of the model is never exhausted, every sufficient bound gives the same run, each round of the segment loop takes at least two bytes. C50_streaming: the same for every call of a streaming decoder. C50_framed: in FramedRead the codec is called finitely often per read."
 },
 "C42": {
  "status": "partial",
  "note": "The code violates it: C42_violated (the frame and planes of the previous file are returned for an empty file), C42_violated_color (colour transform kept). Proved: C42_reuse_partial, every well-formed one-scan file of one to four components gives the same result (image, error or panic) on any two decoders, new or used, with the same restart interval and colour transform in force, abbreviated files (tables from earlier files) included; C42_reuse_fresh_partial for files that set the restart interval."
 },
 "C46": {
  "status": "partial",
  "note": "Refuted for every one-component file that reaches the end of the image (C46_violated), for every file and decoder (C46_never_decodes), with a whole-file witness. Nothing of the claim holds. C46_violated_every_file: every one-component file laid out as the standard says panics."
 },
 "C47": {
  "status": "partial",
  "note": "Refuted for every such file: the image is zero in every byte (C47_violated), with a whole-file witness. Nothing of the claim holds unless all samples are 0. C47_violated_every_file: every RGB file laid out as the standard says (renderable factors) decodes to zeros."
 },
 "C45": {
  "status": "partial",
  "note": "C45_decodes: every well-formed three-component single-scan file (table, application, Adobe and comment segments in any number and order) with renderable sampling factors decodes, on new and used decoders. C45_pixels_partial: every pixel, from the bytes to the colour, for all pictures in coefficient range. Partial because of the known line duplication (C33): the row used is y/V*V (y/V with rayon); C45_pixels_own_row_partial for vertical factors 1. The files excluded by Renderable are the defects of C29 and C32."
 },
 "C43": {
  "status": "partial",
  "note": "The code violates it: a split in front of a restart marker makes the counter run down twice (panic or another image, C43_violated_restart), a split inside an end of band run is an error (C43_violated_eobRun). Proved: every other split of every file on every decoder gives the result of decode; exact for baseline files without restart intervals and end of band runs. In checked builds the exception is exact: a codec that stopped for a restart marker panics on whatever comes next (C43_restart_panics), and of a file that decodes the image is returned if and only if no piece ends there or in the bits of an end of band run (C43_exact_partial). The partial state combine keeps inside a table or header segment is represented by leaving the bytes in the buffer."
 },
 "C44": {
  "status": "partial",
  "note": "The code violates it (C44_violated; C44_data_ignored_violated: with six zero bits left over, a file with one-bit codes gives the flat picture whatever its data are). Proved: the codec returns for the next file what the parser returns when it starts with the left-over bits, and keeps the bytes behind it; with an empty bit buffer this is the result of decode; for every baseline file, the picture is that of the MCUs read from the left-over bits followed by the data (C44_shifted_partial). C44_left_over_violated: every baseline picture whose data do not end with a whole byte leaves its padding bits in the buffer, so the buffer is never empty after such a picture."
 },
 "C52": {
  "status": "partial",
  "note": "Refuted: a three-component picture (not Adobe transform 0) decodes on a new decoder only if the last scan header lists at least three components (C52_violated, every file), with a three-scan file that panics in both kinds of build. What holds is the interleaved case, C45."
 },
 "C53": {
  "status": "proved",
  "note": "Result and decoder state; the panics excepted are exactly those of PanicSite.Checked; C53_exception shows the exception is needed. C53_streaming: also for streaming decoders, call by call and over any sequence of chunks."
 },
 "C55": {
  "status": "partial",
  "note": "Refuted: no such picture decodes with debug assertions, and without them only if the last scan leaves a component out (C55_violated, every file); witness file that decodes as CMYK and panics as YCCK. C55_violated_every_file: every YCCK file laid out as the standard says (renderable factors, not empty) panics. C55_black_not_read: with three lines given the conversion complements what stood in the output line, never the black samples."
 },
 "C56": {
  "status": "partial",
  "note": "Proved for APP0-13 and APP15 with any content, anywhere between two segments (any decoder state) and for whole files; refuted for APP14 segments that are not Adobe's (C56_violated)."
 },
 "C54": {
  "status": "partial",
  "note": "C54_decodes (every well-formed CMYK file with renderable sampling factors), C54_without_adobe (error). C54_pixels_partial: every byte, partial because of the line duplication (C33): the row used is y/V*V (y/V with rayon); C54_pixels_own_row_partial for vertical factors 1."
 },
 "C57": {
  "status": "proved",
  "note": "C57_4x4: error at most 5/8 plus 1/5000 of the sum of the magnitudes; C57_2x2: at most 1/2; C57_writes, C57_dispatch. The 1x1 case is C49_1x1. decode only ever uses scale 8."
 },
 "C58": {
  "status": "proved",
  "note": "Unchecked accesses outside their array and reads of uninitialised memory are failures of their own in the model (PanicSite.Undefined); no decode ends in one. C58_streaming: nor does any call of a streaming decoder, for all codecs reachable by pushing bytes and polling (invariant over suspended scans). C58_reader: nor does a ReadDecoder."
 },
 "C59": {
  "status": "proved",
  "note": "C59_same_picture, for all well-formed one-scan files of one to four components (images, errors and panics alike)."
 },
 "C60": {
  "status": "proved",
  "note": "C60_abbreviated: Holds describes the history (image files and table files, any number); the result is that of a new decoder for the file with the tables in front. All end to end theorems (C42, C45-C47, C54, C55, C59) also cover abbreviated files."
 },
 "C61": {
  "status": "partial",
  "note": "The code violates it, for every such file: C61_violated_new (panic), C61_violated_used (the previous image again). Proved: the tables are kept (C61_tables_kept_partial)."
 },
 "C62": {
  "status": "partial",
  "note": "The code violates it, for every file: C62_violated (the result does not depend on the precision). Proved: 8 bit files are accepted."
 },
 "C63": {
  "status": "partial",
  "note": "C63_accuracy_partial for all renderable sampling factors; partial because of the row used for vertical factors above 1 (C33), C63_accuracy_own_row_partial for vertical factors 1; C63_full_resolution: within 2.8 for files without subsampling, complete. C63_cmyk_partial, C63_cmyk_full_resolution: the same for CMYK files (within 0.825 at full resolution)."
 },
 "C64": {
  "status": "proved",
  "note": "C64_round_trip (three components), C64_round_trip_cmyk: all files that an encoder with real-valued forward DCT and rounding to nearest could produce; C64_every_picture constructs such a file for every picture with the Huffman tables of annex K; orthogonality of the DCT is proved, not assumed."
 },
 "C65": {
  "status": "proved",
  "note": "C65_truncated: all files that decode, all cuts, all reachable decoders; C65_baseline: every proper beginning of every valid three-component baseline file. C65_pending: streaming decoders keep waiting, except after the two splits for which C43 is false; C65_baseline_pending has no exception."
 },
 "C66": {
  "status": "proved",
  "note": "C66_confined: any sampling factors the decoder renders, with the reach of the upsampling filters stated in Spec.BaselineFile.Untouched (row y / V * V as in C33); C66_confined_own: no subsampling, the pixel's own MCU decides; C66_no_panic: arbitrary data in all intervals; C66_undamaged: the specification of damaged data coincides with that of whole data when nothing is damaged; C66_confined_cmyk: the same for four components with Adobe transform 0."
 },
 "C67": {
  "status": "proved",
  "note": "C67_outcome: the table Spec.BaselineFile.outcome decides the kind of result of every valid file on every reachable decoder; C67_decodes_iff: exactly which files give an image. Panics of the table are the defects described under C29, C32, C46, C55. C67_error_iff: exactly which valid files end with an error, and which error it is; C67_panics: which panic each of the panicking entries of the table is."
 },
 "C68": {
  "status": "partial",
  "note": "C68_unknown_partial with C68_processes: lossless, hierarchical and arithmetic coded files and unknown markers are errors whatever follows. False for progressive files: C68_violated_every_file, all of them panic at the first scan header."
 },
 "C69": {
  "status": "proved",
  "note": "C69_segment: acceptance and panics of a single segment as equivalences with Spec.WellFormed and Spec.Fatal, on every decoder state; C69_malformed, C69_scan_header: whole files, new and used decoders. Comments are not among the segments (C40)."
 },
 "C70": {
  "status": "partial",
  "note": "The code violates it, C70_violated: an I/O error (or just a read boundary, or the end) in front of a restart marker panics or gives another image; a read boundary in an end of band run is an error. Proved for every other reader, every file and reachable decoder; for any number of files from one reader the images are those of the parser run over one file after the other, then the end is reported (C70_images_partial; the code violates the rest, C70_twice_violated: bits left over); exact for baseline files without restart intervals and end of band runs. combine's decode! loop is modelled from its documentation (its source is not in the repository). In checked builds the exception is exact: a reader that stops in front of a restart marker makes the call panic whatever comes next (C70_restart_panics), and a file that decodes gives its image if and only if that does not happen and no read ends in the bits of an end of band run (C70_exact_partial)."
 },
 "C71": {
  "status": "partial",
  "note": "Proved: reading and encoding are inverse (C71_reads_iff), the blocks are unique (C71_unique), undecodable data is refused without panic (C71_refused), readable data decodes to the picture of C45 (C71_read), and for any data whatever the outcome is an error or an image in which every readable interval contributes its blocks (C71_outcome_partial). The code violates the rest: C71_reserved_violated, C71_short_violated."
 },
 "C72": {
  "status": "partial",
  "note": "Proved: up to the two exceptions of C43 the codec is still waiting exactly if decode on the bytes given so far reports an unexpected end of the input (C72_waiting_iff_partial). The code violates that this means that bytes are missing: for every complete file with undecodable data (C72_undecodable_violated) and every file with a segment cut short (C72_segment_violated) it waits for ever, however the file is cut and whatever follows."
 },
 "C73": {
  "status": "partial",
  "note": "Proved for all bands but those with exactly one AC coefficient; for these the code reads nothing (C73_single_skipped, C73_single_violated). Refinement scans (Ah > 0) are not distinguished by the code and not claimed. Progressive frames panic before their scans are read (C68), so that in a whole file such bands occur only in sequential frames, where the standard has Ss = 0, Se = 63, Al = 0 (C13, C71)."
 },
 "C74": {
  "status": "partial",
  "note": "Proved by a simulation of two readers in lockstep through the whole decoder, for all data without 0xFF; C74_complete shows that with enough zeros reading is never short, so that C74_read_partial and C74_refused_partial leave only reserved symbols (C71_reserved_violated). The code violates the claim for data with 0xFF (C74_ff_violated: a byte is read twice)."
 },
 "C75": {
  "status": "partial",
  "note": "C75_bounded_partial: at most 4096 bytes of image per byte of file, for every valid file. The code violates the bound for files without data (C75_no_data, C75_violated)."
 },
 "C76": {
  "status": "proved",
  "note": "C76_rows: the integer model of the row arithmetic equals the rounded computation for every rounding to 20 bits or more. C76_constants: likewise the colour constants for 40 bits or more. C76_transform_constants: likewise those of the inverse transform for 22 bits or more. roundTo_rounding: rounding down to a grid is such a rounding, for every precision."
 },
 "C77": {
  "status": "partial",
  "note": "C77_behind_partial: the result is that of the file with the Adobe segments among them put in front of the scan and the others left out. C77_same_partial: without Adobe segments nothing changes. C77_violated: an Adobe segment turns an image into a panic. C77_unknown: unknown markers. That the tables are in force for later files is the constructor `behind` of Holds, which every theorem about used decoders takes."
 },
 "C78": {
  "status": "partial",
  "note": "The code violates both halves, for every file: C78_dnl_violated (refused with the segment), C78_missing_violated (empty image without)."
 },
 "C79": {
  "status": "partial",
  "note": "Refinement to a list of bits with backtracking (C79_stream_of_bits_partial), groups and single bits (C79_groups_partial). At the end of the input the behaviour is given exactly (C79_end_partial): all bits come out once and in order (C79_nothing_lost_partial), but the end is reported too early for every number of data bytes that is no multiple of eight (C79_end_violated). In a file the data are always followed by a marker, so that decode is not affected."
 },
 "C80": {
  "status": "partial",
  "note": "C80_one_image_partial, C80_baseline_partial, C80_errors_partial, C80_two_images_partial, C80_images_partial (any number of files, against the parser run over one file after the other), C80_reader_error_partial: items of the stream for every sequence of reads and waits. False for a piece that ends in front of a restart marker (C80_violated, a panic) and for the same file twice, whose second image differs (C80_twice_violated). FramedRead is modelled from its documentation. In checked builds exact: C80_exact_partial, C80_restart_nothing."
 },
 "C81": {
  "status": "partial",
  "note": "C81_no_image_partial, C81_baseline_partial: never an image, an error exactly if the codec left bytes in the buffer. C81_silent_violated: for every list of well-formed header segments, however they arrive, the stream ends without an item and without an error."
 },
 "C82": {
  "status": "partial",
  "note": "C82_end (every decoder), C82_parts_partial: frame header, scan header, end marker in this order, for every new decoder with debug assertions or without an Adobe segment for RGB. C82_no_start_violated, C82_junk_violated: the start marker and bytes before it make no difference to any data. C82_no_scan_violated: without debug assertions, for every size, a file without scan decodes to zeros."
 },
 "C83": {
  "status": "proved",
  "note": "C83_async, C83_sync for every file; the condition on tables is stated over the decoders seen between segments and has an executable check (noEobRuns_of_check). C83_green_async, C83_green_sync: every sequence of reads of the test image. C83_stream: any number of such files one after the other in one stream give their images in order."
 },
 "C84": {
  "status": "partial",
  "note": "C84_green_partial. C84_simple_violated, C84_vertical_violated: every even row agrees with the expected bytes, row 1 does not; for simple.jpg for every sequence of reads. Run by the kernel on the files of the repository; also evidence that the model is the code."
 },
 "C85": {
  "status": "proved",
  "note": "Spec/Uniform says what a component of one sample value is; DC coefficients may differ as long as they round to the same sample. C85_one_colour (YCbCr, within 0.502 of BT.601), C85_grey (exact), C85_cmyk. C85_neutral: any first component with neutral colour components comes out unchanged in all three channels (vertical factors 1). Adobe RGB files are always black (C47), YCCK files panic (C55). Case: a 4:2:0 file of 16 by 16 pixels, every build."
 },
 "C86": {
  "status": "proved",
  "note": "Spec/Brighter relates the two files. C86_idct_monotone for the transform, C86_brighter end to end; upsampling and colour conversion are monotone (C27_monotone). Case: two 4:2:0 files with DC coefficients -200 and 100. C86_block: the same for the values idct8x8 itself returns, products up to 2^16."
 },
 "C87": {
  "status": "partial",
  "note": "C87_own_mcu: 4:4:4, any two files, with coefficients of any size. C87_around_partial: every sampling the decoder can render, without rayon or without vertical subsampling. C87_rayon_violated: two columns of 49 pixels that differ in the second MCU only differ in the last pixel, since the row taken is y / V (C33). Three components or CMYK."
 },
 "C88": {
  "status": "partial",
  "note": "C88_flip (exact, no vertical subsampling), C88_flip_idct. C88_mirror_subsampled_partial: every sampling the decoder can render, every channel within 3 (C88_mirror_partial: without subsampling); C88_mirror_idct_partial: every sample within 1. C88_mirror_violated: an 8x8 picture with 132 against 131. C88_flip_subsampled_violated: with vertical subsampling (lines repeated, C33) the last line of an 8x16 picture differs from the first of the flipped one, in every build. Both for three components or CMYK; C88_flip for products up to 2^16. C88_flip_block, C88_mirror_block_partial: the same for the values idct8x8 itself returns, products up to 2^16."
 },
 "C89": {
  "status": "proved",
  "note": "Spec/Requantised defines the products; C89_same_products for every sampling the decoder can render, products up to 2^16 in magnitude (values outside the range of samples included). Three components or CMYK."
 },
 "C90": {
  "status": "partial",
  "note": "C90_reduced: what every file with products up to 2^16 decodes to, for every sampling the decoder can render; C90_reduced_cmyk: likewise CMYK files. C90_limited_partial: pixels whose values are in -256..767, whatever the other pixels are. Missing: other values; C90_violated is a picture of value 768 everywhere that is black."
 },
 "C91": {
  "status": "partial",
  "note": "C91_transpose_partial, C91_turn_partial: no subsampling, three components or CMYK, every channel within 3; C91_transpose_idct_partial: every sample within 1, for all integers. Missing: exactly so; C91_violated and C91_turn_violated are 8x8 pictures with 128 against 129. C91_transpose_block_partial: the same for the values idct8x8 itself returns, products up to 2^16."
 },
 "C92": {
  "status": "proved",
  "note": "C92_idct: the transform of all integers; C92_brightness: three components; C92_ink: CMYK, each of the inks. C92_block: the same for the values idct8x8 itself returns, products up to 2^16."
 },
 "C93": {
  "status": "partial",
  "note": "C93_crop_partial: every subsampling that can be rendered, three components or CMYK, any coefficients; all builds without rayon, and with it if there is no vertical subsampling or the part begins at the top. Missing: rayon with vertical subsampling further down; C93_rayon_violated is a picture of two MCUs with 128 against 228."
 },
 "C94": {
  "status": "proved",
  "note": "C94_idct: the transform of all integers; C94_stable: the images, three components or CMYK, every subsampling that can be rendered. C94_block: the same for the values idct8x8 itself returns, products up to 2^16."
 },
 "C95": {
  "status": "proved",
  "note": "C95_luminance: the colour conversion, all 2^24 inputs; C95_grey: the images. One-sided where a channel is at a limit."
 },
 "C96": {
  "status": "proved",
  "note": "C96_errors: every error of every decode on every decoder a program can hold is in a class of SegmentError, HeaderError, ScanError or RenderError, each of which says which bytes of the file, or which table or counter of the decoder at that moment, are at fault. C96_every_error: a whole-file witness, run by the kernel, for each kind. C96_streaming, C96_reader: the same for the bytes fed to a streaming decoder in chunks, and for the bytes a reader gives."
 },
 "C97": {
  "status": "proved",
  "note": "C97_fault: the same fault for every continuation, or the trailing bytes panic for an image that cannot be put together; C97_no_image; C97_prefix_free; C97_streaming: a fault of the streaming decoder is that of decode on every continuation of the bytes fed, up to the split at a restart marker refuted under C43. Missing data (eof, out of bits) is excluded because there the rest of the file does matter (C65)."
 },
 "C98": {
  "status": "proved",
  "note": "C98_cb, C98_cr, C98_luminance for YCbCr, C98_cmyk for four inks; no assumption on the coefficients. Cases: a 4:2:0 picture and three others that differ from it in one component, and CMYK."
 },
 "C99": {
  "status": "proved",
  "note": "C99_order: lines of every upsampler (columns of an incomplete last group of the nearest neighbour upsampler excepted, C29). C99_ramp: exact ramps for ratios 1 and 2. C99_image, C99_cmyk: the bytes of decoded images. The line used for a pixel row is that of C33 in C99_image; order along a row does not depend on which one it is. C99_order_down, C99_image_down, C99_cmyk_down: the same from top to bottom, for any two lines; the rows used (C33) are in order in every build."
 },
 "C100": {
  "status": "proved",
  "note": "C100_idct, C100_idct_negative: blocks, any coefficients. C100_image, C100_negative: YCbCr; C100_cmyk, C100_cmyk_negative: four inks. Exact equality is false: the example beside C100_idct has a sample that is 1 off. Cases: a sum of two pictures with different quantisation tables, and a CMYK negative. C100_block, C100_block_negative: the same for the values idct8x8 itself returns, products up to 2^16."
 },
 "C101": {
  "status": "partial",
  "note": "C101_stacked_partial: one below the other, byte for byte without vertical subsampling in every build; C101_beside: side by side in every build. Missing: the lower picture with the rayon feature and vertical subsampling; false there (C101_rayon_violated). Pictures that cannot be rendered at all are those of C32. Cases: 4:2:2 stacked, 4:4:4 side by side."
 },
 "C102": {
  "status": "proved",
  "note": "C102_idct: all integers. C102_thumbnail: the 1x1 transform and the 64 samples. C102_cmyk, C102_luminance: decoded images (components at full resolution, no vertical subsampling, values within 0..255; for luminance, channels neither 0 nor 255). Case: an 8 by 8 picture. C102_block: the same for the values idct8x8 itself returns, products up to 2^16."
 },
 "C103": {
  "status": "proved",
  "note": "C103_in_front, C103_in_front_cmyk: all subsamplings that can be rendered. C103_in_front_own: without subsampling. C103_first_mcus: one interval, data that agrees in the first n bits. C103_covers: C66 is the case of whole intervals. Case: two pictures that differ in the second MCU."
 },
 "C104": {
  "status": "proved",
  "note": "Spec/Contrast. C104_idct: all integers; C104_block: the values idct8x8 returns. C104_tables: multiplying the tables does it. C104_image: YCbCr, C104_cmyk: four inks, each with its factor. Cases: tables of twos and threes, a CMYK picture with half the contrast, a negative block."
 },
 "C105": {
  "status": "partial",
  "note": "Spec/GreySampling. C105_grey_partial: factors that differ in the horizontal direction only, byte for byte. C105_grey_violated: an 8x16 grey picture with half and with all lines of chrominance differs in its last line, in every build (lines repeated, C33). Case: 16x7 with 4:2:2 and 4:4:4."
 },
 "C106": {
  "status": "proved",
  "note": "Spec/Energy. C106_idct: all integers; C106_block: the bytes idct8x8 returns (from above also for limited samples); C106_cmyk, C106_luminance: blocks of images; C106_picture_cmyk, C106_picture_luminance (Props/MeanSquare): root mean square over whole images. Cases: two blocks with 5944 against 6100, a CMYK picture with its tables halved, a YCbCr picture with its tables doubled, two blocks side by side."
 },
 "C107": {
  "status": "partial",
  "note": "Spec/Ratios. C107_ratios_partial: byte for byte for files with the same largest vertical factor. C107_lines_partial: for other factors the lines that are multiples of both (first line only with rayon). C107_ratios_violated: 8x16 pixels with all factors 1x2 and all factors 1x1 differ in the last line, in every build (lines repeated, C33). C107_outcome_violated: 16x8 pixels in 4:2:2 panic with factors 2,1,1 and decode with 4,2,2 (C32). Case: 16x7 with factors 2,1,1 and 4,2,2."
 },
 "C108": {
  "status": "proved",
  "note": "Spec/Saturation, Spec/Contrast (Scaled). C108_image: files whose chrominance coefficients are s times those of another and whose luminance is the same; C104_tables says how to get them from the quantisation tables. Case: 7x5 pixels, s = 3/2."
 },
 "C109": {
  "status": "proved",
  "note": "Spec/Inks. C109_inks: any component of one file that is any component of the other, byte for byte, whatever the coefficients. Case: the last of four inks put in front."
 },
 "C110": {
  "status": "proved",
  "note": "Props/Recovered. C110_idct for all integers, C110_block for the transform of the code, C110_cmyk and C110_luminance for whole files (from the lower bounds of C106). C110_fine: with a table of sevens the coefficients are not determined. Cases: two CMYK pictures that differ in the highest frequency of one ink, the same picture with tables of twos and fours."
 },
 "C111": {
  "status": "proved",
  "note": "Spec/Blend. C111_idct: all integers; C111_image: YCbCr, C111_cmyk: four inks. Generalises C104 (t = 0) and the sums of C100 (s = t = 1), whose bounds for those cases are kept. Cases: a half of one picture and a half of another, 7x5 pixels; three quarters of a CMYK picture and a quarter of its negative."
 }
}