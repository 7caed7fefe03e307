{
 "claims": [
  {
   "property": "C01",
   "status": "proved",
   "theorems": [
    "Jpeg.C01_bits_in_order"
   ],
   "note": "Any valid state, any data, any marker, any request sizes 1..16."
  },
  {
   "property": "C02",
   "status": "proved",
   "theorems": [
    "Jpeg.C02_zero_padding",
    "Jpeg.C02_marker_kept",
    "Jpeg.C02_marker_not_data",
    "Jpeg.C02_zeros_forever",
    "Jpeg.C02_replay_witness"
   ],
   "note": "Padding, marker kept, marker bytes never data, zeros for ever when no 0xFF is left to load; the replay witness shows the last condition is needed."
  },
  {
   "property": "C03",
   "status": "proved",
   "theorems": [
    "Jpeg.C03_reads_compose",
    "Jpeg.C03_values_compose",
    "Jpeg.C03_no_marker_witness"
   ],
   "note": "In front of a marker. Without a marker behind the data the refill of the split read can fail (C03_no_marker_witness)."
  },
  {
   "property": "C04",
   "status": "proved",
   "theorems": [
    "Jpeg.C04_reader_arithmetic"
   ],
   "note": "All histories of reader operations over any bytes; count underflow and shifts of 64 or more are explicit panics in the model."
  },
  {
   "property": "C05",
   "status": "proved",
   "theorems": [
    "Jpeg.C05_extend_is_T81",
    "Jpeg.C05_magnitude_inverse"
   ],
   "note": "All categories 1..15 and all bit patterns."
  },
  {
   "property": "C06",
   "status": "proved",
   "theorems": [
    "Jpeg.C06_acceptance",
    "Jpeg.C06_rejection",
    "Jpeg.C06_acceptance_ac"
   ],
   "note": "Complete case split over all count vectors with matching values."
  },
  {
   "property": "C07",
   "status": "proved",
   "theorems": [
    "Jpeg.C07_decode_match",
    "Jpeg.C07_decode_nomatch",
    "Jpeg.C07_prefix_free",
    "Jpeg.C07_decode_stream"
   ],
   "note": "Canonical codes are specified by Kraft sums, not by the generation procedure."
  },
  {
   "property": "C08",
   "status": "proved",
   "theorems": [
    "Jpeg.C08_lut_irrelevant"
   ],
   "note": ""
  },
  {
   "property": "C09",
   "status": "proved",
   "theorems": [
    "Jpeg.C09_fast_ac_irrelevant"
   ],
   "note": "Any state, any input, including refills and failures."
  },
  {
   "property": "C10",
   "status": "proved",
   "theorems": [
    "Jpeg.C10_zigzag_walk",
    "Jpeg.C10_bijection"
   ],
   "note": "Against the anti-diagonal walk, not a copied table."
  },
  {
   "property": "C11",
   "status": "proved",
   "theorems": [
    "Jpeg.C11_dqt_8bit",
    "Jpeg.C11_dqt_16bit"
   ],
   "note": "Both precisions, from the segment body bytes to the stored table."
  },
  {
   "property": "C12",
   "status": "proved",
   "theorems": [
    "Jpeg.C12_block_safe"
   ],
   "note": "Any band, approximation, table pair, EOB run and input; progressive scans are covered at block level although the decoder refuses progressive frames."
  },
  {
   "property": "C13",
   "status": "proved",
   "theorems": [
    "Jpeg.C13_block_inverse",
    "Jpeg.C13_standard_encoder",
    "Jpeg.C13_encoder_total"
   ],
   "note": "For every admissible encoding (relation), the standard encoder being one; completeness of the encoder also shown."
  },
  {
   "property": "C14",
   "status": "proved",
   "theorems": [
    "Jpeg.C14_dc_accumulates",
    "Jpeg.C14_zero_at_scan_start",
    "Jpeg.C14_zero_after_restart",
    "Jpeg.C14_accumulates_over_interval"
   ],
   "note": "Accumulation within a component, per component over the MCUs of an interval, zero at scan start and after each restart marker."
  },
  {
   "property": "C15",
   "status": "proved",
   "theorems": [
    "Jpeg.C15_no_trace",
    "Jpeg.C15_retry",
    "Jpeg.C15_no_panic"
   ],
   "note": "Including retry with more input, and that no failure is a panic when the selected tables exist."
  },
  {
   "property": "C16",
   "status": "proved",
   "theorems": [
    "Jpeg.C16_mcu_inverse"
   ],
   "note": "At most ten blocks per MCU (the decoder's buffer)."
  },
  {
   "property": "C17",
   "status": "proved",
   "theorems": [
    "Jpeg.C17_marker_required",
    "Jpeg.C17_no_marker_elsewhere",
    "Jpeg.C17_no_underflow",
    "Jpeg.C17_wellformed_accepted"
   ],
   "note": "All intervals below 2^16 (the field is 16 bits), all MCU counts, all inputs; required, rejected, not required, counter, and acceptance of well-formed scans."
  },
  {
   "property": "C18",
   "status": "proved",
   "theorems": [
    "Jpeg.C18_geometry_exact",
    "Jpeg.C18_header_accepted"
   ],
   "note": "All 16-bit dimensions, all component lists accepted by the parser with 1..4 sampling factors; the f32 computation is modelled with round-to-nearest-even and proved equal to the exact ceilings."
  },
  {
   "property": "C19",
   "status": "proved",
   "theorems": [
    "Jpeg.C19_no_overflow",
    "Jpeg.C19_planes_cover"
   ],
   "note": "For every accepted frame header: allocated planes cover the component, products fit the machine types."
  },
  {
   "property": "C20",
   "status": "proved",
   "theorems": [
    "Jpeg.C20_every_sample_in_place",
    "Jpeg.C20_no_uninitialised"
   ],
   "note": "Any coefficients, any accepted frame geometry; tiling by induction over MCUs."
  },
  {
   "property": "C21",
   "status": "proved",
   "theorems": [
    "Jpeg.C21_all_initialised",
    "Jpeg.C21_clamp_index",
    "Jpeg.C21_clamp_add",
    "Jpeg.C21_dequant_exact"
   ],
   "note": "All blocks and tables. C21_clamp_add: the checked addition in front of the table does not overflow."
  },
  {
   "property": "C22",
   "status": "proved",
   "theorems": [
    "Jpeg.C22_flat",
    "Jpeg.C22_flat_saturated",
    "Jpeg.C22_beyond_bound"
   ],
   "note": "All DC values and quantizers; the saturated form holds exactly for products -3076..5115, with counterexamples just outside."
  },
  {
   "property": "C23",
   "status": "proved",
   "theorems": [
    "Jpeg.C23_shortcuts_invisible",
    "Jpeg.C23_beyond_bound"
   ],
   "note": "All blocks whose shortcut columns have a first coefficient below 2^19; counterexample at 2^19."
  },
  {
   "property": "C24",
   "status": "proved",
   "theorems": [
    "Jpeg.C24_no_visible_wrap",
    "Jpeg.C24_saturated",
    "Jpeg.C24_no_wrap",
    "Jpeg.C24_beyond_bound"
   ],
   "note": "Visible wrapping excluded up to 2^16 (counterexample below 2^17), any wrapping of pre-shift values up to 2^11."
  },
  {
   "property": "C25",
   "status": "proved",
   "theorems": [
    "Jpeg.C25_clamp",
    "Jpeg.C25_clamp_saturates",
    "Jpeg.C25_clamp_outside"
   ],
   "note": "All 32-bit values; saturation on -256..767, aliasing outside with counterexamples."
  },
  {
   "property": "C26",
   "status": "proved",
   "theorems": [
    "Jpeg.C26_in_range",
    "Jpeg.C26_no_overflow",
    "Jpeg.C26_line"
   ],
   "note": "All 2^24 YCbCr triples by algebra, lifted to lines of any length; no wrapping, no table index out of range."
  },
  {
   "property": "C27",
   "status": "proved",
   "theorems": [
    "Jpeg.C27_accuracy",
    "Jpeg.C27_grey",
    "Jpeg.C27_monotone",
    "Jpeg.C27_factors"
   ],
   "note": "Against the real valued BT.601 equations, over the rationals."
  },
  {
   "property": "C28",
   "status": "proved",
   "theorems": [
    "Jpeg.C28_selection",
    "Jpeg.C28_cmyk_line",
    "Jpeg.C28_ycck_panics"
   ],
   "note": "Selection table, CMYK lines, YCCK panics."
  },
  {
   "property": "C29",
   "status": "partial",
   "theorems": [
    "Jpeg.C29_filters_partial",
    "Jpeg.C29_trailing_columns_violated"
   ],
   "note": "All planes, rows, columns and old line buffers; fails only for the columns of an incomplete last group of the nearest neighbour upsampler, which are proved to come out 0 (C29_trailing_columns_violated)."
  },
  {
   "property": "C30",
   "status": "proved",
   "theorems": [
    "Jpeg.C30_integer_ratio",
    "Jpeg.C30_selection",
    "Jpeg.C30_frame"
   ],
   "note": "Complete decision, for arbitrary factors; frame level without panics."
  },
  {
   "property": "C31",
   "status": "proved",
   "theorems": [
    "Jpeg.C31_between_neighbours"
   ],
   "note": "Neighbours are the samples at most one row and column away; interpolating upsamplers only."
  },
  {
   "property": "C32",
   "status": "partial",
   "theorems": [
    "Jpeg.C32_no_panic_partial",
    "Jpeg.C32_violated"
   ],
   "note": "The code violates it. Exact characterisation: C32_no_panic_partial for all frames without the 2x1 defect, C32_violated proves the panic for all others."
  },
  {
   "property": "C33",
   "status": "partial",
   "theorems": [
    "Jpeg.C33_group_row",
    "Jpeg.C33_own_row_partial",
    "Jpeg.C33_violated",
    "Jpeg.C33_violated_witness"
   ],
   "note": "The code violates it for vertical factors above 1 (C33_violated: lines of a group are always identical). C33_group_row says which row each line shows in every case."
  },
  {
   "property": "C34",
   "status": "partial",
   "theorems": [
    "Jpeg.C34_rayon_partial",
    "Jpeg.C34_violated",
    "Jpeg.C34_buffers_irrelevant"
   ],
   "note": "The code violates it for vertical factors above 1 (C34_violated). Equality proved for vertical factor 1 or a single group of lines, for every decoder state; scheduling independence of the line buffers proved for all frames."
  },
  {
   "property": "C35",
   "status": "proved",
   "theorems": [
    "Jpeg.C35_reader",
    "Jpeg.C35_streaming",
    "Jpeg.C35_size",
    "Jpeg.C35_size_of_header",
    "Jpeg.C35_last_header"
   ],
   "note": "Every decoder state; on a new decoder the size is traced to a frame header in the file; only accepted frame headers change the frame. C35_streaming for images of a codec."
  },
  {
   "property": "C36",
   "status": "proved",
   "theorems": [
    "Jpeg.C36_first_marker",
    "Jpeg.C36_unknown_code",
    "Jpeg.C36_no_marker",
    "Jpeg.C36_found"
   ],
   "note": "First marker position, unknown codes, no marker, and the converse."
  },
  {
   "property": "C37",
   "status": "proved",
   "theorems": [
    "Jpeg.C37_exact_length",
    "Jpeg.C37_accepted",
    "Jpeg.C37_short_length",
    "Jpeg.C37_truncated",
    "Jpeg.C37_scan_header"
   ],
   "note": "SOF, DHT, DQT, DRI, APPn and scan headers; the wrap-around of lengths below 2 in release builds is part of the converse. Comments have no segment in the code, see C40."
  },
  {
   "property": "C38",
   "status": "proved",
   "theorems": [
    "Jpeg.C38_dht_accepted",
    "Jpeg.C38_dht_defines",
    "Jpeg.C38_dqt_accepted",
    "Jpeg.C38_dqt_defines",
    "Jpeg.C38_dht_rejects",
    "Jpeg.C38_dqt_rejects"
   ],
   "note": "Forward and converse; the eight Huffman and four quantisation slots, the last definition counts."
  },
  {
   "property": "C39",
   "status": "proved",
   "theorems": [
    "Jpeg.C39_accepted_iff",
    "Jpeg.C39_no_panic",
    "Jpeg.C39_needs_frame",
    "Jpeg.C39_component_count"
   ],
   "note": "Acceptance as an equivalence; a scan before a frame and bad component counts are errors."
  },
  {
   "property": "C40",
   "status": "partial",
   "theorems": [
    "Jpeg.C40_behind_partial",
    "Jpeg.C40_comment_skipped_partial",
    "Jpeg.C40_file_partial",
    "Jpeg.C40_violated"
   ],
   "note": "The code violates it (C40_violated: a comment FF D9 makes every file fail). Proved for comments without a marker-like byte pair: at every segment boundary (C40_comment_skipped_partial), for whole files behind table, header and application segments (C40_file_partial), and between scan and end (C40_behind_partial)."
  },
  {
   "property": "C41",
   "status": "partial",
   "theorems": [
    "Jpeg.C41_violated_segments",
    "Jpeg.C41_violated_scan_start",
    "Jpeg.C41_violated_scan_data",
    "Jpeg.C41_violated_end",
    "Jpeg.C41_violated_render",
    "Jpeg.C41_reader_panics_listed_partial",
    "Jpeg.C41_trailing",
    "Jpeg.C41_streaming_panics_listed_partial",
    "Jpeg.C41_panics_listed_partial"
   ],
   "note": "The code violates it. C41_panics_listed_partial: every panic of every decode on every decoder a program can hold is in a listed class; C41_violated_*: a whole-file witness, run by the kernel, for the classes. Every class says which panic it is. C41_trailing: bytes behind a complete image make decode panic, for every file. C41_streaming_panics_listed_partial, C41_reader_panics_listed_partial: the same for every call of a streaming decoder and of a ReadDecoder; the classes are those of decode with the frame, tables and planes of the suspended decoder, and the restart counter."
  },
  {
   "property": "C42",
   "status": "partial",
   "theorems": [
    "Jpeg.C42_reuse_partial",
    "Jpeg.C42_reuse_fresh_partial",
    "Jpeg.C42_violated",
    "Jpeg.C42_violated_color"
   ],
   "note": "The code violates it: C42_violated (the frame and planes of the previous file are returned for an empty file), C42_violated_color (colour transform kept). Proved: C42_reuse_partial, every well-formed one-scan file of one to four components gives the same result (image, error or panic) on any two decoders, new or used, with the same restart interval and colour transform in force, abbreviated files (tables from earlier files) included; C42_reuse_fresh_partial for files that set the restart interval."
  },
  {
   "property": "C43",
   "status": "partial",
   "theorems": [
    "Jpeg.C43_chunks_partial",
    "Jpeg.C43_any_split_partial",
    "Jpeg.C43_baseline_partial",
    "Jpeg.C43_errors_partial",
    "Jpeg.C43_violated_restart",
    "Jpeg.C43_violated_eobRun",
    "Jpeg.C43_restart_panics",
    "Jpeg.C43_exact_partial"
   ],
   "note": "The code violates it: a split in front of a restart marker makes the counter run down twice (panic or another image, C43_violated_restart), a split inside an end of band run is an error (C43_violated_eobRun). Proved: every other split of every file on every decoder gives the result of decode; exact for baseline files without restart intervals and end of band runs. In checked builds the exception is exact: a codec that stopped for a restart marker panics on whatever comes next (C43_restart_panics), and of a file that decodes the image is returned if and only if no piece ends there or in the bits of an end of band run (C43_exact_partial). The partial state combine keeps inside a table or header segment is represented by leaving the bytes in the buffer."
  },
  {
   "property": "C44",
   "status": "partial",
   "theorems": [
    "Jpeg.C44_left_over_violated",
    "Jpeg.C44_shifted_partial",
    "Jpeg.C44_data_ignored_violated",
    "Jpeg.C44_next_image_partial",
    "Jpeg.C44_second_partial",
    "Jpeg.C44_violated"
   ],
   "note": "The code violates it (C44_violated; C44_data_ignored_violated: with six zero bits left over, a file with one-bit codes gives the flat picture whatever its data are). Proved: the codec returns for the next file what the parser returns when it starts with the left-over bits, and keeps the bytes behind it; with an empty bit buffer this is the result of decode; for every baseline file, the picture is that of the MCUs read from the left-over bits followed by the data (C44_shifted_partial). C44_left_over_violated: every baseline picture whose data do not end with a whole byte leaves its padding bits in the buffer, so the buffer is never empty after such a picture."
  },
  {
   "property": "C45",
   "status": "partial",
   "theorems": [
    "Jpeg.C45_decodes",
    "Jpeg.C45_pixels_partial",
    "Jpeg.C45_pixels_own_row_partial"
   ],
   "note": "C45_decodes: every well-formed three-component single-scan file (table, application, Adobe and comment segments in any number and order) with renderable sampling factors decodes, on new and used decoders. C45_pixels_partial: every pixel, from the bytes to the colour, for all pictures in coefficient range. Partial because of the known line duplication (C33): the row used is y/V*V (y/V with rayon); C45_pixels_own_row_partial for vertical factors 1. The files excluded by Renderable are the defects of C29 and C32."
  },
  {
   "property": "C46",
   "status": "partial",
   "theorems": [
    "Jpeg.C46_violated_every_file",
    "Jpeg.C46_violated",
    "Jpeg.C46_never_decodes",
    "Jpeg.C46_violated_witness"
   ],
   "note": "Refuted for every one-component file that reaches the end of the image (C46_violated), for every file and decoder (C46_never_decodes), with a whole-file witness. Nothing of the claim holds. C46_violated_every_file: every one-component file laid out as the standard says panics."
  },
  {
   "property": "C47",
   "status": "partial",
   "theorems": [
    "Jpeg.C47_violated_every_file",
    "Jpeg.C47_violated",
    "Jpeg.C47_violated_witness"
   ],
   "note": "Refuted for every such file: the image is zero in every byte (C47_violated), with a whole-file witness. Nothing of the claim holds unless all samples are 0. C47_violated_every_file: every RGB file laid out as the standard says (renderable factors) decodes to zeros."
  },
  {
   "property": "C48",
   "status": "proved",
   "theorems": [
    "Jpeg.C48_scale",
    "Jpeg.C48_zero_width"
   ],
   "note": "All sizes 1..65535; width 0 panics in debug builds."
  },
  {
   "property": "C49",
   "status": "proved",
   "theorems": [
    "Jpeg.C49_4x4",
    "Jpeg.C49_2x2",
    "Jpeg.C49_1x1"
   ],
   "note": "All blocks with only a DC coefficient."
  },
  {
   "property": "C50",
   "status": "proved",
   "theorems": [
    "Jpeg.C50_framed",
    "Jpeg.C50_reader",
    "Jpeg.C50_streaming",
    "Jpeg.C50_terminates",
    "Jpeg.C50_segments_bounded",
    "Jpeg.C50_progress"
   ],
   "note": "The fuel of the model is never exhausted, every sufficient bound gives the same run, each round of the segment loop takes at least two bytes. C50_streaming: the same for every call of a streaming decoder. C50_framed: in FramedRead the codec is called finitely often per read."
  },
  {
   "property": "C51",
   "status": "proved",
   "theorems": [
    "Jpeg.C51_constants",
    "Jpeg.C51_fixed_point_error",
    "Jpeg.C51_sample_error"
   ],
   "note": "Real analysis over Mathlib's reals; constant 5/8 + sum|F|/5000. C51_constants: the twelve constants from the decimal literals of the source in single precision."
  },
  {
   "property": "C52",
   "status": "partial",
   "theorems": [
    "Jpeg.C52_violated",
    "Jpeg.C52_violated_witness"
   ],
   "note": "Refuted: a three-component picture (not Adobe transform 0) decodes on a new decoder only if the last scan header lists at least three components (C52_violated, every file), with a three-scan file that panics in both kinds of build. What holds is the interleaved case, C45."
  },
  {
   "property": "C53",
   "status": "proved",
   "theorems": [
    "Jpeg.C53_builds_agree",
    "Jpeg.C53_image",
    "Jpeg.C53_error",
    "Jpeg.C53_exception",
    "Jpeg.C53_streaming_call",
    "Jpeg.C53_streaming"
   ],
   "note": "Result and decoder state; the panics excepted are exactly those of PanicSite.Checked; C53_exception shows the exception is needed. C53_streaming: also for streaming decoders, call by call and over any sequence of chunks."
  },
  {
   "property": "C54",
   "status": "partial",
   "theorems": [
    "Jpeg.C54_without_adobe",
    "Jpeg.C54_decodes",
    "Jpeg.C54_pixels_partial",
    "Jpeg.C54_pixels_own_row_partial"
   ],
   "note": "C54_decodes (every well-formed CMYK file with renderable sampling factors), C54_without_adobe (error). C54_pixels_partial: every byte, partial because of the line duplication (C33): the row used is y/V*V (y/V with rayon); C54_pixels_own_row_partial for vertical factors 1."
  },
  {
   "property": "C55",
   "status": "partial",
   "theorems": [
    "Jpeg.C55_black_not_read",
    "Jpeg.C55_violated_every_file",
    "Jpeg.C55_violated",
    "Jpeg.C55_violated_witness"
   ],
   "note": "Refuted: no such picture decodes with debug assertions, and without them only if the last scan leaves a component out (C55_violated, every file); witness file that decodes as CMYK and panics as YCCK. C55_violated_every_file: every YCCK file laid out as the standard says (renderable factors, not empty) panics. C55_black_not_read: with three lines given the conversion complements what stood in the output line, never the black samples."
  },
  {
   "property": "C56",
   "status": "partial",
   "theorems": [
    "Jpeg.C56_app_skipped_partial",
    "Jpeg.C56_file_partial",
    "Jpeg.C56_violated"
   ],
   "note": "Proved for APP0-13 and APP15 with any content, anywhere between two segments (any decoder state) and for whole files; refuted for APP14 segments that are not Adobe's (C56_violated)."
  },
  {
   "property": "C57",
   "status": "proved",
   "theorems": [
    "Jpeg.C57_4x4",
    "Jpeg.C57_2x2",
    "Jpeg.C57_writes",
    "Jpeg.C57_dispatch"
   ],
   "note": "C57_4x4: error at most 5/8 plus 1/5000 of the sum of the magnitudes; C57_2x2: at most 1/2; C57_writes, C57_dispatch. The 1x1 case is C49_1x1. decode only ever uses scale 8."
  },
  {
   "property": "C58",
   "status": "proved",
   "theorems": [
    "Jpeg.C58_reader",
    "Jpeg.C58_streaming",
    "Jpeg.C58_no_undefined_behaviour"
   ],
   "note": "Unchecked accesses outside their array and reads of uninitialised memory are failures of their own in the model (PanicSite.Undefined); no decode ends in one. C58_streaming: nor does any call of a streaming decoder, for all codecs reachable by pushing bytes and polling (invariant over suspended scans). C58_reader: nor does a ReadDecoder."
  },
  {
   "property": "C59",
   "status": "proved",
   "theorems": [
    "Jpeg.C59_same_picture"
   ],
   "note": "C59_same_picture, for all well-formed one-scan files of one to four components (images, errors and panics alike)."
  },
  {
   "property": "C60",
   "status": "proved",
   "theorems": [
    "Jpeg.C60_abbreviated"
   ],
   "note": "C60_abbreviated: Holds describes the history (image files and table files, any number); the result is that of a new decoder for the file with the tables in front. All end to end theorems (C42, C45-C47, C54, C55, C59) also cover abbreviated files."
  },
  {
   "property": "C61",
   "status": "partial",
   "theorems": [
    "Jpeg.C61_violated_new",
    "Jpeg.C61_violated_used",
    "Jpeg.C61_tables_kept_partial"
   ],
   "note": "The code violates it, for every such file: C61_violated_new (panic), C61_violated_used (the previous image again). Proved: the tables are kept (C61_tables_kept_partial)."
  },
  {
   "property": "C62",
   "status": "partial",
   "theorems": [
    "Jpeg.C62_violated",
    "Jpeg.C62_eight_bits_partial"
   ],
   "note": "The code violates it, for every file: C62_violated (the result does not depend on the precision). Proved: 8 bit files are accepted."
  },
  {
   "property": "C63",
   "status": "partial",
   "theorems": [
    "Jpeg.C63_accuracy_partial",
    "Jpeg.C63_accuracy_own_row_partial",
    "Jpeg.C63_full_resolution",
    "Jpeg.C63_cmyk_partial",
    "Jpeg.C63_cmyk_full_resolution"
   ],
   "note": "C63_accuracy_partial for all renderable sampling factors; partial because of the row used for vertical factors above 1 (C33), C63_accuracy_own_row_partial for vertical factors 1; C63_full_resolution: within 2.8 for files without subsampling, complete. C63_cmyk_partial, C63_cmyk_full_resolution: the same for CMYK files (within 0.825 at full resolution)."
  },
  {
   "property": "C64",
   "status": "proved",
   "theorems": [
    "Jpeg.C64_every_picture",
    "Jpeg.C64_every_picture_nearest",
    "Jpeg.C64_round_trip",
    "Jpeg.C64_round_trip_cmyk"
   ],
   "note": "C64_round_trip (three components), C64_round_trip_cmyk: all files that an encoder with real-valued forward DCT and rounding to nearest could produce; C64_every_picture constructs such a file for every picture with the Huffman tables of annex K; orthogonality of the DCT is proved, not assumed."
  },
  {
   "property": "C65",
   "status": "proved",
   "theorems": [
    "Jpeg.C65_truncated",
    "Jpeg.C65_baseline",
    "Jpeg.C65_pending",
    "Jpeg.C65_baseline_pending"
   ],
   "note": "C65_truncated: all files that decode, all cuts, all reachable decoders; C65_baseline: every proper beginning of every valid three-component baseline file. C65_pending: streaming decoders keep waiting, except after the two splits for which C43 is false; C65_baseline_pending has no exception."
  },
  {
   "property": "C66",
   "status": "proved",
   "theorems": [
    "Jpeg.C66_confined",
    "Jpeg.C66_confined_own",
    "Jpeg.C66_confined_cmyk",
    "Jpeg.C66_no_panic",
    "Jpeg.C66_undamaged"
   ],
   "note": "C66_confined: any sampling factors the decoder renders, with the reach of the upsampling filters stated in Spec.BaselineFile.Untouched (row y / V * V as in C33); C66_confined_own: no subsampling, the pixel's own MCU decides; C66_no_panic: arbitrary data in all intervals; C66_undamaged: the specification of damaged data coincides with that of whole data when nothing is damaged; C66_confined_cmyk: the same for four components with Adobe transform 0."
  },
  {
   "property": "C67",
   "status": "proved",
   "theorems": [
    "Jpeg.C67_outcome",
    "Jpeg.C67_decodes_iff",
    "Jpeg.C67_error_iff",
    "Jpeg.C67_panics"
   ],
   "note": "C67_outcome: the table Spec.BaselineFile.outcome decides the kind of result of every valid file on every reachable decoder; C67_decodes_iff: exactly which files give an image. Panics of the table are the defects described under C29, C32, C46, C55. C67_error_iff: exactly which valid files end with an error, and which error it is; C67_panics: which panic each of the panicking entries of the table is."
  },
  {
   "property": "C68",
   "status": "partial",
   "theorems": [
    "Jpeg.C68_unknown_partial",
    "Jpeg.C68_processes",
    "Jpeg.C68_violated_every_file"
   ],
   "note": "C68_unknown_partial with C68_processes: lossless, hierarchical and arithmetic coded files and unknown markers are errors whatever follows. False for progressive files: C68_violated_every_file, all of them panic at the first scan header."
  },
  {
   "property": "C69",
   "status": "proved",
   "theorems": [
    "Jpeg.C69_segment",
    "Jpeg.C69_malformed",
    "Jpeg.C69_scan_header"
   ],
   "note": "C69_segment: acceptance and panics of a single segment as equivalences with Spec.WellFormed and Spec.Fatal, on every decoder state; C69_malformed, C69_scan_header: whole files, new and used decoders. Comments are not among the segments (C40)."
  },
  {
   "property": "C70",
   "status": "partial",
   "theorems": [
    "Jpeg.C70_image_partial",
    "Jpeg.C70_ends_early_partial",
    "Jpeg.C70_baseline_partial",
    "Jpeg.C70_end_is_final",
    "Jpeg.C70_violated",
    "Jpeg.C70_restart_panics",
    "Jpeg.C70_exact_partial",
    "Jpeg.C70_next_image_partial",
    "Jpeg.C70_images_partial",
    "Jpeg.C70_twice_violated"
   ],
   "note": "The code violates it, C70_violated: an I/O error (or just a read boundary, or the end) in front of a restart marker panics or gives another image; a read boundary in an end of band run is an error. Proved for every other reader, every file and reachable decoder; for any number of files from one reader the images are those of the parser run over one file after the other, then the end is reported (C70_images_partial; the code violates the rest, C70_twice_violated: bits left over); exact for baseline files without restart intervals and end of band runs. combine's decode! loop is modelled from its documentation (its source is not in the repository). In checked builds the exception is exact: a reader that stops in front of a restart marker makes the call panic whatever comes next (C70_restart_panics), and a file that decodes gives its image if and only if that does not happen and no read ends in the bits of an end of band run (C70_exact_partial)."
  },
  {
   "property": "C71",
   "status": "partial",
   "theorems": [
    "Jpeg.C71_reads_iff",
    "Jpeg.C71_unique",
    "Jpeg.C71_refused",
    "Jpeg.C71_outcome_partial",
    "Jpeg.C71_read",
    "Jpeg.C71_reserved_violated",
    "Jpeg.C71_short_violated"
   ],
   "note": "Proved: reading and encoding are inverse (C71_reads_iff), the blocks are unique (C71_unique), undecodable data is refused without panic (C71_refused), readable data decodes to the picture of C45 (C71_read), and for any data whatever the outcome is an error or an image in which every readable interval contributes its blocks (C71_outcome_partial). The code violates the rest: C71_reserved_violated, C71_short_violated."
  },
  {
   "property": "C72",
   "status": "partial",
   "theorems": [
    "Jpeg.C72_waiting_iff_partial",
    "Jpeg.C72_undecodable_violated",
    "Jpeg.C72_segment_violated"
   ],
   "note": "Proved: up to the two exceptions of C43 the codec is still waiting exactly if decode on the bytes given so far reports an unexpected end of the input (C72_waiting_iff_partial). The code violates that this means that bytes are missing: for every complete file with undecodable data (C72_undecodable_violated) and every file with a segment cut short (C72_segment_violated) it waits for ever, however the file is cut and whatever follows."
  },
  {
   "property": "C73",
   "status": "partial",
   "theorems": [
    "Jpeg.C73_band_block_partial",
    "Jpeg.C73_band_refused_partial",
    "Jpeg.C73_band_blocks_partial",
    "Jpeg.C73_band_encoder_partial",
    "Jpeg.C73_single_skipped",
    "Jpeg.C73_single_violated"
   ],
   "note": "Proved for all bands but those with exactly one AC coefficient; for these the code reads nothing (C73_single_skipped, C73_single_violated). Refinement scans (Ah > 0) are not distinguished by the code and not claimed. Progressive frames panic before their scans are read (C68), so that in a whole file such bands occur only in sequential frames, where the standard has Ss = 0, Se = 63, Al = 0 (C13, C71)."
  },
  {
   "property": "C74",
   "status": "partial",
   "theorems": [
    "Jpeg.C74_zeros_partial",
    "Jpeg.C74_read_partial",
    "Jpeg.C74_refused_partial",
    "Jpeg.C74_complete",
    "Jpeg.C74_ff_violated"
   ],
   "note": "Proved by a simulation of two readers in lockstep through the whole decoder, for all data without 0xFF; C74_complete shows that with enough zeros reading is never short, so that C74_read_partial and C74_refused_partial leave only reserved symbols (C71_reserved_violated). The code violates the claim for data with 0xFF (C74_ff_violated: a byte is read twice)."
  },
  {
   "property": "C75",
   "status": "partial",
   "theorems": [
    "Jpeg.C75_no_data",
    "Jpeg.C75_violated",
    "Jpeg.C75_bounded_partial"
   ],
   "note": "C75_bounded_partial: at most 4096 bytes of image per byte of file, for every valid file. The code violates the bound for files without data (C75_no_data, C75_violated)."
  },
  {
   "property": "C76",
   "status": "proved",
   "theorems": [
    "Jpeg.C76_rows",
    "Jpeg.C76_constants",
    "Jpeg.C76_transform_constants"
   ],
   "note": "C76_rows: the integer model of the row arithmetic equals the rounded computation for every rounding to 20 bits or more. C76_constants: likewise the colour constants for 40 bits or more. C76_transform_constants: likewise those of the inverse transform for 22 bits or more. roundTo_rounding: rounding down to a grid is such a rounding, for every precision."
  },
  {
   "property": "C77",
   "status": "partial",
   "theorems": [
    "Jpeg.C77_behind_partial",
    "Jpeg.C77_same_partial",
    "Jpeg.C77_violated",
    "Jpeg.C77_unknown"
   ],
   "note": "C77_behind_partial: the result is that of the file with the Adobe segments among them put in front of the scan and the others left out. C77_same_partial: without Adobe segments nothing changes. C77_violated: an Adobe segment turns an image into a panic. C77_unknown: unknown markers. That the tables are in force for later files is the constructor `behind` of Holds, which every theorem about used decoders takes."
  },
  {
   "property": "C78",
   "status": "partial",
   "theorems": [
    "Jpeg.C78_dnl_violated",
    "Jpeg.C78_missing_violated"
   ],
   "note": "The code violates both halves, for every file: C78_dnl_violated (refused with the segment), C78_missing_violated (empty image without)."
  },
  {
   "property": "C79",
   "status": "partial",
   "theorems": [
    "Jpeg.C79_stream_of_bits_partial",
    "Jpeg.C79_groups_partial",
    "Jpeg.C79_end_partial",
    "Jpeg.C79_nothing_lost_partial",
    "Jpeg.C79_end_violated"
   ],
   "note": "Refinement to a list of bits with backtracking (C79_stream_of_bits_partial), groups and single bits (C79_groups_partial). At the end of the input the behaviour is given exactly (C79_end_partial): all bits come out once and in order (C79_nothing_lost_partial), but the end is reported too early for every number of data bytes that is no multiple of eight (C79_end_violated). In a file the data are always followed by a marker, so that decode is not affected."
  },
  {
   "property": "C80",
   "status": "partial",
   "theorems": [
    "Jpeg.C80_one_image_partial",
    "Jpeg.C80_baseline_partial",
    "Jpeg.C80_errors_partial",
    "Jpeg.C80_two_images_partial",
    "Jpeg.C80_images_partial",
    "Jpeg.C80_reader_error_partial",
    "Jpeg.C80_violated",
    "Jpeg.C80_twice_violated",
    "Jpeg.C80_restart_nothing",
    "Jpeg.C80_exact_partial"
   ],
   "note": "C80_one_image_partial, C80_baseline_partial, C80_errors_partial, C80_two_images_partial, C80_images_partial (any number of files, against the parser run over one file after the other), C80_reader_error_partial: items of the stream for every sequence of reads and waits. False for a piece that ends in front of a restart marker (C80_violated, a panic) and for the same file twice, whose second image differs (C80_twice_violated). FramedRead is modelled from its documentation. In checked builds exact: C80_exact_partial, C80_restart_nothing."
  },
  {
   "property": "C81",
   "status": "partial",
   "theorems": [
    "Jpeg.C81_no_image_partial",
    "Jpeg.C81_baseline_partial",
    "Jpeg.C81_silent_violated"
   ],
   "note": "C81_no_image_partial, C81_baseline_partial: never an image, an error exactly if the codec left bytes in the buffer. C81_silent_violated: for every list of well-formed header segments, however they arrive, the stream ends without an item and without an error."
  },
  {
   "property": "C82",
   "status": "partial",
   "theorems": [
    "Jpeg.C82_end",
    "Jpeg.C82_parts_partial",
    "Jpeg.C82_no_start_violated",
    "Jpeg.C82_junk_violated",
    "Jpeg.C82_no_scan_violated"
   ],
   "note": "C82_end (every decoder), C82_parts_partial: frame header, scan header, end marker in this order, for every new decoder with debug assertions or without an Adobe segment for RGB. C82_no_start_violated, C82_junk_violated: the start marker and bytes before it make no difference to any data. C82_no_scan_violated: without debug assertions, for every size, a file without scan decodes to zeros."
  },
  {
   "property": "C83",
   "status": "proved",
   "theorems": [
    "Jpeg.C83_async",
    "Jpeg.C83_sync",
    "Jpeg.C83_stream",
    "Jpeg.C83_green_async",
    "Jpeg.C83_green_sync"
   ],
   "note": "C83_async, C83_sync for every file; the condition on tables is stated over the decoders seen between segments and has an executable check (noEobRuns_of_check). C83_green_async, C83_green_sync: every sequence of reads of the test image. C83_stream: any number of such files one after the other in one stream give their images in order."
  },
  {
   "property": "C84",
   "status": "partial",
   "theorems": [
    "Jpeg.C84_green_partial",
    "Jpeg.C84_simple_violated",
    "Jpeg.C84_vertical_violated"
   ],
   "note": "C84_green_partial. C84_simple_violated, C84_vertical_violated: every even row agrees with the expected bytes, row 1 does not; for simple.jpg for every sequence of reads. Run by the kernel on the files of the repository; also evidence that the model is the code."
  },
  {
   "property": "C85",
   "status": "proved",
   "theorems": [
    "Jpeg.C85_one_colour",
    "Jpeg.C85_grey",
    "Jpeg.C85_cmyk",
    "Jpeg.C85_neutral"
   ],
   "note": "Spec/Uniform says what a component of one sample value is; DC coefficients may differ as long as they round to the same sample. C85_one_colour (YCbCr, within 0.502 of BT.601), C85_grey (exact), C85_cmyk. C85_neutral: any first component with neutral colour components comes out unchanged in all three channels (vertical factors 1). Adobe RGB files are always black (C47), YCCK files panic (C55). Case: a 4:2:0 file of 16 by 16 pixels, every build."
  },
  {
   "property": "C86",
   "status": "proved",
   "theorems": [
    "Jpeg.C86_block",
    "Jpeg.C86_idct_monotone",
    "Jpeg.C86_brighter"
   ],
   "note": "Spec/Brighter relates the two files. C86_idct_monotone for the transform, C86_brighter end to end; upsampling and colour conversion are monotone (C27_monotone). Case: two 4:2:0 files with DC coefficients -200 and 100. C86_block: the same for the values idct8x8 itself returns, products up to 2^16."
  },
  {
   "property": "C87",
   "status": "partial",
   "theorems": [
    "Jpeg.C87_own_mcu",
    "Jpeg.C87_around_partial",
    "Jpeg.C87_rayon_violated"
   ],
   "note": "C87_own_mcu: 4:4:4, any two files, with coefficients of any size. C87_around_partial: every sampling the decoder can render, without rayon or without vertical subsampling. C87_rayon_violated: two columns of 49 pixels that differ in the second MCU only differ in the last pixel, since the row taken is y / V (C33). Three components or CMYK."
  },
  {
   "property": "C88",
   "status": "partial",
   "theorems": [
    "Jpeg.C88_flip_block",
    "Jpeg.C88_mirror_block_partial",
    "Jpeg.C88_flip_idct",
    "Jpeg.C88_mirror_idct_partial",
    "Jpeg.C88_flip",
    "Jpeg.C88_mirror_partial",
    "Jpeg.C88_mirror_violated",
    "Jpeg.C88_flip_subsampled_violated",
    "Jpeg.C88_mirror_subsampled_partial"
   ],
   "note": "C88_flip (exact, no vertical subsampling), C88_flip_idct. C88_mirror_subsampled_partial: every sampling the decoder can render, every channel within 3 (C88_mirror_partial: without subsampling); C88_mirror_idct_partial: every sample within 1. C88_mirror_violated: an 8x8 picture with 132 against 131. C88_flip_subsampled_violated: with vertical subsampling (lines repeated, C33) the last line of an 8x16 picture differs from the first of the flipped one, in every build. Both for three components or CMYK; C88_flip for products up to 2^16. C88_flip_block, C88_mirror_block_partial: the same for the values idct8x8 itself returns, products up to 2^16."
  },
  {
   "property": "C89",
   "status": "proved",
   "theorems": [
    "Jpeg.C89_same_products"
   ],
   "note": "Spec/Requantised defines the products; C89_same_products for every sampling the decoder can render, products up to 2^16 in magnitude (values outside the range of samples included). Three components or CMYK."
  },
  {
   "property": "C90",
   "status": "partial",
   "theorems": [
    "Jpeg.C90_reduced",
    "Jpeg.C90_reduced_cmyk",
    "Jpeg.C90_limited_partial",
    "Jpeg.C90_violated"
   ],
   "note": "C90_reduced: what every file with products up to 2^16 decodes to, for every sampling the decoder can render; C90_reduced_cmyk: likewise CMYK files. C90_limited_partial: pixels whose values are in -256..767, whatever the other pixels are. Missing: other values; C90_violated is a picture of value 768 everywhere that is black."
  },
  {
   "property": "C91",
   "status": "partial",
   "theorems": [
    "Jpeg.C91_transpose_block_partial",
    "Jpeg.C91_transpose_idct_partial",
    "Jpeg.C91_transpose_partial",
    "Jpeg.C91_turn_partial",
    "Jpeg.C91_violated",
    "Jpeg.C91_turn_violated"
   ],
   "note": "C91_transpose_partial, C91_turn_partial: no subsampling, three components or CMYK, every channel within 3; C91_transpose_idct_partial: every sample within 1, for all integers. Missing: exactly so; C91_violated and C91_turn_violated are 8x8 pictures with 128 against 129. C91_transpose_block_partial: the same for the values idct8x8 itself returns, products up to 2^16."
  },
  {
   "property": "C92",
   "status": "proved",
   "theorems": [
    "Jpeg.C92_block",
    "Jpeg.C92_idct",
    "Jpeg.C92_brightness",
    "Jpeg.C92_ink"
   ],
   "note": "C92_idct: the transform of all integers; C92_brightness: three components; C92_ink: CMYK, each of the inks. C92_block: the same for the values idct8x8 itself returns, products up to 2^16."
  },
  {
   "property": "C93",
   "status": "partial",
   "theorems": [
    "Jpeg.C93_crop_partial",
    "Jpeg.C93_rayon_violated"
   ],
   "note": "C93_crop_partial: every subsampling that can be rendered, three components or CMYK, any coefficients; all builds without rayon, and with it if there is no vertical subsampling or the part begins at the top. Missing: rayon with vertical subsampling further down; C93_rayon_violated is a picture of two MCUs with 128 against 228."
  },
  {
   "property": "C94",
   "status": "proved",
   "theorems": [
    "Jpeg.C94_block",
    "Jpeg.C94_idct",
    "Jpeg.C94_stable"
   ],
   "note": "C94_idct: the transform of all integers; C94_stable: the images, three components or CMYK, every subsampling that can be rendered. C94_block: the same for the values idct8x8 itself returns, products up to 2^16."
  },
  {
   "property": "C95",
   "status": "proved",
   "theorems": [
    "Jpeg.C95_luminance",
    "Jpeg.C95_grey"
   ],
   "note": "C95_luminance: the colour conversion, all 2^24 inputs; C95_grey: the images. One-sided where a channel is at a limit."
  },
  {
   "property": "C96",
   "status": "proved",
   "theorems": [
    "Jpeg.C96_errors",
    "Jpeg.C96_every_error",
    "Jpeg.C96_streaming",
    "Jpeg.C96_reader"
   ],
   "note": "C96_errors: every error of every decode on every decoder a program can hold is in a class of SegmentError, HeaderError, ScanError or RenderError, each of which says which bytes of the file, or which table or counter of the decoder at that moment, are at fault. C96_every_error: a whole-file witness, run by the kernel, for each kind. C96_streaming, C96_reader: the same for the bytes fed to a streaming decoder in chunks, and for the bytes a reader gives."
  },
  {
   "property": "C97",
   "status": "proved",
   "theorems": [
    "Jpeg.C97_fault",
    "Jpeg.C97_no_image",
    "Jpeg.C97_prefix_free",
    "Jpeg.C97_streaming"
   ],
   "note": "C97_fault: the same fault for every continuation, or the trailing bytes panic for an image that cannot be put together; C97_no_image; C97_prefix_free; C97_streaming: a fault of the streaming decoder is that of decode on every continuation of the bytes fed, up to the split at a restart marker refuted under C43. Missing data (eof, out of bits) is excluded because there the rest of the file does matter (C65)."
  },
  {
   "property": "C98",
   "status": "proved",
   "theorems": [
    "Jpeg.C98_cb",
    "Jpeg.C98_cr",
    "Jpeg.C98_luminance",
    "Jpeg.C98_cmyk"
   ],
   "note": "C98_cb, C98_cr, C98_luminance for YCbCr, C98_cmyk for four inks; no assumption on the coefficients. Cases: a 4:2:0 picture and three others that differ from it in one component, and CMYK."
  },
  {
   "property": "C99",
   "status": "proved",
   "theorems": [
    "Jpeg.C99_order_down",
    "Jpeg.C99_image_down",
    "Jpeg.C99_cmyk_down",
    "Jpeg.C99_order",
    "Jpeg.C99_ramp",
    "Jpeg.C99_image",
    "Jpeg.C99_cmyk"
   ],
   "note": "C99_order: lines of every upsampler (columns of an incomplete last group of the nearest neighbour upsampler excepted, C29). C99_ramp: exact ramps for ratios 1 and 2. C99_image, C99_cmyk: the bytes of decoded images. The line used for a pixel row is that of C33 in C99_image; order along a row does not depend on which one it is. C99_order_down, C99_image_down, C99_cmyk_down: the same from top to bottom, for any two lines; the rows used (C33) are in order in every build."
  },
  {
   "property": "C100",
   "status": "proved",
   "theorems": [
    "Jpeg.C100_idct",
    "Jpeg.C100_idct_negative",
    "Jpeg.C100_image",
    "Jpeg.C100_negative",
    "Jpeg.C100_cmyk",
    "Jpeg.C100_cmyk_negative",
    "Jpeg.C100_block",
    "Jpeg.C100_block_negative"
   ],
   "note": "C100_idct, C100_idct_negative: blocks, any coefficients. C100_image, C100_negative: YCbCr; C100_cmyk, C100_cmyk_negative: four inks. Exact equality is false: the example beside C100_idct has a sample that is 1 off. Cases: a sum of two pictures with different quantisation tables, and a CMYK negative. C100_block, C100_block_negative: the same for the values idct8x8 itself returns, products up to 2^16."
  },
  {
   "property": "C101",
   "status": "partial",
   "theorems": [
    "Jpeg.C101_stacked_partial",
    "Jpeg.C101_beside",
    "Jpeg.C101_rayon_violated"
   ],
   "note": "C101_stacked_partial: one below the other, byte for byte without vertical subsampling in every build; C101_beside: side by side in every build. Missing: the lower picture with the rayon feature and vertical subsampling; false there (C101_rayon_violated). Pictures that cannot be rendered at all are those of C32. Cases: 4:2:2 stacked, 4:4:4 side by side."
  },
  {
   "property": "C102",
   "status": "proved",
   "theorems": [
    "Jpeg.C102_block",
    "Jpeg.C102_idct",
    "Jpeg.C102_thumbnail",
    "Jpeg.C102_cmyk",
    "Jpeg.C102_luminance"
   ],
   "note": "C102_idct: all integers. C102_thumbnail: the 1x1 transform and the 64 samples. C102_cmyk, C102_luminance: decoded images (components at full resolution, no vertical subsampling, values within 0..255; for luminance, channels neither 0 nor 255). Case: an 8 by 8 picture. C102_block: the same for the values idct8x8 itself returns, products up to 2^16."
  },
  {
   "property": "C103",
   "status": "proved",
   "theorems": [
    "Jpeg.C103_in_front",
    "Jpeg.C103_in_front_cmyk",
    "Jpeg.C103_in_front_own",
    "Jpeg.C103_first_mcus",
    "Jpeg.C103_covers"
   ],
   "note": "C103_in_front, C103_in_front_cmyk: all subsamplings that can be rendered. C103_in_front_own: without subsampling. C103_first_mcus: one interval, data that agrees in the first n bits. C103_covers: C66 is the case of whole intervals. Case: two pictures that differ in the second MCU."
  },
  {
   "property": "C104",
   "status": "proved",
   "theorems": [
    "Jpeg.C104_idct",
    "Jpeg.C104_block",
    "Jpeg.C104_tables",
    "Jpeg.C104_image",
    "Jpeg.C104_cmyk"
   ],
   "note": "Spec/Contrast. C104_idct: all integers; C104_block: the values idct8x8 returns. C104_tables: multiplying the tables does it. C104_image: YCbCr, C104_cmyk: four inks, each with its factor. Cases: tables of twos and threes, a CMYK picture with half the contrast, a negative block."
  },
  {
   "property": "C105",
   "status": "partial",
   "theorems": [
    "Jpeg.C105_grey_partial",
    "Jpeg.C105_grey_violated"
   ],
   "note": "Spec/GreySampling. C105_grey_partial: factors that differ in the horizontal direction only, byte for byte. C105_grey_violated: an 8x16 grey picture with half and with all lines of chrominance differs in its last line, in every build (lines repeated, C33). Case: 16x7 with 4:2:2 and 4:4:4."
  },
  {
   "property": "C106",
   "status": "proved",
   "theorems": [
    "Jpeg.C106_idct",
    "Jpeg.C106_block",
    "Jpeg.C106_cmyk",
    "Jpeg.C106_luminance",
    "Jpeg.C106_picture_cmyk",
    "Jpeg.C106_picture_luminance"
   ],
   "note": "Spec/Energy. C106_idct: all integers; C106_block: the bytes idct8x8 returns (from above also for limited samples); C106_cmyk, C106_luminance: blocks of images; C106_picture_cmyk, C106_picture_luminance (Props/MeanSquare): root mean square over whole images. Cases: two blocks with 5944 against 6100, a CMYK picture with its tables halved, a YCbCr picture with its tables doubled, two blocks side by side."
  },
  {
   "property": "C107",
   "status": "partial",
   "theorems": [
    "Jpeg.C107_ratios_partial",
    "Jpeg.C107_lines_partial",
    "Jpeg.C107_outcome_violated",
    "Jpeg.C107_ratios_violated"
   ],
   "note": "Spec/Ratios. C107_ratios_partial: byte for byte for files with the same largest vertical factor. C107_lines_partial: for other factors the lines that are multiples of both (first line only with rayon). C107_ratios_violated: 8x16 pixels with all factors 1x2 and all factors 1x1 differ in the last line, in every build (lines repeated, C33). C107_outcome_violated: 16x8 pixels in 4:2:2 panic with factors 2,1,1 and decode with 4,2,2 (C32). Case: 16x7 with factors 2,1,1 and 4,2,2."
  },
  {
   "property": "C108",
   "status": "proved",
   "theorems": [
    "Jpeg.C108_image"
   ],
   "note": "Spec/Saturation, Spec/Contrast (Scaled). C108_image: files whose chrominance coefficients are s times those of another and whose luminance is the same; C104_tables says how to get them from the quantisation tables. Case: 7x5 pixels, s = 3/2."
  },
  {
   "property": "C109",
   "status": "proved",
   "theorems": [
    "Jpeg.C109_inks"
   ],
   "note": "Spec/Inks. C109_inks: any component of one file that is any component of the other, byte for byte, whatever the coefficients. Case: the last of four inks put in front."
  },
  {
   "property": "C110",
   "status": "proved",
   "theorems": [
    "Jpeg.C110_idct",
    "Jpeg.C110_block",
    "Jpeg.C110_cmyk",
    "Jpeg.C110_luminance",
    "Jpeg.C110_fine"
   ],
   "note": "Props/Recovered. C110_idct for all integers, C110_block for the transform of the code, C110_cmyk and C110_luminance for whole files (from the lower bounds of C106). C110_fine: with a table of sevens the coefficients are not determined. Cases: two CMYK pictures that differ in the highest frequency of one ink, the same picture with tables of twos and fours."
  },
  {
   "property": "C111",
   "status": "proved",
   "theorems": [
    "Jpeg.C111_idct",
    "Jpeg.C111_image",
    "Jpeg.C111_cmyk"
   ],
   "note": "Spec/Blend. C111_idct: all integers; C111_image: YCbCr, C111_cmyk: four inks. Generalises C104 (t = 0) and the sums of C100 (s = t = 1), whose bounds for those cases are kept. Cases: a half of one picture and a half of another, 7x5 pixels; three quarters of a CMYK picture and a quarter of its negative."
  }
 ]
}