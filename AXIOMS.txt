Jpeg.C01_bits_in_order: propext, Classical.choice, Quot.sound
Jpeg.C02_zero_padding: propext, Classical.choice, Quot.sound
Jpeg.C02_marker_kept: propext, Classical.choice, Quot.sound
Jpeg.C02_marker_not_data: propext, Classical.choice, Quot.sound
Jpeg.C02_zeros_forever: propext, Classical.choice, Quot.sound
Jpeg.C02_replay_witness: propext
Jpeg.C03_reads_compose: propext, Classical.choice, Quot.sound
Jpeg.C03_values_compose: propext, Classical.choice, Quot.sound
Jpeg.C03_no_marker_witness: propext
Jpeg.C04_reader_arithmetic: propext, Classical.choice, Quot.sound
Jpeg.C05_extend_is_T81: propext, Classical.choice, Quot.sound
Jpeg.C05_magnitude_inverse: propext, Classical.choice, Quot.sound
Jpeg.C06_acceptance: propext, Classical.choice, Quot.sound
Jpeg.C06_rejection: propext, Classical.choice, Quot.sound
Jpeg.C06_acceptance_ac: propext, Classical.choice, Quot.sound
Jpeg.C07_decode_match: propext, Classical.choice, Quot.sound
Jpeg.C07_decode_nomatch: propext, Classical.choice, Quot.sound
Jpeg.C07_prefix_free: propext, Classical.choice, Quot.sound
Jpeg.C07_decode_stream: propext, Classical.choice, Quot.sound
Jpeg.C08_lut_irrelevant: propext, Classical.choice, Quot.sound
Jpeg.C09_fast_ac_irrelevant: propext, Classical.choice, Quot.sound
Jpeg.C10_zigzag_walk: propext
Jpeg.C10_bijection: propext, Quot.sound
Jpeg.C11_dqt_8bit: propext, Classical.choice, Quot.sound
Jpeg.C11_dqt_16bit: propext, Classical.choice, Quot.sound
Jpeg.C12_block_safe: propext, Classical.choice, Quot.sound
Jpeg.C13_block_inverse: propext, Classical.choice, Quot.sound
Jpeg.C13_standard_encoder: propext, Classical.choice, Quot.sound
Jpeg.C13_encoder_total: propext, Classical.choice, Quot.sound
Jpeg.C14_dc_accumulates: propext, Classical.choice, Quot.sound
Jpeg.C14_zero_at_scan_start: propext, Quot.sound
Jpeg.C14_zero_after_restart: propext
Jpeg.C14_accumulates_over_interval: propext, Classical.choice, Quot.sound
Jpeg.C15_no_trace: propext, Quot.sound
Jpeg.C15_retry: propext, Quot.sound
Jpeg.C15_no_panic: propext, Classical.choice, Quot.sound
Jpeg.C16_mcu_inverse: propext, Classical.choice, Quot.sound
Jpeg.C17_marker_required: propext, Classical.choice, Quot.sound
Jpeg.C17_no_marker_elsewhere: propext, Classical.choice, Quot.sound
Jpeg.C17_no_underflow: propext, Classical.choice, Quot.sound
Jpeg.C17_wellformed_accepted: propext, Classical.choice, Quot.sound
Jpeg.C18_geometry_exact: propext, Classical.choice, Quot.sound
Jpeg.C18_header_accepted: propext, Classical.choice, Quot.sound
Jpeg.C19_no_overflow: propext, Classical.choice, Quot.sound
Jpeg.C19_planes_cover: propext, Classical.choice, Quot.sound
Jpeg.C20_every_sample_in_place: propext, Classical.choice, Quot.sound
Jpeg.C20_no_uninitialised: propext, Classical.choice, Quot.sound
Jpeg.C21_all_initialised: propext, Classical.choice, Quot.sound
Jpeg.C21_clamp_index: propext, Quot.sound
Jpeg.C21_clamp_add: propext, Classical.choice, Quot.sound
Jpeg.C21_dequant_exact: propext, Classical.choice, Quot.sound
Jpeg.C22_flat: propext, Classical.choice, Quot.sound
Jpeg.C22_flat_saturated: propext, Classical.choice, Quot.sound
Jpeg.C22_beyond_bound: propext, Quot.sound
Jpeg.C23_shortcuts_invisible: propext, Classical.choice, Quot.sound
Jpeg.C23_beyond_bound: propext, Quot.sound
Jpeg.C24_no_visible_wrap: propext, Classical.choice, Quot.sound
Jpeg.C24_saturated: propext, Classical.choice, Quot.sound
Jpeg.C24_no_wrap: propext, Classical.choice, Quot.sound
Jpeg.C24_beyond_bound: propext, Quot.sound
Jpeg.C25_clamp: propext, Classical.choice, Quot.sound
Jpeg.C25_clamp_saturates: propext, Classical.choice, Quot.sound
Jpeg.C25_clamp_outside: propext, Quot.sound
Jpeg.C26_in_range: propext, Classical.choice, Quot.sound
Jpeg.C26_no_overflow: propext, Classical.choice, Quot.sound
Jpeg.C26_line: propext, Classical.choice, Quot.sound
Jpeg.C27_accuracy: propext, Classical.choice, Quot.sound
Jpeg.C27_grey: propext, Classical.choice, Quot.sound
Jpeg.C27_monotone: propext, Classical.choice, Quot.sound
Jpeg.C27_factors: propext, Classical.choice, Quot.sound
Jpeg.C28_selection: propext
Jpeg.C28_cmyk_line: propext, Quot.sound
Jpeg.C28_ycck_panics: propext
Jpeg.C29_filters_partial: propext, Classical.choice, Quot.sound
Jpeg.C29_trailing_columns_violated: propext, Classical.choice, Quot.sound
Jpeg.C30_integer_ratio: propext, Quot.sound
Jpeg.C30_selection: propext, Quot.sound
Jpeg.C30_frame: propext, Quot.sound
Jpeg.C31_between_neighbours: propext, Classical.choice, Quot.sound
Jpeg.C32_no_panic_partial: propext, Classical.choice, Quot.sound
Jpeg.C32_violated: propext, Classical.choice, Quot.sound
Jpeg.C33_group_row: propext, Classical.choice, Quot.sound
Jpeg.C33_own_row_partial: propext, Classical.choice, Quot.sound
Jpeg.C33_violated: propext, Classical.choice, Quot.sound
Jpeg.C33_violated_witness: propext
Jpeg.C34_rayon_partial: propext, Quot.sound
Jpeg.C34_violated: propext
Jpeg.C34_buffers_irrelevant: propext, Classical.choice, Quot.sound
Jpeg.C35_reader: propext, Classical.choice, Quot.sound
Jpeg.C35_streaming: propext, Quot.sound
Jpeg.C35_size: propext, Quot.sound
Jpeg.C35_size_of_header: propext, Classical.choice, Quot.sound
Jpeg.C35_last_header: propext, Classical.choice, Quot.sound
Jpeg.C36_first_marker: propext, Classical.choice, Quot.sound
Jpeg.C36_unknown_code: propext, Classical.choice, Quot.sound
Jpeg.C36_no_marker: propext, Classical.choice, Quot.sound
Jpeg.C36_found: propext, Classical.choice, Quot.sound
Jpeg.C37_exact_length: propext, Quot.sound
Jpeg.C37_accepted: propext, Quot.sound
Jpeg.C37_short_length: propext, Quot.sound
Jpeg.C37_truncated: propext, Quot.sound
Jpeg.C37_scan_header: propext, Classical.choice, Quot.sound
Jpeg.C38_dht_accepted: propext, Classical.choice, Quot.sound
Jpeg.C38_dht_defines: propext, Classical.choice, Quot.sound
Jpeg.C38_dqt_accepted: propext, Classical.choice, Quot.sound
Jpeg.C38_dqt_defines: propext, Classical.choice, Quot.sound
Jpeg.C38_dht_rejects: propext, Classical.choice, Quot.sound
Jpeg.C38_dqt_rejects: propext, Classical.choice, Quot.sound
Jpeg.C39_accepted_iff: propext, Classical.choice, Quot.sound
Jpeg.C39_no_panic: propext, Classical.choice, Quot.sound
Jpeg.C39_needs_frame: propext, Classical.choice, Quot.sound
Jpeg.C39_component_count: propext, Quot.sound
Jpeg.C40_behind_partial: propext, Classical.choice, Quot.sound
Jpeg.C40_comment_skipped_partial: propext, Classical.choice, Quot.sound
Jpeg.C40_file_partial: propext, Classical.choice, Quot.sound
Jpeg.C40_violated: propext, Classical.choice, Quot.sound
Jpeg.C41_violated_segments: propext, Quot.sound
Jpeg.C41_violated_scan_start: propext, Quot.sound
Jpeg.C41_violated_scan_data: propext, Quot.sound
Jpeg.C41_violated_end: propext, Quot.sound
Jpeg.C41_violated_render: propext, Quot.sound
Jpeg.C41_reader_panics_listed_partial: propext, Classical.choice, Quot.sound
Jpeg.C41_trailing: propext, Quot.sound
Jpeg.C41_streaming_panics_listed_partial: propext, Classical.choice, Quot.sound
Jpeg.C41_panics_listed_partial: propext, Classical.choice, Quot.sound
Jpeg.C42_reuse_partial: propext, Classical.choice, Quot.sound
Jpeg.C42_reuse_fresh_partial: propext, Classical.choice, Quot.sound
Jpeg.C42_violated: propext, Quot.sound
Jpeg.C42_violated_color: propext, Quot.sound
Jpeg.C43_chunks_partial: propext, Classical.choice, Quot.sound
Jpeg.C43_any_split_partial: propext, Classical.choice, Quot.sound
Jpeg.C43_baseline_partial: propext, Classical.choice, Quot.sound
Jpeg.C43_errors_partial: propext, Classical.choice, Quot.sound
Jpeg.C43_violated_restart: propext, Quot.sound
Jpeg.C43_violated_eobRun: propext, Quot.sound
Jpeg.C43_restart_panics: propext, Classical.choice, Quot.sound
Jpeg.C43_exact_partial: propext, Classical.choice, Quot.sound
Jpeg.C44_left_over_violated: propext, Classical.choice, Quot.sound
Jpeg.C44_shifted_partial: propext, Classical.choice, Quot.sound
Jpeg.C44_data_ignored_violated: propext, Classical.choice, Quot.sound
Jpeg.C44_next_image_partial: propext, Classical.choice, Quot.sound
Jpeg.C44_second_partial: propext, Classical.choice, Quot.sound
Jpeg.C44_violated: propext, Quot.sound
Jpeg.C45_decodes: propext, Classical.choice, Quot.sound
Jpeg.C45_pixels_partial: propext, Classical.choice, Quot.sound
Jpeg.C45_pixels_own_row_partial: propext, Classical.choice, Quot.sound
Jpeg.C46_violated_every_file: propext, Classical.choice, Quot.sound
Jpeg.C46_violated: propext, Quot.sound
Jpeg.C46_never_decodes: propext, Classical.choice, Quot.sound
Jpeg.C46_violated_witness: propext, Quot.sound
Jpeg.C47_violated_every_file: propext, Classical.choice, Quot.sound
Jpeg.C47_violated: propext, Classical.choice, Quot.sound
Jpeg.C47_violated_witness: propext, Quot.sound
Jpeg.C48_scale: propext, Classical.choice, Quot.sound
Jpeg.C48_zero_width: propext
Jpeg.C49_4x4: propext, Classical.choice, Quot.sound
Jpeg.C49_2x2: propext, Classical.choice, Quot.sound
Jpeg.C49_1x1: propext, Classical.choice, Quot.sound
Jpeg.C50_framed: propext, Classical.choice, Quot.sound
Jpeg.C50_reader: propext, Classical.choice, Quot.sound
Jpeg.C50_streaming: propext, Classical.choice, Quot.sound
Jpeg.C50_terminates: propext, Classical.choice, Quot.sound
Jpeg.C50_segments_bounded: propext, Classical.choice, Quot.sound
Jpeg.C50_progress: propext, Classical.choice, Quot.sound
Jpeg.C51_constants: propext
Jpeg.C51_fixed_point_error: propext, Classical.choice, Quot.sound
Jpeg.C51_sample_error: propext, Classical.choice, Quot.sound
Jpeg.C52_violated: propext, Classical.choice, Quot.sound
Jpeg.C52_violated_witness: propext, Quot.sound
Jpeg.C53_builds_agree: propext, Quot.sound
Jpeg.C53_image: propext, Quot.sound
Jpeg.C53_error: propext, Quot.sound
Jpeg.C53_exception: propext, Quot.sound
Jpeg.C53_streaming_call: propext, Quot.sound
Jpeg.C53_streaming: propext, Quot.sound
Jpeg.C54_without_adobe: propext, Classical.choice, Quot.sound
Jpeg.C54_decodes: propext, Classical.choice, Quot.sound
Jpeg.C54_pixels_partial: propext, Classical.choice, Quot.sound
Jpeg.C54_pixels_own_row_partial: propext, Classical.choice, Quot.sound
Jpeg.C55_black_not_read: propext, Classical.choice, Quot.sound
Jpeg.C55_violated_every_file: propext, Classical.choice, Quot.sound
Jpeg.C55_violated: propext, Classical.choice, Quot.sound
Jpeg.C55_violated_witness: propext, Quot.sound
Jpeg.C56_app_skipped_partial: propext, Classical.choice, Quot.sound
Jpeg.C56_file_partial: propext, Classical.choice, Quot.sound
Jpeg.C56_violated: propext, Classical.choice, Quot.sound
Jpeg.C57_4x4: propext, Classical.choice, Quot.sound
Jpeg.C57_2x2: propext, Classical.choice, Quot.sound
Jpeg.C57_writes: propext, Classical.choice, Quot.sound
Jpeg.C57_dispatch: propext, Quot.sound
Jpeg.C58_reader: propext, Classical.choice, Quot.sound
Jpeg.C58_streaming: propext, Classical.choice, Quot.sound
Jpeg.C58_no_undefined_behaviour: propext, Classical.choice, Quot.sound
Jpeg.C59_same_picture: propext, Classical.choice, Quot.sound
Jpeg.C60_abbreviated: propext, Classical.choice, Quot.sound
Jpeg.C61_violated_new: propext, Classical.choice, Quot.sound
Jpeg.C61_violated_used: propext, Classical.choice, Quot.sound
Jpeg.C61_tables_kept_partial: propext, Classical.choice, Quot.sound
Jpeg.C62_violated: propext, Classical.choice, Quot.sound
Jpeg.C62_eight_bits_partial: propext, Classical.choice, Quot.sound
Jpeg.C63_accuracy_partial: propext, Classical.choice, Quot.sound
Jpeg.C63_accuracy_own_row_partial: propext, Classical.choice, Quot.sound
Jpeg.C63_full_resolution: propext, Classical.choice, Quot.sound
Jpeg.C63_cmyk_partial: propext, Classical.choice, Quot.sound
Jpeg.C63_cmyk_full_resolution: propext, Classical.choice, Quot.sound
Jpeg.C64_every_picture: propext, Classical.choice, Quot.sound
Jpeg.C64_every_picture_nearest: propext, Classical.choice, Quot.sound
Jpeg.C64_round_trip: propext, Classical.choice, Quot.sound
Jpeg.C64_round_trip_cmyk: propext, Classical.choice, Quot.sound
Jpeg.C65_truncated: propext, Classical.choice, Quot.sound
Jpeg.C65_baseline: propext, Classical.choice, Quot.sound
Jpeg.C65_pending: propext, Classical.choice, Quot.sound
Jpeg.C65_baseline_pending: propext, Classical.choice, Quot.sound
Jpeg.C66_confined: propext, Classical.choice, Quot.sound
Jpeg.C66_confined_own: propext, Classical.choice, Quot.sound
Jpeg.C66_confined_cmyk: propext, Classical.choice, Quot.sound
Jpeg.C66_no_panic: propext, Classical.choice, Quot.sound
Jpeg.C66_undamaged: propext, Quot.sound
Jpeg.C67_outcome: propext, Classical.choice, Quot.sound
Jpeg.C67_decodes_iff: propext, Classical.choice, Quot.sound
Jpeg.C67_error_iff: propext, Classical.choice, Quot.sound
Jpeg.C67_panics: propext, Classical.choice, Quot.sound
Jpeg.C68_unknown_partial: propext, Classical.choice, Quot.sound
Jpeg.C68_processes: propext, Quot.sound
Jpeg.C68_violated_every_file: propext, Classical.choice, Quot.sound
Jpeg.C69_segment: propext, Classical.choice, Quot.sound
Jpeg.C69_malformed: propext, Classical.choice, Quot.sound
Jpeg.C69_scan_header: propext, Classical.choice, Quot.sound
Jpeg.C70_image_partial: propext, Classical.choice, Quot.sound
Jpeg.C70_ends_early_partial: propext, Classical.choice, Quot.sound
Jpeg.C70_baseline_partial: propext, Classical.choice, Quot.sound
Jpeg.C70_end_is_final: propext, Quot.sound
Jpeg.C70_violated: propext, Quot.sound
Jpeg.C70_restart_panics: propext, Quot.sound
Jpeg.C70_exact_partial: propext, Classical.choice, Quot.sound
Jpeg.C70_next_image_partial: propext, Classical.choice, Quot.sound
Jpeg.C70_images_partial: propext, Classical.choice, Quot.sound
Jpeg.C70_twice_violated: propext, Quot.sound
Jpeg.C71_reads_iff: propext, Classical.choice, Quot.sound
Jpeg.C71_unique: propext, Classical.choice, Quot.sound
Jpeg.C71_refused: propext, Classical.choice, Quot.sound
Jpeg.C71_outcome_partial: propext, Classical.choice, Quot.sound
Jpeg.C71_read: propext, Classical.choice, Quot.sound
Jpeg.C71_reserved_violated: propext, Classical.choice, Quot.sound
Jpeg.C71_short_violated: propext, Classical.choice, Quot.sound
Jpeg.C72_waiting_iff_partial: propext, Classical.choice, Quot.sound
Jpeg.C72_undecodable_violated: propext, Classical.choice, Quot.sound
Jpeg.C72_segment_violated: propext, Classical.choice, Quot.sound
Jpeg.C73_band_block_partial: propext, Classical.choice, Quot.sound
Jpeg.C73_band_refused_partial: propext, Classical.choice, Quot.sound
Jpeg.C73_band_blocks_partial: propext, Classical.choice, Quot.sound
Jpeg.C73_band_encoder_partial: propext, Classical.choice, Quot.sound
Jpeg.C73_single_skipped: propext, Quot.sound
Jpeg.C73_single_violated: propext, Classical.choice, Quot.sound
Jpeg.C74_zeros_partial: propext, Classical.choice, Quot.sound
Jpeg.C74_read_partial: propext, Classical.choice, Quot.sound
Jpeg.C74_refused_partial: propext, Classical.choice, Quot.sound
Jpeg.C74_complete: propext, Classical.choice, Quot.sound
Jpeg.C74_ff_violated: propext, Classical.choice, Quot.sound
Jpeg.C75_no_data: propext, Classical.choice, Quot.sound
Jpeg.C75_violated: propext, Classical.choice, Quot.sound
Jpeg.C75_bounded_partial: propext, Classical.choice, Quot.sound
Jpeg.C76_rows: propext, Classical.choice, Quot.sound
Jpeg.C76_constants: propext, Classical.choice, Quot.sound
Jpeg.C76_transform_constants: propext, Classical.choice, Quot.sound
Jpeg.C77_behind_partial: propext, Classical.choice, Quot.sound
Jpeg.C77_same_partial: propext, Classical.choice, Quot.sound
Jpeg.C77_violated: propext, Classical.choice, Quot.sound
Jpeg.C77_unknown: propext, Classical.choice, Quot.sound
Jpeg.C78_dnl_violated: propext, Classical.choice, Quot.sound
Jpeg.C78_missing_violated: propext, Classical.choice, Quot.sound
Jpeg.C79_stream_of_bits_partial: propext, Classical.choice, Quot.sound
Jpeg.C79_groups_partial: propext, Classical.choice, Quot.sound
Jpeg.C79_end_partial: propext, Classical.choice, Quot.sound
Jpeg.C79_nothing_lost_partial: propext, Classical.choice, Quot.sound
Jpeg.C79_end_violated: propext, Classical.choice, Quot.sound
Jpeg.C80_one_image_partial: propext, Classical.choice, Quot.sound
Jpeg.C80_baseline_partial: propext, Classical.choice, Quot.sound
Jpeg.C80_errors_partial: propext, Classical.choice, Quot.sound
Jpeg.C80_two_images_partial: propext, Classical.choice, Quot.sound
Jpeg.C80_images_partial: propext, Classical.choice, Quot.sound
Jpeg.C80_reader_error_partial: propext, Classical.choice, Quot.sound
Jpeg.C80_violated: propext, Quot.sound
Jpeg.C80_twice_violated: propext, Quot.sound
Jpeg.C80_restart_nothing: propext, Classical.choice, Quot.sound
Jpeg.C80_exact_partial: propext, Classical.choice, Quot.sound
Jpeg.C81_no_image_partial: propext, Classical.choice, Quot.sound
Jpeg.C81_baseline_partial: propext, Classical.choice, Quot.sound
Jpeg.C81_silent_violated: propext, Classical.choice, Quot.sound
Jpeg.C82_end: propext, Classical.choice, Quot.sound
Jpeg.C82_parts_partial: propext, Classical.choice, Quot.sound
Jpeg.C82_no_start_violated: propext, Classical.choice, Quot.sound
Jpeg.C82_junk_violated: propext, Classical.choice, Quot.sound
Jpeg.C82_no_scan_violated: propext, Classical.choice, Quot.sound
Jpeg.C83_async: propext, Classical.choice, Quot.sound
Jpeg.C83_sync: propext, Classical.choice, Quot.sound
Jpeg.C83_stream: propext, Classical.choice, Quot.sound
Jpeg.C83_green_async: propext, Classical.choice, Quot.sound
Jpeg.C83_green_sync: propext, Classical.choice, Quot.sound
Jpeg.C84_green_partial: propext, Quot.sound
Jpeg.C84_simple_violated: propext, Classical.choice, Quot.sound
Jpeg.C84_vertical_violated: propext, Quot.sound
Jpeg.C85_one_colour: propext, Classical.choice, Quot.sound
Jpeg.C85_grey: propext, Classical.choice, Quot.sound
Jpeg.C85_cmyk: propext, Classical.choice, Quot.sound
Jpeg.C85_neutral: propext, Classical.choice, Quot.sound
Jpeg.C86_block: propext, Classical.choice, Quot.sound
Jpeg.C86_idct_monotone: propext, Quot.sound
Jpeg.C86_brighter: propext, Classical.choice, Quot.sound
Jpeg.C87_own_mcu: propext, Classical.choice, Quot.sound
Jpeg.C87_around_partial: propext, Classical.choice, Quot.sound
Jpeg.C87_rayon_violated: propext, Classical.choice, Quot.sound
Jpeg.C88_flip_block: propext, Classical.choice, Quot.sound
Jpeg.C88_mirror_block_partial: propext, Classical.choice, Quot.sound
Jpeg.C88_flip_idct: propext, Classical.choice, Quot.sound
Jpeg.C88_mirror_idct_partial: propext, Classical.choice, Quot.sound
Jpeg.C88_flip: propext, Classical.choice, Quot.sound
Jpeg.C88_mirror_partial: propext, Classical.choice, Quot.sound
Jpeg.C88_mirror_violated: propext, Classical.choice, Quot.sound
Jpeg.C88_flip_subsampled_violated: propext, Classical.choice, Quot.sound
Jpeg.C88_mirror_subsampled_partial: propext, Classical.choice, Quot.sound
Jpeg.C89_same_products: propext, Classical.choice, Quot.sound
Jpeg.C90_reduced: propext, Classical.choice, Quot.sound
Jpeg.C90_reduced_cmyk: propext, Classical.choice, Quot.sound
Jpeg.C90_limited_partial: propext, Classical.choice, Quot.sound
Jpeg.C90_violated: propext, Classical.choice, Quot.sound
Jpeg.C91_transpose_block_partial: propext, Classical.choice, Quot.sound
Jpeg.C91_transpose_idct_partial: propext, Classical.choice, Quot.sound
Jpeg.C91_transpose_partial: propext, Classical.choice, Quot.sound
Jpeg.C91_turn_partial: propext, Classical.choice, Quot.sound
Jpeg.C91_violated: propext, Classical.choice, Quot.sound
Jpeg.C91_turn_violated: propext, Classical.choice, Quot.sound
Jpeg.C92_block: propext, Classical.choice, Quot.sound
Jpeg.C92_idct: propext, Quot.sound
Jpeg.C92_brightness: propext, Classical.choice, Quot.sound
Jpeg.C92_ink: propext, Classical.choice, Quot.sound
Jpeg.C93_crop_partial: propext, Classical.choice, Quot.sound
Jpeg.C93_rayon_violated: propext, Classical.choice, Quot.sound
Jpeg.C94_block: propext, Classical.choice, Quot.sound
Jpeg.C94_idct: propext, Classical.choice, Quot.sound
Jpeg.C94_stable: propext, Classical.choice, Quot.sound
Jpeg.C95_luminance: propext, Classical.choice, Quot.sound
Jpeg.C95_grey: propext, Classical.choice, Quot.sound
Jpeg.C96_errors: propext, Classical.choice, Quot.sound
Jpeg.C96_every_error: propext, Quot.sound
Jpeg.C96_streaming: propext, Classical.choice, Quot.sound
Jpeg.C96_reader: propext, Classical.choice, Quot.sound
Jpeg.C97_fault: propext, Classical.choice, Quot.sound
Jpeg.C97_no_image: propext, Classical.choice, Quot.sound
Jpeg.C97_prefix_free: propext, Quot.sound
Jpeg.C97_streaming: propext, Classical.choice, Quot.sound
Jpeg.C98_cb: propext, Classical.choice, Quot.sound
Jpeg.C98_cr: propext, Classical.choice, Quot.sound
Jpeg.C98_luminance: propext, Classical.choice, Quot.sound
Jpeg.C98_cmyk: propext, Classical.choice, Quot.sound
Jpeg.C99_order_down: propext, Classical.choice, Quot.sound
Jpeg.C99_image_down: propext, Classical.choice, Quot.sound
Jpeg.C99_cmyk_down: propext, Classical.choice, Quot.sound
Jpeg.C99_order: propext, Classical.choice, Quot.sound
Jpeg.C99_ramp: propext, Classical.choice, Quot.sound
Jpeg.C99_image: propext, Classical.choice, Quot.sound
Jpeg.C99_cmyk: propext, Classical.choice, Quot.sound
Jpeg.C100_idct: propext, Classical.choice, Quot.sound
Jpeg.C100_idct_negative: propext, Classical.choice, Quot.sound
Jpeg.C100_image: propext, Classical.choice, Quot.sound
Jpeg.C100_negative: propext, Classical.choice, Quot.sound
Jpeg.C100_cmyk: propext, Classical.choice, Quot.sound
Jpeg.C100_cmyk_negative: propext, Classical.choice, Quot.sound
Jpeg.C100_block: propext, Classical.choice, Quot.sound
Jpeg.C100_block_negative: propext, Classical.choice, Quot.sound
Jpeg.C101_stacked_partial: propext, Classical.choice, Quot.sound
Jpeg.C101_beside: propext, Classical.choice, Quot.sound
Jpeg.C101_rayon_violated: propext, Classical.choice, Quot.sound
Jpeg.C102_block: propext, Classical.choice, Quot.sound
Jpeg.C102_idct: propext, Classical.choice, Quot.sound
Jpeg.C102_thumbnail: propext, Classical.choice, Quot.sound
Jpeg.C102_cmyk: propext, Classical.choice, Quot.sound
Jpeg.C102_luminance: propext, Classical.choice, Quot.sound
Jpeg.C103_in_front: propext, Classical.choice, Quot.sound
Jpeg.C103_in_front_cmyk: propext, Classical.choice, Quot.sound
Jpeg.C103_in_front_own: propext, Classical.choice, Quot.sound
Jpeg.C103_first_mcus: propext, Classical.choice, Quot.sound
Jpeg.C103_covers: propext
Jpeg.C104_idct: propext, Classical.choice, Quot.sound
Jpeg.C104_block: propext, Classical.choice, Quot.sound
Jpeg.C104_tables: propext, Classical.choice, Quot.sound
Jpeg.C104_image: propext, Classical.choice, Quot.sound
Jpeg.C104_cmyk: propext, Classical.choice, Quot.sound
Jpeg.C105_grey_partial: propext, Classical.choice, Quot.sound
Jpeg.C105_grey_violated: propext, Classical.choice, Quot.sound
Jpeg.C106_idct: propext, Classical.choice, Quot.sound
Jpeg.C106_block: propext, Classical.choice, Quot.sound
Jpeg.C106_cmyk: propext, Classical.choice, Quot.sound
Jpeg.C106_luminance: propext, Classical.choice, Quot.sound
Jpeg.C106_picture_cmyk: propext, Classical.choice, Quot.sound
Jpeg.C106_picture_luminance: propext, Classical.choice, Quot.sound
Jpeg.C107_ratios_partial: propext, Classical.choice, Quot.sound
Jpeg.C107_lines_partial: propext, Classical.choice, Quot.sound
Jpeg.C107_outcome_violated: propext, Classical.choice, Quot.sound
Jpeg.C107_ratios_violated: propext, Classical.choice, Quot.sound
Jpeg.C108_image: propext, Classical.choice, Quot.sound
Jpeg.C109_inks: propext, Classical.choice, Quot.sound
Jpeg.C110_idct: propext, Classical.choice, Quot.sound
Jpeg.C110_block: propext, Classical.choice, Quot.sound
Jpeg.C110_cmyk: propext, Classical.choice, Quot.sound
Jpeg.C110_luminance: propext, Classical.choice, Quot.sound
Jpeg.C110_fine: propext, Classical.choice, Quot.sound
Jpeg.C111_idct: propext, Classical.choice, Quot.sound
Jpeg.C111_image: propext, Classical.choice, Quot.sound
Jpeg.C111_cmyk: propext, Classical.choice, Quot.sound
