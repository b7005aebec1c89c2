{"claims": [
 {"property": "C01", "status": "proved", "theorems": ["Verif.Props.C01_ljpeg_round_trip", "Verif.Props.C01_ljpeg_round_trip_plain", "Verif.Props.C01_decompress_rows"], "note": "bit depths 10..16 and 1..4 components, the range the DNG writer uses; see C06 for the rest"},
 {"property": "C02", "status": "proved", "theorems": ["Verif.Props.C02_lossless_dng_round_trip"], "note": "every image size, 1..4 components, predictor 1..7, bit depth 10..16, every completion order of the parallel tile decoders; the TIFF container (tile offsets and sizes) is C18..C20"},
 {"property": "C03", "status": "proved", "theorems": ["Verif.Props.C03_huffman_table_valid", "Verif.Props.C03_empty_histogram_panics"], "note": ""},
 {"property": "C04", "status": "proved", "theorems": ["Verif.Props.C04_reader_sees_segment_bits", "Verif.Props.C04_writer_emits_no_marker", "Verif.Props.C04_segment_round_trip", "Verif.Props.C04_truncated_stuffing_panics"], "note": ""},
 {"property": "C05", "status": "proved", "theorems": ["Verif.Props.C05_fast_decode_eq_bitwise", "Verif.Props.C05_single", "Verif.Props.C05_overfull_table_panics", "Verif.Props.C05_invalid_code_is_silent"], "note": ""},
 {"property": "C06", "status": "partial", "theorems": ["Verif.Props.C06_accepted_params_decodable_partial", "Verif.Props.C06_low_bitdepth_rejected", "Verif.Props.C06_no_component_rejected"], "note": "false as stated: the encoder accepts bit depths 2..9 and zero components which the decoder rejects (both witnesses proved); the positive part is proved for every other accepted parameter set"},
 {"property": "C07", "status": "partial", "theorems": ["Verif.Props.C07_point_transform_partial", "Verif.Props.C07_point_transform_not_undone"], "note": "false as stated (counterexample proved): the decoder does not undo the point transform; the partial theorem states exactly what comes back"},
 {"property": "C08", "status": "proved", "theorems": ["Verif.Props.C08_tiling_places_every_pixel", "Verif.Props.C08_padding_is_not_a_pixel"], "note": "every tile of the tiler holds the image samples of its window, padding repeats the last row and the last sample of the row; the second theorem shows that for cpp>1 the repeated padding is a sample, not a whole pixel"},
 {"property": "C09", "status": "proved", "theorems": ["Verif.Props.C09_windows_disjoint_and_covering", "Verif.Props.C09_schedule_independent", "Verif.Props.C09_ragged_width_not_covered"], "note": "windows for dimensions that are multiples of the tile size (what decode_tiles passes); ragged widths are accepted by the code and leave samples uncovered (third theorem)"},
 {"property": "C10", "status": "proved", "theorems": ["Verif.Props.C10_msb_reader"], "note": "all byte strings, all look/skip sequences staying inside the data"},
 {"property": "C11", "status": "proved", "theorems": ["Verif.Props.C11_lsb_reader"], "note": "all byte strings, all look/skip sequences staying inside the data"},
 {"property": "C12", "status": "partial", "theorems": ["Verif.Props.C12_msb32_reader_partial", "Verif.Props.C12_partial_word_wrong"], "note": "proved for data made of whole words; false for a trailing partial word (witness proved)"},
 {"property": "C13", "status": "partial", "theorems": ["Verif.Props.C13_packed_partial", "Verif.Props.C13_sixteen_le", "Verif.Props.C13_other_sizes", "Verif.Props.C13_12le", "Verif.Props.C13_12le_padded", "Verif.Props.C13_14le_padded", "Verif.Props.C13_10le_lsb16", "Verif.Props.C13_12be_msb16", "Verif.Props.C13_12be_msb32", "Verif.Props.C13_14be_msb32", "Verif.Props.C13_12le_16bitaligned", "Verif.Props.C13_12be_wcontrol", "Verif.Props.C13_12le_wcontrol", "Verif.Props.C13_unpacked_le", "Verif.Props.C13_unpacked_be", "Verif.Props.C13_unpacked_left", "Verif.Props.C13_14_unpacked_padded", "Verif.Props.C13_16le_skiplines", "Verif.Props.C13_12be_interlaced", "Verif.Props.C13_12be_interlaced_unaligned", "Verif.Props.C13_generic_msb", "Verif.Props.C13_generic_lsb", "Verif.Props.C13_twelve_bit_odd_width_wrong", "Verif.Props.C13_twelve_bit_odd_width_shifted", "Verif.Props.C13_ten_bit_width_wrong", "Verif.Props.C13_ten_bit_width_zeros", "Verif.Props.C13_generic_bias_panics", "Verif.Props.C13_wcontrol_width_wrong", "Verif.Props.C13_10be", "Verif.Props.C13_12be", "Verif.Props.C13_8bit", "Verif.Props.C13_16le", "Verif.Props.C13_16be"], "note": "Proved for widths made of whole groups; false otherwise: counterexamples for odd 12-bit widths, 10-bit widths not divisible by 4, unaligned row offsets (panic) and control-byte layouts."},
 {"property": "C14", "status": "partial", "theorems": ["Verif.Props.C14_row_parallel_partial", "Verif.Props.C14_strips_partial", "Verif.Props.C14_unaligned_rows_panic"], "note": "Proved for 8/10/12/16 bits at any width and for other sizes when rows are whole bytes; otherwise the row-parallel decoder panics (counterexample)."},
 {"property": "C15", "status": "proved", "theorems": ["Verif.Props.C15_float_widened_exactly", "Verif.Props.C15_packed_floats"], "note": "16 and 24 bit floats, every bit pattern; unpackers for 16/24/32 bit of either byte order"},
 {"property": "C16", "status": "partial", "theorems": ["Verif.Props.C16_linearization_partial", "Verif.Props.C16_between_neighbours_partial", "Verif.Props.C16_8bit_table_partial", "Verif.Props.C16_steep_curve_panics", "Verif.Props.C16_white_wraps_to_black", "Verif.Props.C16_outside_neighbours", "Verif.Props.C16_single_column_panics", "Verif.Props.C16_8bit_table_narrow_panics"], "note": "the claim is false in general (counterexamples proved); proved with exact bounds for curves whose slope is small compared to the value"},
 {"property": "C17", "status": "proved", "theorems": ["Verif.Props.C17_uncompressed_round_trip", "Verif.Props.C17_at_base", "Verif.Props.C17_aligned", "Verif.Props.C17_zero_rows_panics"], "note": "Files below 4 GiB; at any base offset; a configured strip height of 0 panics."},
 {"property": "C18", "status": "partial", "theorems": ["Verif.Props.C18_value_partial", "Verif.Props.C18_single_float_lost", "Verif.Props.C18_negative_bytes_lost", "Verif.Props.C18_negative_words_lost", "Verif.Props.C18_second_string_lost", "Verif.Props.C18_empty_value_panics", "Verif.Props.C18_float_one_to_two_lost"], "note": "Round trip for every typed value outside the listed defects (empty value, several strings, single float, embedded negative 8/16 bit numbers followed by another); the defects are proved as counterexamples. Files shorter than 4 GiB."},
 {"property": "C19", "status": "partial", "theorems": ["Verif.Props.C19_directory_partial"], "note": "Every history of add/remove/copy calls whose directory is not empty, has at most 4096 entries and only storable values (see C18); files shorter than 4 GiB."},
 {"property": "C20", "status": "partial", "theorems": ["Verif.Props.C20_blocks_partial", "Verif.Props.C20_data_kept_partial", "Verif.Props.C20_beyond_4gib_same_offset"], "note": "Every session of data blocks and directories, as long as the finished file is shorter than 4 GiB (beyond, offsets repeat: proved) and the directories' values can be written."},
 {"property": "C21", "status": "partial", "theorems": ["Verif.Props.C21_chain_limited_partial", "Verif.Props.C21_cyclic_chain_never_ends", "Verif.Props.C21_limit_exceeded"], "note": "With a limit m reading ends with at most m+1 directories; the limit is exceeded by one, and without a limit a cyclic chain never ends (both proved)."},
 {"property": "C22", "status": "partial", "theorems": ["Verif.Props.C22_entry_no_panic_partial", "Verif.Props.C22_directory_no_panic_partial", "Verif.Props.C22_empty_sub_directory_panics", "Verif.Props.C22_entry_at_4gib_panics"], "note": "No panic for files shorter than 4 GiB (less 10 or 24 bytes); panics at 4 GiB and for an empty sub-directory value are proved."},
 {"property": "C23", "status": "partial", "theorems": ["Verif.Props.C23_tags_partial", "Verif.Props.C23_colour_at", "Verif.Props.C23_read_back_moves_twice", "Verif.Props.C23_read_back_partial", "Verif.Props.C23_read_back_bayer_partial", "Verif.Props.C23_read_back_wrong", "Verif.Props.C23_tall_pattern_swapped", "Verif.Props.C23_unknown_colour_panics"], "note": "Tags proved right for square patterns, false for 2x8 (dimension swapped). Reading back moves the pattern by twice the origin: right for 2x2 and whenever twice the origin is a multiple of the size, otherwise false with witness."},
 {"property": "C24", "status": "partial", "theorems": ["Verif.Props.C24_tags", "Verif.Props.C24_read_back_moved", "Verif.Props.C24_read_back_partial", "Verif.Props.C24_read_back_wrong"], "note": "Tags proved for every repeat size and origin. Reading back leaves the pattern moved by the origin; equality only for origins that are multiples of the repeat size; false otherwise with witness."},
 {"property": "C25", "status": "partial", "theorems": ["Verif.Props.C25_areas_partial", "Verif.Props.C25_large_image_cut", "Verif.Props.C25_large_image_panics", "Verif.Props.C25_crop_before_active_panics"], "note": "Proved for images below 65536 in both directions; larger images are false or panic, with witnesses."},
 {"property": "C26", "status": "proved", "theorems": ["Verif.Props.C26_restored", "Verif.Props.C26_too_large_refused", "Verif.Props.C26_container_overflow_panics", "Verif.Props.C26_count_is_last_block", "Verif.Props.C26_dng_format"], "note": "zlib assumed lossless (hypothesis); container below 4 GiB (beyond: panic, proved); file below 4 GiB (beyond: error, proved)."},
 {"property": "C27", "status": "proved", "theorems": ["Verif.Props.C27_verified", "Verif.Props.C27_rejected", "Verif.Props.C27_written"], "note": "For any digest function and codec."},
 {"property": "C28", "status": "proved", "theorems": ["Verif.Props.C28_rotate_cw_geometry", "Verif.Props.C28_rotate_ccw_geometry", "Verif.Props.C28_rotate_180_geometry", "Verif.Props.C28_rotations_group", "Verif.Props.C28_slice_rotation_geometry", "Verif.Props.C28_empty_image_panics"], "note": "for every non-empty image; the last theorem records that images without columns panic when rotated twice"},
 {"property": "C29", "status": "proved", "theorems": ["Verif.Props.C29_code_round_trip", "Verif.Props.C29_flips_round_trip", "Verif.Props.C29_flips_display_as_exif"], "note": "all orientations and all codes; unknown has no flips of its own and comes back as normal"},
 {"property": "C30", "status": "proved", "theorems": ["Verif.Props.C30_crop_selects_pixels", "Verif.Props.C30_crop_twice", "Verif.Props.C30_crop_outside_panics", "Verif.Props.C30_slice_crop_short"], "note": "all four crop functions; the slice crop returns fewer rows instead of panicking when the rectangle reaches below the image"},
 {"property": "C31", "status": "partial", "theorems": ["Verif.Props.C31_deinterleave_geometry_partial", "Verif.Props.C31_no_sample_lost_partial", "Verif.Props.C31_odd_width_loses_samples", "Verif.Props.C31_odd_height_wrong"], "note": "proved for even width and height; for odd sizes the property is false of the code (two witness theorems)"},
 {"property": "C32", "status": "proved", "theorems": ["Verif.Props.C32_terminates", "Verif.Props.C32_distinct", "Verif.Props.C32_complete", "Verif.Props.C32_no_image_panics", "Verif.Props.C32_output_name"], "note": "termination, distinctness and completeness of planning for all inputs; a source without images panics (proved)"},
 {"property": "C33", "status": "proved", "theorems": ["Verif.Props.C33_existing", "Verif.Props.C33_only_own", "Verif.Props.C33_run", "Verif.Props.C33_rename_race", "Verif.Props.C33_develop_race"], "note": "every schedule of conversions and of other processes that leave alone the directory entries of files in work; without that restriction, and for development to TIFF, counter-examples"},
 {"property": "C34", "status": "partial", "theorems": ["Verif.Props.C34_success", "Verif.Props.C34_failure_partial", "Verif.Props.C34_lock_leaves_file", "Verif.Props.C34_flush_leaves_file", "Verif.Props.C34_mtime_leaves_file", "Verif.Props.C34_panic_leaves_file"], "note": "success part in full; the failure part is false for failing lock, flush, time stamp and panics"},
 {"property": "C35", "status": "partial", "theorems": ["Verif.Props.C35_apart_partial", "Verif.Props.C35_careful", "Verif.Props.C35_override_destroys_source", "Verif.Props.C35_planned_onto_source"], "note": "false with override when the output is the input"},
 {"property": "C36", "status": "partial", "theorems": ["Verif.Props.C36_plain_partial", "Verif.Props.C36_absolute_escapes", "Verif.Props.C36_parent_escapes"], "note": "false for absolute names and names with .."},
 {"property": "C37", "status": "partial", "theorems": ["Verif.Props.C37_distinct_partial", "Verif.Props.C37_same_output_planned", "Verif.Props.C37_result_lost", "Verif.Props.C37_plan_complete"], "note": "false when outputs coincide, which planning allows"},
 {"property": "C38", "status": "proved", "theorems": ["Verif.Props.C38_listed", "Verif.Props.C38_mirror", "Verif.Props.C38_injective", "Verif.Props.C38_distinct"], "note": "links that form cycles are not modelled"},
 {"property": "C39", "status": "proved", "theorems": ["Verif.Props.C39_split", "Verif.Props.C39_same_stream", "Verif.Props.C39_lines", "Verif.Props.C39_case", "Verif.Props.C39_argument"], "note": "for every byte stream and every split; also: the commands are those of the CRLF lines up to the first invalid one"},
 {"property": "C40", "status": "partial", "theorems": ["Verif.Props.C40_confined_partial", "Verif.Props.C40_no_links", "Verif.Props.C40_relative_root", "Verif.Props.C40_stor_link", "Verif.Props.C40_nlst_outside", "Verif.Props.C40_rmd_root"], "note": "every operation's path is the root followed by plain names, for every session and file system; full claim false: STOR follows a link out of the root, NLST searches outside"},
 {"property": "C41", "status": "partial", "theorems": ["Verif.Props.C41_login_partial", "Verif.Props.C41_only_file_commands", "Verif.Props.C41_accepts", "Verif.Props.C41_anonymous"], "note": "proved for every configuration without anonymous access; with anonymous access any password logs any configured user in"},
 {"property": "C42", "status": "partial", "theorems": ["Verif.Props.C42_one_reply", "Verif.Props.C42_session", "Verif.Props.C42_injection", "Verif.Props.C42_injection_reachable"], "note": "proved for texts without CRLF and for whole sessions; false for texts with CRLF, reachable through directory names"},
 {"property": "C43", "status": "proved", "theorems": ["Verif.Props.C43_involution", "Verif.Props.C43_returns", "Verif.Props.C43_long_buffer_panics"], "note": "Long buffers (8200 bytes with serial 42) panic in checked builds, proved."},
 {"property": "C44", "status": "partial", "theorems": ["Verif.Props.C44_every_pixel_corrected_partial", "Verif.Props.C44_exact_correction_partial", "Verif.Props.C44_odd_width_uncorrected", "Verif.Props.C44_odd_height_uncorrected"], "note": "exact effect proved for every size; the claim itself holds for even width and height only, the code leaves the last row or column of odd sizes uncorrected (witness theorems)"},
 {"property": "C45", "status": "proved", "theorems": ["Verif.Props.C45_history", "Verif.Props.C45_from_lsb", "Verif.Props.C45_order", "Verif.Props.C45_empty_get_lsb_panics"], "note": "For every storage width."},
 {"property": "C46", "status": "proved", "theorems": ["Verif.Props.C46_zero_run_jpeg", "Verif.Props.C46_zero_run_msb", "Verif.Props.C46_signed_field", "Verif.Props.C46_zero_tail_never_returns"], "note": "zero-run counting terminates and is exact; on an all-zero tail it never returns (proved)"},
 {"property": "C47", "status": "partial", "theorems": ["Verif.Props.C47_float_predictor_round_trip", "Verif.Props.C47_single_precision_partial", "Verif.Props.C47_single_subnormal_lost", "Verif.Props.C47_skipped_rows_kept"], "note": "zlib is a parameter; 32 bit subnormal samples are corrupted or panic (proved)"},
 {"property": "C48", "status": "proved", "theorems": ["Verif.Props.C48_sony_involution"], "note": "Buffer of bytes."},
 {"property": "C49", "status": "proved", "theorems": ["Verif.Props.C49_band_round_trip", "Verif.Props.C49_detail_band_round_trip"], "note": "encoder side written as a separate specification (Spec/Crx.lean); rounded lines (mask > 0) not modelled"},
 {"property": "C50", "status": "partial", "theorems": ["Verif.Props.C50_lossless_image_partial", "Verif.Props.C50_tile_rows_wrong", "Verif.Props.codes_storeBand"], "note": "false for several rows of non-square tiles (negation proved); wavelet levels not modelled; needs even picture and tile sizes"},
 {"property": "C51", "status": "proved", "theorems": ["Verif.Props.C51_decoded_size_and_range"], "note": "images without wavelet levels"},
 {"property": "C52", "status": "partial", "theorems": ["Verif.Props.C52_reads_file_partial", "Verif.Props.C52_reads_directory", "Verif.Props.C52_ifd_type_lost"], "note": "every chain of directories laid out as the format says, either byte order; not covered: sub-directories with offsets of TIFF type 13, which are lost (proved), files beyond 4 GiB"},
 {"property": "C53", "status": "partial", "theorems": ["Verif.Props.C53_changes", "Verif.Props.C53_session_absolute", "Verif.Props.C53_one_reply_partial", "Verif.Props.C53_transfer_done", "Verif.Props.C53_upload_truth", "Verif.Props.C53_two_finals", "Verif.Props.C53_no_final"], "note": "changes, uploads and successful transfers are answered truthfully; failed downloads get a success reply after the error, some commands get no final reply (proved)"},
 {"property": "C54", "status": "partial", "theorems": ["Verif.Props.C54_plane", "Verif.Props.C54_bands", "Verif.Props.C54_tile", "Verif.Props.C54_size_two", "Verif.Props.C54_tile_below"], "note": "all sizes without a level of height or width 2 (for which the decoder provably fails), all contents with the stated bound, one row of tiles; several rows of tiles cannot be decoded (proved negation); the source of the lines is any source giving the band lines"},
 {"property": "C55", "status": "partial", "theorems": ["Verif.Props.C55_plane_param", "Verif.Props.C55_plane_table", "Verif.Props.C55_qp_table", "Verif.Props.C55_lossless", "Verif.Props.C55_sizes", "Verif.Props.C55_tile_param", "Verif.Props.C55_tile_table", "Verif.Props.C55_large_param", "Verif.Props.C55_empty_band", "Verif.Props.C55_tile_above"], "note": "Full round trip for bands with parameters 4..35 or tables, single tiles and rows of tiles; proved false of the code: parameters from 36 on, bands without data, tiles above each other."},
 {"property": "C56", "status": "partial", "theorems": ["Verif.Props.C56_arw1_partial", "Verif.Props.C56_arw1_odd_height", "Verif.Props.C56_arw1_odd_height_wrong", "Verif.Props.C56_arw1_no_padding", "Verif.Props.C56_curve_partial", "Verif.Props.C56_curve_any_order", "Verif.Props.C56_curve_steep_start", "Verif.Props.C56_arw2_partial", "Verif.Props.C56_arw2_extremes_swapped", "Verif.Props.C56_arw2_width"], "note": "Proved for even heights (ARW1, with 12 bits of padding), widths that are multiples of 32 (ARW2) and knots from 8 on. The full claim is false: odd heights and other widths leave pixels black (proved)."},
 {"property": "C57", "status": "partial", "theorems": ["Verif.Props.C57_stored_table_partial", "Verif.Props.C57_builtin_table_partial", "Verif.Props.C57_twelve_bits", "Verif.Props.C57_odd_width", "Verif.Props.C57_other_tables_wrong"], "note": "Even widths, tables that are canonical codes, and at least 32 bits after the code. Odd widths never decode and tables that are not canonical are misread; both are proved."},
 {"property": "C58", "status": "partial", "theorems": ["Verif.Props.C58_lossless_exact", "Verif.Props.C58_lossless_partial", "Verif.Props.C58_lossless_picture_partial", "Verif.Props.C58_lossless_not_exact", "Verif.Props.C58_points_partial", "Verif.Props.C58_table_partial", "Verif.Props.C58_odd_width", "Verif.Props.C58_beyond_curve"], "note": "Even widths, gentle curves, sums in 32 bits, and at least 32 bits after the code. Lossless files come back with an error of at most 1 (exact formula proved, and that they are not exact). Odd widths and values beyond the curve fail, both proved."},
 {"property": "C59", "status": "proved", "theorems": ["Verif.Props.C59_window", "Verif.Props.C59_whole", "Verif.Props.C59_comment_ends_the_file", "Verif.Props.C59_every_picture"], "note": "Files whose passed-over segments contain 0xff are excluded by hypothesis; the negation shows why. Samples are those before the point transform is undone, which the decoder leaves to its callers."},
 {"property": "C60", "status": "proved", "theorems": ["Verif.Props.C60_canon", "Verif.Props.C60_sony", "Verif.Props.C60_every_picture"], "note": "Differences that wrap around modulo 2^16 are excluded (they fail a debug assertion)."},
 {"property": "C61", "status": "proved", "theorems": ["Verif.Props.C61_sensor", "Verif.Props.C61_unsliced"], "note": "JPEG data as in C59. Not covered: the linearisation of the D2000."},
 {"property": "C62", "status": "partial", "theorems": ["Verif.Props.C62_two", "Verif.Props.C62_interpolation", "Verif.Props.C62_four_partial", "Verif.Props.C62_unsliced_partial", "Verif.Props.C62_four_rows_left_out", "Verif.Props.C62_black_without_levels", "Verif.Props.C62_bright_panics", "Verif.Props.C62_unconverted_without_tag"], "note": "Proved as claimed for one colour sample per two pixels. For one per four pixels the claim is false (C62_four_rows_left_out); the partial theorems give the picture that comes out. Assumes levels and colours small enough for i32 (C62_bright_panics otherwise)."},
 {"property": "C63", "status": "partial", "theorems": ["Verif.Props.C63_sensor", "Verif.Props.C63_yuv_partial", "Verif.Props.C63_other_sizes"], "note": "sensor data fully; brightness and colours up to the conversion to RGB in f32, which is not modelled; with a colour sample for four pixels the colours are filled in as in C62"},
 {"property": "C64", "status": "proved", "theorems": ["Verif.Props.C64_hasselblad", "Verif.Props.C64_hasselblad_even", "Verif.Props.C64_every_hasselblad", "Verif.Props.C64_leaf_rows", "Verif.Props.C64_leaf_interlaced", "Verif.Props.C64_interlace_all", "Verif.Props.C64_leaf_odd_width", "Verif.Props.C64_every_leaf"], "note": "All images, tables and headers. Widths up to 131068 for Hasselblad (32 bit sums); odd widths: the last column is missing (Hasselblad) or nothing is decoded (Leaf), both proved."},
 {"property": "C65", "status": "proved", "theorems": ["Verif.Props.C65_orf", "Verif.Props.C65_orf_even", "Verif.Props.C65_every_picture", "Verif.Props.C65_bound_needed"], "note": "Samples below 32768 (needed, C65_bound_needed); at least 9 bits after the last code."},
 {"property": "C66", "status": "partial", "theorems": ["Verif.Props.C66_v5", "Verif.Props.C66_v5_every_picture", "Verif.Props.C66_v7", "Verif.Props.C66_v7_every_picture", "Verif.Props.C66_v7_12_fails", "Verif.Props.C66_v6_14", "Verif.Props.C66_v6_12", "Verif.Props.C66_v6_every_packet", "Verif.Props.C66_v6_partial", "Verif.Props.C66_v6_black_wrong", "Verif.Props.C66_v4", "Verif.Props.C66_v4_every_packet", "Verif.Props.C66_v4_every_code", "Verif.Props.C66_v4_split_partial", "Verif.Props.C66_v4_split_wrong"], "note": "Versions 4 (no split), 5 and 7 (14 bit) are proved in full. The rest is false of the code: version 6 wraps values below 15, version 7 with 12 bits always panics, version 4 split misreads a field of packet 512 of a block. Version 8 is C78."},
 {"property": "C67", "status": "proved", "theorems": ["Verif.Props.C67_gen1", "Verif.Props.C67_gen2", "Verif.Props.C67_gen3", "Verif.Props.C67_gen1_every", "Verif.Props.C67_gen2_every", "Verif.Props.C67_gen3_every", "Verif.Props.C67_gen1_odd_height", "Verif.Props.C67_gen3_depth16"], "note": "Three generations. First and third: width a multiple of 16 (the format's groups). First generation: even height; odd heights panic, with a witness. Third: depth up to 15 bits; 16 bits overflow, with a witness."},
 {"property": "C68", "status": "partial", "theorems": ["Verif.Props.C68_container", "Verif.Props.C68_image_boxes", "Verif.Props.C68_track_count", "Verif.Props.C68_brand", "Verif.Props.C68_track_index", "Verif.Props.C68_xmp", "Verif.Props.C68_ends_partial", "Verif.Props.C68_endless", "Verif.Props.C68_ftyp_panics", "Verif.Props.C68_foreign_uuid", "Verif.Props.C68_wide_ftyp", "Verif.Props.C68_open_mdat"], "note": "Reading and lookups proved for every well-formed container; ending for arbitrary files only up to boxes of size zero, because the code then loops for ever (C68_endless). Panics and lost boxes on other files are shown by witnesses."},
 {"property": "C69", "status": "partial", "theorems": ["Verif.Props.C69_lookup", "Verif.Props.C69_place", "Verif.Props.C69_frames_partial", "Verif.Props.C69_three_runs_wrong", "Verif.Props.C69_three_runs_panic"], "note": "Lookup proved for all tables with right first sample numbers; whole files proved for tables the reader numbers correctly (all runs but the last two have one sample per chunk); false otherwise, with witnesses."},
 {"property": "C70", "status": "proved", "theorems": ["Verif.Props.fuji_lossless", "Verif.Props.fuji_lossy", "Verif.Props.fuji_signature", "Verif.Props.fuji_dimensions_panic", "Verif.Props.fuji_trailing_panics", "Verif.Props.fuji_header", "Verif.Props.fuji_code_range"], "note": "Files are those the encoder of Spec/Fuji writes; damaged files panic in the ways listed in the findings."},
 {"property": "C71", "status": "proved", "theorems": ["Verif.Props.C71_crw10", "Verif.Props.C71_crw12", "Verif.Props.C71_every_crw", "Verif.Props.C71_last_samples_zero", "Verif.Props.C71_refused", "Verif.Props.C71_word_255"], "note": "Stated for pictures whose number of samples is a multiple of 64 (all cameras of the format); for others C71_last_samples_zero says what happens."},
 {"property": "C72", "status": "proved", "theorems": ["Verif.Props.C72_find", "Verif.Props.C72_all_levels", "Verif.Props.C72_every_tree", "Verif.Props.C72_maker_model", "Verif.Props.C72_dimensions", "Verif.Props.C72_crw10", "Verif.Props.C72_crw12", "Verif.Props.C72_white_balance", "Verif.Props.C72_deep_lost", "Verif.Props.C72_bad_trailer_panics", "Verif.Props.C72_small_file_many_directories", "Verif.Props.C72_white_balance_old"], "note": "Whole CIFF trees and whole CRW files (10 and 12 bits). The theorems on lost levels, panics and growth record where the code is fragile on files that are not well-formed."},
 {"property": "C73", "status": "proved", "theorems": ["Verif.Props.C73_uncompressed", "Verif.Props.C73_compressed", "Verif.Props.C73_nonlinear", "Verif.Props.C73_sv2", "Verif.Props.C73_compressed_every", "Verif.Props.C73_sv2_every", "Verif.Props.C73_first_keep_panics", "Verif.Props.C73_sv2_recovery_wrong", "Verif.Props.C73_sv2_recovery_clamped"], "note": "all four decoders; the curve of IIQ S is a parameter"},
 {"property": "C74", "status": "proved", "theorems": ["Verif.Props.C74_kodak65000", "Verif.Props.C74_every", "Verif.Props.C74_beyond_curve_panics"], "note": "The curve must be gentle in the sense of C16 and have an entry for each sample; beyond its end the program aborts (C74_beyond_curve_panics)."},
 {"property": "C75", "status": "partial", "theorems": ["Verif.Props.C75_exif_directory", "Verif.Props.C75_gps_directory", "Verif.Props.C75_metadata_partial", "Verif.Props.C75_again", "Verif.Props.C75_lens_of_file_lost", "Verif.Props.C75_user_comment_lost", "Verif.Props.C75_empty_area_panics", "Verif.Props.C75_time_zone_changed"], "note": "Full for the contents of the directories (C75_exif_directory, C75_gps_directory). For the file that is read back, time zone, GPS processing method and area information must be outside the defects of the TIFF writer (C18), which are shown to matter (C75_empty_area_panics, C75_time_zone_changed), and the file below 4 GiB; decoder-specific additions to the metadata are not modelled."},
 {"property": "C76", "status": "partial", "theorems": ["Verif.Props.C76_parts_partial", "Verif.Props.C76_metadata_partial", "Verif.Props.C76_ends_partial", "Verif.Props.C76_at_end_hangs", "Verif.Props.C76_four_bytes_hang", "Verif.Props.C76_cut_exif_hangs", "Verif.Props.C76_thumbnail_panics", "Verif.Props.C76_xmp_length_panics", "Verif.Props.C76_short_app0", "Verif.Props.C76_no_end", "Verif.Props.C76_fill_byte"], "note": "Reading all parts of well-formed files is proved except for JFIF thumbnails of more than 85 pixels, which panic. That reading always ends is false: files on which it never ends are given, and it is proved that it ends on all others."},
 {"property": "C77", "status": "partial", "theorems": ["Verif.Props.C77_settings_partial", "Verif.Props.C77_tiff", "Verif.Props.C77_packed_partial", "Verif.Props.C77_unpacked", "Verif.Props.C77_white_balance", "Verif.Props.C77_maker_notes", "Verif.Props.C77_last_wbg_lost", "Verif.Props.C77_short_panics", "Verif.Props.C77_cut_panics"], "note": "Proved for all files whose blocks that matter do not end within twenty bytes of the end of the blocks, and even widths for packed pictures; the code is shown to go wrong on the rest."},
 {"property": "C78", "status": "partial", "theorems": ["Verif.Props.C78_picture_partial", "Verif.Props.C78_toned_picture_partial", "Verif.Props.C78_tone_curve_partial", "Verif.Props.C78_tone_curve_total", "Verif.Props.C78_no_padding_panics", "Verif.Props.C78_strip_outside_panics", "Verif.Props.C78_odd_rows_lost", "Verif.Props.C78_curve_wraps", "Verif.Props.C78_shift_panics"], "note": "Full statement fails for data without padding, odd strip heights and curve values above 65535 (witnesses proved); everything else is proved."},
 {"property": "C79", "status": "partial", "theorems": ["Verif.Props.C79_sound_partial", "Verif.Props.C79_key_name", "Verif.Props.C79_fixed_lens", "Verif.Props.C79_maker_id", "Verif.Props.C79_found", "Verif.Props.C79_never_guess", "Verif.Props.C79_order_partial", "Verif.Props.C79_unknown_id_other_lens", "Verif.Props.C79_unknown_name_other_lens", "Verif.Props.C79_zero_over_zero", "Verif.Props.C79_double_id_order", "Verif.Props.C79_camera_model"], "note": "A lens with an identifier not in the database may be reported as another one, and doubled identifiers make the order matter (witnesses proved); everything else is proved."},
 {"property": "C80", "status": "partial", "theorems": ["Verif.Props.C80_camera", "Verif.Props.C80_every_camera", "Verif.Props.C80_only", "Verif.Props.C80_padded", "Verif.Props.C80_naked", "Verif.Props.C80_naked_found", "Verif.Props.C80_signatures_exclude", "Verif.Props.C80_signature", "Verif.Props.C80_ciff", "Verif.Props.C80_tiff", "Verif.Props.C80_dng", "Verif.Props.C80_maker", "Verif.Props.C80_unknown_maker", "Verif.Props.C80_makers_exclude", "Verif.Props.C80_by_size", "Verif.Props.C80_jpeg", "Verif.Props.C80_levels", "Verif.Props.C80_two_signatures", "Verif.Props.C80_shared_size", "Verif.Props.C80_shadowed", "Verif.Props.C80_cr3", "Verif.Props.C80_not_cr3", "Verif.Props.C80_dcs560c", "Verif.Props.C80_mos", "Verif.Props.C80_levels_refused"], "note": "All cameras of a database without repeated keys are found with their settings; of repeated keys or file sizes only the last is (C80_shadowed, C80_shared_size), both occur in the shipped data. Files with two signatures: C80_two_signatures. TOML parsing and the readers behind the signatures are parameters."},
 {"property": "C81", "status": "partial", "theorems": ["Verif.Props.C81_map", "Verif.Props.C81_table", "Verif.Props.C81_source", "Verif.Props.C81_one_source", "Verif.Props.C81_output_only", "Verif.Props.C81_no_rest", "Verif.Props.C81_works", "Verif.Props.C81_written", "Verif.Props.C81_existing_removed", "Verif.Props.C81_bad_map_removed", "Verif.Props.C81_input_emptied", "Verif.Props.C81_unflushed", "Verif.Props.C81_tags", "Verif.Props.C81_light_needed", "Verif.Props.C81_matrix3", "Verif.Props.C81_matrix3_dropped", "Verif.Props.C81_artist", "Verif.Props.C81_artist_lost"], "note": "Maps, tables, choice of inputs, effect on files and tags are proved. False as stated for existing outputs (deleted), outputs that are inputs, lost last bytes, the artist and the third matrix (theorems with witnesses). Decoding and DNG writing are a parameter here."},
 {"property": "C82", "status": "partial", "theorems": ["Verif.Props.C82_told", "Verif.Props.C82_kept_partial", "Verif.Props.C82_others", "Verif.Props.C82_history_partial", "Verif.Props.C82_same_stem", "Verif.Props.C82_unflushed", "Verif.Props.C82_not_converted"], "note": "Proved for histories in which no later upload makes a file of the same name and in which the end of the DNG file isn't lost on closing; both conditions are necessary (C82_same_stem, C82_unflushed). Uploads are taken one after the other."},
 {"property": "C83", "status": "partial", "theorems": ["Verif.Props.C83_ppg_partial", "Verif.Props.C83_measured", "Verif.Props.C83_flat", "Verif.Props.C83_ramp", "Verif.Props.C83_no_race", "Verif.Props.C83_narrow_hangs", "Verif.Props.C83_frame_ends", "Verif.Props.C83_overshoot", "Verif.Props.C83_green_columns", "Verif.Props.C83_superpixel", "Verif.Props.C83_xtrans", "Verif.Props.C83_xtrans_flat", "Verif.Props.C83_xtrans_measured_lost"], "note": "Exact arithmetic instead of f32. False for widths 4 and 5 (C83_narrow_hangs) and for RGBG patterns (C83_green_columns); X-Trans does not keep samples."},
 {"property": "C84", "status": "partial", "theorems": ["Verif.Props.C84_bayer", "Verif.Props.C84_bayer_measured", "Verif.Props.C84_xtrans", "Verif.Props.C84_linear_partial", "Verif.Props.C84_linear_shifted", "Verif.Props.C84_crop_leaves_active", "Verif.Props.C84_black_is_zero", "Verif.Props.C84_fuji_active", "Verif.Props.C84_grey", "Verif.Props.C84_length_checked", "Verif.Props.C84_four"], "note": "Proved for Bayer, four-colour and X-Trans sensors with any steps and areas; false for three-colour pictures with an active area off the corner (C84_linear_shifted). Rotated Fuji sensors only as a parameter of the model."},
 {"property": "C85", "status": "partial", "theorems": ["Verif.Props.C85_matrix_d65", "Verif.Props.C85_three_colours", "Verif.Props.C85_four_colours", "Verif.Props.C85_grey", "Verif.Props.C85_grey_four", "Verif.Props.C85_never_negative", "Verif.Props.C85_not_clipped", "Verif.Props.C85_no_matrix", "Verif.Props.C85_matrix_other", "Verif.Props.C85_four_colours_other", "Verif.Props.C85_adapted_backwards", "Verif.Props.C85_four_rows_three_colours", "Verif.Props.C85_white_point"], "note": "Reproduction of colours, grey and the choice of the matrix proved for all matrices and pixels; false in parts, with witnesses: adaption in the wrong direction, no clipping to white, matrices of four rows with three colours, other illuminants with four colours. Rounding of f32 not modelled."},
 {"property": "C86", "status": "partial", "theorems": ["Verif.Props.C86_shifted_rows", "Verif.Props.C86_shifted_columns", "Verif.Props.C86_active", "Verif.Props.C86_odd_panics", "Verif.Props.C86_size", "Verif.Props.C86_turned_partial", "Verif.Props.C86_turned_extra", "Verif.Props.C86_never_panics", "Verif.Props.C86_between", "Verif.Props.C86_plane", "Verif.Props.C86_flat", "Verif.Props.C86_black_corner", "Verif.Props.C86_extra_other_size"], "note": "Partial because the lower left pixel may be black, odd sizes abort and the crop size can be wrong; exact arithmetic."},
 {"property": "C87", "status": "proved", "theorems": ["Verif.Props.C87_bilinear", "Verif.Props.C87_measured", "Verif.Props.C87_flat", "Verif.Props.C87_narrow_panics", "Verif.Props.C87_planes_panic", "Verif.Props.C87_superpixel", "Verif.Props.C87_superpixel_all", "Verif.Props.C87_foreign_colour_panics"], "note": "f32 rounding is not modelled: samples are rational numbers."},
 {"property": "C88", "status": "partial", "theorems": ["Verif.Props.C88_tiff_partial", "Verif.Props.C88_wide_truncated", "Verif.Props.C88_fourth_channel_undeclared", "Verif.Props.C88_empty_panics"], "note": "Pictures of at most 65535 lines and columns: the file is read as one directory that describes the picture, with its samples, labels and pointers. Larger and empty pictures are proved to fail. LZW is a parameter."},
 {"property": "C89", "status": "partial", "theorems": ["Verif.Props.C89_picture_partial", "Verif.Props.C89_file_partial", "Verif.Props.C89_not_wider_aborts", "Verif.Props.C89_large_aborts", "Verif.Props.C89_short_aborts"], "note": "Even widths up to 640, up to 480 rows, wider than high: every sample is as coded. Other sizes and short files are proved to give no picture; odd widths below 642 are not covered."},
 {"property": "C90", "status": "partial", "theorems": ["Verif.Props.C90_dc120_partial", "Verif.Props.C90_dc120_all_samples", "Verif.Props.C90_dc120_short_aborts", "Verif.Props.C90_dc120_jpeg_partial", "Verif.Props.C90_dc120_jpeg_white", "Verif.Props.C90_dc120_jpeg_size_aborts", "Verif.Props.C90_dc120_jpeg_gray_aborts", "Verif.Props.C90_dc120_errors", "Verif.Props.C90_packed_partial", "Verif.Props.C90_white_balance", "Verif.Props.C90_white_balance_errors", "Verif.Props.C90_white_balance_aborts"], "note": "Complete files are decoded as stored; incomplete DC120 files and unusual JPEG pictures are proved to abort. Packed files of odd width and the DC50 are not covered."},
 {"property": "C91", "status": "partial", "theorems": ["Verif.Props.C91_curve", "Verif.Props.C91_curve_aborts", "Verif.Props.C91_combined_partial", "Verif.Props.C91_linear_partial", "Verif.Props.C91_white_lost", "Verif.Props.C91_split_outside", "Verif.Props.C91_no_data", "Verif.Props.C91_black", "Verif.Props.C91_black_plain", "Verif.Props.C91_black_aborts", "Verif.Props.C91_column_partial", "Verif.Props.C91_defects_partial", "Verif.Props.C91_first_column_aborts", "Verif.Props.C91_last_column", "Verif.Props.C91_defects_repaired_partial", "Verif.Props.C91_half", "Verif.Props.C91_full", "Verif.Props.C91_multipliers", "Verif.Props.C91_poly_no_data", "Verif.Props.C91_flat", "Verif.Props.C91_flat_red_blue", "Verif.Props.C91_flat_empty", "Verif.Props.C91_flat_short_aborts", "Verif.Props.C91_flat_margin_aborts"], "note": "False as stated: saturated pixels become black (C91_white_lost) and the bad columns at the edges abort or take pixels of the other edge. The rest is proved."},
 {"property": "C92", "status": "partial", "theorems": ["Verif.Props.C92_ari_le_partial", "Verif.Props.C92_ari_be_partial", "Verif.Props.C92_complete_data", "Verif.Props.C92_truncated_accepted", "Verif.Props.C92_ari_errors", "Verif.Props.C92_ari_zero_width_aborts", "Verif.Props.C92_ari_model", "Verif.Props.C92_ari_metadata", "Verif.Props.C92_ari_metadata_short", "Verif.Props.C92_mef_partial", "Verif.Props.C92_mef_errors", "Verif.Props.C92_erf_wb", "Verif.Props.C92_erf_partial", "Verif.Props.C92_erf_wb_errors", "Verif.Props.C92_dcs_partial", "Verif.Props.C92_dcs_errors", "Verif.Props.C92_dcs_falling_table_aborts", "Verif.Props.C92_zero_width_aborts", "Verif.Props.C92_naked_partial", "Verif.Props.C92_naked_bits", "Verif.Props.C92_naked_aligned_partial", "Verif.Props.C92_naked_no_size_aborts"], "note": "Proved for the widths at which the packed formats have whole groups. The last sentence is false: up to 16 missing bytes are accepted as zeros (C92_truncated_accepted), and a width of 0 or a falling table aborts."},
 {"property": "C93", "status": "partial", "theorems": ["Verif.Props.C93_name", "Verif.Props.C93_name_missing", "Verif.Props.C93_name_reversed_aborts", "Verif.Props.C93_model", "Verif.Props.C93_empty_model_aborts", "Verif.Props.C93_leaf_white_balance", "Verif.Props.C93_leaf_no_white_balance", "Verif.Props.C93_end_of_metadata_missed", "Verif.Props.C93_leaf_uncompressed", "Verif.Props.C93_leaf_compressed", "Verif.Props.C93_hasselblad_uncompressed", "Verif.Props.C93_hasselblad_compressed", "Verif.Props.C93_hasselblad_white_balance", "Verif.Props.C93_kodak", "Verif.Props.C93_kodak_white_balance"], "note": "All but the last sentence is proved; that one is false: an empty model, XMP tags in reverse order and a neutral colour without three numbers abort, and white balance numbers at the end of the Leaf metadata are missed."},
 {"property": "C94", "status": "partial", "theorems": ["Verif.Props.C94_notes", "Verif.Props.C94_notes_truncated", "Verif.Props.C94_notes_never_abort", "Verif.Props.C94_notes_abort", "Verif.Props.C94_calibration_partial", "Verif.Props.C94_defects_overrun", "Verif.Props.C94_defects_at_end", "Verif.Props.C94_no_calibration_aborts"], "note": "Notes: proved for all files. Calibration tables: proved for all files, but the defects read go beyond their table, and files without calibration abort; both are shown by witnesses."},
 {"property": "C95", "status": "partial", "theorems": ["Verif.Props.C95_uncompressed", "Verif.Props.C95_compressed", "Verif.Props.C95_order", "Verif.Props.C95_missing", "Verif.Props.C95_old_formats_abort", "Verif.Props.C95_black_tables", "Verif.Props.C95_nonlinear", "Verif.Props.C95_sv2", "Verif.Props.C95_order_all"], "note": "Proved for all files without calibration tables in the formats 0, 3, 5, 6 and 8; the black level tables; the order of all corrections, with one bad column and one flat field. Missing: files with calibration tables in one statement. False for the formats 1 and 2, which abort."},
 {"property": "C96", "status": "partial", "theorems": ["Verif.Props.C96_directory", "Verif.Props.C96_old", "Verif.Props.C96_outside_aborts", "Verif.Props.C96_letters_abort", "Verif.Props.C96_entries_abort", "Verif.Props.C96_never_picture", "Verif.Props.C96_error", "Verif.Props.C96_cut_aborts"], "note": "The directory is proved for all complete files, and that no file gives a picture. The sentence that nothing aborts is false: places outside the file abort."},
 {"property": "C97", "status": "partial", "theorems": ["Verif.Props.C97_block", "Verif.Props.C97_too_many", "Verif.Props.C97_crop", "Verif.Props.C97_no_crop", "Verif.Props.C97_white_balance", "Verif.Props.C97_second_green", "Verif.Props.C97_xtrans", "Verif.Props.C97_layout", "Verif.Props.C97_jpeg", "Verif.Props.C97_no_abort", "Verif.Props.C97_odd_lost"], "note": "Proved for all blocks whose entries have whole numbers, and that no block aborts. False for an entry of odd length: all later entries are lost (C97_odd_lost)."},
 {"property": "C98", "status": "partial", "theorems": ["Verif.Props.C98_dbp", "Verif.Props.C98_short", "Verif.Props.C98_plain", "Verif.Props.C98_hints", "Verif.Props.C98_other", "Verif.Props.C98_view", "Verif.Props.C98_padded_view", "Verif.Props.C98_view_to_end", "Verif.Props.C98_view_wraps", "Verif.Props.C98_view_wrap_aborts"], "note": "Proved for the views of the file, the tiles of the DBP, the choice of the unpacker, and the samples each unpacker gives. Not true of the code, so partial: columns left over by a width that is no multiple of eight are black (C98_dbp), a plain picture with too few bytes is given to the decompressor as if it were compressed (C98_other), and a view whose end is above 2^64 is no error (C98_view_wraps, C98_view_wrap_aborts)."},
 {"property": "C99", "status": "partial", "theorems": ["Verif.Props.C99_black", "Verif.Props.C99_count_aborts", "Verif.Props.C99_none", "Verif.Props.C99_high_lost"], "note": "Proved when the number of levels fits the pattern and levels are below 65536. Not true otherwise: another number aborts (C99_count_aborts) and higher levels lose bits (C99_high_lost)."}
]}
