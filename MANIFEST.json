{
 "claims": [
  {
   "property": "C01",
   "status": "partial",
   "theorems": [
    "Verif.C01_sub_blocks_read_back_partial",
    "Verif.C01_large_data_unreadable"
   ],
   "note": "All call sequences, reservations, previous file contents and open options, for sub-blocks below 2 GB whose callbacks end at most 4096 bytes early. Data of 2 GB and more is accepted by the writer but never readable (proved); callbacks ending earlier corrupt the file (see C06)."
  },
  {
   "property": "C02",
   "status": "partial",
   "theorems": [
    "Verif.C02_attachments_read_back_partial",
    "Verif.C02_reservation_loses_attachments",
    "Verif.C02_long_name_truncated",
    "Verif.C02_large_attachment_unreadable"
   ],
   "note": "Proved if the attachment-directory reservation is not larger than needed, names end within 80 bytes and attachments are below 2 GB; in the other cases the code loses attachments, characters or data (proved for every such document)."
  },
  {
   "property": "C03",
   "status": "partial",
   "theorems": [
    "Verif.C03_metadata_reads_back_partial",
    "Verif.C03_large_metadata_unreadable"
   ],
   "note": "All histories and reservations for XML below 2 GB; larger XML is accepted by the writer but never readable (proved)."
  },
  {
   "property": "C04",
   "status": "proved",
   "theorems": [
    "Verif.C04_guid",
    "Verif.C04_file_header",
    "Verif.C04_segment_header",
    "Verif.C04_entry",
    "Verif.C04_entries",
    "Verif.C04_entry_layout",
    "Verif.C04_attachment_entry"
   ],
   "note": "Round trips and layout (offset of every field, byte for byte). The last byte of an attachment name is always read as 0."
  },
  {
   "property": "C05",
   "status": "partial",
   "theorems": [
    "Verif.C05_segments_partial",
    "Verif.C05_short_callback_overlap"
   ],
   "note": "All documents whose callbacks end at most 4096 bytes early. If a data callback ends more than 12288 bytes early the next segment overlaps (proved for every writer state)."
  },
  {
   "property": "C06",
   "status": "partial",
   "theorems": [
    "Verif.C06_callback_payload_partial",
    "Verif.C06_size_reached_iff",
    "Verif.C06_short_callback_corrupts"
   ],
   "note": "Exact: the declared size is reached iff the callback ends at most 4096 bytes early. If it ends more than 32768 bytes early the next sub-block's segment appears in the data read back (proved for every writer state)."
  },
  {
   "property": "C07",
   "status": "partial",
   "theorems": [
    "Verif.C07_zero_fill_partial",
    "Verif.C07_zero_fill_too_short"
   ],
   "note": "Exact up to 4096 bytes; beyond that the code writes about half (proved for every larger n)."
  },
  {
   "property": "C08",
   "status": "partial",
   "theorems": [
    "Verif.C08_rejected_call_changes_nothing_partial",
    "Verif.C08_failed_add_is_listed",
    "Verif.C08_failed_attachment_is_listed"
   ],
   "note": "Calls rejected by validation change nothing (all states). A call whose I/O fails leaves the new entry in the directory (proved), so the full property is violated by the code."
  },
  {
   "property": "C09",
   "status": "partial",
   "theorems": [
    "Verif.C09_duplicates_exact_partial",
    "Verif.C09_distinct_zoom_rejected",
    "Verif.C09_outcome_depends_on_order",
    "Verif.C09_close_zooms_violated"
   ],
   "note": "Proved for all sequences in which any two zooms are equal or differ by more than the tolerance; within the tolerance the code violates the property (proved for every such pair of zooms)."
  },
  {
   "property": "C10",
   "status": "partial",
   "theorems": [
    "Verif.C10_accept_iff_partial",
    "Verif.C10_reasons",
    "Verif.C10_m_bounds_ignored"
   ],
   "note": "Proved whenever dimension bounds are declared; if only m-index bounds are declared they are ignored (proved)."
  },
  {
   "property": "C11",
   "status": "partial",
   "theorems": [
    "Verif.C11_edit_partial",
    "Verif.C11_subblock_edits_partial",
    "Verif.C11_attachment_adds_partial",
    "Verif.C11_new_partial",
    "Verif.C11_untouched",
    "Verif.C11_calls_partial",
    "Verif.C11_contents",
    "Verif.C11_written_sound",
    "Verif.C11_written_subblock_edits",
    "Verif.C11_written_attachment_adds"
   ],
   "note": "Every document written with a writer is sound. Every sound document and every sequence of calls that meets none of three defects of the code (Tame, TameClose): always so for edits of sub-blocks and metadata, and for adding attachments to a document whose attachment directory has no free space. The defects are proved under C13 and C14. Calls of the stream succeed (failures: C91)."
  },
  {
   "property": "C12",
   "status": "proved",
   "theorems": [
    "Verif.C12_keys_refine_map",
    "Verif.C12_keys_never_reused"
   ],
   "note": "All operation histories (keys are unbounded integers, the int counter overflow is not modelled)."
  },
  {
   "property": "C13",
   "status": "partial",
   "theorems": [
    "Verif.C13_replaced_partial",
    "Verif.C13_undone_by_add"
   ],
   "note": "Holds as long as nothing is appended after a ReplaceAttachment that needed a new segment. Otherwise the next attachment added is written over it: proved as a violation for every sound document."
  },
  {
   "property": "C14",
   "status": "partial",
   "theorems": [
    "Verif.C14_directories_partial",
    "Verif.C14_directories_overlap",
    "Verif.C14_new_file_overlap",
    "Verif.C14_remove_attachment_damages",
    "Verif.C14_new_empty_file_unreadable"
   ],
   "note": "Holds unless both directories need a new segment, an attachment directory is rewritten in place with fewer entries, or a new file has no sub-block: each proved as a violation in general."
  },
  {
   "property": "C15",
   "status": "partial",
   "theorems": [
    "Verif.C15_attachments_metadata_safe",
    "Verif.C15_open_safe_partial",
    "Verif.C15_subblock_safe_partial",
    "Verif.C15_too_many_dimensions_overrun",
    "Verif.C15_negative_dimensions_overrun",
    "Verif.C15_open_overrun",
    "Verif.C15_allocation_failure_undefined",
    "Verif.C15_subblock_negative_dimensions_overrun",
    "Verif.C15_missing_x_undefined"
   ],
   "note": "Safe for all contents as long as the DV entries give 0 to 40 dimensions and allocations succeed. Otherwise buffers are overrun: proved as violations, for whole classes of files."
  },
  {
   "property": "C16",
   "status": "partial",
   "theorems": [
    "Verif.C16_accept_iff",
    "Verif.C16_lax_accepts_iff",
    "Verif.C16_directory_iff_partial",
    "Verif.C16_open_lax",
    "Verif.C16_options"
   ],
   "note": "Exact for each entry; for a directory as a whole if its DV entries give 0 to 40 dimensions (otherwise undefined behaviour, see C15)."
  },
  {
   "property": "C17",
   "status": "partial",
   "theorems": [
    "Verif.C17_reader_statistics_exact_partial",
    "Verif.C17_order_independent",
    "Verif.C17_reader_writer_statistics_exact_partial",
    "Verif.C17_m_index_lost",
    "Verif.C17_m_index_violated"
   ],
   "note": "Exact for every list of sub-blocks and every reader-writer history, for entries with non-negative sizes and, if they have an m-index, at least one dimension; the excluded case is violated (proved in general)."
  },
  {
   "property": "C18",
   "status": "partial",
   "theorems": [
    "Verif.C18_reader_pyramid_exact",
    "Verif.C18_reader_writer_pyramid_exact_partial",
    "Verif.C18_double_count_after_modify",
    "Verif.C18_reader_writer_exact_iff",
    "Verif.C18_layers_in_order",
    "Verif.C18_layer0",
    "Verif.C18_layer_sound",
    "Verif.C18_layer_exact",
    "Verif.C18_layer_rounded",
    "Verif.C18_small_layers_violated",
    "Verif.C18_comparison_violated"
   ],
   "note": "Proved for the reader; for the reader-writer the statistics are exact if and only if the history contains no successful replace or remove. The layers are named rightly for exact minifications and for bitmaps of at least 146 pixels, and listed in order, also with questions in between; small bitmaps can be filed under a wrong layer, and the comparison given to std::sort is not a strict order (violations)."
  },
  {
   "property": "C19",
   "status": "proved",
   "theorems": [
    "Verif.C19_subset_exact",
    "Verif.C19_index_valid"
   ],
   "note": "All directories, filters and callbacks."
  },
  {
   "property": "C20",
   "status": "partial",
   "theorems": [
    "Verif.C20_filter_exact_partial",
    "Verif.C20_document_filter_partial",
    "Verif.C20_filter_defined",
    "Verif.C20_eight_character_type_missed"
   ],
   "note": "Exact for documents without eight-character content-file-types. An attachment with an eight-character type and a name is never found under its type: proved as a violation."
  },
  {
   "property": "C21",
   "status": "partial",
   "theorems": [
    "Verif.C21_channel_lookup_partial",
    "Verif.C21_wrong_channel_found",
    "Verif.C21_wrong_channel_violated"
   ],
   "note": "Proved for documents with a C dimension or c = 0; otherwise violated (proved in general)."
  },
  {
   "property": "C22",
   "status": "proved",
   "theorems": [
    "Verif.C22_compare_total_order",
    "Verif.C22_compare_first_difference",
    "Verif.C22_compareCoordinate_iff"
   ],
   "note": "All coordinates."
  },
  {
   "property": "C23",
   "status": "partial",
   "theorems": [
    "Verif.C23_enumerates_exactly_partial",
    "Verif.C23_no_dimension",
    "Verif.C23_empty_interval_delivers",
    "Verif.C23_enumerates_filled",
    "Verif.C23_empty_interval_violated"
   ],
   "note": "Exact for all bounds whose intervals are non-empty, for every callback; for all other bounds the delivered sequence is characterised exactly (each empty interval counts as its start) and the property is proved violated for every such bounds."
  },
  {
   "property": "C24",
   "status": "proved",
   "theorems": [
    "Verif.C24_round_trip",
    "Verif.C24_unambiguous",
    "Verif.C24_injective"
   ],
   "note": "All integer codes; the pyramid type Invalid has no code of its own (it is written as None)."
  },
  {
   "property": "C25",
   "status": "proved",
   "theorems": [
    "Verif.C25_points_inverse",
    "Verif.C25_rectangles",
    "Verif.C25_pixel_origin",
    "Verif.C25_invalid_rejected"
   ],
   "note": "Unbounded integers (no int overflow)."
  },
  {
   "property": "C26",
   "status": "partial",
   "theorems": [
    "Verif.C26_documented_text",
    "Verif.C26_accepted_iff_partial",
    "Verif.C26_lone_sign_accepted",
    "Verif.C26_lone_sign_malformed"
   ],
   "note": "Every documented text is accepted with its documented meaning; the accepted texts are characterised exactly. They include a lone sign, read as 0, contrary to the property: proved as a violation."
  },
  {
   "property": "C27",
   "status": "proved",
   "theorems": [
    "Verif.C27_round_trip",
    "Verif.C27_parse_exact",
    "Verif.C27_repeated_dimension_rejected",
    "Verif.C27_leading_zero_rejected"
   ],
   "note": "Printing then parsing returns the coordinate; the accepted texts and the coordinate they denote are characterised exactly. A value written with a minus sign and more than ten characters (e.g. leading zeros) is rejected, as the digit buffer is limited."
  },
  {
   "property": "C28",
   "status": "partial",
   "theorems": [
    "Verif.C28_round_trip_partial",
    "Verif.C28_empty_fails",
    "Verif.C28_garbage_accepted",
    "Verif.C28_values_occur",
    "Verif.C28_zero_size_fails"
   ],
   "note": "Round trip for non-empty bounds with non-zero sizes. Empty bounds and zero sizes do not round trip, and texts with foreign characters between the items are accepted: these are defects of the code, proved as such."
  },
  {
   "property": "C29",
   "status": "proved",
   "theorems": [
    "Verif.C29_concurrent_refinement",
    "Verif.C29_sequential_refinement",
    "Verif.C29_put_find",
    "Verif.C29_prune_minimal",
    "Verif.C29_null_bitmap_undefined"
   ],
   "note": "Refinement of the cache (std::map, use counter, byte and element counters with their machine widths) to a recency list for every history, and to a timed recency list for every interleaving of threads, with the two parts of Add as separate steps. GetStatistics for a single value, which is read without lock, is not modelled."
  },
  {
   "property": "C30",
   "status": "partial",
   "theorems": [
    "Verif.C30_cached_equals_uncached_partial",
    "Verif.C30_tiles_partial",
    "Verif.C30_added",
    "Verif.C30_mask_mode_mixed",
    "Verif.C30_position_differs"
   ],
   "note": "Proved for accessors with the same mask mode on documents whose directory agrees with the sub-blocks, under interference of other threads. Sharing a cache between mask-aware and mask-unaware accessors gives different results: proved as a violation. Of the information on a sub-block only the position is modelled: the accessors use nothing else of it."
  },
  {
   "property": "C31",
   "status": "proved",
   "theorems": [
    "Verif.C31_coverage_exact"
   ],
   "note": "All rectangle lists and queries; termination of AddRectangle included. int overflow excluded (unbounded integers)."
  },
  {
   "property": "C32",
   "status": "partial",
   "theorems": [
    "Verif.C32_visibility_same_picture_partial",
    "Verif.C32_visibility_masks_partial",
    "Verif.C32_draws_exactly_visible",
    "Verif.C32_masks_change_picture",
    "Verif.C32_masks_violated"
   ],
   "note": "Proved for sub-blocks without masks, and with masks as long as no masked-out pixel lies over a sub-block below; otherwise the code violates the property (proved in general). Which sub-blocks are drawn is characterised exactly."
  },
  {
   "property": "C33",
   "status": "partial",
   "theorems": [
    "Verif.C33_compose_exact_partial",
    "Verif.C33_bgr24_to_bgr48_out_of_bounds",
    "Verif.C33_border_shifts_content",
    "Verif.C33_border_width_one_undefined",
    "Verif.C33_accessor_topmost_partial",
    "Verif.C33_accessor_directory_order_partial",
    "Verif.C33_accessor_bad_plane",
    "Verif.C33_overread_violated",
    "Verif.C33_border_violated",
    "Verif.C33_border_one_column_violated"
   ],
   "note": "Exact for all tile lists without tile borders and all modelled converters except Bgr24->Bgr48; the behaviour of that converter and of tile borders is proved in general by separate theorems (violations)."
  },
  {
   "property": "C34",
   "status": "proved",
   "theorems": [
    "Verif.C34_plane_accepted_iff",
    "Verif.C34_reasons"
   ],
   "note": "All documents (entries as in C17) and coordinates."
  },
  {
   "property": "C35",
   "status": "partial",
   "theorems": [
    "Verif.C35_masked_copy_exact_partial",
    "Verif.C35_converting_masked_copy_wrong",
    "Verif.C35_converting_masked_copy_violated"
   ],
   "note": "Exact for equal pixel types; what the converting masked copy does instead is characterised exactly for all bitmaps, masks and converters (violation)."
  },
  {
   "property": "C36",
   "status": "proved",
   "theorems": [
    "Verif.C36_unpack_exact",
    "Verif.C36_pack_exact",
    "Verif.C36_pack_after_unpack",
    "Verif.C36_unpack_after_pack",
    "Verif.C36_stride_check",
    "Verif.C36_stride_check_wraps"
   ],
   "note": "All three implementations (scalar, AVX2, NEON), widths, heights, strides and contents. The argument check wraps for rows of 4 GB and more (witness proved)."
  },
  {
   "property": "C37",
   "status": "partial",
   "theorems": [
    "Verif.C37_compress_succeeds",
    "Verif.C37_round_trip_partial",
    "Verif.C37_zstd0_round_trip",
    "Verif.C37_bgr48_packed_fails",
    "Verif.C37_header_partial",
    "Verif.C37_bad_header_rejected",
    "Verif.C37_bad_packing_rejected",
    "Verif.C37_header_reads_outside",
    "Verif.C37_header_reads_outside_two",
    "Verif.C37_short_header",
    "Verif.C37_header_size_unchecked",
    "Verif.C37_bgr48_packed_violated"
   ],
   "note": "zstd is an abstract lossless codec. Proved for every bitmap, stride and pixel type except packed Bgr48 with size-mismatch handling on, where the code loses two thirds of every row (proved for all bitmaps). The header parser is exact from three bytes on; shorter data are read out of bounds (proved)."
  },
  {
   "property": "C38",
   "status": "partial",
   "theorems": [
    "Verif.C38_zstd0_mismatch",
    "Verif.C38_zstd0_exact",
    "Verif.C38_zstd1_mismatch_partial",
    "Verif.C38_zstd1_exact",
    "Verif.C38_odd_packed_payload",
    "Verif.C38_bgr48_packed_payload",
    "Verif.C38_uncompressed_mismatch",
    "Verif.C38_uncompressed_exact_partial",
    "Verif.C38_uncompressed_too_large_accepted",
    "Verif.C38_option",
    "Verif.C38_packed_lost_violated",
    "Verif.C38_damaged"
   ],
   "note": "Proved for zstd0, zstd1 and uncompressed data; packed payloads of odd size, packed Bgr48 and too large uncompressed data violate the property (proved in general). JPG-XR is covered by C80."
  },
  {
   "property": "C39",
   "status": "partial",
   "theorems": [
    "Verif.C39_lock_check",
    "Verif.C39_get_pixel",
    "Verif.C39_set_pixel",
    "Verif.C39_set_all",
    "Verif.C39_fill_partial",
    "Verif.C39_fill_outside_region",
    "Verif.C39_wide_bitmap_out_of_bounds"
   ],
   "note": "GetPixel, SetPixel, SetAll exact for all bitmaps up to 2^32-8 columns; Fill exact for all regions whose right and lower edge is not negative. Violated otherwise: a region ending left of the bitmap fills the whole rows (proved for all such bitmaps and regions); extents of 2^32-7 columns or more defeat the size check."
  },
  {
   "property": "C40",
   "status": "partial",
   "theorems": [
    "Verif.C40_decimate_exact_partial",
    "Verif.C40_in_bounds_partial",
    "Verif.C40_bad_arguments",
    "Verif.C40_width_overflow",
    "Verif.C40_large_neighbourhood_wrong",
    "Verif.C40_right_border_wrong"
   ],
   "note": "Exact for neighbourhood sizes 0 and 1 (all widths with w % 16 != 1) and for all sizes 0..7 when the bitmap has fewer than 32 columns; memory-safe for all sizes when w % 16 != 1. Violated otherwise: w % 16 = 1 writes one byte past the result (all such bitmaps), sizes >= 2 look at two rows only (w >= 32) and take pixels of the next row for neighbours at the right border."
  },
  {
   "property": "C41",
   "status": "partial",
   "theorems": [
    "Verif.C41_single_exact_partial",
    "Verif.C41_first_exact_partial",
    "Verif.C41_rejects",
    "Verif.C41_memory_safe_partial",
    "Verif.C41_index_always_zero",
    "Verif.C41_second_chunk_wrong",
    "Verif.C41_wrap_out_of_bounds"
   ],
   "note": "Exact for the first chunk. The index given is always 0, the second chunk is read from inside the first, and 32-bit wrap-around leads out of bounds: proved as violations."
  },
  {
   "property": "C42",
   "status": "partial",
   "theorems": [
    "Verif.C42_round_trip",
    "Verif.C42_accepted_iff_partial",
    "Verif.C42_long_text_accepted"
   ],
   "note": "Round trip for every colour; the accepted texts are characterised exactly. Texts with more than eight digits are accepted, contrary to the documented format: proved as a violation."
  },
  {
   "property": "C43",
   "status": "partial",
   "theorems": [
    "Verif.C43_round_trip_partial",
    "Verif.C43_map_round_trip_partial",
    "Verif.C43_malformed_rejected",
    "Verif.C43_escape_ambiguous"
   ],
   "note": "Round trip for pairs whose keys are non-empty and, like the values but the last, do not end with a backslash, and whose last value is not empty. The escaping is ambiguous otherwise: proved as a violation."
  },
  {
   "property": "C44",
   "status": "partial",
   "theorems": [
    "Verif.C44_accounting",
    "Verif.C44_wellbehaved",
    "Verif.C44_single_thread",
    "Verif.C44_rogue_unlock_disturbs",
    "Verif.C44_rogue_unlock_unreported"
   ],
   "note": "Every schedule of any number of threads. The part on unmatched Unlock calls holds for a single thread; with several threads it disturbs others or is not reported: proved as violations. The counter is an unbounded integer."
  },
  {
   "property": "C45",
   "status": "partial",
   "theorems": [
    "Verif.C45_never_uses_released",
    "Verif.C45_released_after_close",
    "Verif.C45_read_after_close",
    "Verif.C45_all_calls_can_finish",
    "Verif.C45_no_stream_race",
    "Verif.C45_flag_race"
   ],
   "note": "Every schedule of any number of reads and Close calls, with sequentially consistent accesses to the flag isOperational. The flag is not atomic: that this is a data race is proved as a violation."
  },
  {
   "property": "C46",
   "status": "partial",
   "theorems": [
    "Verif.C46_layer_number",
    "Verif.C46_layer_exists",
    "Verif.C46_layer_picture_partial",
    "Verif.C46_empty_layer_throws",
    "Verif.C46_factor_too_small",
    "Verif.C46_factor_zero",
    "Verif.C46_roi_too_small"
   ],
   "note": "A correct picture for all repositories and requests whose layer has a tile in the region (or whose region is empty). Violated otherwise: out_of_range when only other layers have tiles there, an endless loop for minification factors below 2, division by zero for factor 0; each proved in general."
  },
  {
   "property": "C47",
   "status": "proved",
   "theorems": [
    "Verif.C47_truncated",
    "Verif.C47_short_reads",
    "Verif.C47_header_cut"
   ],
   "note": "All files, all truncation points, and all streams that deliver less than asked for."
  },
  {
   "property": "C48",
   "status": "partial",
   "theorems": [
    "Verif.C48_crash_partial",
    "Verif.C48_torn_position_violated"
   ],
   "note": "Every document, crash point and torn write, for process crashes on a new file (writes reach the file in order), except a write of the file header torn inside one of the three 8-byte positions, where in a file of that size bytes other than zero can be missing. There the property is violated (proved by a document): a torn position can point to bytes that pass for a segment."
  },
  {
   "property": "C49",
   "status": "proved",
   "theorems": [
    "Verif.C49_read_exact",
    "Verif.C49_rejected",
    "Verif.C49_memory_safe"
   ],
   "note": "All buffers, offsets and sizes (64 bit)."
  },
  {
   "property": "C50",
   "status": "proved",
   "theorems": [
    "Verif.C50_guid_total_order",
    "Verif.C50_guid_lexical"
   ],
   "note": "All GUIDs."
  },
  {
   "property": "C51",
   "status": "partial",
   "theorems": [
    "Verif.C51_md5_partial",
    "Verif.C51_chunking_partial",
    "Verif.C51_bitmap",
    "Verif.C51_four_gigabytes_undefined"
   ],
   "note": "Equal to RFC 1321 for all messages cut into pieces below 4 GiB. A piece of exactly 4 GiB leads out of bounds: proved as a violation."
  },
  {
   "property": "C52",
   "status": "partial",
   "theorems": [
    "Verif.C52_mask_exact_partial",
    "Verif.C52_inside_partial",
    "Verif.C52_no_mask_undefined",
    "Verif.C52_short_chunk_out_of_bounds",
    "Verif.C52_width_wrap_out_of_bounds"
   ],
   "note": "Exact for well-formed masks. A container without mask, a chunk shorter than 12 bytes and a width near 2^32 are not rejected: proved as violations."
  },
  {
   "property": "C53",
   "status": "proved",
   "theorems": [
    "Verif.C53_wrong_segment_rejected"
   ],
   "note": "All contents of the stream, all options."
  },
  {
   "property": "C54",
   "status": "proved",
   "theorems": [
    "Verif.C54_strict",
    "Verif.C54_lax"
   ],
   "note": "For headers that give X and Y (otherwise undefined behaviour, see C15_missing_x_undefined)."
  },
  {
   "property": "C55",
   "status": "partial",
   "theorems": [
    "Verif.C55_reopen_partial",
    "Verif.C55_reopen_subblocks",
    "Verif.C55_stale_attachments"
   ],
   "note": "Holds for documents with an attachment directory. A document without one shows the attachments of the earlier document: proved as a violation."
  },
  {
   "property": "C56",
   "status": "proved",
   "theorems": [
    "Verif.C56_wrong_time",
    "Verif.C56_bad_arguments",
    "Verif.C56_valid_accepted"
   ],
   "note": "All states of the writer, all arguments; refusals for all behaviours of the stream."
  },
  {
   "property": "C57",
   "status": "partial",
   "theorems": [
    "Verif.C57_copy_partial",
    "Verif.C57_masked_partial",
    "Verif.C57_float",
    "Verif.C57_unsupported",
    "Verif.C57_up_and_down_black",
    "Verif.C33_bgr24_to_bgr48_out_of_bounds",
    "Verif.C35_converting_masked_copy_wrong",
    "Verif.C33_overread_violated",
    "Verif.C35_converting_masked_copy_violated"
   ],
   "note": "All pairs of integer pixel types but Bgr24 to Bgr48 and all conversions to Gray32Float without a mask; equal pixel types with a mask. Violated by Bgr24 to Bgr48 (reads out of bounds) and by converting masked copies (both proved in general). Floats are exact rationals rounded to 24 bits."
  },
  {
   "property": "C58",
   "status": "partial",
   "theorems": [
    "Verif.C58_compose",
    "Verif.C58_weighted",
    "Verif.C58_levels",
    "Verif.C58_bad_arguments",
    "Verif.C58_unsupported_partial_write",
    "Verif.C58_null_source_undefined",
    "Verif.C58_negative_lut_undefined"
   ],
   "note": "All lists of channels as documented, with black and white points in [0,1]. Weights whose sum is below 2^-24 are ignored and weights that differ by about 2^-22 may be treated as equal (float comparison with epsilon); up to 4096 channels of equal weight, 2^20 of different weights. Violated: unsupported pixel types are noticed only after earlier channels were written, null source pointers and negative table sizes are not refused (proved in general). Floats are exact rationals rounded to 24 bits, without overflow."
  },
  {
   "property": "C59",
   "status": "partial",
   "theorems": [
    "Verif.C59_scale_partial",
    "Verif.C59_scale_same",
    "Verif.C59_scale_axes_partial",
    "Verif.C59_scale_same_axes",
    "Verif.C59_resize_partial",
    "Verif.C59_same_size",
    "Verif.C59_upscale_unwritten",
    "Verif.C59_outside_roi",
    "Verif.C59_unsupported",
    "Verif.C59_empty_source_undefined",
    "Verif.C59_rounding"
   ],
   "note": "All bitmaps, masks and regions up to 2^29 in size and extrapolated position; all pairs of integer types but Bgr24 to Bgr48, and equal types. Positions up to 2^-15 pixel, exact for whole bitmaps. Violated: enlarging to twice the size or more leaves the last column unwritten, the column after an integer destination region is painted, empty source regions are not refused (all proved in general). Doubles are exact rationals rounded to 53 bits, without overflow."
  },
  {
   "property": "C60",
   "status": "partial",
   "theorems": [
    "Verif.C60_scaled_partial",
    "Verif.C60_unscaled_partial",
    "Verif.C60_unscaled_layer0",
    "Verif.C60_magnified_blank",
    "Verif.C60_visibility_same_picture_partial",
    "Verif.C60_visibility_scaled_partial",
    "Verif.C60_visibility_violated",
    "Verif.C60_masks_change_picture",
    "Verif.C60_sort_order_invalid",
    "Verif.C60_no_scene_ignored",
    "Verif.C60_unscaled_pyramid_gap",
    "Verif.C60_size",
    "Verif.C60_arguments"
   ],
   "note": "All documents of sub-blocks up to 2^19 in size, not stored enlarged, and regions up to 2^19, reduced at most by 1024 and enlarged at most twice; slack of 1/128 pixel and 2^-20 in zoom. The visibility optimisation is shown to be harmless without masks: for zoom 1, and for other zooms away from the edges of sub-blocks if those painted are not coarser than the result. Violated: with masks, and at the edges of sub-blocks up to 5% coarser than the result, the optimisation changes the picture (background shows at seams), the sort order is not a strict weak ordering when a pyramid sub-block has zoom 1, sub-blocks without scene index are ignored if two scenes are involved, pyramid sub-blocks of zoom 0.953 to 1 are copied unscaled at zoom 1."
  },
  {
   "property": "C61",
   "status": "partial",
   "theorems": [
    "Verif.C61_get",
    "Verif.C61_create",
    "Verif.C61_create_keeps",
    "Verif.C61_empty_part",
    "Verif.C61_create_index",
    "Verif.C61_create_not_atomic",
    "Verif.C61_append",
    "Verif.C61_get_syntax",
    "Verif.C61_create_syntax"
   ],
   "note": "All documents and all paths, also malformed ones. The metadata document is a tree of nodes with names, attributes and texts; pugixml itself is not modelled. Violated: a failing GetOrCreateChildNode leaves the nodes it had created (proved), index parts cannot create nodes."
  },
  {
   "property": "C62",
   "status": "partial",
   "theorems": [
    "Verif.C62_value",
    "Verif.C62_cdata",
    "Verif.C62_number",
    "Verif.C62_signed",
    "Verif.C62_unsigned_partial",
    "Verif.C62_unsigned_negative",
    "Verif.C62_hangs",
    "Verif.C62_bool",
    "Verif.C62_bool_roundtrip",
    "Verif.C62_attribute",
    "Verif.C62_remove_attribute",
    "Verif.C62_remove_child",
    "Verif.C62_local"
   ],
   "note": "Text, boolean and integer values, attributes, removal (floating-point values: C71). Violated: white space after a number makes the read loop forever, negative text is read as a large unsigned number, a CDATA section hides the value set."
  },
  {
   "property": "C63",
   "status": "partial",
   "theorems": [
    "Verif.C63_valid",
    "Verif.C63_parse",
    "Verif.C63_parse_complete",
    "Verif.C63_throws",
    "Verif.C63_zone_partial",
    "Verif.C63_sign_lost",
    "Verif.C63_roundtrip_partial",
    "Verif.C63_leap_second",
    "Verif.C63_western_zone",
    "Verif.C63_early_year"
   ],
   "note": "All dates and all texts. The regular expression is modelled as a deterministic matcher. Violated, each proved for the whole class of dates: offsets of -9 to -1 hours, seconds of 60, years -999 to -1 are written but not read back; the sign of -00:mm is lost; years outside int make TryParse throw."
  },
  {
   "property": "C64",
   "status": "partial",
   "theorems": [
    "Verif.C64_general",
    "Verif.C64_general_throws",
    "Verif.C64_saved_partial",
    "Verif.C64_bytes_partial",
    "Verif.C64_blank_lost",
    "Verif.C64_return_lost",
    "Verif.C64_number",
    "Verif.C64_number_any",
    "Verif.C64_sizes",
    "Verif.C64_start_lost",
    "Verif.C64_positions_not_read",
    "Verif.C64_z_start_is_time"
   ],
   "note": "All documents, texts and values; floating-point numbers are represented by their texts, saving and loading by its effect on texts (white space, line ends), which C64_bytes_partial derives from the written bytes. Violated, each proved: time and z positions are written where they are not read, the start of a dimension is not written, blank texts and carriage returns do not survive saving, WriteDimInfoZ_List writes the start position as start time."
  },
  {
   "property": "C65",
   "status": "proved",
   "theorems": [
    "Verif.C65_invalid_key",
    "Verif.C65_set",
    "Verif.C65_set_throws",
    "Verif.C65_history",
    "Verif.C65_int_text"
   ],
   "note": "All histories, keys, values and documents; floating-point values are represented by the text written for them."
  },
  {
   "property": "C66",
   "status": "partial",
   "theorems": [
    "Verif.C66_sizes",
    "Verif.C66_channels",
    "Verif.C66_image_type",
    "Verif.C66_default_names",
    "Verif.C66_empty",
    "Verif.C66_type_not_stated",
    "Verif.C66_bad_names"
   ],
   "note": "All histories of additions and all functions for names. Violated, each proved: an empty writer states sizes of -1; pixel types Gray32 and Gray64Float are not stated; identifiers or names with characters of the path syntax make the call throw; equal identifiers give one entry."
  },
  {
   "property": "C67",
   "status": "partial",
   "theorems": [
    "Verif.C67_strided",
    "Verif.C67_lines",
    "Verif.C67_memory",
    "Verif.C67_invalid_pixel_type",
    "Verif.C67_null",
    "Verif.C67_read_back",
    "Verif.C67_rw_lines",
    "Verif.C67_rw_strided_wrong_lines",
    "Verif.C67_rw_strided_partial",
    "Verif.C67_rw_strided_overrun",
    "Verif.C67_rw_shown",
    "Verif.C67_pixel_sizes_partial",
    "Verif.C67_complex_size_violated"
   ],
   "note": "All sizes, strides and contents below 2 GB, all histories. The memory is read when the call is made, not chunk by chunk. Violated, proved for every stride larger than a line: the reader-writer's strided form keeps the padding, so the bitmap read back consists of the first bytes of the memory, and bytes behind the last line are read; a pixel of Gray64ComplexFloat is taken for 16 bytes."
  },
  {
   "property": "C68",
   "status": "partial",
   "theorems": [
    "Verif.C68_uncompressed",
    "Verif.C68_reported",
    "Verif.C68_read_back",
    "Verif.C68_compression_lost",
    "Verif.C68_size_not_checked"
   ],
   "note": "All arguments and histories for uncompressed data. Violated, each proved in general: data announced with any other compression are marked as uncompressed; the announced size of uncompressed data is not looked at."
  },
  {
   "property": "C69",
   "status": "proved",
   "theorems": [
    "Verif.C69_represented",
    "Verif.C69_understood",
    "Verif.C69_every_coordinate",
    "Verif.C69_truncated",
    "Verif.C69_guid",
    "Verif.C69_raw_data",
    "Verif.C69_metadata_xml",
    "Verif.C69_scenes"
   ],
   "note": "All values and sizes."
  },
  {
   "property": "C70",
   "status": "partial",
   "theorems": [
    "Verif.C70_defined",
    "Verif.C70_alive",
    "Verif.C70_closed",
    "Verif.C70_all_released",
    "Verif.C70_wrong_kind",
    "Verif.C70_right_kind",
    "Verif.C70_new_handle",
    "Verif.C70_release",
    "Verif.C70_lock",
    "Verif.C70_unlock",
    "Verif.C70_confused_violated",
    "Verif.C70_null_violated",
    "Verif.C70_null_out_violated",
    "Verif.C70_no_settings_violated"
   ],
   "note": "All sequences of calls that avoid what is not checked. Calls do not overlap, allocation succeeds. Violated, each proved in general: attachments and document information pass for one another, some null handles and null result pointers are not checked, display settings that are not there give a handle whose use is undefined."
  },
  {
   "property": "C71",
   "status": "partial",
   "theorems": [
    "Verif.C71_read",
    "Verif.C71_read_hex",
    "Verif.C71_read_special",
    "Verif.C71_read_only",
    "Verif.C71_hangs_violated",
    "Verif.C71_written",
    "Verif.C71_double_partial",
    "Verif.C71_float_partial",
    "Verif.C71_short",
    "Verif.C71_whole",
    "Verif.C71_exact_violated",
    "Verif.C71_exact"
   ],
   "note": "All values and texts; exponent range, infinities on writing and the sign of zero are not modelled. Violated, proved: doubles and floats in general are not read back exactly (15 and 6 digits do not identify them); white space behind a number, or only white space, makes reading hang."
  },
  {
   "property": "C72",
   "status": "partial",
   "theorems": [
    "Verif.C72_read_back_partial",
    "Verif.C72_pod_consistent",
    "Verif.C72_write_again",
    "Verif.C72_nothing_else",
    "Verif.C72_attributes",
    "Verif.C72_all_channels",
    "Verif.C72_weight_violated",
    "Verif.C72_empty_spline_violated",
    "Verif.C72_negative_violated",
    "Verif.C72_wide_character_violated",
    "Verif.C72_clone",
    "Verif.C72_foreign",
    "Verif.C72_foreign_document"
   ],
   "note": "All documents and settings; the function for additional information is a pure function. Violated, each proved in general: the weight is not written, a spline without points becomes linear, negative channel numbers are dropped, a wide character behind a number in the spline points is undefined behaviour."
  },
  {
   "property": "C73",
   "status": "partial",
   "theorems": [
    "Verif.C73_read_back_partial",
    "Verif.C73_exact",
    "Verif.C73_saved",
    "Verif.C73_no_drift",
    "Verif.C73_without_units",
    "Verif.C73_throws",
    "Verif.C73_nothing_else"
   ],
   "note": "All documents and scalings. Missing: numbers of more than 15 digits are not read back exactly (violated in general: C71_exact_violated); the numbers have no exponent range; an element does not have two attributes of the same name."
  },
  {
   "property": "C74",
   "status": "partial",
   "theorems": [
    "Verif.C74_tag",
    "Verif.C74_number",
    "Verif.C74_stage_position",
    "Verif.C74_data_format",
    "Verif.C74_invalid",
    "Verif.C74_path_violated",
    "Verif.C74_hangs_violated"
   ],
   "note": "All documents and names. Violated, each proved in general: a name with a slash is used as a path, an empty part of it makes the call throw; white space behind a number makes the call hang. The conversion of the name to UTF-8 is not modelled."
  },
  {
   "property": "C75",
   "status": "partial",
   "theorems": [
    "Verif.C75_ends",
    "Verif.C75_gamma",
    "Verif.C75_gamma_shape",
    "Verif.C75_toe",
    "Verif.C75_toe_shape",
    "Verif.C75_exponential_violated",
    "Verif.C75_one_index_violated",
    "Verif.C75_never_short",
    "Verif.C75_size_violated",
    "Verif.C75_spline",
    "Verif.C75_spline_empty",
    "Verif.C75_spline_one_index_violated",
    "Verif.C75_spline_never_short"
   ],
   "note": "All sizes up to 2^24, points, gamma values and splines; pow of the C library is a parameter with an error bound. Violated, each proved in general: for gamma below 1 the curve is not the exponential (its beginning is flattened; the actual curve is what C75_toe states); a single index between the points is undefined behaviour; the table is too long if the white point is below the black point."
  },
  {
   "property": "C76",
   "status": "partial",
   "theorems": [
    "Verif.C76_natural_partial",
    "Verif.C76_unique",
    "Verif.C76_through_partial",
    "Verif.C76_value_partial",
    "Verif.C76_kink_violated"
   ],
   "note": "All lists of control points that are at least 1/1000 apart. Missing: the arithmetic is exact (no rounding of double), and the equations are solved by an arbitrary exact solver (Eigen is not modelled). Violated, proved in general: points closer than 1/1000 give a kink."
  },
  {
   "property": "C77",
   "status": "partial",
   "theorems": [
    "Verif.C77_channels",
    "Verif.C77_functor",
    "Verif.C77_returns",
    "Verif.C77_unsupported",
    "Verif.C77_no_gamma_violated",
    "Verif.C77_enumerate",
    "Verif.C77_active",
    "Verif.C77_proper"
   ],
   "note": "All settings, pixel types, functors and previous contents. Violated, proved in general: gamma mode without a gamma value uses an uninitialised variable."
  },
  {
   "property": "C78",
   "status": "proved",
   "theorems": [
    "Verif.C78_parse",
    "Verif.C78_result",
    "Verif.C78_rejects",
    "Verif.C78_unambiguous",
    "Verif.C78_roundtrip",
    "Verif.C78_level_used",
    "Verif.C78_unpack_used"
   ],
   "note": "All texts. The regular expressions are matched by hand (the character classes are disjoint); the recursion depth of std::regex is not modelled."
  },
  {
   "property": "C79",
   "status": "partial",
   "theorems": [
    "Verif.C79_colour",
    "Verif.C79_grey",
    "Verif.C79_float",
    "Verif.C79_monotone",
    "Verif.C79_unsupported",
    "Verif.C79_no_background",
    "Verif.C79_background",
    "Verif.C79_infinite_violated",
    "Verif.C79_nan_violated"
   ],
   "note": "Everything but the last clause: two infinite components of opposite sign (grey types) and, with Utils::FillBitmap, NaN components are undefined behaviour, shown by the violation theorems. Subnormal numbers are not modelled."
  },
  {
   "property": "C80",
   "status": "partial",
   "theorems": [
    "Verif.C80_quality",
    "Verif.C80_compress",
    "Verif.C80_compress_rejected",
    "Verif.C80_strict",
    "Verif.C80_lenient_same",
    "Verif.C80_roundtrip",
    "Verif.C80_lenient_partial",
    "Verif.C80_lenient_float",
    "Verif.C80_no_bitmap",
    "Verif.C80_abort_violated",
    "Verif.C80_overread_violated",
    "Verif.C80_declared",
    "Verif.C80_decoders",
    "Verif.C80_other_modes"
   ],
   "note": "Everything but the last clause, which the code violates (size-mismatch handling on, JPEG-XR): the process ends exactly in the cases of C80_abort_violated (locked bitmaps destroyed by an exception), and Bgr24 data in a Bgr48 sub-block are read out of bounds. jxrlib and zstd are parameters; failing allocation is not modelled; sizes are unbounded natural numbers."
  },
  {
   "property": "C81",
   "status": "partial",
   "theorems": [
    "Verif.C81_reader_attachments_partial",
    "Verif.C81_reader_subblocks_partial",
    "Verif.C81_negative_index_violated",
    "Verif.C81_closed_partial",
    "Verif.C81_closed_violated",
    "Verif.C81_closed_transform_violated",
    "Verif.C81_editor_attachments_partial",
    "Verif.C81_eight_character_type_violated",
    "Verif.C81_long_name_violated",
    "Verif.C81_editor_subblocks"
   ],
   "note": "Proved for the reader (non-negative indices) and, after any calls, for the reader-writer (sub-blocks fully; attachments with names that end within their field). The code violates the rest: negative indices make the reader throw out_of_range; TryGetSubBlockInfo and TransformPoint go on answering after Close; the reader-writer's EnumerateAttachments leaves the last character of the type unset; names of 80 characters are read past their end."
  },
  {
   "property": "C82",
   "status": "partial",
   "theorems": [
    "Verif.C82_writes",
    "Verif.C82_untouched_partial",
    "Verif.C82_open",
    "Verif.C82_close_violated",
    "Verif.C82_close_attachments_violated",
    "Verif.C82_metadata_violated",
    "Verif.C82_remove_violated",
    "Verif.C82_replace_violated",
    "Verif.C82_torn_violated",
    "Verif.C82_close_in_place_violated"
   ],
   "note": "Proved: crash while opening, and crash before Close for everything the calls have not touched. The code violates the rest: a Close that moves a directory leaves an unopenable file; moved metadata, removed and replaced items are unreadable until Close; replacing in place can leave a mixture; a Close that rewrites the sub-block directory in its place can leave a file that does not list sub-blocks no call has touched (files below 2^63 bytes)."
  },
  {
   "property": "C83",
   "status": "partial",
   "theorems": [
    "Verif.C83_exposureTime_partial",
    "Verif.C83_negative_violated",
    "Verif.C83_wavelength_partial",
    "Verif.C83_peak",
    "Verif.C83_open_start_violated",
    "Verif.C83_int32Array_partial",
    "Verif.C83_doubleArray_partial",
    "Verif.C83_wide_character_violated",
    "Verif.C83_enumerations"
   ],
   "note": "Proved for texts without two minus signs in a row (exposure time), without the letters x, i, n (double) and with characters up to 255 (arrays). Violated: a negative end of an exposure range is taken modulo 2^64, a missing start of a range of double is the smallest positive number, a character beyond 255 after a number of an array is passed to isspace. Not modelled: numbers beyond the range of double."
  },
  {
   "property": "C84",
   "status": "partial",
   "theorems": [
    "Verif.C84_pread_partial",
    "Verif.C84_short_violated",
    "Verif.C84_threads",
    "Verif.C84_no_deadlock",
    "Verif.C84_no_mutex_violated",
    "Verif.C84_http_safe",
    "Verif.C84_http_partial",
    "Verif.C84_http_fails_partial",
    "Verif.C84_http_ignored_violated",
    "Verif.C84_http_23_violated",
    "Verif.C84_azure_partial",
    "Verif.C84_memory_end_violated"
   ],
   "note": "Proved: file streams with pread up to the number of bytes the system delivers at once, the mutex-protected stream for all threads and schedules (results, no deadlock), memory safety for all HTTP servers and exact data for servers that honour the range. Violated: short reads are not continued, the input-output stream on a FILE has no mutex, the HTTP status is not looked at, a piece of 23 bytes that does not fit is dropped, the memory stream throws at its end. Not modelled: Windows streams, libcurl options and errors beyond 'the transfer fails'."
  },
  {
   "property": "C85",
   "status": "partial",
   "theorems": [
    "Verif.C85_numbers",
    "Verif.C85_structures",
    "Verif.C85_directory_partial",
    "Verif.C85_directory_bytes",
    "Verif.C85_subBlock_partial",
    "Verif.C85_startCoordinate_violated",
    "Verif.C85_header",
    "Verif.C85_new_document_violated",
    "Verif.C85_forced_guid_violated",
    "Verif.C85_pixels_partial",
    "Verif.C85_bytes",
    "Verif.C85_float_violated",
    "Verif.C85_zstd_violated",
    "Verif.C85_written_violated"
   ],
   "note": "Proved: numbers, all structures, directories and sub-blocks with any number of entries and dimensions whose start coordinates are zero, the file header, uncompressed Gray16, Bgr48 and 8-bit pixels. Violated on big-endian hosts: start coordinates are not converted, the GUID of a new document is mirrored by Close, a forced GUID is remembered mirrored, other pixel types cannot be read, zstd0 pixels are not converted, pixels are written without conversion. Not modelled: JPEG XR on such hosts, hi-lo packing of zstd1 there."
  },
  {
   "property": "C86",
   "status": "partial",
   "theorems": [
    "Verif.C86_info",
    "Verif.C86_same_partial",
    "Verif.C86_arguments",
    "Verif.C86_picture",
    "Verif.C86_disabled_violated",
    "Verif.C86_all_disabled_violated",
    "Verif.C86_disabled_alpha_violated",
    "Verif.C86_unknown_channel_violated",
    "Verif.C86_no_gamma_violated"
   ],
   "note": "Proved for enabled channels (same result as the C++ helper for all settings and bitmaps). Violated by the code for disabled channels: they brighten the others, are painted white if there are no others, or make the composition fail; and for channels without settings or without gamma value."
  },
  {
   "property": "C87",
   "status": "partial",
   "theorems": [
    "Verif.C87_duplicates",
    "Verif.C87_info",
    "Verif.C87_accessor",
    "Verif.C87_accessor_default",
    "Verif.C87_properties",
    "Verif.C87_no_properties",
    "Verif.C87_invalid_ignored_violated",
    "Verif.C87_one_bound_violated",
    "Verif.C87_bad_guid_violated",
    "Verif.C87_zero_violated"
   ],
   "note": "Proved: what is in the text is obeyed exactly, for all texts and parsers. Violated by the code: texts for a writer that are not JSON objects, single bounds and unreadable GUIDs are ignored instead of refused; names and strings are cut at a zero character."
  },
  {
   "property": "C88",
   "status": "partial",
   "theorems": [
    "Verif.C88_z_partial",
    "Verif.C88_drive_mode_violated",
    "Verif.C88_direction_as_mode_violated",
    "Verif.C88_texts",
    "Verif.C88_t",
    "Verif.C88_positions",
    "Verif.C88_start_time_violated",
    "Verif.C88_no_axis",
    "Verif.C88_bad_word_partial",
    "Verif.C88_newline_violated",
    "Verif.C88_huge_violated"
   ],
   "note": "Proved for all well-formed metadata without a drive mode. Violated by the code: the drive mode is read from the element for the direction of the axis, so it is never returned; lists separated by new lines or tabs lose all but the first number; numbers beyond the range of double raise an exception. Numbers below the normal range are not modelled."
  },
  {
   "property": "C89",
   "status": "partial",
   "theorems": [
    "Verif.C89_general",
    "Verif.C89_pyramid",
    "Verif.C89_z",
    "Verif.C89_z_unique",
    "Verif.C89_t",
    "Verif.C89_channels_partial",
    "Verif.C89_ranges_partial",
    "Verif.C89_errors",
    "Verif.C89_available",
    "Verif.C89_condenser_violated",
    "Verif.C89_digits_violated",
    "Verif.C89_other_dimension_violated",
    "Verif.C89_not_finite_violated"
   ],
   "note": "Proved for all documents and printers, as far as the numbers are finite. Violated by the code: the contrast of the condenser is replaced by the text of the reflector, wavelength ranges are cut to six digits, dimensions other than Z, T and C give success without a text, and a number that is not finite gives a text that breaks off. The printing of strings and numbers (rapidjson) is arbitrary."
  },
  {
   "property": "C90",
   "status": "partial",
   "theorems": [
    "Verif.C90_passed",
    "Verif.C90_attachments_partial",
    "Verif.C90_metadata_partial",
    "Verif.C90_name",
    "Verif.C90_pixels",
    "Verif.C90_exact_memory"
   ],
   "note": "Pixels fully; attachments and metadata with the limits of C02 and C03 (less than 2 GB, names that end within 80 bytes, reservation of the attachment directory filled), outside of which the writer and reader themselves violate the property (proved there)."
  },
  {
   "property": "C91",
   "status": "partial",
   "theorems": [
    "Verif.C91_without_fault",
    "Verif.C91_edit_partial",
    "Verif.C91_unharmed",
    "Verif.C91_failed_remove_violated",
    "Verif.C91_failed_add_violated",
    "Verif.C91_failed_add_attachment_violated",
    "Verif.C91_failed_metadata_violated",
    "Verif.C91_torn_replace_violated"
   ],
   "note": "Proved for every sound document and every sequence of calls in which the failing calls are removals, replacements that append and fail before the last write, first metadata, and Close, any number of times. Violated by the code, proved for all documents and calls: a failing removal removes, a failing SyncAddSubBlock or SyncAddAttachment leaves an entry that takes on the next segment written, a failing SyncWriteMetadata that needs a new segment loses the old metadata. Replacements in their place are torn (witness)."
  },
  {
   "property": "C92",
   "status": "partial",
   "theorems": [
    "Verif.C92_saved_partial",
    "Verif.C92_same_tree",
    "Verif.C92_stable",
    "Verif.C92_loaded",
    "Verif.C92_built_partial",
    "Verif.C92_utf8",
    "Verif.C92_utf8_standard",
    "Verif.C92_file_partial",
    "Verif.C92_blank_violated",
    "Verif.C92_return_violated",
    "Verif.C92_neighbours_violated",
    "Verif.C92_name_violated",
    "Verif.C92_remove_violated"
   ],
   "note": "Proved for all trees with proper names whose texts are not blank and have no carriage return, for all characters, depths and formats; trees built by any calls of the node interface except RemoveChild have this form. Violated by the code, proved in general: blank text disappears, carriage returns in text are converted, two texts separated by a comment become one, elements can be created with names that make the saved text unloadable, and RemoveChild can bring two texts together."
  },
  {
   "property": "C93",
   "status": "partial",
   "theorems": [
    "Verif.C93_loaded",
    "Verif.C93_unique",
    "Verif.C93_cut",
    "Verif.C93_truncated",
    "Verif.C93_rejected",
    "Verif.C93_duplicate_violated",
    "Verif.C93_junk_violated",
    "Verif.C93_roots_violated",
    "Verif.C93_comment_violated",
    "Verif.C93_cdata_violated",
    "Verif.C93_entity_violated"
   ],
   "note": "Loading is proved for every text of the grammar (Spec/XmlGrammar.lean). Violated by the code, proved (in general, except for entities): text outside of the root element and several root elements are accepted, the value of an element ends at a comment, text in CDATA sections is not a value, declared entities are not replaced. Two attributes of the same name are accepted, too. Malformed texts: C93_rejected lists the kinds of errors that are found at any place, C93_truncated treats every truncation; other kinds of malformed text (such as a raw ampersand) are not decided."
  },
  {
   "property": "C94",
   "status": "partial",
   "theorems": [
    "Verif.C94_open",
    "Verif.C94_open_stdio_partial",
    "Verif.C94_open_stdio_violated",
    "Verif.C94_open_edit",
    "Verif.C94_written",
    "Verif.C94_written_stdio_partial",
    "Verif.C94_lost_violated",
    "Verif.C94_document_lost_violated",
    "Verif.C94_edit_violated"
   ],
   "note": "Proved for the pwrite-based streams (Linux). The streams on C FILEs violate it: a file that cannot be read or appears late is overwritten, an error of fclose is not reported so that a document whose Close succeeded may be lost, and files opened for editing cannot be written."
  },
  {
   "property": "C95",
   "status": "partial",
   "theorems": [
    "Verif.C95_create",
    "Verif.C95_create_violated",
    "Verif.C95_memory_violated",
    "Verif.C95_exact_partial",
    "Verif.C95_memory_partial",
    "Verif.C95_zstd_violated",
    "Verif.C95_uncompressed_violated",
    "Verif.C95_uncompressed_write_violated",
    "Verif.C95_jxr_violated"
   ],
   "note": "Proved for sub-blocks whose lines have less than 2 GiB: there the results with the machine's integers are those of C37, C38 and C80. Violated by the code otherwise, proved in general: the default stride overflows, strides are truncated to 32 bits so that zstd data and uncompressed data are written or read outside of memory. Not decided: packed zstd data with lines of 2 GiB or more. Allocation is assumed to succeed."
  },
  {
   "property": "C96",
   "status": "partial",
   "theorems": [
    "Verif.C96_set_first",
    "Verif.C96_default",
    "Verif.C96_settled",
    "Verif.C96_never_null",
    "Verif.C96_no_deadlock",
    "Verif.C96_decoders",
    "Verif.C96_two_sites_violated",
    "Verif.C96_changes_violated",
    "Verif.C96_null_violated"
   ],
   "note": "Proved for every schedule in which SetSiteObject does not overlap with other calls. Violated by the code otherwise, proved: SetSiteObject tests and assigns without synchronisation, so that two overlapping calls are both accepted, or the site changes after its first use; null is accepted. (Such overlapping accesses are data races, which the model shows as interleavings.)"
  },
  {
   "property": "C97",
   "status": "partial",
   "theorems": [
    "Verif.C97_released_once_partial",
    "Verif.C97_all_released",
    "Verif.C97_kept",
    "Verif.C97_same_pointer",
    "Verif.C97_subblock",
    "Verif.C97_attachment",
    "Verif.C97_size_partial",
    "Verif.C97_null_pointer_violated",
    "Verif.C97_released_twice_violated",
    "Verif.C97_leak_violated"
   ],
   "note": "Proved for every history in which an allocation for an object or a shared pointer fails only where the function cleans up (failures of malloc and of streams are arbitrary). Violated by the code, proved in general: with no memory for the counter of a shared pointer ICZIReader::ReadSubBlock releases the pixels twice; with no memory for the object ReadAttachment, ReadMetadataSegment and ICziReaderWriter::ReadSubBlock lose what was read; a negative stored size or a failing malloc gives a null pointer with a positive size and no error."
  },
  {
   "property": "C98",
   "status": "partial",
   "theorems": [
    "Verif.C98_again_partial",
    "Verif.C98_document_partial",
    "Verif.C98_given_up_partial",
    "Verif.C98_add_violated",
    "Verif.C98_create_violated",
    "Verif.C98_create_file_violated",
    "Verif.C98_metadata_violated",
    "Verif.C98_external",
    "Verif.C98_external_success",
    "Verif.C98_external_noticed",
    "Verif.C98_external_needs_truth"
   ],
   "note": "Proved: writing metadata (in every state) and Close (after any calls on a working stream) can be made again any number of times with the result of a stream that does not fail; documents for which only these calls fail are unchanged byte by byte; first metadata that are given up leave a correct document; streams of the caller given to the C interface are such streams as long as they report the number of bytes written truthfully. Violated by the code, proved in general: adding a sub-block or an attachment that failed cannot be made again (the item is registered before it is written), nor can Create; after a failing Create the calls succeed and the document cannot be opened; metadata that replace others and fail leave no readable metadata."
  },
  {
   "property": "C99",
   "status": "partial",
   "theorems": [
    "Verif.C99_tiles_partial",
    "Verif.C99_directory_order_partial",
    "Verif.C99_pyramid_partial",
    "Verif.C99_unscaled_partial",
    "Verif.C99_order_violated",
    "Verif.C99_pyramid_violated",
    "Verif.C99_scaled_violated"
   ],
   "note": "Proved for the tile accessor and the scaling accessor with a zoom of 1, for all pairs of regions, if the m-indexes differ where sub-blocks overlap (or, without sorting by m-index, always); for the pyramid accessor if regions and sub-blocks are on the grid of the layer's pixels. Violated by the code otherwise, proved: the order of overlapping sub-blocks without different m-indexes is left to an unstable sort; positions on a layer are rounded towards zero relative to the region; with a zoom below 1 the sub-blocks painted at a place depend on which others are anywhere in the region."
  },
  {
   "property": "C100",
   "status": "partial",
   "theorems": [
    "Verif.C100_tiles_partial",
    "Verif.C100_names",
    "Verif.C100_mosaic_partial",
    "Verif.C100_large_tile_violated",
    "Verif.C100_overflow_violated"
   ],
   "note": "Proved for all regions and tile sizes whose sums are ints; the pictures under the conditions of C99 (zoom 1, m-indexes differ where sub-blocks overlap), without the visibility optimisation. Violated by the code otherwise, proved in general: tile sizes of 2^31 and more become negative, so that nothing is written and success is reported; a region and a tile that together exceed the largest int overflow."
  },
  {
   "property": "C101",
   "status": "partial",
   "theorems": [
    "Verif.C101_statistics_partial",
    "Verif.C101_query_partial",
    "Verif.C101_picture_partial",
    "Verif.C101_statistics_violated",
    "Verif.C101_intervals_violated",
    "Verif.C101_largest_index_violated",
    "Verif.C101_query_violated",
    "Verif.C101_region_violated",
    "Verif.C101_offset_violated"
   ],
   "note": "Proved for all documents whose sub-blocks lie in one rectangle with int position, size and end points (values of dimensions correspondingly) and all regions whose end points are ints; pictures if in addition the sizes of region and sub-block add up to an int. Violated by the code otherwise, proved in general: whenever there is no such rectangle and the document has two sub-blocks, whenever two values of a dimension are too far apart, whenever two sub-blocks have the index 2147483647, whenever a region's end is not an int, and whenever a visible sub-block ends too far from the region's left edge, the code overflows (undefined behaviour). Not covered: the pyramid and the scaling accessor."
  },
  {
   "property": "C102",
   "status": "partial",
   "theorems": [
    "Verif.C102_document_partial",
    "Verif.C102_jxr_violated",
    "Verif.C102_empty_interval_violated",
    "Verif.C102_position_violated"
   ],
   "note": "Proved for all options with numbers in range (positions below 2^31, fewer than 2^31 sub-blocks), non-empty intervals, an overlap between 0 and 1, and uncompressed, zstd0 or zstd1 data (except packed Bgr48, see C37). Violated by the code otherwise, proved in general: with the accepted methods JpgXr and Jpg the document has no sub-blocks at all; for an empty interval there are sub-blocks although no coordinate is within the bounds; without overlap, positions of 2^31 and more become negative. The generator of the pictures and the text of the metadata are parameters."
  },
  {
   "property": "C103",
   "status": "partial",
   "theorems": [
    "Verif.C103_open",
    "Verif.C103_close",
    "Verif.C103_calls_partial",
    "Verif.C103_external",
    "Verif.C103_info_violated",
    "Verif.C103_attachments_violated"
   ],
   "note": "Proved for all histories and failures; calls about attachments if the document has an attachment directory. Violated by the code otherwise, proved in general: after an Open that failed at the attachment directory TryGetSubBlockInfo answers with the sub-blocks of that document although the reader is not open; a document without attachment directory shows the attachments of the document opened before. Calls do not overlap; a stream answers the same request in the same way during one call."
  },
  {
   "property": "C104",
   "status": "partial",
   "theorems": [
    "Verif.C104_picture_partial",
    "Verif.C104_picture_of_channel_partial",
    "Verif.C104_picture_in_frame_partial",
    "Verif.C104_picture_after_editing_partial",
    "Verif.C104_picture_of_new_partial",
    "Verif.C104_pictures_of_contents_partial",
    "Verif.C104_rejected",
    "Verif.C104_channel_left_out_violated",
    "Verif.C104_scaled_partial",
    "Verif.C104_scaled_of_channel",
    "Verif.C104_scaled_rejected",
    "Verif.C104_scaled_pictures_of_contents_partial",
    "Verif.C104_scaled_after_editing_partial",
    "Verif.C104_magnified_violated",
    "Verif.C104_c_interface_partial",
    "Verif.C104_c_interface_errors",
    "Verif.C104_c_interface_size",
    "Verif.C104_unscaled_partial",
    "Verif.C104_unscaled_agrees",
    "Verif.C104_unscaled_pictures_of_contents_partial",
    "Verif.C104_unscaled_after_editing_partial",
    "Verif.C104_tile_command_partial",
    "Verif.C104_tile_filter_violated",
    "Verif.C104_scaling_command_partial",
    "Verif.C104_scaling_command_unscaled_partial",
    "Verif.C104_command_rejected",
    "Verif.C104_command_overflow_violated",
    "Verif.C104_composite_command_partial",
    "Verif.C104_scaling_composite_command_partial",
    "Verif.C104_scaling_composite_command_unscaled_partial",
    "Verif.C104_composite_no_channel_violated",
    "Verif.C104_composite_rejected",
    "Verif.C104_layer_partial",
    "Verif.C104_layers_of_contents_partial",
    "Verif.C104_layers_after_editing_partial",
    "Verif.C104_layer_missing_violated",
    "Verif.C104_layer_rejected",
    "Verif.C104_layer_command_partial",
    "Verif.C104_layer_command_missing_violated",
    "Verif.C104_layer_number_violated",
    "Verif.C104_layer_command_rejected",
    "Verif.C104_layer_seam_violated"
   ],
   "note": "Proved for every session of the writer (data below 2 GB, C01) and every plane whose full-resolution sub-blocks have the pixel type asked for, one of Gray8, Gray16, Gray32Float, Bgr24 and Bgr48, and are uncompressed, zstd0, zstd1 (not packed Bgr48, see C37) or losslessly compressed with JPEG-XR; every sub-block has a coordinate. For regions in any coordinate system (zero point of the pixel coordinate system: the corner of the sub-blocks without minification), and for documents that were afterwards edited with a reader-writer or made with it (sub-blocks and metadata; directory precedence). Violated by the code otherwise, proved in general: if all sub-blocks have the same channel, a plane that leaves it out is accepted, but without a given pixel type there is always an exception. Scaled pictures: for every positive zoom (with a zoom of 1, where both accessors agree, minified sub-blocks have a zoom below 0.95), real numbers rounded to float, sub-blocks and regions of at most 2^19 points in each direction, visibility check off; magnified pictures show nothing but the background (violation); also through the C interface, with its coordinates and options, and with the commands SingleChannelTileAccessor and SingleChannelScalingTileAccessor of CZICmd, the region being given as text. The commands ChannelComposite and ScalingChannelComposite write the composition (C58) of the pictures of the enabled channels with their display settings (C77); without an enabled channel their behaviour is undefined (violation, proved in general). The 1:1 accessor ignores the filter for scenes, which is documented (violation, proved in general), and a relative region far away overflows. Layers of the pyramid, with the accessor and with the command SingleChannelPyramidTileAccessor: proved if the region contains a sub-block of the layer or none at all; if it contains only sub-blocks of other layers there is an exception (violation, proved in general), the command takes numbers above 255 for others, and adjacent sub-blocks of a layer overlap by a column if the region begins between pixels of the layer (violations, proved in general). Missing: conversion between pixel types (C46), cache (C41), masks (C52) and tile borders, visibility check without sorting."
  },
  {
   "property": "C105",
   "status": "partial",
   "theorems": [
    "Verif.C105_size",
    "Verif.C105_size_exception_violated",
    "Verif.C105_tiles_partial",
    "Verif.C105_zero_overlap_violated",
    "Verif.C105_number",
    "Verif.C105_pyramid",
    "Verif.C105_region_partial",
    "Verif.C105_region_blanks_violated",
    "Verif.C105_hex",
    "Verif.C105_format_partial",
    "Verif.C105_capital_hex_violated",
    "Verif.C105_format_exception_violated",
    "Verif.C105_verbosity_partial",
    "Verif.C105_info_partial",
    "Verif.C105_list_tail_violated",
    "Verif.C105_list_total",
    "Verif.C105_verbosity_effect",
    "Verif.C105_zoom_partial",
    "Verif.C105_zoom_rest_ignored",
    "Verif.C105_background_gray",
    "Verif.C105_background_two",
    "Verif.C105_background_rgb_partial",
    "Verif.C105_background_four",
    "Verif.C105_background_empty_violated",
    "Verif.C105_cache_accepts",
    "Verif.C105_cache_rejects",
    "Verif.C105_cache_exact",
    "Verif.C105_pixeltype",
    "Verif.C105_arguments_partial",
    "Verif.C105_arguments_missing",
    "Verif.C105_scan_region_violated"
   ],
   "note": "For every text: acceptance and value of each parser are characterised by a grammar. The code violates the full statement: an overlap of 0% is refused, the examples for --rect in the help text (with blanks) are refused, an alpha value written as 0X.. is taken as 0, and numbers beyond 64 (sizes) or 32 bits (alpha values) end in an exception instead of a report, and in the lists for --verbosity and --info-level everything behind an empty item is ignored; a missing number in a background colour counts as 0. The parser for --zoom ignores what follows the number (C105_zoom_rest_ignored); that is not counted as a violation, because CLI11's range check on this option runs first and is outside the repository. Which combinations of command, files, region, layer and zoom are accepted is proved as well; a scan of a plane without a region is accepted and writes nothing. Not modelled: the other options and the library CLI11 that splits the command line."
  },
  {
   "property": "C106",
   "status": "partial",
   "theorems": [
    "Verif.C106_attachments_partial",
    "Verif.C106_same_file_violated",
    "Verif.C106_other_directory_violated",
    "Verif.C106_image_names",
    "Verif.C106_sub_blocks_partial",
    "Verif.C106_selection",
    "Verif.C106_whole_number_violated",
    "Verif.C106_fraction_violated",
    "Verif.C106_large_index_violated"
   ],
   "note": "Proved for every document within the limits of C02 (attachments) and C104 (pixel types and data of sub-blocks), if the types of the attachments contain no dot: otherwise two attachments can be written to one file. Names with a slash lead to other directories; whole numbers without fraction are refused, fractions are cut off and numbers beyond int are undefined behaviour. Conversion of UTF-8 and creation of files are arbitrary functions; the PNG encoder is not modelled."
  },
  {
   "property": "C107",
   "status": "partial",
   "theorems": [
    "Verif.C107_arguments",
    "Verif.C107_success_partial",
    "Verif.C107_failure_status_violated",
    "Verif.C107_missing_document_violated",
    "Verif.C107_layer_missing_violated",
    "Verif.C107_scan_region_violated",
    "Verif.C107_tile_tool_partial",
    "Verif.C107_layer_tool_partial"
   ],
   "note": "Wrong arguments give the status 2, and work that was done gives 0, for all arguments and all outcomes of a command; for the commands SingleChannelTileAccessor and SingleChannelPyramidTileAccessor this is combined with the writer, the reader and the picture. The code violates the full statement: main does not use the value of execute, so every command that fails ends with the status 0, and a scan of a plane without a region ends without even a message. Not modelled: exceptions that leave the parser, the option for the version, the texts of the messages."
  }
 ]
}