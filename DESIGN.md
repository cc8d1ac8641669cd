# Formal model of libCZI in Lean 4 - design

Source: /repo (ZEISS/libczi, C++), read as text. Everything here is about the *model* in
`lean/Verif`; each definition there cites the file and lines it models.

## Layout
* `Verif/Model/*.lean`  - definitions modelling the code (with citations and stated simplifications)
* `Verif/Spec/*.lean`   - small independent specifications (what a user expects)
* `Verif/Proof/*.lean`  - helper lemmas
* `Verif/Props/*.lean`  - the property theorems, each with an `example` showing that its hypotheses are met
* `seeded/LOG.jsonl`    - edits of the model that a realistic bug would make, and the theorems that fail then

How the theorems are stated: the model is a set of total computable functions. Undefined behaviour of C++ (access outside
of a buffer, division by zero, signed overflow where it matters, use of a destroyed object) and endless loops are separate
outcomes of the functions. A property is a theorem about all inputs, states and histories. Where the code violates the
property, the violation is proved, wherever possible for the whole class of inputs concerned and not only for one, and a
theorem with the suffix `_partial` states what does hold; the full statement is in properties.jsonl.

## Trusted base
1. The kernel of Lean 4.33.0. No `native_decide`, no `bv_decide`, no axioms of our own, no `sorry`.
2. The axioms `propext`, `Classical.choice` and `Quot.sound` of Lean; which of them each theorem depends on is listed in the
   section "Plan per property" (p = propext, c = Classical.choice, q = Quot.sound).
3. The reading of the C++ source into the definitions of `Verif/Model` (by hand; cited line by line), with the simplifications
   listed below and in the comments of the definitions.
4. The specifications in `Verif/Spec` and the statements in `Verif/Props` say what the English properties say.

### What is modelled
| model | sources |
|---|---|
| Accessor | SingleChannelTileAccessor.cpp, SingleChannelPyramidLevelTileAccessor.cpp, libCZI_Utilities.h, libCZI_Compositor.h, CziReaderCommon.cpp |
| AddOverloads | CziWriter.cpp, CziWriter.h, CziReaderWriter.cpp, libCZI_Write.h |
| Attachments | libCZI.h, CziReaderCommon.cpp, CziAttachmentsDirectory.h, CziAttachmentsDirectory.cpp |
| AxisInfo | CziDimensionInfo.h, CziDimensionInfo.cpp, CziMetadataDocumentInfo.cpp |
| Bitonal | libCZI_Pixels.cpp, BitmapOperationsBitonal.h, BitmapOperationsBitonal.cpp |
| Blit | bitmapData.h, BitmapOperations.hpp, BitmapOperations.cpp, BitmapOperationsBitonal.cpp, BitmapOperationsBitonal.h, SingleChannelTileCompositor.cpp, SingleChannelTileAccessor.cpp |
| ByteOrder | utilities.cpp, CziStructs.cpp, CziReaderWriter.cpp, FileHeaderSegmentData.h, BitmapOperations.cpp, CziUtils.cpp, CreateBitmap.cpp |
| CApi | misc_types.h, parameterhelpers.cpp, libCZIApi.cpp, subblock_info_interop.h, libCZI_Pixels.h, add_subblock_info_interop.h, libCZI_Write.h |
| CApiCompose | composition_channel_info_interop.h, parameterhelpers.cpp, libCZIApi.cpp, MultiChannelCompositor.cpp |
| CApiData | add_attachment_info_interop.h, libCZIApi.cpp, attachment_info_interop.h |
| CApiHandles | sharedptrwrapper.h, SingleChannelAccessorBase.h, bitmapData.h, libCZIApi.cpp |
| CApiView | parameterhelpers.cpp, libCZI_Compositor.h, libCZIApi.cpp |
| Cache | subblock_cache.h, subblock_cache.cpp |
| CachedTiles | SingleChannelAccessorBase.cpp, SingleChannelTileAccessor.cpp |
| ChannelText | libCZI_Metadata2.h, CziMetadataDocumentInfo2.cpp, utilities.h |
| Chunk | libCZI_SubBlock.h, SubblockAttachmentAccessor.cpp, bitmapData.h |
| Close | CZIReader.cpp |
| CmdCheck | cmdlineoptions.cpp, cmdlineoptions.h, executeBase.cpp |
| CmdLine | cmdlineoptions.cpp, cmdlineoptions.h, utils.cpp, parameterhelpers.cpp |
| CmdMain | CZIcmd.cpp, execute.cpp, executeBase.cpp, cmdlineoptions.cpp, executePlaneScan.cpp |
| CmdNumbers | cmdlineoptions.cpp, utils.cpp, libCZI_Utilities.cpp |
| Commands | execute.cpp, executeBase.cpp, libCZI_Compositor.h, SingleChannelTileAccessor.cpp, cmdlineoptions.cpp |
| Composite | execute.cpp, libCZI_Compositor.h, MultiChannelCompositor.cpp |
| CompressOptions | libCZI_Utilities.cpp, libCZI_compress.h, zstdCompress.cpp, utilities.h |
| Convert | BitmapOperations.cpp, BitmapOperationsBitonal.cpp, libCZI_Pixels.cpp, BitmapOperations.hpp |
| Coord | libCZI_DimCoordinate.h, CziUtils.cpp, libCZI_Utilities.cpp |
| CreateCzi | cmdlineoptions.h, executeCreateCzi.cpp, libCZI_Write.h, zstdCompress.cpp |
| DateTime | libCZI_Metadata.h, CziMetadataBuilder.cpp |
| Decimate | libCZI_Pixels.cpp, BitmapOperationsBitonal.cpp, bitmapData.h |
| Disk | CziWriter.cpp, CziReaderWriter.cpp, CziStructs.h |
| Display | CziMetadataBuilder.cpp, libCZI_Metadata.h, CziDisplaySettings.cpp, pugixml.cpp, CziMetadataDocumentInfo.cpp |
| DisplayHelper | libCZI_Helpers.h, CziDisplaySettings.cpp |
| DocInfo | CziMetadataBuilder.cpp, CziMetadataDocumentInfo.cpp, pugixml.cpp |
| EditFault | CziReaderWriter.cpp |
| EditTrace | CziReaderWriter.cpp, CziWriter.cpp |
| Enum | libCZI_Pixels.h, CziUtils.cpp, libCZI_Utilities.h, libCZI_Utilities.cpp, CZIReader.cpp, CziReaderWriter.cpp, libCZI.h |
| ExternalOut | libCZIApi.cpp, CziWriter.cpp |
| Extract | execute.cpp, cmdlineoptions.h, cmdlineoptions.cpp |
| FileOut | StreamImpl.cpp, libCZI_Lib.cpp |
| Fill | BitmapOperations.cpp, utilities.h, libCZI_Utilities.cpp, SingleChannelAccessorBase.cpp |
| Float | (own helper definitions) |
| JsonOptions | parameterhelpers.cpp, libCZIApi.cpp, libCZI.h, libCZI_Write.h, CziWriter.cpp, CziWriter.h, libCZI_Compositor.h, libCZI_StreamsLib.h, streamsFactory.cpp |
| JsonText | parameterhelpers.cpp, CziMetadataDocumentInfo2.h, CziMetadataDocumentInfo2.cpp, libCZIApi.cpp |
| Jxr | JxrDecode.cpp, bitmapData.h, libCZI_Site.cpp, decoder.cpp, BitmapOperations.cpp, CreateBitmap.cpp, libCZI.h, jxrlibcompress.cpp |
| LayerView | SingleChannelPyramidLevelTileAccessor.cpp, execute.cpp, libCZI_Compositor.h, cmdlineoptions.cpp |
| Layers | CziSubBlockDirectory.cpp |
| LoHi | utilities.cpp, utilities_simd.cpp |
| Locking | bitmapData.h |
| Lookup | libCZI.h, CZIReader.cpp, CziReaderCommon.cpp, CziReaderWriter.cpp, CziAttachmentsDirectory.cpp, CziSubBlockDirectory.cpp |
| Lut | libCZI_Utilities.cpp, libCZI_Metadata.h, splines.cpp |
| Machine | utilities.h, libCZI_Pixels.h, CziSubBlockDirectory.cpp, CziReaderCommon.cpp, utilities.cpp, SingleChannelAccessorBase.cpp, BitmapOperations.cpp, BitmapOperationsBitonal.cpp, SingleChannelTileCompositor.cpp, SingleChannelTileAccessor.cpp |
| Md5 | MD5Sum.cpp, BitmapOperations.cpp |
| Mem | (own helper definitions) |
| MemStream | StreamImpl.cpp |
| MultiChannel | libCZI_Compositor.h, MultiChannelCompositor.cpp |
| NumText | CziMetadataBuilder.cpp, pugixml.cpp, CziMetadata.cpp |
| Owned | CziParse.cpp, CziSubBlock.h, CziSubBlock.cpp, CziAttachment.cpp, CziMetadataSegment.cpp, CZIReader.cpp, CziReaderWriter.cpp |
| Parse | CziParse.cpp, CziParse.h, libCZI.h, CZIReader.cpp, CziSubBlockDirectory.h, FileHeaderSegmentData.h |
| PlaneScan | executePlaneScan.cpp, cmdlineoptions.cpp, SingleChannelScalingTileAccessor.cpp |
| Prepared | CziSubBlockDirectory.h, CziSubBlockDirectory.cpp, CziMetadataBuilder.cpp, CziWriter.cpp, libCZI.h, CziMetadataDocumentInfo2.cpp |
| ReaderSession | CZIReader.cpp, CZIReader.h, CziParse.cpp, FileHeaderSegmentData.h, libCZIApi.cpp |
| ReaderWriter | CziReaderWriter.cpp, CziAttachmentsDirectory.h, CziAttachmentsDirectory.cpp, CziReaderWriter.h, FileHeaderSegmentData.h |
| Rect | libCZI_Pixels.h, utilities.h, utilities.cpp, SingleChannelAccessorBase.cpp |
| Scale | BitmapOperations.h, BitmapOperations.hpp, BitmapOperationsBitonal.cpp, BitmapOperations.cpp, libCZI_Utilities.cpp |
| ScaledView | SingleChannelScalingTileAccessor.cpp, libCZI_Compositor.h |
| Scaling | CziMetadataBuilder.cpp, CziMetadataDocumentInfo.cpp, libCZI_Metadata.h |
| ScalingAccessor | SingleChannelScalingTileAccessor.h, libCZI_Utilities.h, SingleChannelScalingTileAccessor.cpp |
| Site | libCZI_Site.cpp |
| Sized | CZIReader.cpp, CziParse.cpp, stdAllocator.cpp, bitmapData.h, decoder_zstd.cpp, utilities.cpp, CreateBitmap.cpp, decoder.cpp |
| Spline | splines.cpp, libCZI_Utilities.cpp, CziDisplaySettings.cpp |
| Streams | preadfileinputstream.cpp, StreamImpl.cpp, simplefileinputstream.cpp, curlhttpinputstream.cpp, azureblobinputstream.cpp |
| Structs | CziParse.cpp, CziStructs.h, libCZI_Utilities.h, CziWriter.cpp, CziReaderWriter.cpp, FileHeaderSegmentData.h, CziAttachmentsDirectory.h, CziAttachmentsDirectory.cpp |
| SubBlock | CziSubBlockDirectory.h, CziReaderCommon.cpp, CziSubBlockDirectory.cpp, libCZI.h, libCZI_Pixels.h, CziUtils.cpp, libCZI_Utilities.h, CziWriter.cpp, SingleChannelAccessorBase.cpp |
| SubBlockMeta | SubblockMetadata.cpp, XmlNodeWrapper.h |
| Text | DimCoordinate.cpp, libCZI_Utilities.cpp, utilities.h, utilities.cpp, IndexSet.cpp |
| Viewer | SingleChannelTileAccessor.cpp, libCZI_Compositor.h, SingleChannelAccessorBase.cpp, SingleChannelTileCompositor.cpp, CZIReader.cpp, libCZI_Utilities.cpp |
| Writer | libCZI_Write.h, CziWriter.cpp, CziWriter.h, CziAttachmentsDirectory.cpp |
| Xml | utilities.cpp, XmlNodeWrapper.h, CziMetadataBuilder.cpp, CziMetadata.cpp, CziMetadataBuilder.h |
| XmlText | pugiconfig.hpp, CziMetadata.cpp, CziMetadataBuilder.cpp, SubblockMetadata.cpp, pugixml.cpp |
| Zstd | bitmapData.h, zstdCompress.cpp, BitmapOperations.cpp, decoder_zstd.cpp, utilities.cpp, CreateBitmap.cpp |

### What is not modelled
* zstd and jxrlib themselves: zstd is an arbitrary pair of functions of which decompression inverts compression (C40, C95); the JPEG-XR decoder and encoder
  around jxrlib are modelled with jxrlib as a parameter (C80).
* pugixml: its conversion of UTF-8, its writer and its parser are modelled as functions on texts (C92, C93). Elsewhere the metadata document is a tree; XPath selection is
  "first in document order".
* rapidjson: the parser and the printing of strings and numbers are parameters (C87, C89).
* The operating system below positioned reads and writes: a file is a sequence of bytes (holes are zero), a read delivers the bytes there are, or fails, a write writes a
  prefix and fails, or writes all. What libCZI's file, curl and Azure streams add is modelled in C84 and C94, with the system and libcurl as arbitrary sequences of answers.
* The locale (always "C"), logging, progress notifications, the version functions.
* The C++ memory model: atomic operations are sequentially consistent; data races are separate theorems.
* Command line programs (CZICmd), except for the plane scan (C100), and the tests.

### Simplifications that matter for the reading of the theorems
* `int` and `int64_t` are unbounded integers except where wrap-around decides a property (file sizes and positions in the parser,
  WriteZeroes, the 32-bit sizes of chunks, masks and codecs, the lengths in the C API, bitonal extents). For rectangles, statistics, queries, the visibility check and the
  tile accessor C101 proves that this makes no difference for documents in the range of `int`, and that outside of it the code is undefined.
* Floating-point numbers are rational numbers, every operation rounds to 24 or 53 bits to nearest even (that the rounding function is
  this one is C59_rounding). The exponent range, infinities, NaN and the sign of zero are not modelled.
* Allocation succeeds, except in the parser, where the outcome of each allocation is a parameter.
* Crash model (C48): the process ends at any point of any write to a new file, writes reach the file in order; power failures that reorder
  writes are not covered.
* `std::sort`, `std::map`, `std::set`, `std::function`, `std::shared_ptr`, `std::regex` behave as the standard says; each regular expression is
  a hand-written matcher.
* A callback of the user is an arbitrary state machine. The callbacks for the pixels of a sub-block are the list of the chunks they deliver.
* Calls of the C API do not overlap in time (C70). Reading while Close runs is covered by C45, Open while reading is not.
* Display settings: the user's function for additional information is a pure function (C72).

## Plan per property
Each entry: what is modelled and how it is proved; the status; the theorems with the axioms they depend on.

### C01 Written sub-blocks read back unchanged
Model: Disk (byte store with pwrite/pread), CCziWriter state machine (Create, add, metadata, Close) and the reader's directory/sub-block parser at byte level. Proof: invariant over operations (entries point at intact, pairwise disjoint segments below the append position), then codec round trips.

*partial.* All call sequences, reservations, previous file contents and open options, for sub-blocks below 2 GB whose callbacks end at most 4096 bytes early. Data of 2 GB and more is accepted by the writer but never readable (proved); callbacks ending earlier corrupt the file (see C06).

Theorems: `C01_sub_blocks_read_back_partial` (pcq), `C01_large_data_unreadable` (pcq)

### C02 Written attachments read back unchanged
Same machine with attachments. Negation for reserved directory larger than needed (padding offset defect), partial theorem for unreserved directories.

*partial.* Proved if the attachment-directory reservation is not larger than needed, names end within 80 bytes and attachments are below 2 GB; in the other cases the code loses attachments, characters or data (proved for every such document).

Theorems: `C02_attachments_read_back_partial` (pcq), `C02_reservation_loses_attachments` (pcq), `C02_long_name_truncated` (pcq), `C02_large_attachment_unreadable` (pcq)

### C03 Written metadata reads back unchanged
Same machine with metadata rewrite; invariant on the metadata segment.

*partial.* All histories and reservations for XML below 2 GB; larger XML is accepted by the writer but never readable (proved).

Theorems: `C03_metadata_reads_back_partial` (pcq), `C03_large_metadata_unreadable` (pcq)

### C04 On-disk structures are decoded to what was encoded
Little-endian field codecs; round trip by computation on fixed offsets, induction on the dimension list.

*proved.* Round trips and layout (offset of every field, byte for byte). The last byte of an attachment name is always read as 0.

Theorems: `C04_guid` (pcq), `C04_file_header` (pcq), `C04_segment_header` (pcq), `C04_entry` (pcq), `C04_entries` (pcq), `C04_entry_layout` (pcq), `C04_attachment_entry` (pcq)

### C05 Segments are aligned and never overlap
Layout invariant over operation sequences: aligned, disjoint ranges. Negation where the zero padding routine under-counts.

*partial.* All documents whose callbacks end at most 4096 bytes early. If a data callback ends more than 12288 bytes early the next segment overlaps (proved for every writer state).

Theorems: `C05_segments_partial` (pcq), `C05_short_callback_overlap` (pcq)

### C06 Callback-provided payload is stored as specified
WriteSubBlkDataGeneric as a recursion on the list of callback answers; equality with 'take n (concat ++ zeros)'. Negation above 4096 missing bytes, partial otherwise.

*partial.* Exact: the declared size is reached iff the callback ends at most 4096 bytes early. If it ends more than 32768 bytes early the next sub-block's segment appears in the data read back (proved for every writer state).

Theorems: `C06_callback_payload_partial` (pcq), `C06_size_reached_iff` (pcq), `C06_short_callback_corrupts` (pcq)

### C07 Zero fill writes exactly the requested number of zero bytes
WriteZeroes loop as in the code (64-bit wrap-around), closed form by induction; negation for n>4096, partial for n≤4096.

*partial.* Exact up to 4096 bytes; beyond that the code writes about half (proved for every larger n).

Theorems: `C07_zero_fill_partial` (pcq), `C07_zero_fill_too_short` (pcq)

### C08 A failed add leaves the document unchanged
Writer step with a failing write; negation by witness; what does hold is proved.

*partial.* Calls rejected by validation change nothing (all states). A call whose I/O fails leaves the new entry in the directory (proved), so the full property is violated by the code.

Theorems: `C08_rejected_call_changes_nothing_partial` (pcq), `C08_failed_add_is_listed` (pcq), `C08_failed_attachment_is_listed` (pcq)

### C09 Duplicate sub-blocks are rejected, distinct ones never are
Sorted-set insertion with the code's comparison; strict-weak-order proof under exact zoom comparison; negation for the tolerance comparison.

*partial.* Proved for all sequences in which any two zooms are equal or differ by more than the tolerance; within the tolerance the code violates the property (proved for every such pair of zooms).

Theorems: `C09_duplicates_exact_partial` (pcq), `C09_distinct_zoom_rejected` (pcq), `C09_outcome_depends_on_order` (pcq), `C09_close_zooms_violated` (pcq)

### C10 Declared bounds are enforced
CheckCoordinate as in the code; iff with a specification; negation for m-bounds without dimension bounds.

*partial.* Proved whenever dimension bounds are declared; if only m-index bounds are declared they are ignored (proved).

Theorems: `C10_accept_iff_partial` (pcq), `C10_reasons` (pcq), `C10_m_bounds_ignored` (-)

### C11 Editing a document preserves what was not edited
Reader-writer state machine on Disk.

*partial.* Every document written with a writer is sound. Every sound document and every sequence of calls that meets none of three defects of the code (Tame, TameClose): always so for edits of sub-blocks and metadata, and for adding attachments to a document whose attachment directory has no free space. The defects are proved under C13 and C14. Calls of the stream succeed (failures: C91).

Theorems: `C11_edit_partial` (pcq), `C11_subblock_edits_partial` (pcq), `C11_attachment_adds_partial` (pcq), `C11_new_partial` (pcq), `C11_untouched` (pcq), `C11_calls_partial` (pcq), `C11_contents` (pcq), `C11_written_sound` (pcq), `C11_written_subblock_edits` (pcq), `C11_written_attachment_adds` (pcq)

### C12 Sub-block keys of the reader-writer are stable handles
Refinement of CReaderWriterCziSubBlockDirectory to a finite map; keys monotone.

*proved.* All operation histories (keys are unbounded integers, the int counter overflow is not modelled).

Theorems: `C12_keys_refine_map` (pcq), `C12_keys_never_reused` (pcq)

### C13 Replacing an attachment is not undone by a later append
Byte-level model of replace+append; negation with witness; in-place case proved.

*partial.* Holds as long as nothing is appended after a ReplaceAttachment that needed a new segment. Otherwise the next attachment added is written over it: proved as a violation for every sound document.

Theorems: `C13_replaced_partial` (pcq), `C13_undone_by_add` (pcq)

### C14 Close of the reader-writer writes both directories intact
Finish position arithmetic; negation with witness; proved when at most one directory is appended.

*partial.* Holds unless both directories need a new segment, an attachment directory is rewritten in place with fewer entries, or a new file has no sub-block: each proved as a violation in general.

Theorems: `C14_directories_partial` (pcq), `C14_directories_overlap` (pcq), `C14_new_file_overlap` (pcq), `C14_remove_attachment_damages` (pcq), `C14_new_empty_file_unreadable` (pcq)

### C15 No file content makes the directory parser leave its buffers
Parser on arbitrary bytes with an explicit undefined-behaviour outcome; negation (DimensionCount), proof of safety when counts are within 0..40.

*partial.* Safe for all contents as long as the DV entries give 0 to 40 dimensions and allocations succeed. Otherwise buffers are overrun: proved as violations, for whole classes of files.

Theorems: `C15_attachments_metadata_safe` (pcq), `C15_open_safe_partial` (pcq), `C15_subblock_safe_partial` (pcq), `C15_too_many_dimensions_overrun` (pcq), `C15_negative_dimensions_overrun` (pcq), `C15_open_overrun` (pcq), `C15_allocation_failure_undefined` (-), `C15_subblock_negative_dimensions_overrun` (pcq), `C15_missing_x_undefined` (pq)

### C16 Strict and lax parsing accept exactly the documented entries
AddEntryToSubBlockDirectory as in the code; iff with a specification predicate; monotonicity in options.

*partial.* Exact for each entry; for a directory as a whole if its DV entries give 0 to 40 dimensions (otherwise undefined behaviour, see C15).

Theorems: `C16_accept_iff` (pcq), `C16_lax_accepts_iff` (pcq), `C16_directory_iff_partial` (pcq), `C16_open_lax` (pcq), `C16_options` (p)

### C17 Statistics describe exactly the sub-blocks present
Statistics updater as a fold; characterised by least-bounds specification, hence order independent; negation for m-index of sub-blocks without dimensions.

*partial.* Exact for every list of sub-blocks and every reader-writer history, for entries with non-negative sizes and, if they have an m-index, at least one dimension; the excluded case is violated (proved in general).

Theorems: `C17_reader_statistics_exact_partial` (pcq), `C17_order_independent` (pcq), `C17_reader_writer_statistics_exact_partial` (pcq), `C17_m_index_lost` (-), `C17_m_index_violated` (pcq)

### C18 Pyramid statistics count every sub-block once
Layer counters; sum invariant; negation after re-creation on the reader-writer. Model/Layers: sorting of the layers; order by induction over additions and questions; the tables of minifications against powers of two and three.

*partial.* Proved for the reader; for the reader-writer the statistics are exact if and only if the history contains no successful replace or remove. The layers are named rightly for exact minifications and for bitmaps of at least 146 pixels, and listed in order, also with questions in between; small bitmaps can be filed under a wrong layer, and the comparison given to std::sort is not a strict order (violations).

Theorems: `C18_reader_pyramid_exact` (pcq), `C18_reader_writer_pyramid_exact_partial` (pcq), `C18_double_count_after_modify` (-), `C18_reader_writer_exact_iff` (pcq), `C18_layers_in_order` (pcq), `C18_layer0` (p), `C18_layer_sound` (pcq), `C18_layer_exact` (pcq), `C18_layer_rounded` (pcq), `C18_small_layers_violated` (-), `C18_comparison_violated` (-)

### C19 Subset enumeration is exact and ordered
EnumSubset with callback-stop; equality with filter/takeWhile specification.

*proved.* All directories, filters and callbacks.

Theorems: `C19_subset_exact` (pcq), `C19_index_valid` (pcq)

### C20 Attachment filter is exact
strcmp on fixed arrays; negation for 8-char types; proved for shorter.

*partial.* Exact for documents without eight-character content-file-types. An attachment with an eight-character type and a name is never found under its type: proved as a violation.

Theorems: `C20_filter_exact_partial` (pcq), `C20_document_filter_partial` (pcq), `C20_filter_defined` (pcq), `C20_eight_character_type_missed` (pcq)

### C21 Representative sub-block of a channel
Direct.

*partial.* Proved for documents with a C dimension or c = 0; otherwise violated (proved in general).

Theorems: `C21_channel_lookup_partial` (pcq), `C21_wrong_channel_found` (-), `C21_wrong_channel_violated` (pcq)

### C22 Coordinate comparison is a total order
Lexicographic comparison over optional ints.

*proved.* All coordinates.

Theorems: `C22_compare_total_order` (pcq), `C22_compare_first_difference` (pq), `C22_compareCoordinate_iff` (pcq)

### C23 Enumeration of all coordinates of bounds
Odometer loop; equality with recursively defined product.

*partial.* Exact for all bounds whose intervals are non-empty, for every callback; for all other bounds the delivered sequence is characterised exactly (each empty interval counts as its start) and the property is proved violated for every such bounds.

Theorems: `C23_enumerates_exactly_partial` (pcq), `C23_no_dimension` (p), `C23_empty_interval_delivers` (pcq), `C23_enumerates_filled` (pcq), `C23_empty_interval_violated` (pcq)

### C24 File codes of enumerations are unambiguous
Finite tables plus case analysis on all integers.

*proved.* All integer codes; the pyramid type Invalid has no code of its own (it is written as None).

Theorems: `C24_round_trip` (p), `C24_unambiguous` (p), `C24_injective` (p)

### C25 Frame-of-reference transforms are inverse
Integer translations.

*proved.* Unbounded integers (no int overflow).

Theorems: `C25_points_inverse` (pcq), `C25_rectangles` (pcq), `C25_pixel_origin` (p), `C25_invalid_rejected` (p)

### C26 Index-set strings denote the documented set
Parser over characters and interval semantics.

*partial.* Every documented text is accepted with its documented meaning; the accepted texts are characterised exactly. They include a lone sign, read as 0, contrary to the property: proved as a violation.

Theorems: `C26_documented_text` (pcq), `C26_accepted_iff_partial` (pcq), `C26_lone_sign_accepted` (pcq), `C26_lone_sign_malformed` (p)

### C27 Coordinates survive printing and parsing
Printer and parser over characters; induction on the digits.

*proved.* Printing then parsing returns the coordinate; the accepted texts and the coordinate they denote are characterised exactly. A value written with a minus sign and more than ten characters (e.g. leading zeros) is rejected, as the digit buffer is limited.

Theorems: `C27_round_trip` (pcq), `C27_parse_exact` (pcq), `C27_repeated_dimension_rejected` (pcq), `C27_leading_zero_rejected` (pcq)

### C28 Dimension-bounds strings are parsed exactly
Model of the regex iteration; negation by witness.

*partial.* Round trip for non-empty bounds with non-zero sizes. Empty bounds and zero sizes do not round trip, and texts with foreign characters between the items are accepted: these are defects of the code, proved as such.

Theorems: `C28_round_trip_partial` (pcq), `C28_empty_fails` (pq), `C28_garbage_accepted` (pcq), `C28_values_occur` (pcq), `C28_zero_size_fails` (pcq)

### C29 Cache accounting and pruning
Cache state machine; invariant by induction over operation lists.

*proved.* Refinement of the cache (std::map, use counter, byte and element counters with their machine widths) to a recency list for every history, and to a timed recency list for every interleaving of threads, with the two parts of Add as separate steps. GetStatistics for a single value, which is read without lock, is not modelled.

Theorems: `C29_concurrent_refinement` (pcq), `C29_sequential_refinement` (pcq), `C29_put_find` (pq), `C29_prune_minimal` (pq), `C29_null_bitmap_undefined` (-)

### C30 Cached composition equals uncached composition
Negation by witness; proved when the mask option is constant.

*partial.* Proved for accessors with the same mask mode on documents whose directory agrees with the sub-blocks, under interference of other threads. Sharing a cache between mask-aware and mask-unaware accessors gives different results: proved as a violation. Of the information on a sub-block only the position is modelled: the accessors use nothing else of it.

Theorems: `C30_cached_equals_uncached_partial` (pq), `C30_tiles_partial` (pq), `C30_added` (p), `C30_mask_mode_mixed` (pcq), `C30_position_differs` (pcq)

### C31 Coverage calculation is exact
RectangleCoverageCalculator with fuel; disjointness and union invariants; counting measure.

*proved.* All rectangle lists and queries; termination of AddRectangle included. int overflow excluded (unbounded integers).

Theorems: `C31_coverage_exact` (pcq)

### C32 Visibility optimisation does not change the picture
From C31: painting lemma; negation with masks.

*partial.* Proved for sub-blocks without masks, and with masks as long as no masked-out pixel lies over a sub-block below; otherwise the code violates the property (proved in general). Which sub-blocks are drawn is characterised exactly.

Theorems: `C32_visibility_same_picture_partial` (pcq), `C32_visibility_masks_partial` (pcq), `C32_draws_exactly_visible` (pcq), `C32_masks_change_picture` (pcq), `C32_masks_violated` (pcq)

### C33 Tile composition paints exactly the tiles
Painting as a fold over pixels; last-writer-wins by induction.

*partial.* Exact for all tile lists without tile borders and all modelled converters except Bgr24->Bgr48; the behaviour of that converter and of tile borders is proved in general by separate theorems (violations).

Theorems: `C33_compose_exact_partial` (pcq), `C33_bgr24_to_bgr48_out_of_bounds` (p), `C33_border_shifts_content` (pcq), `C33_border_width_one_undefined` (pcq), `C33_accessor_topmost_partial` (pcq), `C33_accessor_directory_order_partial` (pcq), `C33_accessor_bad_plane` (pq), `C33_overread_violated` (pcq), `C33_border_violated` (pcq), `C33_border_one_column_violated` (pcq)

### C34 Plane-coordinate validation
CheckPlaneCoordinates as in the code; iff with spec.

*proved.* All documents (entries as in C17) and coordinates.

Theorems: `C34_plane_accepted_iff` (pcq), `C34_reasons` (pcq)

### C35 Masked copy touches exactly the unmasked pixels
Byte-level masked copy loops; negation for converting copies.

*partial.* Exact for equal pixel types; what the converting masked copy does instead is characterised exactly for all bitmaps, masks and converters (violation).

Theorems: `C35_masked_copy_exact_partial` (pcq), `C35_converting_masked_copy_wrong` (pq), `C35_converting_masked_copy_violated` (pcq)

### C36 Lo-hi byte packing is lossless
Byte-level loops; inverse by index arithmetic.

*proved.* All three implementations (scalar, AVX2, NEON), widths, heights, strides and contents. The argument check wraps for rows of 4 GB and more (witness proved).

Theorems: `C36_unpack_exact` (pcq), `C36_pack_exact` (pcq), `C36_pack_after_unpack` (pcq), `C36_unpack_after_pack` (pcq), `C36_stride_check` (pcq), `C36_stride_check_wraps` (p)

### C37 Zstd1-compressed bitmaps decode to the original
Header parser over all byte lists; decode path; negation for Bgr48 and header defects. The zstd codec is a parameter.

*partial.* zstd is an abstract lossless codec. Proved for every bitmap, stride and pixel type except packed Bgr48 with size-mismatch handling on, where the code loses two thirds of every row (proved for all bitmaps). The header parser is exact from three bytes on; shorter data are read out of bounds (proved).

Theorems: `C37_compress_succeeds` (pcq), `C37_round_trip_partial` (pcq), `C37_zstd0_round_trip` (pcq), `C37_bgr48_packed_fails` (pcq), `C37_header_partial` (pcq), `C37_bad_header_rejected` (pq), `C37_bad_packing_rejected` (pq), `C37_header_reads_outside` (pcq), `C37_header_reads_outside_two` (pcq), `C37_short_header` (pcq), `C37_header_size_unchecked` (pq), `C37_bgr48_packed_violated` (pcq)

### C38 Resolution protocol for payload of unexpected size
List take/pad.

*partial.* Proved for zstd0, zstd1 and uncompressed data; packed payloads of odd size, packed Bgr48 and too large uncompressed data violate the property (proved in general). JPG-XR is covered by C80.

Theorems: `C38_zstd0_mismatch` (pq), `C38_zstd0_exact` (pq), `C38_zstd1_mismatch_partial` (pcq), `C38_zstd1_exact` (pcq), `C38_odd_packed_payload` (pq), `C38_bgr48_packed_payload` (pq), `C38_uncompressed_mismatch` (pcq), `C38_uncompressed_exact_partial` (pq), `C38_uncompressed_too_large_accepted` (pq), `C38_option` (pcq), `C38_packed_lost_violated` (pcq), `C38_damaged` (pq)

### C39 Bitonal pixel operations are exact
Byte/bit model of Fill; equality with per-pixel spec; negation for regions left of the bitmap.

*partial.* GetPixel, SetPixel, SetAll exact for all bitmaps up to 2^32-8 columns; Fill exact for all regions whose right and lower edge is not negative. Violated otherwise: a region ending left of the bitmap fills the whole rows (proved for all such bitmaps and regions); extents of 2^32-7 columns or more defeat the size check.

Theorems: `C39_lock_check` (pq), `C39_get_pixel` (pq), `C39_set_pixel` (pcq), `C39_set_all` (pcq), `C39_fill_partial` (pcq), `C39_fill_outside_region` (pcq), `C39_wide_bitmap_out_of_bounds` (pq)

### C40 Bitonal decimation is exact and in bounds
Byte-level Decimate; negations; value-correctness for the cases that are right.

*partial.* Exact for neighbourhood sizes 0 and 1 (all widths with w % 16 != 1) and for all sizes 0..7 when the bitmap has fewer than 32 columns; memory-safe for all sizes when w % 16 != 1. Violated otherwise: w % 16 = 1 writes one byte past the result (all such bitmaps), sizes >= 2 look at two rows only (w >= 32) and take pixels of the next row for neighbours at the right border.

Theorems: `C40_decimate_exact_partial` (pcq), `C40_in_bounds_partial` (pcq), `C40_bad_arguments` (pq), `C40_width_overflow` (pcq), `C40_large_neighbourhood_wrong` (pcq), `C40_right_border_wrong` (pcq)

### C41 Chunk containers are enumerated exactly
Enumeration loop with 32-bit arithmetic and explicit UB outcome; negations; single-chunk theorem.

*partial.* Exact for the first chunk. The index given is always 0, the second chunk is read from inside the first, and 32-bit wrap-around leads out of bounds: proved as violations.

Theorems: `C41_single_exact_partial` (pcq), `C41_first_exact_partial` (pcq), `C41_rejects` (pq), `C41_memory_safe_partial` (pq), `C41_index_always_zero` (pq), `C41_second_chunk_wrong` (pcq), `C41_wrap_out_of_bounds` (pq)

### C42 Colour strings round-trip
Char-level printer/parser.

*partial.* Round trip for every colour; the accepted texts are characterised exactly. Texts with more than eight digits are accepted, contrary to the documented format: proved as a violation.

Theorems: `C42_round_trip` (pq), `C42_accepted_iff_partial` (pcq), `C42_long_text_accepted` (pcq)

### C43 Key-value (Azure) connection strings
Char-level state machine; round trip on a sub-domain; negations.

*partial.* Round trip for pairs whose keys are non-empty and, like the values but the last, do not end with a backslash, and whose last value is not empty. The escaping is ambiguous otherwise: proved as a violation.

Theorems: `C43_round_trip_partial` (pcq), `C43_map_round_trip_partial` (pcq), `C43_malformed_rejected` (pq), `C43_escape_ambiguous` (pcq)

### C44 Bitmap locking under concurrency
Interleaving semantics of atomic fetch_add/fetch_sub steps; invariant.

*partial.* Every schedule of any number of threads. The part on unmatched Unlock calls holds for a single thread; with several threads it disturbs others or is not reported: proved as violations. The counter is an unbounded integer.

Theorems: `C44_accounting` (pcq), `C44_wellbehaved` (pq), `C44_single_thread` (pq), `C44_rogue_unlock_disturbs` (pq), `C44_rogue_unlock_unreported` (p)

### C45 Reading concurrently with Close
Interleaving semantics of the shared_ptr copy protocol; invariant.

*partial.* Every schedule of any number of reads and Close calls, with sequentially consistent accesses to the flag isOperational. The flag is not atomic: that this is a data race is proved as a violation.

Theorems: `C45_never_uses_released` (pcq), `C45_released_after_close` (pcq), `C45_read_after_close` (pcq), `C45_all_calls_can_finish` (pcq), `C45_no_stream_race` (pcq), `C45_flag_race` (p)

### C46 Pyramid-layer accessor is total on valid requests
Negation by witness (missing layer, factor ≤1); totality under guards.

*partial.* A correct picture for all repositories and requests whose layer has a tile in the region (or whose region is empty). Violated otherwise: out_of_range when only other layers have tiles there, an endless loop for minification factors below 2, division by zero for factor 0; each proved in general.

Theorems: `C46_layer_number` (pcq), `C46_layer_exists` (pcq), `C46_layer_picture_partial` (pcq), `C46_empty_layer_throws` (pcq), `C46_factor_too_small` (pcq), `C46_factor_zero` (pq), `C46_roi_too_small` (pq)

### C47 Truncated files give errors, not wrong data
Truncation lemma for pread-based parsing (monotone reads).

*proved.* All files, all truncation points, and all streams that deliver less than asked for.

Theorems: `C47_truncated` (pcq), `C47_short_reads` (pcq), `C47_header_cut` (pcq)

### C48 A crash while writing never yields a wrong document
Prefixes of the write list; invariant per prefix.

*partial.* Every document, crash point and torn write, for process crashes on a new file (writes reach the file in order), except a write of the file header torn inside one of the three 8-byte positions, where in a file of that size bytes other than zero can be missing. There the property is violated (proved by a document): a torn position can point to bytes that pass for a segment.

Theorems: `C48_crash_partial` (pcq), `C48_torn_position_violated` (pcq)

### C49 In-memory stream reads are exact
Direct.

*proved.* All buffers, offsets and sizes (64 bit).

Theorems: `C49_read_exact` (pcq), `C49_rejected` (p), `C49_memory_safe` (pcq)

### C50 GUID comparison is a total order consistent with equality
Lexicographic comparison.

*proved.* All GUIDs.

Theorems: `C50_guid_total_order` (pcq), `C50_guid_lexical` (pcq)

### C51 Streaming hash is independent of chunking
MD5 block buffering with abstract compression function; equality with padding spec; negation at ≥2^32-byte pieces.

*partial.* Equal to RFC 1321 for all messages cut into pieces below 4 GiB. A piece of exactly 4 GiB leads out of bounds: proved as a violation.

Theorems: `C51_md5_partial` (pcq), `C51_chunking_partial` (pcq), `C51_bitmap` (pcq), `C51_four_gigabytes_undefined` (pq)

### C52 Valid-pixel mask bitmaps
Parser of the mask chunk over all byte lists; bitmap inside the attachment; rejection of malformed masks.

*partial.* Exact for well-formed masks. A container without mask, a chunk shorter than 12 bytes and a width near 2^32 are not rejected: proved as violations.

Theorems: `C52_mask_exact_partial` (pcq), `C52_inside_partial` (pq), `C52_no_mask_undefined` (pcq), `C52_short_chunk_out_of_bounds` (pcq), `C52_width_wrap_out_of_bounds` (pcq)

### C53 Segments of the wrong kind are rejected
Reading functions over all byte strings; the identifier check decides.

*proved.* All contents of the stream, all options.

Theorems: `C53_wrong_segment_rejected` (pcq)

### C54 Contradictions between directory and sub-block header
Decision logic of the comparison of directory entry and sub-block header.

*proved.* For headers that give X and Y (otherwise undefined behaviour, see C15_missing_x_undefined).

Theorems: `C54_strict` (pcq), `C54_lax` (pcq)

### C55 Re-opening a reader presents only the new document
State of the reader object before and after Open; negation for the stale attachment list.

*partial.* Holds for documents with an attachment directory. A document without one shows the attachments of the earlier document: proved as a violation.

Theorems: `C55_reopen_partial` (pcq), `C55_reopen_subblocks` (pcq), `C55_stale_attachments` (pcq)

### C56 Invalid calls of the writer are refused without effect
Decision logic of the argument checks, for all states and stream behaviours.

*proved.* All states of the writer, all arguments; refusals for all behaviours of the stream.

Theorems: `C56_wrong_time` (pcq), `C56_bad_arguments` (pcq), `C56_valid_accepted` (pcq)

### C57 Copying bitmaps converts pixels as documented
Byte-level copy loops with all converters; specification of the conversion on channel values.

*partial.* All pairs of integer pixel types but Bgr24 to Bgr48 and all conversions to Gray32Float without a mask; equal pixel types with a mask. Violated by Bgr24 to Bgr48 (reads out of bounds) and by converting masked copies (both proved in general). Floats are exact rationals rounded to 24 bits.

Theorems: `C57_copy_partial` (pcq), `C57_masked_partial` (pcq), `C57_float` (pcq), `C57_unsupported` (pcq), `C57_up_and_down_black` (pcq), `C33_bgr24_to_bgr48_out_of_bounds` (p), `C35_converting_masked_copy_wrong` (pq), `C33_overread_violated` (pcq), `C35_converting_masked_copy_violated` (pcq)

### C58 Multi-channel composition
Composition loop over channels with all pixel getters on bytes; floats as rationals rounded to 24 bits; specification by exact contributions, saturated sums and relative weights; error bounds by interval arithmetic.

*partial.* All lists of channels as documented, with black and white points in [0,1]. Weights whose sum is below 2^-24 are ignored and weights that differ by about 2^-22 may be treated as equal (float comparison with epsilon); up to 4096 channels of equal weight, 2^20 of different weights. Violated: unsupported pixel types are noticed only after earlier channels were written, null source pointers and negative table sizes are not refused (proved in general). Floats are exact rationals rounded to 24 bits, without overflow.

Theorems: `C58_compose` (pcq), `C58_weighted` (pcq), `C58_levels` (pcq), `C58_bad_arguments` (pcq), `C58_unsupported_partial_write` (pcq), `C58_null_source_undefined` (pcq), `C58_negative_lut_undefined` (pcq)

### C59 Nearest-neighbour scaling
The loops of the scaling template on bytes, each axis with doubles as rationals rounded to 53 bits; specification by the exact linear map between the regions and nearest source index; error bound of the rounding chain below 2^-16 pixel; for whole bitmaps exactness because positions are multiples of 1/size.

*partial.* All bitmaps, masks and regions up to 2^29 in size and extrapolated position; all pairs of integer types but Bgr24 to Bgr48, and equal types. Positions up to 2^-15 pixel, exact for whole bitmaps. Violated: enlarging to twice the size or more leaves the last column unwritten, the column after an integer destination region is painted, empty source regions are not refused (all proved in general). Doubles are exact rationals rounded to 53 bits, without overflow.

Theorems: `C59_scale_partial` (pcq), `C59_scale_same` (pcq), `C59_scale_axes_partial` (pcq), `C59_scale_same_axes` (pcq), `C59_resize_partial` (pcq), `C59_same_size` (pcq), `C59_upscale_unwritten` (pcq), `C59_outside_roi` (pcq), `C59_unsupported` (pcq), `C59_empty_source_undefined` (pcq), `C59_rounding` (pcq)

### C60 Scaling tile accessor
The accessor function by function (choice by zoom, order, regions of the scaled copy in doubles, scenes, visibility); specification by document positions, exact zooms and a topmost relation with explicit slack; the rounding chain bounded below 1/128 pixel; std::sort as an arbitrary function with the guarantees of the standard.

*partial.* All documents of sub-blocks up to 2^19 in size, not stored enlarged, and regions up to 2^19, reduced at most by 1024 and enlarged at most twice; slack of 1/128 pixel and 2^-20 in zoom. The visibility optimisation is shown to be harmless without masks: for zoom 1, and for other zooms away from the edges of sub-blocks if those painted are not coarser than the result. Violated: with masks, and at the edges of sub-blocks up to 5% coarser than the result, the optimisation changes the picture (background shows at seams), the sort order is not a strict weak ordering when a pyramid sub-block has zoom 1, sub-blocks without scene index are ignored if two scenes are involved, pyramid sub-blocks of zoom 0.953 to 1 are copied unscaled at zoom 1.

Theorems: `C60_scaled_partial` (pcq), `C60_unscaled_partial` (pcq), `C60_unscaled_layer0` (pcq), `C60_magnified_blank` (pcq), `C60_visibility_same_picture_partial` (pcq), `C60_visibility_scaled_partial` (pcq), `C60_visibility_violated` (pcq), `C60_masks_change_picture` (pcq), `C60_sort_order_invalid` (pcq), `C60_no_scene_ignored` (pcq), `C60_unscaled_pyramid_gap` (pcq), `C60_size` (pcq), `C60_arguments` (pcq)

### C61 Metadata paths address exactly one node
Model/Xml.lean: metadata tree (names, attributes, children, texts) and the path functions of XmlNodeWrapper; proved against a specification of paths as lists of parts (Spec/Xml.lean) by induction over the path; the failing creation that leaves nodes behind is proved as a violation.

*partial.* All documents and all paths, also malformed ones. The metadata document is a tree of nodes with names, attributes and texts; pugixml itself is not modelled. Violated: a failing GetOrCreateChildNode leaves the nodes it had created (proved), index parts cannot create nodes.

Theorems: `C61_get` (pcq), `C61_create` (pcq), `C61_create_keeps` (pcq), `C61_empty_part` (pq), `C61_create_index` (pcq), `C61_create_not_atomic` (pcq), `C61_append` (pcq), `C61_get_syntax` (pcq), `C61_create_syntax` (pcq)

### C62 Values and attributes of metadata nodes are read back as set
Model/Xml.lean: value and attribute functions; TryConvert modelled with its loop; specification of integer and boolean texts in Spec/XmlValue.lean; the endless loop is a theorem that no number of iterations ends it.

*partial.* Text, boolean and integer values, attributes, removal (floating-point values: C71). Violated: white space after a number makes the read loop forever, negative text is read as a large unsigned number, a CDATA section hides the value set.

Theorems: `C62_value` (pq), `C62_cdata` (pq), `C62_number` (pcq), `C62_signed` (pq), `C62_unsigned_partial` (pcq), `C62_unsigned_negative` (pcq), `C62_hangs` (pcq), `C62_bool` (pcq), `C62_bool_roundtrip` (pcq), `C62_attribute` (pcq), `C62_remove_attribute` (pcq), `C62_remove_child` (pq), `C62_local` (pcq)

### C63 Dates in metadata survive the text format
Model/DateTime.lean: ToXmlString and the regular expression of TryParse as a deterministic matcher; specification of the text format in Spec/DateTime.lean; matcher proved sound and complete, round trip by composing writer and matcher; each class of dates not read back is proved as a violation.

*partial.* All dates and all texts. The regular expression is modelled as a deterministic matcher. Violated, each proved for the whole class of dates: offsets of -9 to -1 hours, seconds of 60, years -999 to -1 are written but not read back; the sign of -00:mm is lost; years outside int make TryParse throw.

Theorems: `C63_valid` (pcq), `C63_parse` (pcq), `C63_parse_complete` (pcq), `C63_throws` (pq), `C63_zone_partial` (pcq), `C63_sign_lost` (pcq), `C63_roundtrip_partial` (pcq), `C63_leap_second` (pcq), `C63_western_zone` (pcq), `C63_early_year` (pcq)

### C64 Document information written is read back
Model/DocInfo.lean: the writing functions as sequences of path writes on the tree, the reading functions as path reads, as_int of pugixml, and the effect of saving and loading on texts. Writing at a path and reading at the same or a diverging path is proved once (Proof/DocInfo.lean: create_update, writeAt_spec) and lifted to lists of writes. Time and z positions, start of a dimension, blank texts and carriage returns are proved violated.

*partial.* All documents, texts and values; floating-point numbers are represented by their texts, saving and loading by its effect on texts (white space, line ends), which C64_bytes_partial derives from the written bytes. Violated, each proved: time and z positions are written where they are not read, the start of a dimension is not written, blank texts and carriage returns do not survive saving, WriteDimInfoZ_List writes the start position as start time.

Theorems: `C64_general` (pcq), `C64_general_throws` (pcq), `C64_saved_partial` (pcq), `C64_bytes_partial` (pcq), `C64_blank_lost` (pcq), `C64_return_lost` (pcq), `C64_number` (pcq), `C64_number_any` (pcq), `C64_sizes` (pcq), `C64_start_lost` (pcq), `C64_positions_not_read` (pcq), `C64_z_start_is_time` (pcq)

### C65 Custom key-value pairs form a map
Model/DocInfo.lean: setCustom with the regular expression of the keys as a boolean function; proved equivalent to the specification of identifiers; histories by induction with the invariant that every custom node contains only text.

*proved.* All histories, keys, values and documents; floating-point values are represented by the text written for them.

Theorems: `C65_invalid_key` (pcq), `C65_set` (pcq), `C65_set_throws` (pcq), `C65_history` (pcq), `C65_int_text` (pcq)

### C66 The metadata prepared by the writer describes the sub-blocks written
Model/Prepared.lean: pixel types per channel, the loop over channels with paths built from the names, and the reader of channels; the result on a new document is derived from exact statistics (C17), the path theorems (C61) and an induction over the channels; violations for names with path characters, equal names, an empty writer and two pixel types.

*partial.* All histories of additions and all functions for names. Violated, each proved: an empty writer states sizes of -1; pixel types Gray32 and Gray64Float are not stated; identifiers or names with characters of the path syntax make the call throw; equal identifiers give one entry.

Theorems: `C66_sizes` (pcq), `C66_channels` (pcq), `C66_image_type` (pcq), `C66_default_names` (pcq), `C66_empty` (pcq), `C66_type_not_stated` (pcq), `C66_bad_names` (pcq)

### C67 Every way of adding a sub-block stores the bitmap that was given
Model/AddOverloads.lean: the convenience forms as functions from a block of memory to the sub-block passed on; Spec/AddOverloads.lean says which picture is to be seen; by induction over the lines, and through C01 for the finished file; violations of the reader-writer's strided form for every padded stride.

*partial.* All sizes, strides and contents below 2 GB, all histories. The memory is read when the call is made, not chunk by chunk. Violated, proved for every stride larger than a line: the reader-writer's strided form keeps the padding, so the bitmap read back consists of the first bytes of the memory, and bytes behind the last line are read; a pixel of Gray64ComplexFloat is taken for 16 bytes.

Theorems: `C67_strided` (pq), `C67_lines` (pq), `C67_memory` (pq), `C67_invalid_pixel_type` (p), `C67_null` (pcq), `C67_read_back` (pcq), `C67_rw_lines` (pq), `C67_rw_strided_wrong_lines` (pq), `C67_rw_strided_partial` (pq), `C67_rw_strided_overrun` (pq), `C67_rw_shown` (pcq), `C67_pixel_sizes_partial` (-), `C67_complex_size_violated` (pq)

### C68 Sub-blocks added through the C API are read back through the C API
Model/CApi.lean: libCZI_WriterAddSubBlock as a function to the forms of C67, and the conversion of the information read; through C67_read_back; violations for compressed data and for the size of the data.

*partial.* All arguments and histories for uncompressed data. Violated, each proved in general: data announced with any other compression are marked as uncompressed; the announced size of uncompressed data is not looked at.

Theorems: `C68_uncompressed` (pcq), `C68_reported` (pcq), `C68_read_back` (pcq), `C68_compression_lost` (p), `C68_size_not_checked` (pcq)

### C69 Values cross the C API unchanged and within the caller's memory
Model/CApi.lean: the conversions of parameterhelpers.cpp and the copying functions on the memory model; compared with small specifications (bits and ranks, whole UTF-8 characters, groups of hexadecimal digits).

*proved.* All values and sizes.

Theorems: `C69_represented` (pcq), `C69_understood` (pcq), `C69_every_coordinate` (pcq), `C69_truncated` (pcq), `C69_guid` (pcq), `C69_raw_data` (pcq), `C69_metadata_xml` (pcq), `C69_scenes` (pcq)

### C70 Handles of the C API keep alive exactly what is needed
Model/CApiHandles.lean: wrappers, reference-counted objects and their members, and one step function for the calls, with an outcome for undefined behaviour; invariant (use count = number of references) by induction over the calls, from which existence = reachability from a handle is derived.

*partial.* All sequences of calls that avoid what is not checked. Calls do not overlap, allocation succeeds. Violated, each proved in general: attachments and document information pass for one another, some null handles and null result pointers are not checked, display settings that are not there give a handle whose use is undefined.

Theorems: `C70_defined` (pcq), `C70_alive` (pcq), `C70_closed` (pcq), `C70_all_released` (pcq), `C70_wrong_kind` (pcq), `C70_right_kind` (pcq), `C70_new_handle` (pq), `C70_release` (pcq), `C70_lock` (pcq), `C70_unlock` (pcq), `C70_confused_violated` (pcq), `C70_null_violated` (p), `C70_null_out_violated` (p), `C70_no_settings_violated` (pcq)

### C71 Numbers with a fraction written to the metadata are read back
Model/NumText.lean: printing with %g and %e, wcstod; values are rationals with rounding to 53 or 24 bits. Spec/NumText.lean: the grammar of decimal numbers with the number denoted. Proved: scanning a text of the grammar, the printed text is in the grammar and denotes the nearest decimal, digits recovered after rounding to binary.

*partial.* All values and texts; exponent range, infinities on writing and the sign of zero are not modelled. Violated, proved: doubles and floats in general are not read back exactly (15 and 6 digits do not identify them); white space behind a number, or only white space, makes reading hang.

Theorems: `C71_read` (pcq), `C71_read_hex` (pcq), `C71_read_special` (pcq), `C71_read_only` (pcq), `C71_hangs_violated` (pcq), `C71_written` (pcq), `C71_double_partial` (pcq), `C71_float_partial` (pcq), `C71_short` (pcq), `C71_whole` (pcq), `C71_exact_violated` (pcq), `C71_exact` (pcq)

### C72 Display settings written to the metadata are read back
Model/Display.lean: the settings as seen through the interface, the fields written per channel, the loop over the channels in the document, the parser of spline points, reading. Proved on the document tree of C61 with the number texts of C71 and the colour texts of C42; the result is computed exactly as one replaced node, from which reading back, idempotence and locality follow.

*partial.* All documents and settings; the function for additional information is a pure function. Violated, each proved in general: the weight is not written, a spline without points becomes linear, negative channel numbers are dropped, a wide character behind a number in the spline points is undefined behaviour.

Theorems: `C72_read_back_partial` (pcq), `C72_pod_consistent` (p), `C72_write_again` (pcq), `C72_nothing_else` (pcq), `C72_attributes` (pcq), `C72_all_channels` (pcq), `C72_weight_violated` (pcq), `C72_empty_spline_violated` (pcq), `C72_negative_violated` (pcq), `C72_wide_character_violated` (pcq), `C72_clone` (p), `C72_foreign` (pcq), `C72_foreign_document` (pcq)

### C73 Scaling information written to the metadata is read back
Model/Scaling.lean: writing value and unit of each axis at a path with an attribute, reading with an XPath expression (first node in document order). Proved with a relation between trees before and after writing (Proof/Change.lean), from which the meaning of both kinds of selection follows, lifted to lists of writes (Proof/ChangeList.lean).

*partial.* All documents and scalings. Missing: numbers of more than 15 digits are not read back exactly (violated in general: C71_exact_violated); the numbers have no exponent range; an element does not have two attributes of the same name.

Theorems: `C73_read_back_partial` (pcq), `C73_exact` (pcq), `C73_saved` (pcq), `C73_no_drift` (pcq), `C73_without_units` (pcq), `C73_throws` (pcq), `C73_nothing_else` (pcq)

### C74 Tags in the metadata of a sub-block are found by their names
Model/SubBlockMeta.lean: composition of the path lookup of C61 with the values of C62 and C71.

*partial.* All documents and names. Violated, each proved in general: a name with a slash is used as a path, an empty part of it makes the call throw; white space behind a number makes the call hang. The conversion of the name to UTF-8 is not modelled.

Theorems: `C74_tag` (pcq), `C74_number` (pcq), `C74_stage_position` (pcq), `C74_data_format` (pcq), `C74_invalid` (pcq), `C74_path_violated` (pcq), `C74_hangs_violated` (pcq)

### C75 Look-up tables have the requested size, ends and curve
Model/Lut.lean, float arithmetic (Model/Float.lean), pow as a parameter; comparison with Real.rpow through the error bounds of C71's rounding lemmas; monotonicity for the shape.

*partial.* All sizes up to 2^24, points, gamma values and splines; pow of the C library is a parameter with an error bound. Violated, each proved in general: for gamma below 1 the curve is not the exponential (its beginning is flattened; the actual curve is what C75_toe states); a single index between the points is undefined behaviour; the table is too long if the white point is below the black point.

Theorems: `C75_ends` (pcq), `C75_gamma` (pcq), `C75_gamma_shape` (pcq), `C75_toe` (pcq), `C75_toe_shape` (pcq), `C75_exponential_violated` (pcq), `C75_one_index_violated` (pcq), `C75_never_short` (pcq), `C75_size_violated` (pcq), `C75_spline` (pcq), `C75_spline_empty` (pcq), `C75_spline_one_index_violated` (pcq), `C75_spline_never_short` (pcq)

### C76 Splines are the natural cubic splines through the control points
Model/Spline.lean: matrix, right side and coefficients as in the code, the solver as a parameter; the natural spline conditions are equivalent to the equations; uniqueness by diagonal dominance.

*partial.* All lists of control points that are at least 1/1000 apart. Missing: the arithmetic is exact (no rounding of double), and the equations are solved by an arbitrary exact solver (Eigen is not modelled). Violated, proved in general: points closer than 1/1000 give a kink.

Theorems: `C76_natural_partial` (pcq), `C76_unique` (pcq), `C76_through_partial` (pcq), `C76_value_partial` (pcq), `C76_kink_violated` (pcq)

### C77 The display settings helper prepares exactly the enabled channels
Model/DisplayHelper.lean: composition of C72's settings with C75's tables into the channel infos of C58; induction over the channels.

*partial.* All settings, pixel types, functors and previous contents. Violated, proved in general: gamma mode without a gamma value uses an uninitialised variable.

Theorems: `C77_channels` (pcq), `C77_functor` (pcq), `C77_returns` (pcq), `C77_unsupported` (pcq), `C77_no_gamma_violated` (pcq), `C77_enumerate` (pq), `C77_active` (pcq), `C77_proper` (pcq)

### C78 Compression option texts are read as documented
Model/CompressOptions.lean: the two regular expressions matched by hand, the loop over the items; grammar and meaning as a separate specification; equivalence by induction over the text.

*proved.* All texts. The regular expressions are matched by hand (the character classes are disjoint); the recursion depth of std::regex is not modelled.

Theorems: `C78_parse` (pcq), `C78_result` (pcq), `C78_rejects` (pcq), `C78_unambiguous` (pcq), `C78_roundtrip` (pcq), `C78_level_used` (pq), `C78_unpack_used` (p)

### C79 The background of a composed image has the requested colour
Model/Fill.lean: float values with infinities and NaN over exact rounding, the clamping and the row loops on byte buffers; error bounds from the rounding lemmas, loops by the row and block invariants of Proof/Blit.lean.

*partial.* Everything but the last clause: two infinite components of opposite sign (grey types) and, with Utils::FillBitmap, NaN components are undefined behaviour, shown by the violation theorems. Subnormal numbers are not modelled.

Theorems: `C79_colour` (pcq), `C79_grey` (pcq), `C79_float` (pcq), `C79_monotone` (pcq), `C79_unsupported` (pcq), `C79_no_background` (pcq), `C79_background` (pcq), `C79_infinite_violated` (pcq), `C79_nan_violated` (pcq)

### C80 A sub-block gives a bitmap of its declared type and size, or an exception
Model/Jxr.lean: decoder, encoder and the conversion path of CreateBitmap with lock counts, on byte buffers, with jxrlib as a parameter; results have four cases (value, exception, termination, undefined). In-place channel exchange by a loop invariant; copying by the lemmas of C57, filling by those of C79; exact characterisation of termination.

*partial.* Everything but the last clause, which the code violates (size-mismatch handling on, JPEG-XR): the process ends exactly in the cases of C80_abort_violated (locked bitmaps destroyed by an exception), and Bgr24 data in a Bgr48 sub-block are read out of bounds. jxrlib and zstd are parameters; failing allocation is not modelled; sizes are unbounded natural numbers.

Theorems: `C80_quality` (pcq), `C80_compress` (pcq), `C80_compress_rejected` (pcq), `C80_strict` (pcq), `C80_lenient_same` (pcq), `C80_roundtrip` (pcq), `C80_lenient_partial` (pcq), `C80_lenient_float` (pcq), `C80_no_bitmap` (pcq), `C80_abort_violated` (pcq), `C80_overread_violated` (pcq), `C80_declared` (pcq), `C80_decoders` (pcq), `C80_other_modes` (pcq)

### C81 An index denotes the same sub-block or attachment in every call
Model/Lookup.lean: all calls of the reader and the reader-writer that take or present an index, with std::string assignment and vector::at (exceptions and undefined behaviour as outcomes); memory left unset is a parameter. The list is the directory; the reader-writer by an invariant over all calls (keys sorted, names end within their fields).

*partial.* Proved for the reader (non-negative indices) and, after any calls, for the reader-writer (sub-blocks fully; attachments with names that end within their field). The code violates the rest: negative indices make the reader throw out_of_range; TryGetSubBlockInfo and TransformPoint go on answering after Close; the reader-writer's EnumerateAttachments leaves the last character of the type unset; names of 80 characters are read past their end.

Theorems: `C81_reader_attachments_partial` (pcq), `C81_reader_subblocks_partial` (pcq), `C81_negative_index_violated` (pcq), `C81_closed_partial` (pcq), `C81_closed_violated` (p), `C81_closed_transform_violated` (p), `C81_editor_attachments_partial` (pcq), `C81_eight_character_type_violated` (pq), `C81_long_name_violated` (pq), `C81_editor_subblocks` (pcq)

### C82 A crash while editing leaves what was not edited readable
Model/EditTrace.lean: the list of writes of every call of the reader-writer; proved to be exactly what the calls of Model/ReaderWriter.lean do to the file. A crash applies a beginning of the list, cut anywhere. Invariant over all calls: everything at an original position is untouched unless its item was changed, new data lie beyond the original file; the converse by the order of the writes.

*partial.* Proved: crash while opening, and crash before Close for everything the calls have not touched. The code violates the rest: a Close that moves a directory leaves an unopenable file; moved metadata, removed and replaced items are unreadable until Close; replacing in place can leave a mixture; a Close that rewrites the sub-block directory in its place can leave a file that does not list sub-blocks no call has touched (files below 2^63 bytes).

Theorems: `C82_writes` (pcq), `C82_untouched_partial` (pcq), `C82_open` (pcq), `C82_close_violated` (pcq), `C82_close_attachments_violated` (pcq), `C82_metadata_violated` (pcq), `C82_remove_violated` (pcq), `C82_replace_violated` (pcq), `C82_torn_violated` (pcq), `C82_close_in_place_violated` (pcq)

### C83 Texts in the channel information are read as numbers, ranges, lists and enumerations, or not at all
Model/ChannelText.lean: the conversions std::stod, stoull, stoi with the rest of the text, ranges, lists, arrays (isspace on wide characters as an outcome) and the tables of 17 enumerations. One lemma per conversion: white space, a number text, the rest, in both directions; everything else is generic in the conversion.

*partial.* Proved for texts without two minus signs in a row (exposure time), without the letters x, i, n (double) and with characters up to 255 (arrays). Violated: a negative end of an exposure range is taken modulo 2^64, a missing start of a range of double is the smallest positive number, a character beyond 255 after a number of an array is passed to isspace. Not modelled: numbers beyond the range of double.

Theorems: `C83_exposureTime_partial` (pcq), `C83_negative_violated` (pcq), `C83_wavelength_partial` (pcq), `C83_peak` (pcq), `C83_open_start_violated` (pcq), `C83_int32Array_partial` (pcq), `C83_doubleArray_partial` (pcq), `C83_wide_character_violated` (pcq), `C83_enumerations` (pcq)

### C84 A stream delivers exactly the bytes at the requested position, to any number of threads
Model/Streams.lean: a file is a list of bytes; pread with a bound for what the system delivers; the FILE-based streams as a transition system (position, mutex, any number of threads); libcurl as a sequence of pieces given to the write function, with its rule for the returned number; the decisions on an Azure response. Invariant over all schedules, an explicit continuation for absence of deadlock, induction over the pieces.

*partial.* Proved: file streams with pread up to the number of bytes the system delivers at once, the mutex-protected stream for all threads and schedules (results, no deadlock), memory safety for all HTTP servers and exact data for servers that honour the range. Violated: short reads are not continued, the input-output stream on a FILE has no mutex, the HTTP status is not looked at, a piece of 23 bytes that does not fit is dropped, the memory stream throws at its end. Not modelled: Windows streams, libcurl options and errors beyond 'the transfer fails'.

Theorems: `C84_pread_partial` (pq), `C84_short_violated` (pq), `C84_threads` (pq), `C84_no_deadlock` (pq), `C84_no_mutex_violated` (pq), `C84_http_safe` (pq), `C84_http_partial` (pq), `C84_http_fails_partial` (pcq), `C84_http_ignored_violated` (pq), `C84_http_23_violated` (pq), `C84_azure_partial` (pq), `C84_memory_end_violated` (-)

### C85 Documents mean the same on hosts of either byte order
Model/ByteOrder.lean: the code compiled for a big-endian host. The conversions of numbers are the mask-and-shift formulas on bit vectors; every structure conversion is the list of (offset, width) pairs the code converts; memory is a list of bytes. The specification describes the structures member by member from their declarations and their memory for either byte order; proofs by bit arithmetic and by induction over members, dimensions and entries. Pixels on byte buffers with checked access. Not modelled: JPEG XR, hi-lo packing and the compositors on such hosts.

*partial.* Proved: numbers, all structures, directories and sub-blocks with any number of entries and dimensions whose start coordinates are zero, the file header, uncompressed Gray16, Bgr48 and 8-bit pixels. Violated on big-endian hosts: start coordinates are not converted, the GUID of a new document is mirrored by Close, a forced GUID is remembered mirrored, other pixel types cannot be read, zstd0 pixels are not converted, pixels are written without conversion. Not modelled: JPEG XR on such hosts, hi-lo packing of zstd1 there.

Theorems: `C85_numbers` (pcq), `C85_structures` (pcq), `C85_directory_partial` (pcq), `C85_directory_bytes` (pcq), `C85_subBlock_partial` (pcq), `C85_startCoordinate_violated` (pcq), `C85_header` (pcq), `C85_new_document_violated` (pcq), `C85_forced_guid_violated` (pcq), `C85_pixels_partial` (pcq), `C85_bytes` (pq), `C85_float_violated` (pq), `C85_zstd_violated` (pq), `C85_written_violated` (pcq)

### C86 A picture composed through the C interface is the one the display settings describe
Model/CApiCompose.lean: the structure of the C interface, the function that fills it out from display settings, its conversion, the composition call with its handles; the result is compared with Model/DisplayHelper.lean (C77) and the composition (C58). Allocation failures are not modelled.

*partial.* Proved for enabled channels (same result as the C++ helper for all settings and bitmaps). Violated by the code for disabled channels: they brighten the others, are painted white if there are no others, or make the composition fail; and for channels without settings or without gamma value.

Theorems: `C86_info` (pcq), `C86_same_partial` (pcq), `C86_arguments` (pcq), `C86_picture` (pcq), `C86_disabled_violated` (pcq), `C86_all_disabled_violated` (pcq), `C86_disabled_alpha_violated` (pcq), `C86_unknown_channel_violated` (pcq), `C86_no_gamma_violated` (pcq)

### C87 Options given to the C interface as JSON are obeyed exactly, and options that cannot be obeyed are refused
Model/JsonOptions.lean: the functions that read options from JSON values, with the JSON parser (an external library) as a parameter; the options are characterised by the members of the object.

*partial.* Proved: what is in the text is obeyed exactly, for all texts and parsers. Violated by the code: texts for a writer that are not JSON objects, single bounds and unreadable GUIDs are ignored instead of refused; names and strings are cut at a zero character.

Theorems: `C87_duplicates` (pcq), `C87_info` (pcq), `C87_accessor` (pcq), `C87_accessor_default` (pcq), `C87_properties` (pcq), `C87_no_properties` (pcq), `C87_invalid_ignored_violated` (pcq), `C87_one_bound_violated` (pcq), `C87_bad_guid_violated` (pcq), `C87_zero_violated` (pcq)

### C88 The information about the Z and T axes is what the metadata say
Model/AxisInfo.lean: GetDimensionZInfo, GetDimensionTInfo and the two classes that hold the result, on XML trees (Model/DocInfo.lean), with the number conversions of C53 and the dates of C63. Spec/AxisInfo.lean says what a node means.

*partial.* Proved for all well-formed metadata without a drive mode. Violated by the code: the drive mode is read from the element for the direction of the axis, so it is never returned; lists separated by new lines or tabs lose all but the first number; numbers beyond the range of double raise an exception. Numbers below the normal range are not modelled.

Theorems: `C88_z_partial` (pcq), `C88_drive_mode_violated` (pcq), `C88_direction_as_mode_violated` (pcq), `C88_texts` (pcq), `C88_t` (pcq), `C88_positions` (pcq), `C88_start_time_violated` (pcq), `C88_no_axis` (pcq), `C88_bad_word_partial` (pcq), `C88_newline_violated` (pcq), `C88_huge_violated` (pcq)

### C89 The JSON texts that the C interface returns say what the document says
Model/JsonText.lean: the conversions to JSON values in parameterhelpers.cpp, the writer of JSON texts (its printing of strings and numbers is arbitrary; it stops at a number that is not finite), the parsing of all fields of a channel (CziDimensionInfo.cpp and CziMetadataDocumentInfo2.cpp), and the calls of the C interface that return the texts. Spec/JsonText.lean says which texts are JSON texts of a value and lists the members.

*partial.* Proved for all documents and printers, as far as the numbers are finite. Violated by the code: the contrast of the condenser is replaced by the text of the reflector, wavelength ranges are cut to six digits, dimensions other than Z, T and C give success without a text, and a number that is not finite gives a text that breaks off. The printing of strings and numbers (rapidjson) is arbitrary.

Theorems: `C89_general` (pcq), `C89_pyramid` (pcq), `C89_z` (pcq), `C89_z_unique` (pcq), `C89_t` (pcq), `C89_channels_partial` (pcq), `C89_ranges_partial` (pcq), `C89_errors` (pcq), `C89_available` (pq), `C89_condenser_violated` (pcq), `C89_digits_violated` (pcq), `C89_other_dimension_violated` (pcq), `C89_not_finite_violated` (pcq)

### C90 Attachments, metadata and pixels cross the C interface unchanged
Model/CApiData.lean: the conversions of attachments and metadata on the way in and out of the C interface and libCZI_BitmapCopyTo, with explicit memory; composed with the writer and reader models of C02 and C03.

*partial.* Pixels fully; attachments and metadata with the limits of C02 and C03 (less than 2 GB, names that end within 80 bytes, reservation of the attachment directory filled), outside of which the writer and reader themselves violate the property (proved there).

Theorems: `C90_passed` (pcq), `C90_attachments_partial` (pcq), `C90_metadata_partial` (pcq), `C90_name` (pcq), `C90_pixels` (pcq), `C90_exact_memory` (pq)

### C91 A failure of the stream during an edit does not corrupt the session
Model/EditFault.lean: the calls of the reader-writer of C11 with an outcome for each write (success, or failure after any number of bytes), in the order of the code. The invariant of C11 is shown to survive failures, by induction over the calls; where it does not, the state after the failure is computed for all documents.

*partial.* Proved for every sound document and every sequence of calls in which the failing calls are removals, replacements that append and fail before the last write, first metadata, and Close, any number of times. Violated by the code, proved for all documents and calls: a failing removal removes, a failing SyncAddSubBlock or SyncAddAttachment leaves an entry that takes on the next segment written, a failing SyncWriteMetadata that needs a new segment loses the old metadata. Replacements in their place are torn (witness).

Theorems: `C91_without_fault` (pcq), `C91_edit_partial` (pcq), `C91_unharmed` (pcq), `C91_failed_remove_violated` (pcq), `C91_failed_add_violated` (pcq), `C91_failed_add_attachment_violated` (pcq), `C91_failed_metadata_violated` (pcq), `C91_torn_replace_violated` (pcq)

### C92 XML that the library writes is loaded by it as the same tree
Model/XmlText.lean: pugixml's UTF-8 conversion, its writer (escapes, CDATA, indentation) and its parser (all states of parse_tree, with references, comments, processing instructions, document types), as functions on texts. That the parser takes the printed text back to the tree is proved by induction over the tree, with the turns of the parser's loop as steps; that loaded trees have proper names and strings is an invariant of the loop.

*partial.* Proved for all trees with proper names whose texts are not blank and have no carriage return, for all characters, depths and formats; trees built by any calls of the node interface except RemoveChild have this form. Violated by the code, proved in general: blank text disappears, carriage returns in text are converted, two texts separated by a comment become one, elements can be created with names that make the saved text unloadable, and RemoveChild can bring two texts together.

Theorems: `C92_saved_partial` (pcq), `C92_same_tree` (pcq), `C92_stable` (pcq), `C92_loaded` (pcq), `C92_built_partial` (pcq), `C92_utf8` (pq), `C92_utf8_standard` (pq), `C92_file_partial` (pcq), `C92_blank_violated` (pcq), `C92_return_violated` (pcq), `C92_neighbours_violated` (pcq), `C92_name_violated` (pcq), `C92_remove_violated` (pcq)

### C93 XML of other programs is loaded as the tree it denotes
Spec/XmlGrammar.lean is a grammar of XML documents as inductive predicates relating texts and trees. That the parser of Model/XmlText.lean takes every text of the grammar to its tree is proved by induction over derivations (Proof/XmlGrammar.lean), with one lemma for each kind of token. Spec/XmlBroken.lean describes wrong continuations; they are rejected (Proof/XmlBroken.lean). That a text that was cut off never gives an incomplete tree is proved from what the parser does on a longer text (Proof/XmlPrefix.lean); malformed texts that are accepted are proved violations.

*partial.* Loading is proved for every text of the grammar (Spec/XmlGrammar.lean). Violated by the code, proved (in general, except for entities): text outside of the root element and several root elements are accepted, the value of an element ends at a comment, text in CDATA sections is not a value, declared entities are not replaced. Two attributes of the same name are accepted, too. Malformed texts: C93_rejected lists the kinds of errors that are found at any place, C93_truncated treats every truncation; other kinds of malformed text (such as a raw ampersand) are not decided.

Theorems: `C93_loaded` (pcq), `C93_unique` (pcq), `C93_cut` (pcq), `C93_truncated` (pcq), `C93_rejected` (pcq), `C93_duplicate_violated` (pcq), `C93_junk_violated` (pcq), `C93_roots_violated` (pcq), `C93_comment_violated` (pcq), `C93_cdata_violated` (pcq), `C93_entity_violated` (pcq)

### C94 Files are created, kept or overwritten as asked, and what is reported as written is in the file
Model/FileOut.lean: files with access rights, opening (open with flags, fopen after a test with other processes in between), pwrite with arbitrary answers, C FILEs with a buffer and arbitrary answers. Invariant of the buffer by induction over the writes; a lost last write is a crash point of C48.

*partial.* Proved for the pwrite-based streams (Linux). The streams on C FILEs violate it: a file that cannot be read or appears late is overwritten, an error of fclose is not reported so that a document whose Close succeeded may be lost, and files opened for editing cannot be written.

Theorems: `C94_open` (pq), `C94_open_stdio_partial` (p), `C94_open_stdio_violated` (p), `C94_open_edit` (p), `C94_written` (pq), `C94_written_stdio_partial` (pcq), `C94_lost_violated` (pcq), `C94_document_lost_violated` (pcq), `C94_edit_violated` (p)

### C95 Whatever size a sub-block or a caller states, a bitmap has memory for all of its pixels, and decoding stays inside it
Model/Sized.lean: the functions of Model/Zstd.lean and Model/Jxr.lean with uint32_t, int and size_t (signed overflow is undefined). Refinement: equal to the functions on natural numbers for lines of less than 2 GiB; violations in general by arithmetic modulo 2^32.

*partial.* Proved for sub-blocks whose lines have less than 2 GiB: there the results with the machine's integers are those of C37, C38 and C80. Violated by the code otherwise, proved in general: the default stride overflows, strides are truncated to 32 bits so that zstd data and uncompressed data are written or read outside of memory. Not decided: packed zstd data with lines of 2 GiB or more. Allocation is assumed to succeed.

Theorems: `C95_create` (pcq), `C95_create_violated` (pcq), `C95_memory_violated` (pcq), `C95_exact_partial` (pcq), `C95_memory_partial` (pcq), `C95_zstd_violated` (pcq), `C95_uncompressed_violated` (pcq), `C95_uncompressed_write_violated` (pcq), `C95_jxr_violated` (pcq)

### C96 The process has one site object and one decoder of each kind, whichever threads use the library first
Model/Site.lean: threads that take one step (one access to g_site, a once_flag or a decoder) at a time, any schedule. Invariants by induction over the schedule; violations by schedules for arbitrary sites and threads.

*partial.* Proved for every schedule in which SetSiteObject does not overlap with other calls. Violated by the code otherwise, proved: SetSiteObject tests and assigns without synchronisation, so that two overlapping calls are both accepted, or the site changes after its first use; null is accepted. (Such overlapping accesses are data races, which the model shows as interleavings.)

Theorems: `C96_set_first` (pq), `C96_default` (pq), `C96_settled` (pq), `C96_never_null` (pq), `C96_no_deadlock` (pq), `C96_decoders` (pq), `C96_two_sites_violated` (pq), `C96_changes_violated` (pq), `C96_null_violated` (pq)

### C97 The memory of what is read is there as long as the user holds it, with the stated size, and is released exactly once
Model/Owned.lean: blocks of memory, counters of shared pointers, variables of the user; reading with arbitrary failures. Invariant by induction over the history (each counter equals the number of owners, each allocated block has one owner); violations for arbitrary documents.

*partial.* Proved for every history in which an allocation for an object or a shared pointer fails only where the function cleans up (failures of malloc and of streams are arbitrary). Violated by the code, proved in general: with no memory for the counter of a shared pointer ICZIReader::ReadSubBlock releases the pixels twice; with no memory for the object ReadAttachment, ReadMetadataSegment and ICziReaderWriter::ReadSubBlock lose what was read; a negative stored size or a failing malloc gives a null pointer with a positive size and no error.

Theorems: `C97_released_once_partial` (pcq), `C97_all_released` (pcq), `C97_kept` (pcq), `C97_same_pointer` (pcq), `C97_subblock` (pcq), `C97_attachment` (pcq), `C97_size_partial` (pcq), `C97_null_pointer_violated` (pcq), `C97_released_twice_violated` (pcq), `C97_leak_violated` (pcq)

### C98 When the stream fails while a new document is written, the call can be made again, and the document is as if the stream had not failed
Model/Writer.lean with faults at every write: a call that is made again overwrites what the failing one left (same positions, same bytes); simulation between the failing and the working writer, induction over attempts and calls; invariant of C01 to C07 with garbage after the last segment. Model/ExternalOut.lean: the replies of the function of the caller, refined to such faults.

*partial.* Proved: writing metadata (in every state) and Close (after any calls on a working stream) can be made again any number of times with the result of a stream that does not fail; documents for which only these calls fail are unchanged byte by byte; first metadata that are given up leave a correct document; streams of the caller given to the C interface are such streams as long as they report the number of bytes written truthfully. Violated by the code, proved in general: adding a sub-block or an attachment that failed cannot be made again (the item is registered before it is written), nor can Create; after a failing Create the calls succeed and the document cannot be opened; metadata that replace others and fail leave no readable metadata.

Theorems: `C98_again_partial` (pcq), `C98_document_partial` (pcq), `C98_given_up_partial` (pcq), `C98_add_violated` (pcq), `C98_create_violated` (pcq), `C98_create_file_violated` (pcq), `C98_metadata_violated` (pcq), `C98_external` (pcq), `C98_external_success` (pcq), `C98_external_noticed` (pq), `C98_external_needs_truth` (pq)

### C99 Pictures of different regions agree where the regions overlap
Model/Accessor.lean and Model/ScalingAccessor.lean: the specification of each pixel (C33, C46, C60) is shown not to depend on the region - same candidates, same places - and to determine the pixel; concrete documents where it does.

*partial.* Proved for the tile accessor and the scaling accessor with a zoom of 1, for all pairs of regions, if the m-indexes differ where sub-blocks overlap (or, without sorting by m-index, always); for the pyramid accessor if regions and sub-blocks are on the grid of the layer's pixels. Violated by the code otherwise, proved: the order of overlapping sub-blocks without different m-indexes is left to an unstable sort; positions on a layer are rounded towards zero relative to the region; with a zoom below 1 the sub-blocks painted at a place depend on which others are anywhere in the region.

Theorems: `C99_tiles_partial` (pcq), `C99_directory_order_partial` (pcq), `C99_pyramid_partial` (pcq), `C99_unscaled_partial` (pcq), `C99_order_violated` (pcq), `C99_pyramid_violated` (pq), `C99_scaled_violated` (pcq)

### C100 The files of a plane scan together are the picture of the region
Model/PlaneScan.lean: the loop over tiles with checked 32-bit arithmetic, the file names, and the calls of the scaling accessor; arithmetic of division for the tiling, injectivity of the names, C99 for the pixels.

*partial.* Proved for all regions and tile sizes whose sums are ints; the pictures under the conditions of C99 (zoom 1, m-indexes differ where sub-blocks overlap), without the visibility optimisation. Violated by the code otherwise, proved in general: tile sizes of 2^31 and more become negative, so that nothing is written and success is reported; a region and a tile that together exceed the largest int overflow.

Theorems: `C100_tiles_partial` (pcq), `C100_names` (pcq), `C100_mosaic_partial` (pcq), `C100_large_tile_violated` (pcq), `C100_overflow_violated` (pcq)

### C101 Coordinates anywhere in the range of 32-bit integers are handled exactly
Model/Machine.lean: rectangles, statistics, EnumSubset, the coverage calculator, the visibility check, clipped copying and the tile accessor once more, each addition, subtraction and negation of int checked in the order of the code. Refinement to the functions on unbounded integers by invariants (everything stays in a frame); conversely a run without overflow yields a frame, which makes the violations general.

*partial.* Proved for all documents whose sub-blocks lie in one rectangle with int position, size and end points (values of dimensions correspondingly) and all regions whose end points are ints; pictures if in addition the sizes of region and sub-block add up to an int. Violated by the code otherwise, proved in general: whenever there is no such rectangle and the document has two sub-blocks, whenever two values of a dimension are too far apart, whenever two sub-blocks have the index 2147483647, whenever a region's end is not an int, and whenever a visible sub-block ends too far from the region's left edge, the code overflows (undefined behaviour). Not covered: the pyramid and the scaling accessor.

Theorems: `C101_statistics_partial` (pcq), `C101_query_partial` (pcq), `C101_picture_partial` (pcq), `C101_statistics_violated` (pcq), `C101_intervals_violated` (pcq), `C101_largest_index_violated` (pcq), `C101_query_violated` (pcq), `C101_region_violated` (pcq), `C101_offset_violated` (pcq)

### C102 A document made with the CreateCZI command has exactly the tiles that were asked for
Model/CreateCzi.lean: the loops over coordinates and tiles, the 32-bit and single precision arithmetic of the positions, the three ways of adding a sub-block and the calls of the writer. Induction over tiles and coordinates shows that every call is accepted (keys differ, zooms are equal); then C23, C37, C67, C80, C01 and C03 are composed.

*partial.* Proved for all options with numbers in range (positions below 2^31, fewer than 2^31 sub-blocks), non-empty intervals, an overlap between 0 and 1, and uncompressed, zstd0 or zstd1 data (except packed Bgr48, see C37). Violated by the code otherwise, proved in general: with the accepted methods JpgXr and Jpg the document has no sub-blocks at all; for an empty interval there are sub-blocks although no coordinate is within the bounds; without overlap, positions of 2^31 and more become negative. The generator of the pictures and the text of the metadata are parameters.

Theorems: `C102_document_partial` (pcq), `C102_jxr_violated` (pcq), `C102_empty_interval_violated` (pcq), `C102_position_violated` (pcq)

### C103 A stream that fails while a document is read is reported, and leaves nothing behind
Model/ReaderSession.lean: the reader object with all members, whose assignments in Open happen one by one, and sessions of calls in which the streams may deliver less each time; the wrapper for the streams of the C interface. Invariant by induction over the history: the members are those of the document of the last successful Open; per call C47 (a stream that delivers less gives the same or an exception).

*partial.* Proved for all histories and failures; calls about attachments if the document has an attachment directory. Violated by the code otherwise, proved in general: after an Open that failed at the attachment directory TryGetSubBlockInfo answers with the sub-blocks of that document although the reader is not open; a document without attachment directory shows the attachments of the document opened before. Calls do not overlap; a stream answers the same request in the same way during one call.

Theorems: `C103_open` (pcq), `C103_close` (pcq), `C103_calls_partial` (pcq), `C103_external` (pcq), `C103_info_violated` (pcq), `C103_attachments_violated` (pcq)

### C104 What is written is what is seen
Model/Viewer.lean: ISingleChannelTileAccessor::Get as a whole on a document opened by the reader: pixel type, plane check, background, selection, order, visibility check, reading and decoding of each sub-block, composition. Composition of C01 (what is read is what was written), C34 and C17 (plane check and statistics), C37 and C80 (decoding), C79 (background) and C33 (topmost sub-block); the statement only mentions what was given to the writer (Spec/Viewer.lean). Model/ScaledView.lean: the same for ISingleChannelScalingTileAccessor::Get, with C60 (choice of the sub-blocks, scaling) in place of C33. Model/CApiView.lean: the functions of the C interface, with C69 (coordinates) and C87 (options). Model/Commands.lean: the commands of CZICmd that write such pictures, with C105 (text of the region). Model/Composite.lean: the commands that compose channels, with C77 (display settings) and C58 (composition). Model/LayerView.lean: the pyramid-layer accessor and its command, with C46 in place of C33.

*partial.* Proved for every session of the writer (data below 2 GB, C01) and every plane whose full-resolution sub-blocks have the pixel type asked for, one of Gray8, Gray16, Gray32Float, Bgr24 and Bgr48, and are uncompressed, zstd0, zstd1 (not packed Bgr48, see C37) or losslessly compressed with JPEG-XR; every sub-block has a coordinate. For regions in any coordinate system (zero point of the pixel coordinate system: the corner of the sub-blocks without minification), and for documents that were afterwards edited with a reader-writer or made with it (sub-blocks and metadata; directory precedence). Violated by the code otherwise, proved in general: if all sub-blocks have the same channel, a plane that leaves it out is accepted, but without a given pixel type there is always an exception. Scaled pictures: for every positive zoom (with a zoom of 1, where both accessors agree, minified sub-blocks have a zoom below 0.95), real numbers rounded to float, sub-blocks and regions of at most 2^19 points in each direction, visibility check off; magnified pictures show nothing but the background (violation); also through the C interface, with its coordinates and options, and with the commands SingleChannelTileAccessor and SingleChannelScalingTileAccessor of CZICmd, the region being given as text. The commands ChannelComposite and ScalingChannelComposite write the composition (C58) of the pictures of the enabled channels with their display settings (C77); without an enabled channel their behaviour is undefined (violation, proved in general). The 1:1 accessor ignores the filter for scenes, which is documented (violation, proved in general), and a relative region far away overflows. Layers of the pyramid, with the accessor and with the command SingleChannelPyramidTileAccessor: proved if the region contains a sub-block of the layer or none at all; if it contains only sub-blocks of other layers there is an exception (violation, proved in general), the command takes numbers above 255 for others, and adjacent sub-blocks of a layer overlap by a column if the region begins between pixels of the layer (violations, proved in general). Missing: conversion between pixel types (C46), cache (C41), masks (C52) and tile borders, visibility check without sorting.

Theorems: `C104_picture_partial` (pcq), `C104_picture_of_channel_partial` (pcq), `C104_picture_in_frame_partial` (pcq), `C104_picture_after_editing_partial` (pcq), `C104_picture_of_new_partial` (pcq), `C104_pictures_of_contents_partial` (pcq), `C104_rejected` (pcq), `C104_channel_left_out_violated` (pcq), `C104_scaled_partial` (pcq), `C104_scaled_of_channel` (pcq), `C104_scaled_rejected` (pcq), `C104_scaled_pictures_of_contents_partial` (pcq), `C104_scaled_after_editing_partial` (pcq), `C104_magnified_violated` (pcq), `C104_c_interface_partial` (pcq), `C104_c_interface_errors` (pcq), `C104_c_interface_size` (pcq), `C104_unscaled_partial` (pcq), `C104_unscaled_agrees` (pcq), `C104_unscaled_pictures_of_contents_partial` (pcq), `C104_unscaled_after_editing_partial` (pcq), `C104_tile_command_partial` (pcq), `C104_tile_filter_violated` (pcq), `C104_scaling_command_partial` (pcq), `C104_scaling_command_unscaled_partial` (pcq), `C104_command_rejected` (pcq), `C104_command_overflow_violated` (pcq), `C104_composite_command_partial` (pcq), `C104_scaling_composite_command_partial` (pcq), `C104_scaling_composite_command_unscaled_partial` (pcq), `C104_composite_no_channel_violated` (pcq), `C104_composite_rejected` (pcq), `C104_layer_partial` (pcq), `C104_layers_of_contents_partial` (pcq), `C104_layers_after_editing_partial` (pcq), `C104_layer_missing_violated` (pcq), `C104_layer_rejected` (pcq), `C104_layer_command_partial` (pcq), `C104_layer_command_missing_violated` (pcq), `C104_layer_number_violated` (pcq), `C104_layer_command_rejected` (pcq), `C104_layer_seam_violated` (pcq)

### C105 A text given to an option of CZIcmd is taken as documented or reported as wrong
Model/CmdLine.lean and Model/CmdNumbers.lean (numbers with a fraction, through the model of strtof and strtod): the parsers of the options of CZICmd as matchers of whole texts (the regular expressions of the code need no backtracking), with std::stoi and std::stoull and their exceptions. For each an equivalence between acceptance with a value and a grammar that gives the value; texts for which the code throws, refuses a documented form or takes another value are characterised and stated as violations. Model/CmdCheck.lean: the check of combinations at the end of Parse, with CLI11's range check for the zoom as a parameter; an equivalence with a list of what each command needs.

*partial.* For every text: acceptance and value of each parser are characterised by a grammar. The code violates the full statement: an overlap of 0% is refused, the examples for --rect in the help text (with blanks) are refused, an alpha value written as 0X.. is taken as 0, and numbers beyond 64 (sizes) or 32 bits (alpha values) end in an exception instead of a report, and in the lists for --verbosity and --info-level everything behind an empty item is ignored; a missing number in a background colour counts as 0. The parser for --zoom ignores what follows the number (C105_zoom_rest_ignored); that is not counted as a violation, because CLI11's range check on this option runs first and is outside the repository. Which combinations of command, files, region, layer and zoom are accepted is proved as well; a scan of a plane without a region is accepted and writes nothing. Not modelled: the other options and the library CLI11 that splits the command line.

Theorems: `C105_size` (pq), `C105_size_exception_violated` (pq), `C105_tiles_partial` (pq), `C105_zero_overlap_violated` (pq), `C105_number` (pq), `C105_pyramid` (pq), `C105_region_partial` (pcq), `C105_region_blanks_violated` (pcq), `C105_hex` (pcq), `C105_format_partial` (pcq), `C105_capital_hex_violated` (pcq), `C105_format_exception_violated` (pcq), `C105_verbosity_partial` (pcq), `C105_info_partial` (pcq), `C105_list_tail_violated` (pcq), `C105_list_total` (pcq), `C105_verbosity_effect` (pcq), `C105_zoom_partial` (pcq), `C105_zoom_rest_ignored` (pcq), `C105_background_gray` (pcq), `C105_background_two` (pcq), `C105_background_rgb_partial` (pcq), `C105_background_four` (pcq), `C105_background_empty_violated` (pcq), `C105_cache_accepts` (pcq), `C105_cache_rejects` (pcq), `C105_cache_exact` (pcq), `C105_pixeltype` (pcq), `C105_arguments_partial` (pcq), `C105_arguments_missing` (pcq), `C105_scan_region_violated` (pcq)

### C106 Attachments and sub-blocks extracted with CZIcmd are those selected, with the contents written
Model/Extract.lean: the two extraction commands of CZICmd as callbacks of the enumerations of Model/Lookup.lean, the selection parsed from the members of the JSON text, and the names of the files. Composition of C02 and C01/C104 with the enumeration; injectivity of the file names from the last dot backwards; witnesses for names that collide or leave the directory and for misunderstood selections.

*partial.* Proved for every document within the limits of C02 (attachments) and C104 (pixel types and data of sub-blocks), if the types of the attachments contain no dot: otherwise two attachments can be written to one file. Names with a slash lead to other directories; whole numbers without fraction are refused, fractions are cut off and numbers beyond int are undefined behaviour. Conversion of UTF-8 and creation of files are arbitrary functions; the PNG encoder is not modelled.

Theorems: `C106_attachments_partial` (pcq), `C106_same_file_violated` (pcq), `C106_other_directory_violated` (pcq), `C106_image_names` (pcq), `C106_sub_blocks_partial` (pcq), `C106_selection` (pcq), `C106_whole_number_violated` (p), `C106_fraction_violated` (pcq), `C106_large_index_violated` (pcq)

### C107 The exit status of CZIcmd tells whether it did its work
Model/CmdMain.lean: main and execute around a command given as a parameter (its result: done, refused, exception, abort, undefined), and the command for a picture with opening the document. Case analysis; an equivalence for success, a general theorem that failures end with the status 0 (violation), and the composition with C104 from the writer to the exit status.

*partial.* Wrong arguments give the status 2, and work that was done gives 0, for all arguments and all outcomes of a command; for the commands SingleChannelTileAccessor and SingleChannelPyramidTileAccessor this is combined with the writer, the reader and the picture. The code violates the full statement: main does not use the value of execute, so every command that fails ends with the status 0, and a scan of a plane without a region ends without even a message. Not modelled: exceptions that leave the parser, the option for the version, the texts of the messages.

Theorems: `C107_arguments` (pcq), `C107_success_partial` (pcq), `C107_failure_status_violated` (pcq), `C107_missing_document_violated` (pcq), `C107_layer_missing_violated` (pcq), `C107_scan_region_violated` (pcq), `C107_tile_tool_partial` (pcq), `C107_layer_tool_partial` (pcq)

## Where the code and a property disagree
Each line is proved about the model (theorem in parentheses); they are defects of the pinned commit, or differences from its documentation.

* C01: C01 violated for large data: in every document, a sub-block of 2 GB or more that was added successfully cannot be read: the number of bytes read is converted to `int32_t`. (`C01_large_data_unreadable`)
* C02: C02 violated by reservations: in every document in which the reservation for the attachment directory is larger than the number n > 0 of attachments, the reader lists only n - 2 attachments (none if n ≤ 2): the zero fill after the directory overwrites the last entries. (`C02_reservation_loses_attachments`)
* C02: C02 violated by long names: a name of 80 characters (the size of the field, accepted by `SetName`) is delivered with 79. (`C02_long_name_truncated`)
* C02: C02 violated for large attachments: nothing of 2 GB or more is ever delivered. (`C02_large_attachment_unreadable`)
* C03: C03 violated for large metadata: nothing of 2 GB or more is ever delivered (the writer accepts it). (`C03_large_metadata_unreadable`)
* C05: C05 violated by short callbacks: in every state of the writer, if a sub-block whose data callback ends more than 12288 bytes early is added, and another sub-block after it (both without exception), then the second segment starts inside the first one. (`C05_short_callback_overlap`)
* C06: C06 violated by short callbacks: if a sub-block (without attachment, for simplicity) whose data callback ends more than 32768 bytes early is added, and a sub-block with at least as many bytes of data after it, then reading the first delivers data that are not those of the callback extended with zeros: the segment of the second sub-block appears in them. (`C06_short_callback_corrupts`)
* C07: C07 violated beyond 4096 bytes: too few bytes are written and reported: only half of the blocks of 4096 bytes, rounded up. The byte at the end of the requested range keeps its old value. (`C07_zero_fill_too_short`)
* C08: C08 violated for sub-blocks: in every document, if `SyncAddSubBlock` throws because a write fails (at whatever point, whatever part of it got to the file) or because a callback delivers a null pointer, then a following `Close` succeeds, and the document lists one sub-block more than were added. (`C08_failed_add_is_listed`)
* C08: C08 violated for attachments: the same if a write of `SyncAddAttachment` fails (without a reservation for the attachment directory). (`C08_failed_attachment_is_listed`)
* C09: C09 violated (distinct sub-block rejected): a pyramid sub-block with a zoom slightly below 1 (20000/20001) is rejected as a duplicate of a layer-0 sub-block, although the zooms differ. (`C09_distinct_zoom_rejected`)
* C09: C09 violated (depends on the order): three sub-blocks with zooms z1 > z2 > z3, neighbours within the tolerance: in one order two are accepted, in another only one. (`C09_outcome_depends_on_order`)
* C09: C09 (violated in general). Two sub-blocks with the same coordinate and m-index (or position, if they have none) whose zooms differ, but by not more than 0.0001: the second one is rejected as a duplicate of the first. (`C09_close_zooms_violated`)
* C10: C10 violated: if only m-index bounds are declared (no dimension bounds), every m-index is accepted. (`C10_m_bounds_ignored`)
* C13: C13 violated. On every sound document, after any tame calls: a `ReplaceAttachment` with data that do not fit into the place of the old succeeds; but when another attachment is then added successfully, reading the first returns the data of the second under the name of the first. (`C13_undone_by_add`)
* C14: C14 violated (both directories grow). On every sound document, after any tame calls: if both directories need a new segment, `Close` succeeds, but the file header then leads to an attachment directory that begins inside the sub-block directory. (`C14_directories_overlap`)
* C14: C14 violated (every new file with sub-blocks and attachments). A document that was newly created with a reader-writer and has at least one sub-block and one attachment is damaged in this way by `Close`. (`C14_new_file_overlap`)
* C14: C14 violated (fewer attachments). On every sound document with `n` attachments whose directory has the size for them: after `RemoveAttachment` of one of them, `Close` succeeds, but a reader then finds three attachments less instead of one (none if there were fewer than three), or cannot open the document any more if it was the only one. (`C14_remove_attachment_damages`)
* C14: C14 violated (no sub-blocks). A new file that is closed before a sub-block was added has no sub-block directory: it cannot be opened again, neither by a reader nor by a reader-writer. (`C14_new_empty_file_unreadable`)
* C15: C15, violated (too many dimensions). Wherever the parser gets to an entry of the directory that has the schema DV, gives more than 40 (and less than 10^8) dimensions and contains that many, they are copied beyond the end of an array of 40 dimension entries. (`C15_too_many_dimensions_overrun`)
* C15: C15, violated (negative number of dimensions). Wherever the parser gets to an entry of the directory with the schema DV that gives -1 dimensions, it copies a negative number of bytes. (`C15_negative_dimensions_overrun`)
* C15: C15, violated (opening a document). Opening any document whose sub-block directory is completely in the file and starts with such an entry has undefined behaviour, with all options. (`C15_open_overrun`)
* C15: C15, violated (no memory). If the memory for the directory cannot be allocated, and the file contains at least one byte of it, the bytes are written through a null pointer. (`C15_allocation_failure_undefined`)
* C15: C15, violated (negative number of dimensions in a sub-block). Reading the header of a sub-block segment that gives -3 dimensions overruns the structure if the file goes on for more than 592 bytes after the first 288 bytes of the segment. (`C15_subblock_negative_dimensions_overrun`)
* C15: C15, violated (missing dimension). With the default options, reading a sub-block whose header agrees with the directory in pixel type, compression, coordinate and m-index, but does not give X, compares and uses an indeterminate value. (`C15_missing_x_undefined`)
* C17: C17 violated: for a sub-block with m-index 5 and no dimension at all, the statistics report no m-index. (`C17_m_index_lost`)
* C17: C17 (violated in general). A sub-block without any dimension does not count for the m-index range: whenever its m-index lies outside the range of the m-indices of the other sub-blocks, the statistics are not exact. (`C17_m_index_violated`)
* C18: C18 violated after editing: add one sub-block, ask for the pyramid statistics, replace the sub-block by itself: now the pyramid statistics count two sub-blocks although there is one. (`C18_double_count_after_modify`)
* C18: C18 (reader-writer, exactly when). For every history of operations: the pyramid statistics are exact if and only if no sub-block was ever replaced or removed successfully. So the property is violated by every history with a successful replacement or removal, however long ago and whatever came after it: the statistics then count more sub-blocks than there are. (`C18_reader_writer_exact_iff`)
* C18: C18 (small bitmaps; violated without the bound of 146 pixels). Halving a bitmap of 3 by 3 pixels, rounded down, gives a bitmap that is counted on layer 1 of a pyramid with factor 3; rounded up, it is counted as not belonging to any layer. So is a bitmap of 12673 pixels that is reduced to 100 pixels on layer 7. (`C18_small_layers_violated`)
* C18: C18 (violated for the sort). The comparison that `std::sort` is given says that layer 0 goes before itself, which the standard forbids: that the order comes out right depends on the implementation never comparing an element with itself. (`C18_comparison_violated`)
* C20: C20 violated for types of eight characters. An attachment whose content-file-type has eight characters and whose name is not empty is never found under its own type; it is found under the text made of its type and its name. (`C20_eight_character_type_missed`)
* C21: C21 violated: in a document whose only sub-block has no channel, a sub-block is found for channel 7. (`C21_wrong_channel_found`)
* C21: C21 (violated in general). In a document in which no sub-block has a channel, a sub-block is found for every channel whatsoever (if there is any). (`C21_wrong_channel_violated`)
* C23: C23 violated for empty intervals: for the bounds "Z0:0", which contain no coordinate, the callback is nevertheless called with Z=0. (`C23_empty_interval_delivers`)
* C23: C23 (all bounds). For all bounds with at least one dimension the enumeration presents, to every callback, exactly the coordinates within the bounds in which each empty interval is replaced by its start: so the property is violated exactly by bounds with an empty interval, for which there are no coordinates, but some are presented. (`C23_enumerates_filled`)
* C23: C23 (violated in general). Whenever an interval is empty, no coordinate is within the bounds, but the callback is called. (`C23_empty_interval_violated`)
* C26: C26 violated by lone signs: `-`, `+` and the interval `+-5` are accepted, with the sign counting as 0; `3 - 7` is rejected. (`C26_lone_sign_accepted`)
* C27: C27 (a valid text is rejected): `C-01000000000` denotes an `int` and is rejected, while `C-1000000000` is accepted. (`C27_leading_zero_rejected`)
* C28: C28 violated by empty bounds: their text is rejected. (`C28_empty_fails`)
* C28: C28 violated by foreign characters: whatever characters other than letters are put in front of an accepted text, the result is accepted and means the same. (`C28_garbage_accepted`)
* C28: C28 violated by sizes of 0: bounds with an interval of size 0 are printed to a text that does not denote them. (`C28_zero_size_fails`)
* C30: C30 violated if the mask mode differs. After an accessor which ignores masks has put a sub-block into the cache, a mask-aware accessor gets it without its mask; after a mask-aware accessor has put it into the cache, an accessor which ignores masks gets it with the mask (and the compositor applies it). (`C30_mask_mode_mixed`)
* C30: C30 violated if directory and sub-block disagree on the position: a cached tile is placed according to the directory, an uncached one according to the sub-block. (`C30_position_differs`)
* C32: C32 violated with masks: two 1x1 Gray8 sub-blocks at the same place, the upper one fully masked out. Without the optimisation the lower one (5) is visible, with the optimisation it is not drawn at all. (`C32_masks_change_picture`)
* C32: C32 violated with masks, in general. Take any two sub-blocks, the rectangle of the lower one inside that of the upper one. At every pixel of the lower one (in the region) at which the upper one is masked out, the picture without the optimisation shows the lower sub-block, with the optimisation the background: the pictures differ unless the lower sub-block happens to have the background's colour. (`C32_masks_violated`)
* C33: C33, defect 1 (violated by the code): converting Bgr24 to Bgr48 reads outside the source buffer, here for a single 1x1 pixel with a well-formed source and destination. (`C33_bgr24_to_bgr48_out_of_bounds`)
* C33: C33, defect 2 (violated by the code): with `drawTileBorder` the interior of a tile is shifted by one pixel: in a 4x3 Gray8 tile the inner pixel (1,1) of the destination receives the source pixel (0,1), and (2,1) receives (1,1). (`C33_border_shifts_content`)
* C33: C33, defect 3: with `drawTileBorder` and a visible width of one pixel the copy length is negative, i.e. undefined behaviour. (`C33_border_width_one_undefined`)
* C33: C33/C57, defect 1 in general. Copying with a converter that reads more bytes than a source pixel has (Bgr24 to Bgr48: six instead of three) accesses memory outside of the source buffer whenever the last pixel of the bitmap is copied and the buffer does not contain that many bytes after its beginning, as in every bitmap without row padding. (`C33_overread_violated`)
* C33: C33 violated with tile borders: what is drawn instead. Copying a tile with a border into a bitmap, for every position at which the visible part of the tile is at least two pixels wide or at most two pixels high: the outermost pixels of the visible part become black, and every pixel inside shows the left neighbour of the source pixel belonging there. (`C33_border_violated`)
* C33: C33, defect 3 in general: if exactly one column of the tile is visible, and more than two rows, the copy length is negative. (`C33_border_one_column_violated`)
* C35: C35, violated for converting copies: a 2x1 Gray8 bitmap with a mask of ones copied into Gray16: the second pixel of the destination is not written at all (and stays 9), although it is not masked out. (`C35_converting_masked_copy_wrong`)
* C35: C35 violated by every converting masked copy: what it does instead. For every converter that stays within the source pixel, every source, destination, mask and position: only the first column of the common region is ever written - with the conversion of the first source pixel of the row, and if any pixel of the row is unmasked, even if the first one is masked out. All other pixels keep their old contents although they may be unmasked. (`C35_converting_masked_copy_violated`)
* C36: ... but with 2^31 words per row it wraps around and accepts stride 0. (`C36_stride_check_wraps`)
* C37: C37 fails for packed Bgr48 with the default options (size-mismatch handling on): after a round trip through a lossless codec the bitmap still has the contents of the uninitialised memory it was created in. (`C37_bgr48_packed_fails`)
* C37: C37 fails for short data: a payload of one byte, other than 1 and 3, makes the header parser read the byte after it. (`C37_header_reads_outside`)
* C37: ... and a payload of two bytes whose second is 1 makes it read the third. (`C37_header_reads_outside_two`)
* C37: ... and a header size which is neither 1 nor 3 is accepted. (`C37_header_size_unchecked`)
* C37: C37 violated for every packed Bgr48 bitmap with the default options (size-mismatch handling on). Whatever lossless codec, bitmap and options: after compressing with packing and decoding, the last two thirds of every row are what happened to be in the memory allocated for the bitmap. (`C37_bgr48_packed_violated`)
* C38: C38 fails for a packed payload of odd size: one byte of the bitmap is neither payload nor zero but what was in memory. (`C38_odd_packed_payload`)
* C38: C38 fails for a packed Bgr48 payload which is too small: most of the payload is not in the bitmap. (`C38_bgr48_packed_payload`)
* C38: C38 fails for uncompressed data which are too large: although an exception is documented, the call succeeds. (`C38_uncompressed_too_large_accepted`)
* C38: C38 violated for packed payloads of another size than expected: which bytes are lost. With size-mismatch handling, a packed payload of `n` bytes is taken to have `n / bytesPerPixel` 16-bit words. If `n` is smaller than the bitmap, the bytes from twice this number up to `n` are neither payload nor zero but what was in memory; if it is larger, those that belong to the bitmap. For Bgr48 these are two thirds of the payload, for Gray16 the last byte of a payload of odd size. (`C38_packed_lost_violated`)
* C39: C39 violated: a region whose right edge is negative - it lies entirely to the left of the bitmap - fills its rows over the bitmap's whole width. This holds for every bitmap of at most 2^31-8 columns, and every such region that meets its rows. (`C39_fill_outside_region`)
* C39: C39 violated: for a bitmap of 2^32-1 columns the check's size computation wraps around, so that a memory block of a single byte is accepted, and reading a pixel accesses memory far outside of it. (`C39_wide_bitmap_out_of_bounds`)
* C40: C40 violated (memory): for every bitmap of two or more rows whose width leaves a remainder of 1 when divided by 16, and every neighbourhood size, the last line's result is written past the end of the memory of the result. (`C40_width_overflow`)
* C40: C40 violated (rows): for neighbourhood sizes 2 to 7 and lines of 32 or more columns, only the topmost row of the neighbourhood and the row below the pixel are looked at: the pixel `(0, 4)` of the result is set although no pixel of the row `8` of the source is set. (`C40_large_neighbourhood_wrong`)
* C40: C40 violated (right border): the byte following the last word is compared with the width in pixels instead of bytes, so that for a width of 32 the first pixels of the next row are taken for neighbours of the last pixel. (`C40_right_border_wrong`)
* C41: C41, violated. The index handed to the callback is always 0: no callback can tell the calls apart by the index. (`C41_index_always_zero`)
* C41: C41, violated. With a second chunk, the calls are wrong for every container whose first payload has at least 16 bytes that are not the GUID of the second chunk: the code reads the second header at the beginning of the first payload. (`C41_second_chunk_wrong`)
* C41: C41, violated. Sizes of 2^32 - 20 pass the check because of 32-bit wrap-around and do not advance the offset: with a callback that does not stop, the code runs out of the attachment, for every attachment made of such chunks. (`C41_wrap_out_of_bounds`)
* C42: C42 violated by long texts: more than eight digits are accepted, the ones after the eighth are ignored; shorter ones are rejected. (`C42_long_text_accepted`)
* C43: C43 violated by trailing backslashes and empty values. A key ending in a backslash swallows the `=`, a value ending in a backslash swallows the following pair, an empty value is accepted everywhere but in the last place, and a value without a key is dropped silently in the last place. (`C43_escape_ambiguous`)
* C44: C44, violated. An `Unlock` without a `Lock` can disturb another thread: with the schedule shown, thread 1, which locks and unlocks correctly, gets an exception from its `Unlock`. (`C44_rogue_unlock_disturbs`)
* C44: C44, violated. An `Unlock` without a `Lock` is not reported if any other thread holds a lock, whose lock it then takes away. (`C44_rogue_unlock_unreported`)
* C45: C45, violated in the C++ memory model. The flag `isOperational` is read by `ReadSubBlock` and written by `Close` without any synchronisation: with every read and every `Close` running concurrently there is a schedule with a data race, which is undefined behaviour in C++ (the theorems above give the accesses to the flag sequentially consistent meaning). (`C45_flag_race`)
* C46: C46 violated: whenever some sub-block lies in the region, but none of the requested layer does, the accessor throws `std::out_of_range` instead of returning the background - for every repository, plane and request. (`C46_empty_layer_throws`)
* C46: C46 violated: with the minification factor 0 or 1, one sub-block with a minification of 2 or more in the region is enough for the computation of layer numbers never to end (until the layer counter overflows) - whichever layer is requested. (`C46_factor_too_small`)
* C46: C46 violated: with the minification factor 0, every request for a layer other than 0 divides by zero. (`C46_factor_zero`)
* C48: C48 is violated by a position that is torn. A document whose metadata begin at 1344 = 5 · 256 + 64. The last write is cut after the first byte of this position, so that the header points to 64, where the identifier of the file is; if its bytes spell the name of a metadata segment, then the document opens, and its metadata are not those given, but empty. (`C48_torn_position_violated`)
* C51: C51, violated for large pieces. A piece of exactly 4 GiB (given to a fresh object) makes the code run out of the buffer, since its size is truncated to 32 bits, which gives 0, and the loop counter wraps around. The same message in two pieces is fine (`C51_md5_partial`). (`C51_four_gigabytes_undefined`)
* C52: C52, violated. If the container has no mask chunk, the code uses an uninitialised variable instead of reporting it; shown for every container with one chunk that is not a mask. (`C52_no_mask_undefined`)
* C52: C52, violated. A mask chunk with a payload of 8 bytes (width and height only) passes the size check because `size - 12` wraps around: with 8 arbitrary further bytes for representation and stride, a bitmap of any size is created, and none of its pixels is in the attachment. (`C52_short_chunk_out_of_bounds`)
* C52: C52, violated. For a width of 2^32 - 7 or more the minimal stride computed is 0: a bitmap without any pixel data is accepted. (`C52_width_wrap_out_of_bounds`)
* C55: C55, violated. If the document has no attachment directory, then a reader object that was used for another document before still lists that one's attachments. (`C55_stale_attachments`)
* C57: C33, defect 1 (violated by the code): converting Bgr24 to Bgr48 reads outside the source buffer, here for a single 1x1 pixel with a well-formed source and destination. (`C33_bgr24_to_bgr48_out_of_bounds`)
* C57: C35, violated for converting copies: a 2x1 Gray8 bitmap with a mask of ones copied into Gray16: the second pixel of the destination is not written at all (and stays 9), although it is not masked out. (`C35_converting_masked_copy_wrong`)
* C57: C33/C57, defect 1 in general. Copying with a converter that reads more bytes than a source pixel has (Bgr24 to Bgr48: six instead of three) accesses memory outside of the source buffer whenever the last pixel of the bitmap is copied and the buffer does not contain that many bytes after its beginning, as in every bitmap without row padding. (`C33_overread_violated`)
* C57: C35 violated by every converting masked copy: what it does instead. For every converter that stays within the source pixel, every source, destination, mask and position: only the first column of the common region is ever written - with the conversion of the first source pixel of the row, and if any pixel of the row is unmasked, even if the first one is masked out. All other pixels keep their old contents although they may be unmasked. (`C35_converting_masked_copy_violated`)
* C58: C58, violated: an exception with a half-composed destination. If a channel has a pixel type that is not supported, or is a Bgra32 bitmap with a black or white point, then the exception comes after the channels before it have been composed into the destination. (`C58_unsupported_partial_write`)
* C58: C58, violated: a null pointer among the source bitmaps is used before it is tested for. (`C58_null_source_undefined`)
* C58: C58, violated: a negative number of table entries is not rejected, and the table is used whatever the pointer is. (`C58_negative_lut_undefined`)
* C59: C59, violation (all sizes): enlarging a bitmap to twice its width or more leaves the last column unwritten. The pixels of the last column are those the destination had before; `NearestNeighborResize` without ROIs passes a new bitmap, whose contents are not initialised. (`C59_upscale_unwritten`)
* C59: C59, violation: the column after the ROI is painted. If the ROIs are rectangles of whole pixels, the one of the source ends before the last column of the source and the one of the destination before the last column of the destination, then the column `dp + dw`, which is outside the ROI of the destination, is overwritten with the source pixel at `sp + sw`. (`C59_outside_roi`)
* C59: C59, empty source regions are not checked: with supported pixel types and a source region of width (or height) zero the code divides by zero and converts the result to an integer, which is undefined. (`C59_empty_source_undefined`)
* C60: C60 (magnification is not supported). With a zoom above 1.06 nothing is painted at all, whatever the document contains: every byte of the result is the background. (`C60_magnified_blank`)
* C60: C60, violation: the visibility optimisation leaves holes at the seams of sub-blocks. Three sub-blocks of a pyramid with factor 2, without masks, a zoom of 0.525 and the size of the bitmap this gives: column 1 lies inside of the first and of the second sub-block. Without the optimisation it shows the first sub-block; with it the first sub-block is not drawn, because the other two cover it, but neither of them is drawn at this column, which shows the background. (`C60_visibility_violated`)
* C60: C60, violation: the visibility optimisation ignores masks. Two 1x1 sub-blocks at the same place, the upper one masked out: without the optimisation the lower one (5) is visible, with it the background. (`C60_masks_change_picture`)
* C60: C60, violation: with sorting by m-index, the order passed to `std::sort` need not be a strict weak ordering. Two sub-blocks on layer 0, and a third one of the same zoom 1 that is stored with a different width: the first two are ordered by m-index, but both are equivalent to the third. The behaviour of `std::sort` is then undefined. (`C60_sort_order_invalid`)
* C60: C60, violation: sub-blocks without a scene index. If at least two scenes are involved, the sub-blocks without a scene index have no influence on the result at all, although they pass every scene filter; with one scene they are painted. (`C60_no_scene_ignored`)
* C60: C60, violation: with a zoom of 1, sub-blocks of a pyramid with a zoom between 0.953 and 1 are copied without being enlarged. If such a sub-block is the only candidate, the pixels of its rectangle to the right of its stored width keep the background. (`C60_unscaled_pyramid_gap`)
* C61: C61 (violation: a failed call is not undone). If a later step of the path makes the call throw and the first step did not lead to a node before, the node of the first step is created nevertheless: the document is changed by the call that failed. (`C61_create_not_atomic`)
* C62: C62 (violation: CDATA). If the first child is a CDATA section, `SetValue` succeeds, but `TryGetValue` finds no value afterwards. (`C62_cdata`)
* C62: C62 (violation: negative numbers as unsigned ones). `TryGetValueAsUInt64` accepts every negative number above −2^64 and returns another number. (`C62_unsigned_negative`)
* C62: C62 (violation: white space after the number). The functions do not return exactly if the value of the node is a number in the range of the type followed by white space (and anything): the loop that is to skip the white space never advances. In particular a number followed by a line break makes the caller hang. (`C62_hangs`)
* C63: C63 (violation: the year of a text). A well-formed text whose year does not fit into an `int` makes `TryParse` throw, although it is documented to return `false`; that is the only case. (`C63_throws`)
* C63: C63 (violation: the sign of small offsets). The sign of an offset `-00:mm` is lost: the date read is ahead of UTC by `mm` minutes instead of behind. (`C63_sign_lost`)
* C63: C63 (violation: leap seconds). A valid date with second 60 is written as a text that is not read back. (`C63_leap_second`)
* C63: C63 (violation: western zones). A valid date with an offset of −9 to −1 hours, say −5:00, is written with one digit and without leading zero; the text is not read back. (`C63_western_zone`)
* C63: C63 (violation: years before −999). A valid date with a year between −999 and −1 is written as a text that is not read back. (`C63_early_year`)
* C64: C64 (violation: white space). A text of white space only is lost when the document is saved and loaded: in a document without the field (for instance a new one) the field is then read as the empty text. Stated for the title; the fields are treated alike. (`C64_blank_lost`)
* C64: C64 (violation: carriage returns). A text that contains a carriage return (and is not all white space) is never read back after saving and loading: the line ends have been converted. (`C64_return_lost`)
* C64: C64 (violation: the start of a dimension). For a document that states neither start nor size of a dimension (for instance a new one), the start read after `WriteFillWithSubBlockStatistics` is 0, whatever the start in the statistics is. (`C64_start_lost`)
* C64: C64 (violation: time and z). What `WriteDimInfoT_Interval`, `WriteDimInfoT_List`, `WriteDimInfoZ_Interval` and `WriteDimInfoZ_List` write is never read: they write below `Metadata/Information/Dimensions`, `GetDimensionTInfo` and `GetDimensionZInfo` read below `Metadata/Information/Image/Dimensions`. For every document and all arguments, the two return what they returned before (for a new document: null). (`C64_positions_not_read`)
* C64: C64 (violation: start position of z). `WriteDimInfoZ_List` stores the start position as the start time. (`C64_z_start_is_time`)
* C66: C66 (violation: no sub-blocks). For a writer to which nothing was added, the document states that the image has the sizes -1. (`C66_empty`)
* C66: C66 (violation: pixel types). For a channel with the pixel type Gray32 (12) or Gray64Float (13), no pixel type is stated, although such a statement would be understood when read. (`C66_type_not_stated`)
* C66: C66 (violation: names). With an identifier that contains a comma or a slash, `GetPreparedMetadata` throws; if two channels have the same identifier, there is only one entry. (`C66_bad_names`)
* C67: C67 violated (reader-writer, strided bitmap). The reader-writer keeps the space between the lines but the reader does not know of it: for a stride larger than a line, byte `i` of line `y` of the bitmap that is read back is byte `y  w  bpp + i` of the memory given, not `y  stride + i`. (`C67_rw_strided_wrong_lines`)
* C67: C67 violated (reader-writer, strided bitmap). It reads behind the end of a bitmap whose memory ends with the last pixel. (The writer does not: `C67_strided`.) (`C67_rw_strided_overrun`)
* C67: C67 (violated for Gray64ComplexFloat). A pixel of 64 bits (of a type that the library does not otherwise support) is taken for 16 bytes: twice as many bytes per line are taken from the memory of a bitmap as it has. (`C67_complex_size_violated`)
* C68: C68 is violated for compressed data. Whatever compression other than "uncompressed" is announced, and whatever the data are, the sub-block made is marked as uncompressed: no sub-block that is shown as written is reported as given, and for the compression modes of the library its data are not decoded. (`C68_compression_lost`)
* C68: C68 is violated for the size of the data. The size announced for uncompressed data is not looked at: with memory of the announced size that does not hold all lines, bytes outside of the memory are read. (`C68_size_not_checked`)
* C70: C70 (violated: attachments and document information). The handle of an attachment passes for that of document information and the other way round: using or releasing it as such, or asking it for display settings, is undefined. (`C70_confused_violated`)
* C70: C70 (violated: null handles). A null handle given to the function that reads an attachment, or among the bitmaps to compose, is undefined. (`C70_null_violated`)
* C70: C70 (violated: no place for the result). Whenever the functions that get the metadata segment or read an attachment return a handle, the same call with a null pointer for the result is undefined. (`C70_null_out_violated`)
* C70: C70 (violated: no display settings). If the document has no display settings then success is reported and a handle is returned all the same, and asking it for a channel is undefined. (`C70_no_settings_violated`)
* C71: C71 (violation: white space after the number). `TryGetValueAsDouble` and `TryGetValueAsFloat` do not return if the value of the node is a number with white space behind it, or if there is nothing but white space. (`C71_hangs_violated`)
* C71: C71 (violation: other values). There are different values of type `double` for which `SetValueDbl` writes the same text; so no function can read all of them. The same holds for `float` and `SetValueFlt`. (`C71_exact_violated`)
* C72: C72 (violation: the weight). The weight of a channel is not written; 1 is read. (`C72_weight_violated`)
* C72: C72 (violation: a spline without points). A spline without control points is read as a linear curve. (`C72_empty_spline_violated`)
* C72: C72 (violation: a channel number below 0). Settings for a channel with a negative number are lost. (`C72_negative_violated`)
* C72: C72 (violation: undefined behaviour). Reading the settings of a channel is undefined behaviour if in the list of control points a number is followed by a character with a code of 256 or more (`std::isspace` is called with it). (`C72_wide_character_violated`)
* C72: C72 (settings of other software). Whatever the texts in the element of a channel are, its settings can be read, except for control points with wide characters (`C72_wide_character_violated`). The colour is the one that the text denotes, and white if there is no text or it denotes none. The channel is enabled iff the text means yes or there is none. Without control points the curve is no spline. (`C72_foreign`)
* C74: C74 (violation: names are paths). The name of a tag is used as a path: asked for a tag `a/b`, the functions give what is inside of the tag `a`; and a name that is empty, or begins or ends with a slash, makes them throw instead of returning false, if there are tags. (`C74_path_violated`)
* C74: C74 (violation: white space behind a number). If the tag for the x-position is a number followed by white space, `TryGetStagePositionFromTags` does not return (if there is a tag for the y-position), and neither does `TryGetTagAsDouble`. (`C74_hangs_violated`)
* C75: C75 (violated: the exponential for gamma less than 1). The documentation promises the exponential for every gamma. For gamma = 1/2, a table of 256 bytes and the points 0 and 1, value 1 is at most 8, whatever (reasonably exact) `pow` is used; the exponential would be 15. (`C75_exponential_violated`)
* C75: C75 (violated: one index between the points). If exactly one index is between the black point and the white point, the call has undefined behaviour for every gamma: a NaN is converted to an integer. (`C75_one_index_violated`)
* C75: C75 (violated: size). If the white point is to the left of the black point, the table (for a gamma of at least 1) has more values than asked for: the indices between the points are there twice. (`C75_size_violated`)
* C75: C75 (violated: one index between the points, splines). As for gamma: undefined behaviour. (`C75_spline_one_index_violated`)
* C76: C76 (violated: control points close together). With a control point closer than 1/1000 to the left end (and not at height 0) the curve has a kink: the slopes of the two polynomials at the control point differ by `y  (1/x - 1000)`. (`C76_kink_violated`)
* C77: C77 (gamma without a value, violated). A channel with gamma mode and no gamma value makes the program use an uninitialised variable. (`C77_no_gamma_violated`)
* C79: C79 is violated by infinite components. The accessors do not fill if a component of the background colour is NaN, but with an infinite and a negative infinite component the mean of a Gray8 or Gray16 pixel is NaN although no component is: its conversion to an integer is undefined behaviour - for every bitmap. (`C79_infinite_violated`)
* C79: C79 is violated by NaN. `Utils::FillBitmap` does not check for NaN: with a NaN component filling a bitmap of an integer type is undefined behaviour. (`C79_nan_violated`)
* C80: C80 violated: sub-blocks that terminate the process. With size-mismatch handling (the default), creating the bitmap ends the process exactly if the data can be decoded, neither image is empty, a bitmap of the declared type can be created, and there is no conversion from the type of the image to it (an image of floating-point numbers in a sub-block of an integer type; any image in a Bgra32 sub-block): the exception destroys the two bitmaps while they are locked. (`C80_abort_violated`)
* C80: C80 violated: sub-blocks that make the library read outside of memory. A Bgr24 image in a Bgr48 sub-block of at least its size: the conversion reads beyond the end of the decoded bitmap (unless its width modulo four is three, when the padding is long enough). (`C80_overread_violated`)
* C81: C81 violated for negative indices. "If the specified index is not valid, then false is returned" (an empty pointer, for the functions that read): a reader throws an exception for every negative index. (`C81_negative_index_violated`)
* C81: C81 violated after `Close`. "Further calls to other methods will fail": `TryGetSubBlockInfo` and `TransformPoint` go on answering as before. (`C81_closed_violated`)
* C81: C81 violated after `Close` (what `TransformPoint` answers). A reader that was closed still converts points: the raw sub-block coordinates are the pixel coordinates moved by the upper left corner `(ox, oy)` of the bounding box, and conversely. (`C81_closed_transform_violated`)
* C81: C81 violated by the enumeration of a reader-writer. For every reader-writer and attachment whose type has eight characters: if the memory happened to hold anything but zero, `EnumerateAttachments` presents that attachment with a type that is not terminated ("a null-terminated character array"), so reading it as a text leaves the structure. (`C81_eight_character_type_violated`)
* C81: C81 violated for long names. If an attachment was given to a reader-writer with a name of 80 characters (`SetName` makes one of every longer text), then asking for its information, and every enumeration that does not stop before it, is undefined behaviour: the name is copied past the end of the entry. (`C81_long_name_violated`)
* C82: C82 (violated: `Close` that moves the sub-block directory). Whenever `Close` needs a new place for the sub-block directory, its first write marks the old directory as deleted, to which the file header still points: if the process stops after this write, the file cannot be opened at all, though no sub-block of it may have been touched. (`C82_close_violated`)
* C82: C82 (violated: `Close` that moves the attachment directory). The same holds for the attachment directory. (`C82_close_attachments_violated`)
* C82: C82 (violated: metadata). If `WriteMetadata` needs a new place, then from its first write on (also when the call has returned) until `Close` has written the file header, the file has neither the old nor the new metadata: reading them fails. (`C82_metadata_violated`)
* C82: C82 (violated: removing). After `RemoveSubBlock` or `RemoveAttachment` and before `Close`, the file still lists the item, but reading it fails. (`C82_remove_violated`)
* C82: C82 (violated: replacing by something larger). After `ReplaceSubBlock` or `ReplaceAttachment` that needs a new place and before `Close`, the file lists the item, but it has neither the old nor the new contents: reading it fails. (`C82_replace_violated`)
* C82: C82 (violated: replacing in place). `ReplaceAttachment` with data that fit overwrites the old data: if it stops in between, the attachment reads as a mixture: here `[5, 6]` is replaced by `[7, 8]`, and after the crash a reader gets `[7, 6]`. (`C82_torn_violated`)
* C82: C82 (violated: `Close` that rewrites the sub-block directory in its place). The bytes written begin with the new number of entries. If the process stops after these and before the entries (`36 ≤ j ≤ 160`), a file that can be opened lists the first of the old entries, as many as the new directory has: a sub-block that no call has touched is no longer listed if its old index is not below this number. This is so, for example, for the last sub-block of any document after its first one has been removed. (`C82_close_in_place_violated`)
* C83: C83, violated (exposure time, negative end). A text with two minus signs is not rejected: the end of the range `a--b` is 2^64 minus `b`. (`C83_negative_violated`)
* C83: C83, violated (range without start). The range `-b` is returned with the smallest positive (normal) number as start, not with the smallest number: zero and the negative numbers are not in the range, although they are below its end. (`C83_open_start_violated`)
* C83: C83, violated (characters beyond 255). A number followed by such a character, or by white space and such a character, makes the behaviour undefined: the character is passed to `isspace`. (`C83_wide_character_violated`)
* C84: C84 violated (short reads). Whatever the number of bytes the operating system delivers at most (2147479552 on Linux), there is a file that is not delivered completely: the rest is not asked for. (`C84_short_violated`)
* C84: C84 violated (no mutex). The input-output stream on a C `FILE` has no mutex: whenever two threads read, there is a schedule with which the first gets the bytes at the offset of the other one. (`C84_no_mutex_violated`)
* C84: C84 violated (HTTP, ignored range). With a server that ignores the range, every read of at least as many bytes as the file has delivers the file from its beginning, whatever the offset. The same for any other body, e.g. that of an error message: the status of the response is not looked at. (`C84_http_ignored_violated`)
* C84: C84 violated (HTTP, piece of 23 bytes). The number the stream returns to libcurl for a piece that does not fit is 23, which libcurl takes for the length of the piece if this has 23 bytes: the piece is left out, the transfer goes on, and the pieces around it are delivered as if they were contiguous. (`C84_http_23_violated`)
* C84: C84 violated (memory, end). Reading at the end of the memory of a stream, or beyond, is an exception, although the interface says that it is not. (`C84_memory_end_violated`)
* C85: C85 (start coordinate; violates the property). The start coordinate of a dimension is left as it is: with a number whose bytes are not the same in both orders, the dimension entry of a document is not converted correctly. (The library writes zero here; other programs may not.) (`C85_startCoordinate_violated`)
* C85: C85 (new document; violates the property). A reader-writer which creates a document writes the right header, but remembers the header after its conversion: the major version it reports is 16777216, the GUID it reports has its numbers mirrored, and this GUID is what `Close` then writes to the file. (`C85_new_document_violated`)
* C85: C85 (forced GUID; violates the property). Setting the GUID of an existing document writes the right bytes, but the GUID remembered (and written again by `Close`) is mirrored. (`C85_forced_guid_violated`)
* C85: C85 (other pixel types; violates the property). Uncompressed pixels of every other type, for example `Gray32Float`, cannot be read at all on a big-endian host. (`C85_float_violated`)
* C85: C85 (zstd0; violates the property). Samples decoded from zstd0 data are not converted: every sample whose two bytes differ has a wrong value on a big-endian host. (`C85_zstd_violated`)
* C85: C85 (written pixels; violates the property). The memory of a bitmap is written to the file as it is. A 16-bit bitmap written and read back on the same big-endian host is different at every sample whose two bytes differ. (`C85_written_violated`)
* C86: C86 (disabled channels make the picture brighter, violated). The structure of a disabled channel has the weight zero, but the composition divides the weights by their mean over all channels. So if `m` of `n` channels are enabled (all with the same weight) and the others are disabled, then what an enabled channel contributes is multiplied by `n / m` - although the display settings, and the picture made with the C++ helper, say that disabled channels are left out. (`C86_disabled_violated`)
* C86: C86 (all channels disabled, violated). If no channel is enabled, then the sum of the weights is zero and the weights are not used at all. The black and the white point of a disabled channel are both zero: every grey pixel that is not zero becomes white (instead of black). (`C86_all_disabled_violated`)
* C86: C86 (a disabled channel makes the composition fail, violated). If the bitmap of a disabled channel has an alpha channel, then the composition fails (because of the black and white point zero), although the channel is not needed - the first channel, any other channels. (`C86_disabled_alpha_violated`)
* C86: C86 (a channel without settings, violated). For a channel index that the display settings do not have, a null pointer is used (there is no error code). (`C86_unknown_channel_violated`)
* C86: C86 (gamma without a value, violated). An enabled channel with gamma mode and no gamma value makes the program use an uninitialised variable. (`C86_no_gamma_violated`)
* C87: C87 (options that are not understood are ignored, violated). A text for the writer that is not JSON or not an object - every such text - is not refused: the writer is made as if there were no text. (`C87_invalid_ignored_violated`)
* C87: C87 (one bound alone is ignored, violated). If only one of the bounds of the m-index is given, then there are no bounds. (`C87_one_bound_violated`)
* C87: C87 (a GUID that is none is ignored, violated). If the string for the file GUID cannot be read as a GUID, the call is not refused: the file gets a new GUID. (`C87_bad_guid_violated`)
* C87: C87 (zero characters, violated). What follows a zero character in a name or in a string is dropped: a member with the name of a property, a zero and anything else is taken for the property, and the value of a string property is cut. (`C87_zero_violated`)
* C88: C88 (the mode of the drive, violated). If the metadata say how the z-drive was operated, this is never returned: there is no drive mode in the information, everything else is right. (The code takes the text of another element.) (`C88_drive_mode_violated`)
* C88: C88 (the mode of the drive, violated the other way). A drive mode is returned if the element for the direction of the axis contains one. (`C88_direction_as_mode_violated`)
* C88: C88 (violated: years that are too large). A start time whose year does not fit into an `int` makes the function throw, although the text can be recognised as a date, so that the positions cannot be had either: the parser is documented to return false (`C63_throws`). (`C88_start_time_violated`)
* C88: C88 (other white space, violated). A list whose numbers are separated by other white space - new lines or tabs - loses all numbers but the first: what follows is ignored without an error. (`C88_newline_violated`)
* C88: C88 (numbers that are too large, violated). A position or a drive speed that is too large for `double` makes the call fail with an exception, although it is documented to return what is there, and although such a number in the start position is returned as infinite. (`C88_huge_violated`)
* C89: C89 (violated: contrast of the condenser). The member "condensor_contrast" has the text of the element "Reflector" instead of "CondenserContrast", for every channel of every document: it is missing if there is no reflector, whatever the contrast of the condenser. (`C89_condenser_violated`)
* C89: C89 (violated: digits of wavelengths). Wavelengths that are nearer to the same number with six digits have the same text: every `x` in a whole interval around `d` is shown as `d`. (`C89_digits_violated`)
* C89: C89 (violated: success without a text). For every dimension except Z, T and C the function reports success and stores nothing. (`C89_other_dimension_violated`)
* C89: C89 (violated: numbers that are not finite). If the start of the Z axis is infinite or not a number, the function reports success, and what it returns is not a JSON text of any value: it ends in the middle. (`C89_not_finite_violated`)
* C91: C91 is violated by failing removals. The item is gone although the call threw: the object shows the contents without it, and calling again throws for another reason. (`C91_failed_remove_violated`)
* C91: C91 is violated by every failing `SyncAddSubBlock`. The sub-block stays in the directory although the call threw. Repeating the call throws for a tile with M-index; and the next sub-block that is added is shown twice, under its own key and as the one that failed. (`C91_failed_add_violated`)
* C91: C91 is violated by every failing `SyncAddAttachment`. The attachment stays in the directory although the call threw. Repeating the call throws; and the next attachment that is added gives its data to the one that failed: its identity and name, with the other data. (`C91_failed_add_attachment_violated`)
* C91: C91 is violated by failing metadata writes. If the new metadata do not fit into the old segment, that is marked as deleted first; if the next write fails, the old metadata cannot be read any more. (`C91_failed_metadata_violated`)
* C91: C91 is violated by replacements in their place. If the second write of such a replacement fails, the object shows neither the old data nor the new: here the size of the new attachment with the data of the old one. (`C91_torn_replace_violated`)
* C92: C92 violated for blank text. A text of white space only – a separator, a single blank as a name – is gone after saving and loading. (`C92_blank_violated`)
* C92: C92 violated for carriage returns. A text with a carriage return comes back as another text, which has none (a carriage return in an attribute is preserved). (`C92_return_violated`)
* C92: C92 violated for text next to text. If a comment separates two pieces of text, the loaded element has two text nodes; saved and loaded again, it has one, and so a text node – and what `TryGetValue` returns, which is the first one – has changed. (`C92_neighbours_violated`)
* C92: C92 violated for names. Names are not checked when elements are created: if the name of the root element begins with a character that cannot begin a name (a digit, say, or a blank), the text that `GetXml` returns cannot be loaded, whatever the element contains. (`C92_name_violated`)
* C92: C92 (violation: removing a child). After `RemoveChild` of an element between two pieces of text, the document is saved and loaded with one text instead of two. (`C92_remove_violated`)
* C93: C93 (violation: the same attribute twice). An element with two attributes of the same name, which no well-formed document has, is accepted. (`C93_duplicate_violated`)
* C93: C93 (violation: text outside of the root element). Text before the root element, which no well-formed document has, is accepted and ignored. (`C93_junk_violated`)
* C93: C93 (violation: two root elements). Two elements one after the other, which are no well-formed document, are accepted. (`C93_roots_violated`)
* C93: C93 (violation: a comment inside of text). If there is a comment inside of the text of an element, its value (`IXmlNodeRead::TryGetValue`) is only the text before the comment: of the texts `v` and `w`, `w` is lost. (`C93_comment_violated`)
* C93: C93 (violation: CDATA). The value of an element whose text is in a CDATA section cannot be read with `IXmlNodeRead::TryGetValue`. (`C93_cdata_violated`)
* C93: C93 (violation: entities). An entity that is declared in the document is not replaced. (`C93_entity_violated`)
* C94: C94 violated (opening, C library). Without leave to overwrite, every existing file that may be written but not read is emptied; and so is every file that another process makes after the library has looked for it. (`C94_open_stdio_violated`)
* C94: C94 violated (writing, C library). For every sequence of writes the C library and the operating system can answer so that every call reports success, and yet the last write is lost when the file is closed. (`C94_lost_violated`)
* C94: C94 violated (documents, C library). Every document can be lost in this way: every write that the writer issues from `Create` to `Close` is reported as complete, so that `Close` returns normally, and the file cannot be opened afterwards. (`C94_document_lost_violated`)
* C94: C94 violated (editing, C library). The input-output stream on a C `FILE` opens the file with the mode `rwb`, which does not allow writing: no call ever changes the file, and none of at least one byte reports its bytes as written. (`C94_edit_violated`)
* C95: C95 violated: sizes for which creating a bitmap is undefined. Without a stride given by the caller, creating a bitmap of any width (of 32 bits) is undefined (signed overflow) exactly if a line of it has 2 GiB or more, or the width as a signed number is negative and a line of its absolute value has more than 2 GiB. (`C95_create_violated`)
* C95: C95 violated: bitmaps without memory for their pixels. For widths that are small negative numbers when taken as signed (such as the stored width -1 in a file), the bitmap is created, but not even one of its lines fits into its memory: it has the huge positive width, at least one line, and a stride that is shorter than a line. (`C95_memory_violated`)
* C95: C95 violated: zstd data that write outside of memory. For every pixel type of more than one byte per pixel and every size such that a line has 4 GiB or more, a sub-block with any data that zstd can decode writes beyond the end of the bitmap's memory (by at least 4 GiB), with size-mismatch handling (the default) and, if the payload has the declared size, also without: the stride is truncated to 32 bits, the memory has the size for the truncated stride, the data are written for the whole one. (`C95_zstd_violated`)
* C95: C95 violated: bitmaps of uncompressed data with pixels outside of memory. If a line has 4 GiB or more, its length is truncated to 32 bits also when it is checked whether the sub-block has enough data: a bitmap of the declared size is returned, with and without size-mismatch handling, whose pixels are not in memory. (`C95_uncompressed_violated`)
* C95: C95 violated: uncompressed data that write outside of memory. A Gray8 sub-block of stored width -1 to -6, with too few data, and size-mismatch handling (the default): the bitmap has no memory, and the data and zeros are written into it. (`C95_uncompressed_write_violated`)
* C95: C95 violated: JPEG-XR data. With size-mismatch handling (the default) a sub-block whose image can be decoded (and is of ordinary size), but has another size than declared, is undefined behaviour whenever a line of the declared width has 2 GiB or more (the default stride overflows); likewise, with or without handling, data whose own image has such lines. (`C95_jxr_violated`)
* C96: C96 violated: two sites accepted. Two overlapping calls of `SetSiteObject` can both be accepted: the test and the assignment are not one step. (`C96_two_sites_violated`)
* C96: C96 violated: the site changes while it is used. If `SetSiteObject` overlaps with the first use of the library, it can be accepted although the built-in site is in use: one use sees the built-in site, the next one the other. (`C96_changes_violated`)
* C96: C96 violated: the null site. `SetSiteObject(nullptr)` is accepted (although documented as not allowed), also several times and before another site is set; if it overlaps with the first use of the library, that use sees a null site. (`C96_null_violated`)
* C97: C97 (violated: a null pointer with a size). An attachment whose stored size is negative, and an attachment for which `malloc` fails, are read without an error; `GetRawData` then gives the null pointer, together with a size that is not zero: the user who reads so many bytes from the pointer crashes. (`C97_null_pointer_violated`)
* C97: C97 (violated: memory released twice). If `ICZIReader::ReadSubBlock` has read a sub-block with pixel data, and there is no memory for the counter of one of its three shared pointers, the pixel data is released twice: by the shared pointers, and again by the guards that were meant to prevent a leak. (`C97_released_twice_violated`)
* C97: C97 (violated: memory lost). If there is no memory for the object itself (for an attachment: or for one of the two copies of its name), `ReadAttachment`, `ReadMetadataSegment` and `ICziReaderWriter::ReadSubBlock` throw, and what was read stays allocated although no variable gives access to it. (`C97_leak_violated`)
* C98: C98 is violated by adding. Adding a sub-block or an attachment that failed because of a write cannot be made again, in no state of the writer and at no write: the second call throws because the item is there already. (That it is listed in the document, where it cannot be read: `C08_failed_add_is_listed`, `C08_failed_attachment_is_listed`.) (`C98_add_violated`)
* C98: C98 is violated by `Create`. `Create` that failed because of a write cannot be made again, with whatever arguments: the object takes itself for one that is working. (`C98_create_violated`)
* C98: C98 is violated by working on after a failing `Create`. Adding a sub-block and `Close` then succeed; but the sub-block and the directory are written to the beginning of the file, where `Close` puts the file header afterwards. The document cannot be opened. (`C98_create_file_violated`)
* C98: C98 is violated by metadata that are written again. New metadata that do not fit into the place of the old ones: the old ones are marked as deleted first. If the next write fails and the call is not made again, the document has no metadata that can be read, although one call to write metadata succeeded. (`C98_metadata_violated`)
* C99: C99, violation: overlapping sub-blocks without a difference in m-index. Which of them is on top is decided by `std::sort`, which is not stable; with an implementation allowed by the standard it depends on what else is in the region: the pixel at (0,0) is 6 in the picture of a region with that pixel only, and 5 in the picture of a region that is one pixel wider. (`C99_order_violated`)
* C99: C99, violation: sub-blocks of a pyramid that are not on the grid of the region. A sub-block of 4x4 pixels at x = 1, stored with 2x2, on layer 1 (a pixel has the size 2): the region at x = 0 has it in the pixels 0 and 1, so that pixel 2 - at x = 4 in the document - is blank; the region at x = 4 has it in its pixel 0, which is at the same place, too. The division by the size of a pixel rounds towards zero, down for the one region and up for the other. (`C99_pyramid_violated`)
* C99: C99, violation: what is painted with a zoom below 1 depends on what else is in the region. A sub-block of layer 0 (5), and beside it a sub-block of the pyramid (7) with half the resolution. With the zoom 1/2 the picture of the region of the first one shows it; in the picture of a region with both - to the same scale - its place is blank: as there is a sub-block of a better fitting zoom somewhere in the region, finer ones are not painted anywhere. (`C99_scaled_violated`)
* C100: C100, violation: large tile sizes. A tile height of 2^31 or more (the option accepts every `uint32_t` but 0) becomes negative: nothing at all is written, and the command reports success - for every region of at least two rows, whatever else is requested. (`C100_large_tile_violated`)
* C100: C100, violation: overflow. If the height of the region and that of a tile together exceed the largest `int` - a tile height of 2147483647, for example, meant as 'everything in one tile' - the number of tiles is computed with signed overflow: the behaviour is undefined. (`C100_overflow_violated`)
* C101: C101 (violated: bounding boxes). Whenever the sub-blocks of a document do not lie in a rectangle with `int` position, size and end points - one of them ends beyond the largest `int`, or two are too far apart - computing the statistics is undefined (signed overflow). This holds for every document with two sub-blocks or more, in any order; the statistics are computed when the document is opened. (`C101_statistics_violated`)
* C101: C101 (violated: ranges of dimensions). Whenever two sub-blocks have values of the same dimension whose distance, plus one, is not an `int`, computing the statistics is undefined; no order of the sub-blocks helps. (`C101_intervals_violated`)
* C101: C101 (violated: the largest index). Whenever two sub-blocks of a document have the value 2147483647 of the same dimension, computing the statistics is undefined, although the value is an `int` and the interval has one element: the code forms the end of the interval. (`C101_largest_index_violated`)
* C101: C101 (violated: queries). A region whose end is not an `int` - such as one that begins at 1 and is as large as an `int` can tell - makes the enumeration undefined for every document that has a sub-block in the plane (on layer 0, if requested), wherever that sub-block is, and whatever the callback does. (`C101_query_violated`)
* C101: C101 (violated: the region of a picture). If a region (position and size of the bitmap) ends beyond the largest `int`, requesting its picture is undefined for every document with a layer-0 sub-block in the plane - wherever that is, with and without sorting and visibility check. (`C101_region_violated`)
* C101: C101 (violated: offsets of tiles). Even if the region and all sub-blocks are rectangles of the range of `int`: if a sub-block that shares a pixel with the region ends more than 2147483647 pixels to the right of the region's left edge, its picture is undefined (no visibility check), although no pixel beyond the region is asked for. (`C101_offset_violated`)
* C102: C102 violated for JpgXr and Jpg. The options of the command line accept these methods (with every level), and the command ends without an exception; but whatever the bounds, the mosaic and the pictures are, the document that is written has no sub-blocks at all. (`C102_jxr_violated`)
* C102: C102 violated for bounds with an empty interval. There is no coordinate within such bounds; but (if the other options make sense) the document has sub-blocks, namely all the tiles for the bounds in which the empty interval is replaced by its start (`L` is a list of these coordinates). (`C102_empty_interval_violated`)
* C102: C102 violated for large mosaics. The positions are computed with 32 bits: in every mosaic without overlap, a tile whose exact position is between 2^31 and 2^32 is given a negative position, 2^32 pixels to the left of (or above) the place where it belongs. (`C102_position_violated`)
* C103: C103 violated by `TryGetSubBlockInfo`. If a document cannot be opened because its attachment directory cannot be read (its sub-block directory can), then the reader, which says of itself that it is not open, answers `TryGetSubBlockInfo` with the sub-blocks of this document; whatever the reader was used for before. (`C103_info_violated`)
* C103: C103 violated for attachments. If a reader has opened a document with attachments, was closed and opens one that has no attachment directory, it presents the attachments of the first document; a new reader presents none. (`C103_attachments_violated`)
* C104: C104 is violated when the channel is left out. A plane coordinate may leave out a dimension in which the sub-blocks do not differ. But if all sub-blocks written have the same channel (not the least `int`) and the plane leaves it out, there is always an exception when no pixel type is asked for - although the plane fits, and with a pixel type the picture is delivered (`C104_picture_partial`). (`C104_channel_left_out_violated`)
* C104: C104 is violated by magnified pictures. A correct picture with a zoom above 1.06 shows nothing but the background, whatever was written. (`C104_magnified_violated`)
* C104: C104 (the tile filter, violated). With a filter for scenes, only sub-blocks of the scenes in the filter are to be considered; the 1:1 accessor does not look at it. Under the conditions above, every pixel that is covered by sub-blocks of scenes that the filter excludes, and by no others, shows one of the excluded sub-blocks and not the background. (`C104_tile_filter_violated`)
* C104: C104 (regions far away, violated). A region given relative to the sub-blocks whose position has more than 32 bits is not reported: with every document, the sum overflows and the behaviour of both commands is undefined. (`C104_command_overflow_violated`)
* C104: C104 (no enabled channel, violated). If no channel is enabled in the display settings, the two commands do not report this: with every document and region, their behaviour is undefined (a pointer is read from an empty vector). (`C104_composite_no_channel_violated`)
* C104: C104 is violated by layers that are missing in the region. With every document, plane, layer and region: if there are sub-blocks in the region, but only of other layers, there is an exception instead of a picture of the background, sorted or not. (`C104_layer_missing_violated`)
* C104: C104 is violated by the command for layers that are missing in the region. It reports an error and writes no picture. (`C104_layer_command_missing_violated`)
* C104: C104 is violated by the command for numbers above 255. They are neither used nor reported: only the last eight bits of the factor and of the number of the layer count, so that the result is that for another layer. (`C104_layer_number_violated`)
* C104: C104 is violated at the borders of sub-blocks of a layer. Take two sub-blocks of equal height side by side, without a gap and without overlap, and any region that begins inside the left one, not at a pixel of the layer: the last column of the left sub-block and the first column of the right one get the same place in the picture, so that one of them is not shown (distances to the left and to the right of the corner are rounded in different directions). (`C104_layer_seam_violated`)
* C105: C105 (sizes, violated). The parser leaves with an exception, instead of reporting a wrong text, exactly for those texts of the documented form whose first number does not fit 64 bits, or whose second does not after a first one in range. So it violates "a text is taken or reported as wrong". (`C105_size_exception_violated`)
* C105: C105 (arrangements, violated). An arrangement with an explicit overlap of zero percent is reported as wrong, although it has the documented form and its meaning, no overlap, is available without the percentage: the code violates the documentation here. (`C105_zero_overlap_violated`)
* C105: C105 (regions, violated). A text with white space anywhere is reported as wrong. The examples in the help of the program, which have blanks after the commas, are therefore all refused: the code violates its documentation. (`C105_region_blanks_violated`)
* C105: C105 (formats, violated). A hexadecimal alpha value written with a capital `X` is not refused, it gives an image that is transparent: whatever the number is, the alpha value is 0. The code violates that a number is taken as what it is or refused. (`C105_capital_hex_violated`)
* C105: C105 (formats, violated). A decimal alpha value that does not fit 32 bits makes the parser leave with an exception, while smaller numbers above 255 are reported as wrong: it violates that every wrong text is reported. (`C105_format_exception_violated`)
* C105: C105 (lists, violated). What follows an empty item is not looked at. If a list without empty items is followed by two separators, the text behind them may be anything: it is neither taken nor reported as wrong, in violation of the statement. (`C105_list_tail_violated`)
* C105: C105 (background, violated). A number that is missing counts as 0, so texts without any number are colours, which violates the promise that every part is a number. (`C105_background_empty_violated`)
* C105: C105 (scan of a plane without a region, violated). The help text says that the scan goes over the region given with `--rect`. Without one the arguments are accepted nevertheless, and the scan ends as if it had succeeded without having written a file, whatever the value of the mode, which nothing has set, and for every size of the tiles that is an `int`. This violates the promise that a missing argument is reported. (`C105_scan_region_violated`)
* C106: C106 is violated: two attachments, one file. The first attachment has no name and the type `b_1.c`, the second the name `0.b` and the type `c`: both are named after the same file, so that whichever is written last replaces the other. (`wide` is exact for these texts.) (`C106_same_file_violated`)
* C106: C106 is violated: files in other directories. If the name of the attachment contains a slash, its file is not beside the one named by the user. (`C106_other_directory_violated`)
* C106: C106 is violated: whole numbers. A selection with a number written without fraction and exponent, as in `{"index":3}`, is rejected. (`C106_whole_number_violated`)
* C106: C106 is violated: fractions. An index that is no whole number is not rejected: `{"index":3.7}` selects the attachment with the index 3, and `{"index":-0.5}` that with the index 0. (`C106_fraction_violated`)
* C106: C106 is violated: large numbers. An index beyond the range of `int` makes the behaviour undefined. (`C106_large_index_violated`)
* C107: C107 is violated by every command that fails. If the arguments are accepted and the command then leaves with an exception, or reports a failure, the status is 0 as if all had gone well: the value of `execute` is not used. Only the complaint tells that the work was not done; the files written before remain. (`C107_failure_status_violated`)
* C107: C107 is violated by a document that cannot be opened. With a file that is not there, or that is not a document, every command that reads a document ends with the status 0, whatever it would have done with the document. (`C107_missing_document_violated`)
* C107: C107 is violated by layers that are missing. Whatever calls are made to the writer: if a picture is asked for of a layer of which the region holds nothing (conditions as for `C104_layer_command_missing_violated`), nothing is written, and the status is 0. (`C107_layer_missing_violated`)
* C107: C107 is violated by a scan of a plane without a region. With any document that can be opened (and a corner of layer 0 that the mode, which nothing has set, may refer to), the process ends with the status 0 and even without a complaint, and has written no file. (`C107_scan_region_violated`)
