{"id": "C01", "title": "Written sub-blocks read back unchanged", "statement": "If a document is created with ICZIWriter, any sequence of SyncAddSubBlock calls is made and Close succeeds, then ICZIReader on the produced bytes enumerates exactly the sub-blocks whose add succeeded (coordinate, m-index, logical rectangle, physical size, pixel type, compression, pyramid type), and ReadSubBlock of each returns byte for byte the pixel data, metadata and attachment that were passed in.", "quantifier": "all sequences of add operations, all coordinates, all payload contents and sizes", "why_tests_cant": "The layout of every later segment depends on all earlier ones; tests can only sample a few sequences and sizes.", "anchors": ["Src/libCZI/CziWriter.cpp: CCziWriter::SyncAddSubBlock, CWriterUtils::WriteSubBlock, WriteSubBlkDirectory", "Src/libCZI/CziParse.cpp: CCZIParse::ReadSubBlockDirectory, ReadSubBlock"]}
{"id": "C02", "title": "Written attachments read back unchanged", "statement": "Every attachment successfully added with ICZIWriter::SyncAddAttachment is enumerated by the reader after Close with its GUID, content-file-type and name, and ReadAttachment returns its bytes unchanged; no other attachment appears. This holds whatever reservation for the attachment directory was requested in the writer info.", "quantifier": "all sequences of attachments, all reservation sizes", "why_tests_cant": "Loss happens only for particular combinations of reserved size and attachment count.", "anchors": ["Src/libCZI/CziWriter.cpp: WriteAttachment, WriteAttachmentDirectory, ReserveAttachmentDirectory", "Src/libCZI/CziParse.cpp: ReadAttachmentsDirectory, ReadAttachment"]}
{"id": "C03", "title": "Written metadata reads back unchanged", "statement": "The XML passed to SyncWriteMetadata (the last successful call) is returned unchanged by ReadMetadataSegment after Close, independent of how often it is rewritten, of its size relative to the reserved space, and of what is added afterwards.", "quantifier": "all XML byte strings, all numbers of rewrites, all reservation sizes, all interleavings with other adds", "why_tests_cant": "In-place versus append decision depends on previous allocations.", "anchors": ["Src/libCZI/CziWriter.cpp: CWriterUtils::WriteMetadata, CCziWriter::WriteMetadata", "Src/libCZI/CziParse.cpp: ReadMetadataSegment"]}
{"id": "C04", "title": "On-disk structures are decoded to what was encoded", "statement": "Encoding a file header, segment header, directory entry (schema DV) or attachment entry (A1) and decoding it returns the same field values, for every value representable in the fields; the encoded sizes are those of the CZI specification.", "quantifier": "all field values in range, all numbers of dimensions", "why_tests_cant": "The value space is astronomically large (64-bit positions, 32-bit signed coordinates).", "anchors": ["Src/libCZI/CziStructs.h", "Src/libCZI/CziWriter.cpp: FillSubBlockDirectoryEntryDV", "Src/libCZI/CziParse.cpp: AddEntryToSubBlockDirectory"]}
{"id": "C05", "title": "Segments are aligned and never overlap", "statement": "In every file produced with ICZIWriter, each segment starts at a multiple of 32, the allocated size of each is a multiple of 32 and at least the used size, and the ranges [position, position+32+AllocatedSize) of the segments are pairwise disjoint.", "quantifier": "all sequences of add operations and payload sizes", "why_tests_cant": "A violation needs a specific history of sizes.", "anchors": ["Src/libCZI/CziWriter.cpp: CCziWriter, CWriterUtils::SetAllocatedAndUsedSize, AlignSegmentSize, WriteZeroes"]}
{"id": "C06", "title": "Callback-provided payload is stored as specified", "statement": "When pixel data/metadata/attachment are delivered through a getData callback, the stored bytes are the concatenation of the delivered chunks, truncated to the declared size; if the callback returns false early the remainder is zero so that exactly the declared size is stored, and what is written after it starts at the declared end.", "quantifier": "all chunk sequences, all declared sizes", "why_tests_cant": "Chunkings and sizes are unbounded; the defect needs more than 4096 missing bytes.", "anchors": ["Src/libCZI/CziWriter.cpp: CWriterUtils::WriteSubBlkDataGeneric, WriteSubBlkData, WriteZeroes", "Src/libCZI/libCZI_Write.h: AddSubBlockInfo"]}
{"id": "C07", "title": "Zero fill writes exactly the requested number of zero bytes", "statement": "A request to zero-fill n bytes at position p makes exactly the bytes p..p+n-1 of the output zero, leaves all others alone, and reports n bytes written.", "quantifier": "all n, all p, all previous stream contents", "why_tests_cant": "Wrong only above a size threshold; n is unbounded.", "anchors": ["Src/libCZI/CziWriter.cpp: CWriterUtils::WriteZeroes"]}
{"id": "C08", "title": "A failed add leaves the document unchanged", "statement": "If SyncAddSubBlock or SyncAddAttachment on a writer throws (for an I/O error, a callback that delivers a null pointer, or oversized metadata), the document written by a later successful Close contains exactly the items whose add succeeded.", "quantifier": "all histories, all failure points", "why_tests_cant": "Needs fault injection at every point of every history.", "anchors": ["Src/libCZI/CziWriter.cpp: CCziWriter::SyncAddSubBlock, SyncAddAttachment"]}
{"id": "C09", "title": "Duplicate sub-blocks are rejected, distinct ones never are", "statement": "Unless duplicates are explicitly allowed, SyncAddSubBlock on a writer rejects a sub-block iff one with the same zoom, coordinate and m-index (or position, if there is no m-index) was added before; the outcome of the whole sequence does not depend on how the directory is arranged internally.", "quantifier": "all sets of sub-blocks, all insertion orders", "why_tests_cant": "A comparison that is not a strict weak order misbehaves only for particular triples.", "anchors": ["Src/libCZI/CziSubBlockDirectory.cpp: CWriterCziSubBlockDirectory::SubBlkEntryCompare, TryAddSubBlock"]}
{"id": "C10", "title": "Declared bounds are enforced", "statement": "If ICziWriterInfo declares dimension bounds and/or m-index bounds, a sub-block is accepted by SyncAddSubBlock iff its coordinate has exactly the declared dimensions, each within its bounds, and its m-index is valid and within the m-index bounds if such are given; each rejection reports the right reason.", "quantifier": "all bounds, all coordinates, all m-indices", "why_tests_cant": "Combination space of nine optional dimensions and bounds.", "anchors": ["Src/libCZI/CziWriter.cpp: CCziWriter::CheckCoordinate", "Src/libCZI/libCZI_Write.h: ICziWriterInfo"]}
{"id": "C11", "title": "Editing a document preserves what was not edited", "statement": "After opening an existing document with ICziReaderWriter, applying any sequence of add/replace/remove operations and Close, every sub-block and attachment that was not replaced or removed still reads back with the same contents; replaced ones read back with the new contents; removed ones are gone.", "quantifier": "all documents, all operation sequences", "why_tests_cant": "History dependent.", "anchors": ["Src/libCZI/CziReaderWriter.cpp: CCziReaderWriter::Finish, ReplaceSubBlock, SyncAddSubBlock, DetermineNextSubBlockOffset"]}
{"id": "C12", "title": "Sub-block keys of the reader-writer are stable handles", "statement": "The index of a sub-block reported by ICziReaderWriter is never re-used: it designates the same sub-block until that one is removed, and afterwards designates none; lookup, modification and removal behave as on a finite map from keys to sub-blocks, and adding rejects a sub-block iff a layer-0 sub-block with identical coordinate and m-index is present (and the new one is on layer 0, too).", "quantifier": "all operation sequences", "why_tests_cant": "History dependent; aliasing of handles appears after particular add/remove patterns.", "anchors": ["Src/libCZI/CziSubBlockDirectory.cpp: CReaderWriterCziSubBlockDirectory"]}
{"id": "C13", "title": "Replacing an attachment is not undone by a later append", "statement": "After ReplaceAttachment(key, data) on a reader-writer succeeds, reading that attachment returns data until it is replaced or removed again, whatever is appended afterwards.", "quantifier": "all attachment sizes, all later operations", "why_tests_cant": "Only fails if the replacement does not fit in place and something is appended later.", "anchors": ["Src/libCZI/CziReaderWriter.cpp: CCziReaderWriter::ReplaceAttachmentAddNewAtEnd, CNextSegment"]}
{"id": "C14", "title": "Close of the reader-writer writes both directories intact", "statement": "After Close of a reader-writer the sub-block directory and the attachment directory referenced from the file header are both well formed and list exactly the current items: writing one never overwrites bytes of the other or of any item.", "quantifier": "all directory sizes and all combinations of in-place and appended directories", "why_tests_cant": "Depends on sizes modulo 32 and on the combination of in-place/append.", "anchors": ["Src/libCZI/CziReaderWriter.cpp: CCziReaderWriter::Finish", "Src/libCZI/CziWriter.cpp: WriteSubBlkDirectory, WriteAttachmentDirectory"]}
{"id": "C15", "title": "No file content makes the directory parser leave its buffers", "statement": "For every byte content of the stream, opening a document and enumerating/reading its directory entries either succeeds or throws; it never accesses memory outside the buffers it read.", "quantifier": "all byte strings", "why_tests_cant": "Adversarial inputs; fuzzing samples only.", "anchors": ["Src/libCZI/CziParse.cpp: ParseThroughDirectoryEntries, ReadSubBlock, ReadSubBlockDirectory"]}
{"id": "C16", "title": "Strict and lax parsing accept exactly the documented entries", "statement": "With strict parsing a directory is accepted iff every DV entry satisfies the size-one rules (all dimensions other than X/Y, the m-index, and the physical sizes) and has X and Y; lax parsing accepts every entry strict parsing accepts with an identical result.", "quantifier": "all entries, all option combinations", "why_tests_cant": "Combinatorial option/dimension space.", "anchors": ["Src/libCZI/CziParse.cpp: CCZIParse::AddEntryToSubBlockDirectory", "Src/libCZI/CziParse.h: SubblockDirectoryParseOptions"]}
{"id": "C17", "title": "Statistics describe exactly the sub-blocks present", "statement": "GetStatistics reports: the number of sub-blocks, the smallest rectangle enclosing all logical rectangles, the same restricted to layer 0 and per scene, per dimension the exact interval of indices occurring, and the minimum and maximum m-index occurring. The result does not depend on the order in which sub-blocks are stored.", "quantifier": "all multisets of sub-blocks, all orders", "why_tests_cant": "Unbounded number of sub-blocks and orders.", "anchors": ["Src/libCZI/CziSubBlockDirectory.cpp: CSbBlkStatisticsUpdater"]}
{"id": "C18", "title": "Pyramid statistics count every sub-block once", "statement": "In GetPyramidStatistics, for each scene, the counts of all layers add up to the number of sub-blocks of that scene, each layer is listed once, a sub-block is counted on the layer that its minification belongs to, the layers are listed from full resolution to the coarsest, and this remains true after any sequence of add/replace/remove on a reader-writer.", "quantifier": "all documents, all operation sequences", "why_tests_cant": "History dependent.", "anchors": ["Src/libCZI/CziSubBlockDirectory.cpp: UpdatePyramidLayerStatistics, Clear, RecreateSubBlockStatistics"]}
{"id": "C19", "title": "Subset enumeration is exact and ordered", "statement": "EnumSubset(plane, roi, onlyLayer0) delivers exactly the sub-blocks whose coordinate matches every dimension in plane, whose logical rectangle intersects roi, and (if requested) which are on layer 0, each once, in directory order; it stops immediately when the callback returns false.", "quantifier": "all directories, all queries, all stop points", "why_tests_cant": "Unbounded directories and queries.", "anchors": ["Src/libCZI/CziReaderCommon.cpp: EnumSubset", "Src/libCZI/CziUtils.cpp: CompareCoordinate"]}
{"id": "C20", "title": "Attachment filter is exact", "statement": "EnumerateSubset(type, name) on attachments delivers exactly those whose content-file-type and name equal the given strings (null meaning any), for all content-file-types representable in the file.", "quantifier": "all attachment directories, all filters", "why_tests_cant": "Fails only for eight-character types.", "anchors": ["Src/libCZI/CziReaderCommon.cpp: EnumerateSubset", "Src/libCZI/CziAttachmentsDirectory.h"]}
{"id": "C21", "title": "Representative sub-block of a channel", "statement": "TryGetSubBlockInfoOfArbitrarySubBlockInChannel(c) succeeds iff the document contains a sub-block with C=c (or has no C dimension and c = 0), and then returns such a sub-block.", "quantifier": "all documents, all channel indices", "why_tests_cant": "Unbounded documents.", "anchors": ["Src/libCZI/CziReaderCommon.cpp: TryGetSubBlockInfoOfArbitrarySubBlockInChannel"]}
{"id": "C22", "title": "Coordinate comparison is a total order", "statement": "Utils::Compare on coordinates is reflexive, antisymmetric and transitive and returns 0 exactly for coordinates with the same dimensions and values; CompareCoordinate(a,b) holds iff every dimension of a is present with the same value in b.", "quantifier": "all coordinates, all triples", "why_tests_cant": "Transitivity ranges over all triples.", "anchors": ["Src/libCZI/libCZI_Utilities.cpp: Utils::Compare", "Src/libCZI/CziUtils.cpp: CompareCoordinate"]}
{"id": "C23", "title": "Enumeration of all coordinates of bounds", "statement": "Utils::EnumAllCoordinates(bounds) delivers every coordinate within the bounds exactly once, no other, in a fixed lexicographic order, and stops when the callback returns false.", "quantifier": "all bounds", "why_tests_cant": "Sizes and dimension subsets are unbounded.", "anchors": ["Src/libCZI/libCZI_Utilities.cpp: Utils::EnumAllCoordinates"]}
{"id": "C24", "title": "File codes of enumerations are unambiguous", "statement": "For pixel types, compression modes, pyramid types and dimension characters, decoding an encoded value yields it back; distinct values have distinct codes; unknown codes decode to Invalid.", "quantifier": "all 32-bit codes", "why_tests_cant": "2^32 codes.", "anchors": ["Src/libCZI/CziUtils.cpp", "Src/libCZI/libCZI_Utilities.cpp: DimensionToChar, CharToDimension"]}
{"id": "C25", "title": "Frame-of-reference transforms are inverse", "statement": "Transforming a point or rectangle from frame A to B and back returns it unchanged; going through a third frame gives the same result; rectangle sizes are preserved and intersection tests are frame independent.", "quantifier": "all points, rectangles and documents", "why_tests_cant": "Unbounded coordinates.", "anchors": ["Src/libCZI/CZIReader.cpp: CCZIReader::TransformPoint", "Src/libCZI/libCZI.h: TransformRectangle"]}
{"id": "C26", "title": "Index-set strings denote the documented set", "statement": "For every string of comma separated items n, a-b (with optional signs, inf), IndexSetFromString yields a set whose IsContained(i) is true iff i equals some n or lies in some closed interval; malformed strings and reversed intervals are rejected.", "quantifier": "all strings, all indices", "why_tests_cant": "All strings.", "anchors": ["Src/libCZI/IndexSet.cpp"]}
{"id": "C27", "title": "Coordinates survive printing and parsing", "statement": "StringToDimCoordinate(DimCoordinateToString(c)) = c for every coordinate c; the parser rejects a string with a repeated dimension.", "quantifier": "all coordinates with all 32-bit values", "why_tests_cant": "2^(32*9) coordinates.", "anchors": ["Src/libCZI/libCZI_Utilities.cpp: DimCoordinateToString", "Src/libCZI/DimCoordinate.cpp: Int_ParseCoordinate"]}
{"id": "C28", "title": "Dimension-bounds strings are parsed exactly", "statement": "StringToDimBounds(DimBoundsToString(b)) = b, and a string that contains anything that is not a dimension:start:size item or separator is rejected.", "quantifier": "all bounds and all strings", "why_tests_cant": "All strings.", "anchors": ["Src/libCZI/DimCoordinate.cpp: ParseBounds"]}
{"id": "C29", "title": "Cache accounting and pruning", "statement": "After any history of Add/Get/Prune calls on the sub-block cache, the reported element count and byte usage equal those of the entries present; Get returns the value of the latest Add for that key unless it was pruned; after Prune the limits hold; pruning evicts the least recently used first and never more than necessary.", "quantifier": "all histories", "why_tests_cant": "History dependent, unbounded.", "anchors": ["Src/libCZI/subblock_cache.cpp"]}
{"id": "C30", "title": "Cached composition equals uncached composition", "statement": "The bitmap produced by a tile accessor with a sub-block cache equals the one produced without a cache, whatever was done with the cache before (by accessors with any options).", "quantifier": "all cache histories, all option combinations", "why_tests_cant": "History dependent.", "anchors": ["Src/libCZI/SingleChannelAccessorBase.cpp: GetSubBlockDataIncludingMaskForSubBlockIndex"]}
{"id": "C31", "title": "Coverage calculation is exact", "statement": "After adding any rectangles in any order, the coverage calculator reports for a region exactly the number of its pixels lying in the union, and 'completely covered' iff every pixel does.", "quantifier": "all sequences of rectangles", "why_tests_cant": "Unbounded sequences with overlapping splits.", "anchors": ["Src/libCZI/utilities.cpp: RectangleCoverageCalculator"]}
{"id": "C32", "title": "Visibility optimisation does not change the picture", "statement": "The tile accessors produce the same bitmap with the visibility-check optimisation switched on as with it off, for every arrangement of tiles and every region of interest, with and without mask-aware composition.", "quantifier": "all arrangements of tiles, all ROIs, all masks", "why_tests_cant": "Unbounded arrangements.", "anchors": ["Src/libCZI/SingleChannelAccessorBase.cpp: CheckForVisibilityCore", "Src/libCZI/SingleChannelTileAccessor.cpp: ComposeTiles"]}
{"id": "C33", "title": "Tile composition paints exactly the tiles", "statement": "In the composed bitmap, each pixel has the value of the last tile (in painting order, ascending m-index) covering it, clipped to the bitmap, or the background value if none covers it; no memory outside the bitmaps is accessed.", "quantifier": "all tiles, positions (negative too), sizes", "why_tests_cant": "Unbounded geometry.", "anchors": ["Src/libCZI/SingleChannelTileCompositor.cpp", "Src/libCZI/BitmapOperations.cpp: CopyWithOffset"]}
{"id": "C34", "title": "Plane-coordinate validation", "statement": "Tile accessors accept a plane coordinate iff it has no S, gives a value for every dimension that occurs with more than one index in the document, contains no dimension that the document does not have, and each value is in the document's range.", "quantifier": "all coordinates, all documents", "why_tests_cant": "Combinatorial space.", "anchors": ["Src/libCZI/SingleChannelAccessorBase.cpp: CheckPlaneCoordinates"]}
{"id": "C35", "title": "Masked copy touches exactly the unmasked pixels", "statement": "Copying a bitmap with a bitonal mask sets each destination pixel whose source pixel has mask bit 1 to the (converted) source value, and leaves all others unchanged, for every supported combination of pixel types.", "quantifier": "all bitmaps, masks, pixel-type pairs, offsets", "why_tests_cant": "Unbounded bitmaps.", "anchors": ["Src/libCZI/BitmapOperationsBitonal.cpp: CopyWithMask, CopyWithOffsetAndMask"]}
{"id": "C36", "title": "Lo-hi byte packing is lossless", "statement": "Packing after unpacking (and unpacking after packing) of 16-bit words into separated low and high bytes is the identity, for every width, height and stride.", "quantifier": "all bitmaps and strides", "why_tests_cant": "Unbounded.", "anchors": ["Src/libCZI/utilities.cpp: LoHiBytePackUnpack"]}
{"id": "C37", "title": "Zstd1-compressed bitmaps decode to the original", "statement": "Given a lossless zstd codec, compressing a bitmap to zstd1 with or without lo-hi packing and decoding it with the default options gives the original pixels, for every pixel type that can be compressed; malformed zstd1 headers are rejected without reading outside the data.", "quantifier": "all bitmaps, all pixel types, all header bytes", "why_tests_cant": "Unbounded.", "anchors": ["Src/libCZI/zstdCompress.cpp", "Src/libCZI/decoder_zstd.cpp"]}
{"id": "C38", "title": "Resolution protocol for payload of unexpected size", "statement": "If the decoded payload is smaller or larger than width*height*bytes-per-pixel and size-mismatch handling is on, the resulting bitmap is the payload truncated or padded with zeros; if it is off the call fails; if sizes agree the result is the payload.", "quantifier": "all payload sizes", "why_tests_cant": "Unbounded.", "anchors": ["Src/libCZI/CreateBitmap.cpp", "Src/libCZI/decoder_zstd.cpp: DecodeAndHandleSizeMismatch"]}
{"id": "C39", "title": "Bitonal pixel operations are exact", "statement": "SetPixel/GetPixel/Set/Fill on bitonal bitmaps change exactly the addressed pixels: afterwards each pixel inside the (clipped) region has the new value and every other pixel is unchanged.", "quantifier": "all bitmaps, strides and regions", "why_tests_cant": "Unbounded geometry and bit alignment.", "anchors": ["Src/libCZI/BitmapOperationsBitonal.h", "Src/libCZI/BitmapOperationsBitonal.cpp: Fill, Set"]}
{"id": "C40", "title": "Bitonal decimation is exact and in bounds", "statement": "BitonalBitmapOperations::Decimate(n, src) yields a bitmap of half the size in which a pixel is set iff all source pixels in the n-neighbourhood (inside the bitmap) of the corresponding pixel are set; no byte outside source and destination is accessed.", "quantifier": "all bitmaps, all neighbourhood sizes 0..7", "why_tests_cant": "Word-boundary effects for all widths.", "anchors": ["Src/libCZI/BitmapOperationsBitonal.cpp: Decimate"]}
{"id": "C41", "title": "Chunk containers are enumerated exactly", "statement": "EnumerateChunksInChunkContainer delivers for a well-formed chunk container each chunk once, in order, with its index, GUID, offset and size, and throws for a malformed one; it never reads outside of the attachment.", "quantifier": "all byte strings", "why_tests_cant": "Adversarial/unbounded inputs.", "anchors": ["Src/libCZI/SubblockAttachmentAccessor.cpp"]}
{"id": "C42", "title": "Colour strings round-trip", "statement": "Parsing the text produced for an RGB colour gives the same colour; malformed strings are rejected.", "quantifier": "all colours, all strings", "why_tests_cant": "2^24 colours, all strings.", "anchors": ["Src/libCZI/utilities.cpp: Rgb8ColorToString, TryGetRgb8ColorFromString"]}
{"id": "C43", "title": "Key-value (Azure) connection strings", "statement": "Tokenising a connection string composed from a key-value map (with ';' and '=' escaped) yields the same map; malformed strings are rejected.", "quantifier": "all maps and strings", "why_tests_cant": "All strings.", "anchors": ["Src/libCZI/utilities.cpp: TokenizeAzureUriString"]}
{"id": "C44", "title": "Bitmap locking under concurrency", "statement": "If each thread calls Unlock only after its own matching Lock, no call fails and the lock count equals the number of locks held, under every interleaving; an Unlock without a Lock reports an error and does not disturb others.", "quantifier": "all schedules, any number of threads", "why_tests_cant": "Schedules cannot be enumerated by tests.", "anchors": ["Src/libCZI/bitmapData.h: Lock, Unlock"]}
{"id": "C45", "title": "Reading concurrently with Close", "statement": "A ReadSubBlock running concurrently with Close on an ICZIReader either completes on the stream it started with or reports that the reader is not operational; it never uses a released stream.", "quantifier": "all interleavings", "why_tests_cant": "Schedules.", "anchors": ["Src/libCZI/CZIReader.cpp: CCZIReader::ReadSubBlock, Close"]}
{"id": "C46", "title": "Pyramid-layer accessor is total on valid requests", "statement": "For a valid plane and ROI, the pyramid-layer accessor always returns a bitmap (background where the requested layer has no tiles) and terminates.", "quantifier": "all documents, all layer requests", "why_tests_cant": "Data-dependent control flow.", "anchors": ["Src/libCZI/SingleChannelPyramidLevelTileAccessor.cpp"]}
{"id": "C47", "title": "Truncated files give errors, not wrong data", "statement": "If the file is cut at any length, every read of a sub-block, attachment, metadata segment or directory either fails or returns exactly what it would have returned on the complete file.", "quantifier": "all files, all truncation points", "why_tests_cant": "Every byte length of every file.", "anchors": ["Src/libCZI/CziParse.cpp"]}
{"id": "C48", "title": "A crash while writing never yields a wrong document", "statement": "If the process stops after any prefix of the writes issued by ICZIWriter, the file either fails to open, or opens and every listed item reads back with the contents given for it.", "quantifier": "all crash points of all histories", "why_tests_cant": "Crash points times histories.", "anchors": ["Src/libCZI/CziWriter.cpp"]}
{"id": "C49", "title": "In-memory stream reads are exact", "statement": "Read(offset,size) on an in-memory stream returns exactly the bytes available in that range, min(size, length-offset) of them, and rejects offsets at or after the end.", "quantifier": "all buffers, offsets, sizes", "why_tests_cant": "Unbounded.", "anchors": ["Src/libCZI/StreamImpl.cpp: CStreamImplInMemory::Read"]}
{"id": "C50", "title": "GUID comparison is a total order consistent with equality", "statement": "GUID comparison is a total order and equals 0 iff the GUIDs are equal; it orders GUIDs as their text forms are ordered.", "quantifier": "all GUIDs, all triples", "why_tests_cant": "128-bit values.", "anchors": ["Src/libCZI/libCZI_Utilities.h"]}
{"id": "C51", "title": "Streaming hash is independent of chunking", "statement": "The MD5 hash computed incrementally does not depend on how the message is cut into pieces, and the hash of a bitmap depends only on its pixels, not on its stride or padding.", "quantifier": "all messages, all chunkings", "why_tests_cant": "Unbounded.", "anchors": ["Src/libCZI/MD5Sum.cpp"]}
{"id": "C52", "title": "Valid-pixel mask bitmaps", "statement": "The bitonal bitmap made from the valid-pixel mask of a sub-block has the stored width, height and pixels, lies inside the attachment, and malformed masks are rejected with an exception.", "quantifier": "all attachments", "why_tests_cant": "All byte contents of an attachment.", "anchors": ["Src/libCZI/SubblockAttachmentAccessor.cpp: GetValidPixelMaskFromChunkContainer, GetValidPixelMaskAsUncompressedBitonalBitmap, CreateBitonalBitmapFromMaskInfo"]}
{"id": "C53", "title": "Segments of the wrong kind are rejected", "statement": "Opening or reading throws if the stream does not start with a file header, or if a position stored in the file leads to a segment whose identifier is not that of the expected kind.", "quantifier": "all byte strings", "why_tests_cant": "All file contents.", "anchors": ["Src/libCZI/CziParse.cpp"]}
{"id": "C54", "title": "Contradictions between directory and sub-block header", "statement": "By default a sub-block is delivered only if its own header agrees with the directory in pixel type, compression, coordinate, m-index, position and sizes, and otherwise a mismatch exception is thrown; if configured to ignore it, the information of the configured side is delivered.", "quantifier": "all files, all options", "why_tests_cant": "All pairs of headers.", "anchors": ["Src/libCZI/CZIReader.cpp: CCZIReader::ReadSubBlock"]}
{"id": "C55", "title": "Re-opening a reader presents only the new document", "statement": "After Close and Open of another stream, everything a reader object lists and reads is that of the new document.", "quantifier": "all pairs of documents", "why_tests_cant": "Pairs of documents.", "anchors": ["Src/libCZI/CZIReader.cpp: CCZIReader::Open, Close"]}
{"id": "C56", "title": "Invalid calls of the writer are refused without effect", "statement": "Calls at the wrong time throw a logic error, calls with invalid arguments an invalid-argument exception, without any effect on the writer or the file; valid calls are accepted.", "quantifier": "all states, all arguments, all stream behaviours", "why_tests_cant": "All histories.", "anchors": ["Src/libCZI/CziWriter.cpp: CheckAddSubBlockArguments, ThrowIfNotOperational, ThrowIfAlreadyInitialized"]}
{"id": "C57", "title": "Copying bitmaps converts pixels as documented", "statement": "Copying a bitmap to any position of another one gives every destination pixel inside the source (and not masked out) the converted source value - channels kept, or replicated, or averaged; 8-bit numbers kept in 16 bits, 16-bit numbers reduced to the upper byte - changes no other byte, accesses no memory outside the bitmaps, and throws exactly if there is no conversion.", "quantifier": "all bitmaps, pixel types, masks and positions", "why_tests_cant": "All pixel values, sizes and positions.", "anchors": ["Src/libCZI/BitmapOperations.hpp", "Src/libCZI/BitmapOperations.cpp", "Src/libCZI/BitmapOperationsBitonal.cpp", "Src/libCZI/libCZI_Pixels.cpp: BitonalBitmapOperations::CopyAt"]}
{"id": "C58", "title": "Multi-channel composition", "statement": "Composing channels into one picture gives every pixel the saturated sum of what the channels contribute - the source colour, mapped by look-up table or black and white point, times the tinting colour, times the channel's weight relative to the mean weight - with the given alpha value, reads and writes only inside the bitmaps, and bad arguments are refused with an exception and no effect.", "quantifier": "all lists of channels with bitmaps of any size and pixel type", "why_tests_cant": "All sizes, pixel values, settings and numbers of channels; floating-point rounding.", "anchors": ["Src/libCZI/MultiChannelCompositor.cpp: ComposeMultiChannel, CheckArguments, CalcWeightSum, DoTinting, DoTintingBlackWhitePt, DoLut"]}
{"id": "C59", "title": "Nearest-neighbour scaling", "statement": "Scaling (a region of) a bitmap to (a region of) another one gives every pixel of the destination region the value of the nearest source pixel, unless that is masked out, changes nothing outside the region, accesses no memory outside the bitmaps, and throws exactly if the pixel types are not supported.", "quantifier": "all bitmaps, pixel types, regions and masks", "why_tests_cant": "All sizes and regions; floating-point rounding.", "anchors": ["Src/libCZI/BitmapOperations.hpp: InternalNNScale2, NNScale2", "Src/libCZI/BitmapOperations.cpp: NNResize", "Src/libCZI/BitmapOperationsBitonal.cpp: NNResizeMaskAware", "Src/libCZI/libCZI_Utilities.cpp: NearestNeighborResize"]}
{"id": "C60", "title": "Scaling tile accessor", "statement": "For every region and zoom, the scaling accessor returns a bitmap of the size of the region times the zoom; in each scene it takes the sub-blocks fine enough for the zoom, and gives every pixel the nearest pixel of the topmost of these at that place of the document - higher scenes above lower ones, finer above coarser ones, on layer 0 by m-index or directory order - or the background; the visibility optimisation does not change the picture; no memory outside the bitmaps is accessed.", "quantifier": "all documents, planes, regions, zooms, scene filters and options", "why_tests_cant": "All arrangements of sub-blocks; floating-point rounding.", "anchors": ["Src/libCZI/SingleChannelScalingTileAccessor.cpp"]}
{"id": "C61", "title": "Metadata paths address exactly one node", "statement": "GetChildNode(path) of a metadata node returns the node the path describes (names, attribute conditions, indices), and nothing if there is none or the path is malformed; GetOrCreateChildNode returns the same node if it exists, otherwise creates exactly the missing nodes so that the path then leads to the node returned, and leaves everything else of the document unchanged; AppendChildNode adds one node at the end.", "quantifier": "all metadata documents, all path strings", "why_tests_cant": "Documents and paths are unbounded trees and strings, with escaping, attribute lists and indices combining freely.", "anchors": ["Src/libCZI/XmlNodeWrapper.h: GetChildNode, GetOrCreateChildNode, AppendChildNode", "Src/libCZI/libCZI_Metadata.h: IXmlNodeRead"]}
{"id": "C62", "title": "Values and attributes of metadata nodes are read back as set", "statement": "What SetValue, SetValueI32, SetValueUI32, SetValueI64, SetValueUI64, SetValueBool or SetAttribute stores is what the corresponding getter returns afterwards; getters accept exactly the texts that denote a value of their type, and fail for all others; setting or removing a value, attribute or child changes nothing else of the document.", "quantifier": "all nodes, all texts, all values of the types", "why_tests_cant": "The range of texts is infinite; overflow boundaries, signs, white space and letter case combine.", "anchors": ["Src/libCZI/XmlNodeWrapper.h: SetValue, SetAttribute, TryGetValueAs..."]}
{"id": "C63", "title": "Dates in metadata survive the text format", "statement": "ToXmlString writes a date if and only if it exists; TryParse reads exactly the texts of the XML-Schema format that denote an existing date, without exception, and gives the date and the zone of the text; so TryParse(ToXmlString(d)) is d for every valid date.", "quantifier": "all dates (years -9999..9999, UTC, local, any offset), all texts", "why_tests_cant": "All combinations of calendar fields, zones and texts.", "anchors": ["Src/libCZI/CziMetadataBuilder.cpp: XmlDateTime::ToXmlString, TryParse, IsValid", "Src/libCZI/libCZI_Metadata.h: XmlDateTime"]}
{"id": "C64", "title": "Document information written is read back", "statement": "What WriteGeneralDocumentInfo and WriteFillWithSubBlockStatistics (and WriteDimInfoT_..., WriteDimInfoZ_...) put into the metadata is what GetGeneralDocumentInfo, GetDimensionInfo, GetDimensionTInfo and GetDimensionZInfo return, from the builder's document as well as after saving and loading it; fields not written are unchanged.", "quantifier": "all metadata documents, all texts, all values", "why_tests_cant": "Texts and documents are unbounded; which fields were present before, white space and numbers at the limits combine freely.", "anchors": ["Src/libCZI/CziMetadataBuilder.cpp: WriteGeneralDocumentInfo, WriteFillWithSubBlockStatistics, WriteDimensionSize, WriteDimInfoT_Interval, WriteDimInfoT_List, WriteDimInfoZ_Interval, WriteDimInfoZ_List", "Src/libCZI/CziMetadataDocumentInfo.cpp: GetGeneralDocumentInfo, ParseDimensionInfo, GetDimensionTInfo, GetDimensionZInfo", "Src/libCZI/pugixml.cpp: string_to_integer"]}
{"id": "C65", "title": "Custom key-value pairs form a map", "statement": "After any sequence of SetOrAddCustomKeyValuePair calls, every key has the value and the type of the last call with that key, and no other key is there; a key is accepted if and only if it is a name of letters, digits and underscores that does not begin with a digit nor with 'xml'; a call with another key throws and changes nothing.", "quantifier": "all sequences of calls, all keys and values, all documents", "why_tests_cant": "Histories and keys are unbounded.", "anchors": ["Src/libCZI/CziMetadataBuilder.cpp: SetOrAddCustomKeyValuePair"]}
{"id": "C66", "title": "The metadata prepared by the writer describes the sub-blocks written", "statement": "GetPreparedMetadata returns a document whose sizes are those of the sub-blocks accepted by the writer (bounding box, number of m-indices, number of indices of every dimension), which lists one channel for every channel index with the identifier and name the caller's function gives and the pixel type of the channel's sub-blocks, and which states the pixel type of the image; what the metadata reader returns for the document, before and after saving, is exactly this.", "quantifier": "all sequences of sub-blocks added, all functions for identifiers and names", "why_tests_cant": "Histories of additions, pixel types per channel, gaps between indices and texts of names combine freely.", "anchors": ["Src/libCZI/CziWriter.cpp: GetPreparedMetadata, DefaultGenerateChannelIdAndName", "Src/libCZI/CziMetadataBuilder.cpp: WriteFillWithSubBlockStatistics, FillDimensionChannel, FillImagePixelType", "Src/libCZI/CziSubBlockDirectory.cpp: PixelTypeForChannelIndexStatisticCreate", "Src/libCZI/CziMetadataDocumentInfo2.cpp: CDimensionsChannelsInfo, CDimensionChannelInfo"]}
{"id": "C67", "title": "Every way of adding a sub-block stores the bitmap that was given", "statement": "SyncAddSubBlock with contiguous memory, with a function for lines and with a strided bitmap, of the writer and of the reader-writer, stores a sub-block whose bitmap, read back, has exactly the pixels given (padding between lines is never part of it), together with the metadata and attachment given; no byte outside the memory described by the arguments is read.", "quantifier": "all sizes, pixel types, strides and contents, all sequences of additions", "why_tests_cant": "Sizes, strides and contents are unbounded; 32-bit overflows of positions need bitmaps no test allocates.", "anchors": ["Src/libCZI/CziWriter.cpp: ICziWriter::SyncAddSubBlock", "Src/libCZI/CziWriter.h: AddSubBlockHelper", "Src/libCZI/CziReaderWriter.cpp: ICziReaderWriter::SyncAddSubBlock, ReplaceSubBlock"]}
{"id": "C68", "title": "Sub-blocks added through the C API are read back through the C API", "statement": "A sub-block added with libCZI_WriterAddSubBlock is reported by libCZI_ReaderReadSubBlock and libCZI_SubBlockGetInfo with the coordinate, M-index, rectangle, size, pixel type and compression given, its raw data are the data given (without padding of lines), and the size of the data is validated.", "quantifier": "all arguments, all sequences of additions", "why_tests_cant": "Sizes, strides, compression modes and histories are unbounded.", "anchors": ["Src/libCZIAPI/src/libCZIApi.cpp: libCZI_WriterAddSubBlock, libCZI_SubBlockGetInfo, libCZI_SubBlockGetRawData", "Src/libCZIAPI/inc/add_subblock_info_interop.h: AddSubBlockInfoInterop"]}
{"id": "C69", "title": "Values cross the C API unchanged and within the caller's memory", "statement": "Coordinates and dimension bounds are converted to bit field and array and back without loss; texts copied to fixed buffers are the longest sequence of whole UTF-8 characters that fits, zero-terminated, with overflow reported exactly if something is missing; GUIDs are parsed iff they are texts of GUIDs; raw data and scene arrays are copied up to the size announced, the size available is reported, and no other byte of the caller's memory changes; XML is zero-terminated.", "quantifier": "all coordinates, bounds, texts, GUID texts, buffers and sizes", "why_tests_cant": "Truncation points, texts and sizes are unbounded.", "anchors": ["Src/libCZIAPI/src/parameterhelpers.cpp: ConvertLibCZICoordinateToCoordinateInterop, ConvertCoordinateInterop..., TryParseGuid", "Src/libCZIAPI/src/libCZIApi.cpp: libCZI_SubBlockGetRawData, libCZI_AttachmentGetRawData, libCZI_MetadataSegmentGetMetadataAsXml, libCZI_ReaderGetStatisticsEx", "Src/libCZIAPI/src/sharedptrwrapper.h"]}
{"id": "C70", "title": "Handles of the C API keep alive exactly what is needed", "statement": "For every sequence of calls of the C API whose handles are null or were handed out and not released, of whatever class: no call accesses something destroyed or is otherwise undefined; a handle of a class the function does not expect is rejected without effect; an object exists as long as a handle that is not released needs it, directly or through a reader, accessor or writer, and no longer; the close function of a stream passed by the caller is called exactly once, when the stream is no longer needed; after the release of all handles nothing is left. A locked bitmap is not released.", "quantifier": "All sequences of calls (create, open, read, create accessor or bitmap, display settings, lock, unlock, compose, close, release) of any length, with any results of the library proper, any addresses of new memory.", "why_tests_cant": "Orders of release and object graphs are unbounded; a use after free is not reliably observed.", "anchors": ["Src/libCZIAPI/src/libCZIApi.cpp: SharedPtrWrapper, libCZI_Release..., libCZI_ReaderOpen, libCZI_CreateSingleChannelTileAccessor, libCZI_BitmapLock, libCZI_BitmapUnlock, libCZI_CompositorDoMultiChannelComposition, libCZI_CziDocumentInfoGetDisplaySettings", "Src/libCZIAPI/inc/ObjectHandles.h"]}
{"id": "C71", "title": "Numbers with a fraction written to the metadata are read back", "statement": "A text that is a decimal number in the usual notation, after any white space, is read as the nearest value of type double (float), and no other text is read as a finite number (except hexadecimal ones and the empty text). SetValueDbl and SetValueFlt write the nearest decimal number with 15 and 6 significant digits; a value that is read back, written and read again does not change any more, values with at most 15 (6) digits and whole numbers are read exactly, others with a relative error of at most 6e-15 (6e-6). The texts with 20 digits written for spline points are read exactly. Reading always returns.", "quantifier": "All texts, all values, all nodes without child elements.", "why_tests_cant": "The values of double cannot be enumerated, and a wrong last digit or drift shows only for few of them; the set of texts is infinite.", "anchors": ["Src/libCZI/CziMetadataBuilder.cpp: SetValueDbl, SetValueFlt", "Src/libCZI/CziMetadata.cpp: TryGetValueAsDouble, TryGetValueAsFloat, TryConvert"]}
{"id": "C72", "title": "Display settings written to the metadata are read back", "statement": "GetDisplaySettings after WriteDisplaySettings, on the builder's document or after saving and loading it, returns settings for exactly the channels 0 to count-1: enabled flag, weight, tinting colour, kind of curve and spline points are what was given, black point, white point and gamma agree to 6 digits; writing what was read leaves the document unchanged; everything outside Metadata/DisplaySetting/Channels, and the children of that node that are not called Channel, stay as they are; Id and Name are those of the channel with the same number in Metadata/Information. Cloning gives the same settings.", "quantifier": "All documents, all settings with any set of channels, all numbers of channels, all pixel types.", "why_tests_cant": "Documents, settings and their texts are unbounded; lost digits or a changed sibling show only for particular values and documents.", "anchors": ["Src/libCZI/CziMetadataBuilder.cpp: MetadataUtils::WriteDisplaySettings", "Src/libCZI/CziDisplaySettings.cpp: CreateFromXml, ParseSplinePoints, Clone", "Src/libCZI/CziMetadataDocumentInfo.cpp: GetDisplaySettings"]}
{"id": "C73", "title": "Scaling information written to the metadata is read back", "statement": "GetScalingInfo(Ex) after WriteScalingInfo(Ex), on the builder's document or after saving and loading it, gives for each axis the scale that was given (exactly, or for numbers of more than 15 digits to 15 digits) and the unit that was given, and for what was not given what it gave before; writing the scales read back gives the same document again; nothing outside Metadata/Scaling changes; a node that has child elements makes the call throw.", "quantifier": "All documents, all scalings.", "why_tests_cant": "Documents (several Items or Distance nodes, other children) and numbers are unbounded; lost digits or the wrong one of several nodes show only for particular documents.", "anchors": ["Src/libCZI/CziMetadataBuilder.cpp: MetadataUtils::WriteScalingInfo, WriteScalingInfoEx", "Src/libCZI/CziMetadataDocumentInfo.cpp: GetScalingInfo, GetScalingInfoEx"]}
{"id": "C74", "title": "Tags in the metadata of a sub-block are found by their names", "statement": "TryGetTagAsString and TryGetTagAsDouble give the value, or the number it denotes, of the tag with the given name, and false if there is none or it is not a number; TryGetStagePositionFromTags gives both numbers iff both tags are there and are numbers; TryGetAttachmentDataFormat gives the text of the node for it; all throw iff the metadata is not valid XML; all return.", "quantifier": "All documents, all names.", "why_tests_cant": "Documents, names and texts are unbounded.", "anchors": ["Src/libCZI/SubblockMetadata.cpp: TryGetAttachmentDataFormat, TryGetTagAsDouble, TryGetTagAsString, TryGetStagePositionFromTags"]}
{"id": "C75", "title": "Look-up tables have the requested size, ends and curve", "statement": "Create8BitLookUpTableFromGamma, Create16BitLookUpTableFromGamma and Create8BitLookUpTableFromSplines return a table with the requested number of elements; it is zero below the black point, the largest value from the white point on, and in between it follows the curve that was asked for (the exponential, or the spline) up to the rounding; for a gamma value the table is ascending from 0 to the largest value.", "quantifier": "All table sizes, black and white points, gamma values and splines.", "why_tests_cant": "The parameters are real numbers; a wrong element or an undefined conversion occurs only for particular points and sizes.", "anchors": ["Src/libCZI/libCZI_Utilities.cpp: Utils::Create8BitLookUpTableFromGamma, Create16BitLookUpTableFromGamma, Create8BitLookUpTableFromSplines, InternalCreateLookUpTableFromGamma", "Src/libCZI/splines.cpp: CSplines::CalculateSplineValue"]}
{"id": "C76", "title": "Splines are the natural cubic splines through the control points", "statement": "CalcSplineDataFromPoints (used by TryGetSplineData) gives, for any control points, the natural cubic spline through (0,0), the control points and (1,1): a cubic on every piece, continuous with its first and second derivative, with no curvature at the ends; and this curve is unique.", "quantifier": "All lists of control points.", "why_tests_cant": "The number of control points is unbounded and the coordinates are real numbers.", "anchors": ["Src/libCZI/splines.cpp: CSplines::GetSplineCoefficients", "Src/libCZI/libCZI_Utilities.cpp: Utils::CalcSplineDataFromPoints"]}
{"id": "C77", "title": "The display settings helper prepares exactly the enabled channels", "statement": "CDisplaySettingsHelper::Initialize gives one channel info for each enabled channel, in order, with the weight, points, tint and look-up table of this channel, whatever the object contained before; the pixel type is asked for only where a table is needed; channels with a table and a pixel type without one make it throw; the result can be given to the multi-channel composition without reading beyond any table; the functions for the active channels agree.", "quantifier": "All display settings, all pixel types, all functors, all previous contents.", "why_tests_cant": "The number of channels, the settings and the functors are unbounded.", "anchors": ["Src/libCZI/libCZI_Helpers.h: CDisplaySettingsHelper::Initialize, AddChannelSetting, GetSizeForLUT, EnumEnabledChannels, GetActiveChannels"]}
{"id": "C78", "title": "Compression option texts are read as documented", "statement": "Utils::ParseCompressionOptions accepts a text exactly if it is a known compression method, a colon, and key=value items separated by semicolons (white space anywhere between them, letter case without meaning) in which every ExplicitLevel is a 32 bit integer; the result is the method, the last level, and byte unpacking if an item asks for it; all other texts raise logic_error; unknown items have no effect; each text has one reading, all options can be expressed, and the level that is used is one zstd accepts.", "quantifier": "All texts, all methods, levels and flags.", "why_tests_cant": "The texts are unbounded and free; the grammar is that of a regular expression with nested repetition.", "anchors": ["Src/libCZI/libCZI_Utilities.cpp: Utils::ParseCompressionOptions, _tryParseCompressionMode, _tryParseCompressionOptions", "Src/libCZI/zstdCompress.cpp: CompressZstd, CompressZStd1"]}
{"id": "C79", "title": "The background of a composed image has the requested colour", "statement": "Filling a bitmap gives every pixel the requested colour and changes no other byte: each channel is 0 for components up to 0, the largest value for components from 1 and the nearest integer in between (grey: the mean of the components), a value k is obtained exactly from the float next to k/max, and greater components never give smaller values; pixel types that cannot be filled raise an exception; a colour with NaN means that an accessor leaves the bitmap as it is; after composing, pixels that no tile paints show the background colour; and no colour leads to undefined behaviour.", "quantifier": "All bitmaps (sizes, strides, contents), all pixel types, all colours including infinite and NaN components, all lists of tiles.", "why_tests_cant": "The colours and bitmaps are unbounded; undefined conversions go unnoticed in tests.", "anchors": ["Src/libCZI/BitmapOperations.cpp: CBitmapOperations::Fill, Fill_Gray8, Fill_Gray16, Fill_Bgr24, Fill_Bgra32, Fill_Bgr48, Fill_GrayFloat", "Src/libCZI/SingleChannelAccessorBase.cpp: CSingleChannelAccessorBase::Clear", "Src/libCZI/libCZI_Utilities.cpp: Utils::FillBitmap", "Src/libCZI/utilities.h: clampToByte, clampToUShort"]}
{"id": "C80", "title": "A sub-block gives a bitmap of its declared type and size, or an exception", "statement": "ISubBlock::CreateBitmap returns, whatever the compression mode, the data and the options, either a bitmap that has the pixel type and size of the sub-block with all pixels in its memory, or raises an exception. JPEG-XR: a bitmap compressed losslessly is shown again, with the channels in their order; without size-mismatch handling, data of another type or size raise an exception; with it, the image is cut off or continued with black and its pixels are converted. No data lead to undefined behaviour or end the process.", "quantifier": "All sub-block data, compression modes, pixel types, sizes, options and behaviours of the JPEG-XR and zstd libraries.", "why_tests_cant": "The data come from files and are arbitrary; combinations of types and sizes are unbounded, and reading a few bytes beyond a bitmap goes unnoticed.", "anchors": ["Src/libCZI/CreateBitmap.cpp: CreateBitmapFromSubBlock, CreateBitmapFromSubBlock_JpgXr", "Src/libCZI/decoder.cpp: CJxrLibDecoder::Decode", "Src/libCZI/jxrlibcompress.cpp: JxrLibCompress::Compress", "Src/libCZI/bitmapData.h: CBitmapData"]}
{"id": "C81", "title": "An index denotes the same sub-block or attachment in every call", "statement": "For every document, and for a reader-writer after any calls, there is one numbered list of sub-blocks and one of attachments: counts, TryGet...Info, ReadSubBlock, ReadAttachment and all enumerations agree with it (an enumeration shows exactly the matching items in ascending order until the callback returns false; what is read comes with the information of its index); for every other index the result is 'not there', and after Close every call fails. The type and name in an AttachmentInfo are texts terminated by a zero.", "quantifier": "All documents that can be opened, all sequences of calls on a reader-writer (including failing ones), all indices, filters and callbacks.", "why_tests_cant": "Documents, histories, indices and callbacks are unbounded, and an unterminated text depends on what the memory held.", "anchors": ["Src/libCZI/CZIReader.cpp: CCZIReader::TryGetAttachmentInfo, EnumerateAttachments, EnumerateSubset, ReadAttachment, TryGetSubBlockInfo, EnumerateSubBlocks, EnumerateSubBlocksEx, EnumSubset, ReadSubBlock, Close", "Src/libCZI/CziReaderWriter.cpp: CCziReaderWriter::TryGetAttachmentInfo, EnumerateAttachments, EnumerateSubset, ReadAttachment, TryGetSubBlockInfo, EnumerateSubBlocks, EnumSubset", "Src/libCZI/CziReaderCommon.cpp: CziReaderCommon::EnumerateSubset", "Src/libCZI/CziAttachmentsDirectory.cpp: CCziAttachmentsDirectory::TryGetAttachment", "Src/libCZI/CziSubBlockDirectory.cpp: CCziSubBlockDirectory::TryGetSubBlock"]}
{"id": "C82", "title": "A crash while editing leaves what was not edited readable", "statement": "If the process stops at any point while a document is edited with the reader-writer, the file can be opened afterwards; sub-blocks, attachments and metadata that no call has changed read as before editing, and those that were changed read either as before or as after the change.", "quantifier": "All sound documents, all sequences of calls (including failing ones), every position in the sequence of writes of every call including torn writes (writes reach the file in program order).", "why_tests_cant": "Crash points, histories and documents are unbounded.", "anchors": ["Src/libCZI/CziReaderWriter.cpp: CCziReaderWriter::Create, SyncAddSubBlock, SyncAddAttachment, ReplaceSubBlock, ReplaceAttachment, RemoveSubBlock, RemoveAttachment, SyncWriteMetadata, Close, Finish, UpdateFileHeader, UpdateFileHeaderGuid", "Src/libCZI/CziWriter.cpp: CWriterUtils::WriteDeletedSegment, WriteSubBlock, WriteAttachment, WriteMetadata, WriteSubBlkDirectory, WriteAttachmentDirectory"]}
{"id": "C83", "title": "Texts in the channel information are read as numbers, ranges, lists and enumerations, or not at all", "statement": "The metadata of a channel: the exposure time is returned exactly if its text is a number of 64 bit or a range (a, a-b, a-, -b; white space does not count), a spectrum exactly if its text is a list of such numbers or ranges of double separated by commas, an enumeration exactly if its text is the text of one of its values; the values are those of the text, a missing start or end of a range does not exclude any number; arrays of numbers consist of the numbers before the first word that is none. Any other text gives no value and no undefined behaviour.", "quantifier": "All texts (any characters, any length), all nodes, all enumerations of the channel, detector, beam splitter, attenuator and microscope settings.", "why_tests_cant": "The texts come from files and are arbitrary; number of items and digits are unbounded.", "anchors": ["Src/libCZI/CziMetadataDocumentInfo2.cpp: CDimensionChannelInfo::ParseInformation, TryParseSpectrumCharacteristic, TryParseRangeOrSingleValue, CXmlEnums::ParseDoubleXmlArray, ParseInt32XmlArray, StringToDimensionChannel..., TryGetFiberMapping, TryGetIlluminationLine", "Src/libCZI/utilities.h: Utilities::RemoveSpaces, Split, ParseEnumHelper::TryParseEnum"]}
{"id": "C84", "title": "A stream delivers exactly the bytes at the requested position, to any number of threads", "statement": "IStream::Read delivers the bytes of the file, blob, HTTP resource or memory at the offset of the call: as many as asked for, fewer only at the end of the source, none (and no exception) beyond it; concurrent calls do not influence each other and none of them waits for ever; whatever a server sends, only the memory of the caller is written; a response that is not the requested range is reported as an exception.", "quantifier": "All files, offsets, sizes, numbers of threads, call sequences and schedules; all servers, bodies and ways to cut a body into pieces; all responses of the Azure library.", "why_tests_cant": "Schedules, sources and the behaviour of servers are unbounded; a wrong schedule or a piece of a special length does not occur in tests.", "anchors": ["Src/libCZI/libCZI.h: IStream::Read", "Src/libCZI/StreamsLib/preadfileinputstream.cpp: PreadFileInputStream::Read", "Src/libCZI/StreamsLib/simplefileinputstream.cpp: SimpleFileInputStream::Read", "Src/libCZI/StreamsLib/curlhttpinputstream.cpp: CurlHttpInputStream::Read, WriteData", "Src/libCZI/StreamsLib/azureblobinputstream.cpp: AzureBlobInputStream::Read", "Src/libCZI/StreamImpl.cpp: CInputOutputStreamImplPreadPwrite::Read, CSimpleInputOutputStreamImpl::Read, CStreamImplInMemory::Read"]}
{"id": "C85", "title": "Documents mean the same on hosts of either byte order", "statement": "A document has the same meaning on hosts with the most significant byte first and with the least significant byte first: the same calls write the same bytes (structures, directories, file header, pixels), what is written on one kind of host is read with the same values (numbers, GUIDs, pixels) on the other, and what is written is read back unchanged.", "quantifier": "All structures of the format with all values of their members, all directories with any number of entries and dimensions, all GUIDs, all bitmaps of all pixel types and compressions.", "why_tests_cant": "Tests run on hosts of one byte order; values whose bytes read the same in both orders hide a missing conversion.", "anchors": ["Src/libCZI/CziStructs.cpp: ConvertToHostByteOrder", "Src/libCZI/utilities.cpp: Utilities::ConvertInt16ToHostByteOrder, ConvertInt32ToHostByteOrder, ConvertInt64ToHostByteOrder, ConvertGuidToHostByteOrder", "Src/libCZI/CreateBitmap.cpp: CreateBitmapFromSubBlock_Uncompressed", "Src/libCZI/BitmapOperations.cpp: ConvertToBigEndian, CopyConvertBigEndian", "Src/libCZI/CziReaderWriter.cpp: CCziReaderWriter::ReadCziStructure, UpdateFileHeader, UpdateFileHeaderGuid"]}
{"id": "C86", "title": "A picture composed through the C interface is the one the display settings describe", "statement": "When the composition structures of the channels are filled out from display settings with the C interface and the bitmaps of the channels are composed, the result is the picture that the display settings describe and that the C++ helper for display settings gives: enabled channels contribute with their weight, black and white point, tint and look-up table, channels that are disabled contribute nothing and change nothing.", "quantifier": "all display settings (any number of channels, enabled or not, all curve modes), all bitmaps, all pixel types, all handles given by the caller", "why_tests_cant": "Tests compose two enabled channels; the property ranges over all settings and shows in particular that the weight zero of a disabled channel scales the others", "anchors": ["Src/libCZIAPI/src/parameterhelpers.cpp: ParameterHelpers::FillOutCompositionChannelInfoFromDisplaySettings, ParameterHelpers::ConvertCompositionChannelInfoInteropToChannelInfo", "Src/libCZIAPI/src/libCZIApi.cpp: libCZI_CompositorFillOutCompositionChannelInfoInterop, libCZI_CompositorDoMultiChannelComposition", "Src/libCZI/MultiChannelCompositor.cpp: CMultiChannelCompositor2::CalcWeightSum"]}
{"id": "C87", "title": "Options given to the C interface as JSON are obeyed exactly, and options that cannot be obeyed are refused", "statement": "For the calls of the C interface that take options as a JSON text (creating and initialising a writer, accessor options, creating a stream): every option in the text has exactly its value (file GUID, reserved sizes, bounds of the m-index, duplicate sub-blocks, mask awareness, stream properties), options that are not in the text have their defaults, and a text with options that are wrong, incomplete or of a wrong type is refused.", "quantifier": "all texts and all JSON values (any members in any order, repeated names, any strings and numbers), any JSON parser", "why_tests_cant": "Tests use a handful of texts; repeated names, numbers at the limits of 32 bits, zero characters in strings and single bounds are never tried", "anchors": ["Src/libCZIAPI/src/parameterhelpers.cpp: ParameterHelpers::TryParseCZIWriterOptions, ParameterHelpers::TryParseCZIWriterInfo, ParameterHelpers::TryParseInputStreamCreationPropertyBag, ParameterHelpers::ConvertSingleChannelScalingTileAccessorOptionsInteropToLibCZI", "Src/libCZIAPI/src/libCZIApi.cpp: libCZI_CreateWriter, libCZI_WriterCreate, libCZI_CreateInputStream"]}
{"id": "C88", "title": "The information about the Z and T axes is what the metadata say", "statement": "The start position, handedness, direction, drive mode, drive speed, start time and the positions (an interval or a list) that the document information returns for the Z and T axes are exactly those in the metadata, for every document; what is not in the metadata is not returned, and the call does not fail.", "quantifier": "all metadata documents, all texts, lists of positions of any length", "why_tests_cant": "Tests read two or three documents with well-formed positions separated by single spaces; no test has a drive mode, other white space or numbers beyond the range of double", "anchors": ["Src/libCZI/CziMetadataDocumentInfo.cpp: CCziMetadataDocumentInfo::GetDimensionZInfo, CCziMetadataDocumentInfo::GetDimensionTInfo", "Src/libCZI/CziDimensionInfo.cpp: CCziDimensionZInfo, CCziDimensionTInfo", "Src/libCZI/utilities.h: Utilities::Split"]}
{"id": "C89", "title": "The JSON texts that the C interface returns say what the document says", "statement": "The calls of the C interface that return information as a JSON text (pyramid statistics, general document information, information about the Z, T and C dimensions, the available dimensions) return a valid JSON text that says exactly what the document says: every item is there under its own name with its value, what is not in the document is not in the text, and nothing is lost. If there is nothing to return, the call says so.", "quantifier": "all documents (any number of scenes, layers, channels and positions, all texts and numbers), all printers of strings and numbers", "why_tests_cant": "Tests compare a few texts of sample files; no test has an item for the contrast of the condenser, wavelengths with more than six digits or numbers that are not finite", "anchors": ["Src/libCZIAPI/src/parameterhelpers.cpp: ParameterHelpers::ConvertLibCZIPyramidStatisticsToJson, FormatGeneralDocumentInfoAsJson, FormatZDimensionInfoAsJson, FormatTDimensionInfoAsJson, FormatCDimensionInfoAsJson, FormatIDimensionChannelInfoAsJson, FormatSpectrumCharacteristicsAsJson", "Src/libCZIAPI/src/libCZIApi.cpp: libCZI_ReaderGetPyramidStatistics, libCZI_CziDocumentInfoGetGeneralDocumentInfo, libCZI_CziDocumentInfoGetAvailableDimension, libCZI_CziDocumentInfoGetDimensionInfo", "Src/libCZI/CziDimensionInfo.cpp: CCziDimensionChannelInfo"]}
{"id": "C90", "title": "Attachments, metadata and pixels cross the C interface unchanged", "statement": "An attachment added through the C interface is reported by the C interface with the same GUID, type and complete name, and its data are copied to the caller's memory; the XML metadata written last are returned with their size and a zero at the end; the pixels of a bitmap are copied line by line with the caller's stride, if and only if the caller states its width, height and pixel type. In the caller's memory nothing else changes.", "quantifier": "all sequences of calls, all GUIDs, types, names, data and sizes, all bitmaps, strides and buffers", "why_tests_cant": "Tests copy one bitmap with one stride and one attachment; sizes smaller than the data, strides larger than a line and names of all lengths are not tried", "anchors": ["Src/libCZIAPI/src/libCZIApi.cpp: libCZI_WriterAddAttachment, libCZI_WriterWriteMetadata, CopyFromAttachmentInfoToAttachmentInfoInterop, libCZI_AttachmentGetRawData, libCZI_MetadataSegmentGetMetadataAsXml, libCZI_BitmapCopyTo"]}
{"id": "C91", "title": "A failure of the stream during an edit does not corrupt the session", "statement": "If a call on a reader-writer (ICziReaderWriter) throws because the stream could not write, the object shows the contents it had before the call, so that the call can be repeated, and the document that a later, successful Close leaves contains exactly what the successful calls put there. In particular Close can be repeated until it succeeds.", "quantifier": "all sound documents, all sequences of calls to add, replace and remove sub-blocks and attachments, to write metadata and to close, every outcome of every write of every call (any number of failures, any number of bytes that did get written)", "why_tests_cant": "Tests use streams that never fail; the number of combinations of a failing write, the number of bytes it wrote before failing, and the calls before and after is unbounded", "anchors": ["Src/libCZI/CziReaderWriter.cpp: CCziReaderWriter::SyncAddSubBlock, ReplaceSubBlock, RemoveSubBlock, SyncAddAttachment, ReplaceAttachment, RemoveAttachment, SyncWriteMetadata, Close, Finish, WriteToOutputStream", "Src/libCZI/CziWriter.cpp: CWriterUtils"]}
{"id": "C92", "title": "XML that the library writes is loaded by it as the same tree", "statement": "The text returned by ICziMetadataBuilder::GetXml (with or without indentation), ICziMetadata::GetXml and ISubBlockMetadata::GetXml can be loaded again (CreateMetadataBuilderFromXml, CreateMetaFromMetadataSegment), also after it went through a file, and gives the same tree: the same elements in the same order with the same names, attributes and texts, whatever characters these contain.", "quantifier": "all trees of elements, attributes, texts and CDATA sections of any depth and size, all characters in strings, all formats; all texts that were loaded before", "why_tests_cant": "A test saves and loads a few documents; the characters in names, attributes and texts, their neighbourhoods and the shapes of trees are unbounded, and escaping, white space and line ends interact", "anchors": ["Src/libCZI/pugixml.cpp: xml_document::save, load_buffer, node_output, text_output_escaped, text_output_cdata, xml_parser::parse_tree, strconv_pcdata_impl, strconv_attribute_impl, strconv_cdata, strconv_escape, utf8_writer, utf8_decoder", "Src/libCZI/CziMetadataBuilder.cpp: CCZiMetadataBuilder::GetXml", "Src/libCZI/CziMetadata.cpp: CCziMetadata::GetXml", "Src/libCZI/SubblockMetadata.cpp: SubblockMetadata::GetXml"]}
{"id": "C93", "title": "XML of other programs is loaded as the tree it denotes", "statement": "Every well-formed XML text given as metadata - whatever white space and quotes its tags use, with character references, predefined entities, CDATA sections, comments, processing instructions, a document type declaration, a byte order mark or not - is loaded, and the elements, attributes and values read through the node interface are those the text denotes according to the XML recommendation. A text that is not well-formed or was cut off is not accepted.", "quantifier": "all texts derivable from the grammar of XML (any depth, length and characters), and texts outside of it", "why_tests_cant": "Metadata comes from acquisition programs, not from this library; test documents cover a few spellings of markup, the combinations are unbounded", "anchors": ["Src/libCZI/pugixml.cpp: xml_parser::parse_tree, parse_exclamation, parse_question, parse_doctype_group, strconv_escape, strconv_pcdata_impl, strconv_attribute_impl, strconv_cdata, load_buffer", "Src/libCZI/CziMetadata.cpp: CCziMetadata::CCziMetadata", "Src/libCZI/XmlNodeWrapper.h: XmlNodeWrapper::TryGetValue"]}
{"id": "C94", "title": "Files are created, kept or overwritten as asked, and what is reported as written is in the file", "statement": "CreateOutputStreamForFile with overwriteExisting=false never destroys an existing file; if opening fails, no file has changed, and no other file is ever touched. If every Write reported its bytes as written (so that no call of the writer threw) and the stream was released, the file contains what was written.", "quantifier": "all files and their access rights, all interleavings with other processes, all sequences of writes, all answers of the operating system (errors, short writes, errors when a buffer is written late)", "why_tests_cant": "Tests write to healthy file systems; access rights, full disks, quotas and other processes at every moment cannot be enumerated", "anchors": ["Src/libCZI/StreamImpl.cpp: COutputStreamImplPwrite, CSimpleOutputStreamStreams, CInputOutputStreamImplPreadPwrite, CSimpleInputOutputStreamImpl", "Src/libCZI/libCZI_Lib.cpp: CreateOutputStreamForFile, CreateInputOutputStreamForFile", "Src/libCZI/CziWriter.cpp: CCziWriter::WriteToOutputStream, CCziWriter::Close"]}
{"id": "C95", "title": "Whatever size a sub-block or a caller states, a bitmap has memory for all of its pixels, and decoding stays inside it", "statement": "Creating a bitmap, and creating the bitmap of a sub-block with CreateBitmapFromSubBlock, gives a bitmap of the stated size whose pixels are all in its memory, or an exception, whatever width and height are stated; nothing outside of the bitmap's memory is written. The result is the one that would be computed with unlimited integers.", "quantifier": "all pixel types, all widths, heights and strides of 32 bits, all compression modes, data and options, all behaviours of zstd and jxrlib", "why_tests_cant": "Sizes of lines beyond 2 GiB and negative sizes are not tried in tests (they need much memory or a damaged file), and which products of sizes overflow depends on all of the numbers", "anchors": ["Src/libCZI/bitmapData.h: CBitmapData::Create, CBitmapData::CalcDefaultPitch", "Src/libCZI/CreateBitmap.cpp: CreateBitmapFromSubBlock_Uncompressed, CreateBitmapFromSubBlock_JpgXr, CreateBitmapFromSubBlock", "Src/libCZI/decoder_zstd.cpp: DecodeRequireCorrectSize, DecodeAndHandleSizeMismatch, DecodeAndHiLoBytePackRequireCorrectSize, DecodeAndHiLoBytePackAndHandleSizeMismatch", "Src/libCZI/decoder.cpp: CJxrLibDecoder::Decode"]}
{"id": "C96", "title": "The process has one site object and one decoder of each kind, whichever threads use the library first", "statement": "The site given to SetSiteObject before any other call is the one every use of the library sees; without it every use sees the built-in site; once the library has been used the site cannot change, and SetSiteObject throws. The built-in site returns the same decoder object for all requests of a kind. No call waits forever.", "quantifier": "all schedules of any number of threads that set the site, use the library and request decoders, overlapping in any way", "why_tests_cant": "Races of the first calls depend on the schedule and happen once per process, so that tests hardly ever see them", "anchors": ["Src/libCZI/libCZI_Site.cpp: GetSite, SetSiteObject, GetDefaultSiteObject, CSiteImpJxrLib::GetDecoder"]}
{"id": "C97", "title": "The memory of what is read is there as long as the user holds it, with the stated size, and is released exactly once", "statement": "Whatever sequence of sub-blocks, attachments and metadata segments is read, copied, asked for raw data and released: the bytes behind an object or a pointer obtained with GetRawData stay unchanged as long as one of them is held, in whatever order they are released and also when the document was closed; the size returned with a pointer is the number of bytes behind it; every block of memory is released exactly once, when its last owner is gone, and a call that throws leaves no memory behind.", "quantifier": "all histories of reading, copying and releasing objects and pointers, all documents and streams, all failures of memory allocation and of streams", "why_tests_cant": "Ownership depends on the whole history, and the paths on which an allocation or a read fails in the middle of a call are not reached by tests", "anchors": ["Src/libCZI/CziParse.cpp: CCZIParse::ReadSubBlock, ReadAttachment, ReadMetadataSegment", "Src/libCZI/CZIReader.cpp: CCZIReader::ReadSubBlock, ReadAttachment, ReadMetadataSegment", "Src/libCZI/CziReaderWriter.cpp: CCziReaderWriter::ReadSubBlock, ReadAttachment, ReadMetadataSegment", "Src/libCZI/CziSubBlock.cpp: CCziSubBlock", "Src/libCZI/CziAttachment.cpp: CCziAttachment", "Src/libCZI/CziMetadataSegment.cpp: CCziMetadataSegment"]}
{"id": "C98", "title": "When the stream fails while a new document is written, the call can be made again, and the document is as if the stream had not failed", "statement": "Whenever a call of ICziWriter throws because a write to the stream failed, at whatever write and after whatever number of bytes, the same call can be made again; if it succeeds then, after any number of attempts, the finished document is byte by byte the one written to a stream that does not fail. If the call is given up instead, the document can still be closed and shows exactly the sub-blocks, attachments and metadata whose calls did not throw. This includes streams of the caller given to the C interface: what their function does not carry out is noticed.", "quantifier": "all sequences of calls, all failing writes and all numbers of bytes that get to the file, any number of attempts, all replies of the function of the caller", "why_tests_cant": "A test injects a failure at a few writes; which parts of a segment and of the bookkeeping are already updated differs from write to write, and failures can accumulate over attempts", "anchors": ["Src/libCZI/CziWriter.cpp: CCziWriter::Create, SyncAddSubBlock, SyncAddAttachment, SyncWriteMetadata, Close, WriteToOutputStream, WriteSubBlock, WriteCurrentSubBlkDirectory, WriteCurrentAttachmentsDirectory", "Src/libCZI/CziWriter.cpp: CWriterUtils::WriteSubBlock, WriteAttachment, WriteMetadata, WriteSubBlkDirectory, WriteAttachmentDirectory", "Src/libCZIAPI/src/libCZIApi.cpp: OutputStreamWrapper::Write, libCZI_CreateOutputStreamFromExternal"]}
{"id": "C99", "title": "Pictures of different regions agree where the regions overlap", "statement": "Two requests to the same accessor for the same plane, with the same background, zoom or layer: wherever the two regions overlap, the pictures have the same pixels, whatever the positions and sizes of the regions are. So a large picture can be put together from the pictures of its parts.", "quantifier": "all documents, planes, pairs of regions (any position and size), scene filters, backgrounds and options, and every behaviour of the unstable sort", "why_tests_cant": "Tests compare pictures of a few regions of a few documents; which sub-blocks are found, chosen, sorted and placed depends on the region, for all pairs of regions and documents", "anchors": ["Src/libCZI/SingleChannelTileAccessor.cpp: CSingleChannelTileAccessor::InternalGet, GetAllSubBlocks, GetSubBlocksSubset", "Src/libCZI/SingleChannelPyramidLevelTileAccessor.cpp: InternalGet, ComposeTiles, GetAllSubBlocks", "Src/libCZI/SingleChannelScalingTileAccessor.cpp: InternalGet, Paint, GetSubSetFilteredBySceneSortedByZoom"]}
{"id": "C100", "title": "The files of a plane scan together are the picture of the region", "statement": "CZIcmd's PlaneScan divides the region into tiles of the requested size and writes each into a file of its own: every pixel of the region is in exactly one tile, no tile reaches beyond the region or is larger than requested, different tiles go to different files, and with a zoom of 1 every pixel in a file has the value it has in the picture of the whole region.", "quantifier": "all regions and tile sizes the command line accepts, all documents, planes, scene filters and backgrounds", "why_tests_cant": "Tests scan a few regions with a few tile sizes; whether tiles meet without gap and overlap depends on all of the numbers, and overflow only occurs for extreme ones", "anchors": ["Src/CZICmd/executePlaneScan.cpp: CExecutePlaneScan::execute, WriteRoi, GetFileName", "Src/CZICmd/cmdlineoptions.cpp: CCmdLineOptions::MakeOutputFilename, TryParseCreateSize", "Src/libCZI/SingleChannelScalingTileAccessor.cpp: CSingleChannelScalingTileAccessor::Get"]}
{"id": "C101", "title": "Coordinates anywhere in the range of 32-bit integers are handled exactly", "statement": "Statistics, sub-block queries and pictures of regions are right wherever in the range of a 32-bit int the sub-blocks and the region are: bounding boxes, dimension ranges and scene boxes are exact, a query presents exactly the sub-blocks that share a pixel with the region, and each pixel of a picture is that of the topmost sub-block covering it. In particular no document and no region makes opening, querying or composing undefined.", "quantifier": "all documents (positions, sizes and dimension values of all sub-blocks, any order), all regions and destination bitmaps, with and without the visibility optimisation", "why_tests_cant": "Overflow only happens for particular combinations of extreme coordinates; tests use small ones, and whether every intermediate sum and difference stays in range is a statement about all of them", "anchors": ["Src/libCZI/CziSubBlockDirectory.cpp: CSbBlkStatisticsUpdater::UpdateStatistics, UpdateBoundingBox", "Src/libCZI/utilities.h: Utilities::Intersect, DoIntersect", "Src/libCZI/libCZI_Pixels.h: IntRect::IntersectsWith, IntRect::Intersect", "Src/libCZI/utilities.cpp: RectangleCoverageCalculator", "Src/libCZI/SingleChannelAccessorBase.cpp: CheckForVisibilityCore", "Src/libCZI/CziReaderCommon.cpp: EnumSubset", "Src/libCZI/SingleChannelTileAccessor.cpp: InternalGet, GetAllSubBlocks", "Src/libCZI/SingleChannelTileCompositor.cpp: ComposeSingleChannelTilesMaskAware", "Src/libCZI/BitmapOperations.cpp: CopyWithOffset", "Src/libCZI/BitmapOperationsBitonal.cpp: CopyWithOffsetAndMask"]}
{"id": "C102", "title": "A document made with the CreateCZI command has exactly the tiles that were asked for", "statement": "CZIcmd's CreateCZI writes a document that has, for every coordinate within the given bounds and every row and column of the given mosaic, exactly one sub-block with this coordinate, the m-index of the tile, the position given by the tile size and the overlap, the given metadata and, whatever compression is chosen, the generated picture without loss; it has no other sub-blocks, and the metadata that were made are its metadata.", "quantifier": "all bounds, mosaics, overlaps, tile sizes, pixel types, compression options, sub-block metadata and generated pictures, and whatever was in the file before", "why_tests_cant": "Tests create a few small documents; the number of sub-blocks, the rounding of positions in single precision and the way from a bitmap through compression, writer and reader depend on all of the options", "anchors": ["Src/CZICmd/executeCreateCzi.cpp: CExecuteCreateCzi::DoIt, AddSubBlock, CalcTilePosition", "Src/CZICmd/cmdlineoptions.h: CreateTileInfo", "Src/libCZI/zstdCompress.cpp: ZstdCompress::CompressZStd0Alloc, CompressZStd1Alloc, CalculateMaxCompressedSizeZStd0, CalculateMaxCompressedSizeZStd1", "Src/libCZI/libCZI_Utilities.h: Utils::EnumAllCoordinates"]}
{"id": "C103", "title": "A stream that fails while a document is read is reported, and leaves nothing behind", "statement": "Whatever calls were made on a reader and whichever of them failed because a stream failed or delivered too little: every later call throws an exception or gives exactly what a new reader gives that has opened the document last opened successfully, never anything else; if the stream does not fail during the call, it gives exactly that; on a reader that is not open every call but Open throws. This holds for the streams of the caller that the C interface accepts, too.", "quantifier": "all histories of Open, Close and reading calls on a reader, all documents, all patterns of failing and incomplete reads, all functions given to the C interface that keep their contract", "why_tests_cant": "A test makes one read fail; which members of the reader keep new or old values depends on the point of failure, on what the reader was used for before and on the next calls", "anchors": ["Src/libCZI/CZIReader.cpp: CCZIReader::Open, Close, ReadSubBlock, ReadAttachment, ReadMetadataSegment, TryGetSubBlockInfo, ThrowIfNotOperational", "Src/libCZI/CziParse.cpp: CCZIParse", "Src/libCZIAPI/src/libCZIApi.cpp: InputStreamWrapper::Read, libCZI_CreateInputStreamFromExternal"]}
{"id": "C104", "title": "What is written is what is seen", "statement": "Whatever calls are made to the writer, in whatever order and whichever of them fail: the picture of a region of a plane composed by the tile accessor from the finished file has the size and the pixel type expected, and every pixel of it is the pixel of a sub-block that was written without minification to this plane and covers it, above which - by m-index, if sorting is requested - there is no other such sub-block; a pixel covered by none has the background colour. It does not matter how the sub-blocks were compressed and what was in memory or in the file before, nor in which coordinate system the region is given. After the document has been edited, the pictures show the sub-blocks that are then in it. A picture requested with a zoom shows, at each pixel, the nearest pixel of a written sub-block of the resolution the zoom demands; this holds through the C interface and with the commands of CZICmd, too, whose composition of channels is composed of such pictures of the enabled channels. The picture of a layer of the pyramid shows the sub-blocks of this layer, or the background where there is none. With a filter for scenes, only sub-blocks of the scenes in the filter are shown. A plane that does not fit the sub-blocks written is rejected.", "quantifier": "all sequences of calls of the writer and then of the reader-writer, all pictures and losslessly compressed or uncompressed data of the sub-blocks, all planes, regions, options of the accessor, behaviours of the sort and contents of fresh memory", "why_tests_cant": "Tests write a few tiles and compare single pixels; the path from AddSubBlock to a pixel goes through segments, directory, statistics, selection, sorting, decoding and copying, which have to agree for every document", "anchors": ["Src/libCZI/SingleChannelTileAccessor.cpp: CSingleChannelTileAccessor::Get, InternalGet, ComposeTiles, GetSubBlocksSubset", "Src/libCZI/SingleChannelScalingTileAccessor.cpp: CSingleChannelScalingTileAccessor::Get, InternalGet, Paint, ScaleBlt", "Src/libCZI/SingleChannelPyramidLevelTileAccessor.cpp: CSingleChannelPyramidLevelTileAccessor::Get, InternalGet, ComposeTiles", "Src/CZICmd/execute.cpp: CExecuteSingleChannelPyramidTileAccessor::execute", "Src/libCZIAPI/src/libCZIApi.cpp: libCZI_SingleChannelTileAccessorGet, libCZI_SingleChannelTileAccessorCalcSize", "Src/libCZI/SingleChannelAccessorBase.cpp: TryGetPixelType, Clear, CheckPlaneCoordinates, GetSubBlockDataIncludingMaskForSubBlockIndex", "Src/libCZI/CziWriter.cpp: CCziWriter::SyncAddSubBlock, Close", "Src/libCZI/CZIReader.cpp: CCZIReader::Open, ReadSubBlock", "Src/libCZI/CreateBitmap.cpp: CreateBitmapFromSubBlock"]}
{"id": "C105", "title": "A text given to an option of CZIcmd is taken as documented or reported as wrong", "statement": "Sizes, arrangements of tiles, pyramid layers, regions of interest, numbers, hexadecimal numbers, the format of compositions, the lists of levels, the zoom, the background colour, the size of the cache and the pixel type given on the command line are accepted exactly if they have the documented form and their numbers are in range; the values used are then the numbers in the text; every other text is reported as wrong, never taken as something else, and the examples in the documentation are accepted. A command starts exactly if all it needs is given: document, output, region, layer, zoom; what is missing is reported.", "quantifier": "all texts, all combinations of them", "why_tests_cant": "Tests try a few right and a few wrong texts; what is accepted beside them, and with which value, is a question about all texts", "anchors": ["Src/CZICmd/cmdlineoptions.cpp: Parse, CheckArgumentConsistency, Clear, TryParseVerbosityLevel, TryParseInfoLevel, IsLogLevelEnabled, TryParseCreateSize, TryParseCreateTileInfo, TryParsePyramidInfo, TryParseRect, TryParseInt32, TryParseChannelCompositionFormat, TryParseChannelCompositionFormatWithAlphaValue, TryParseZoom, TryParseParseBackgroundColor, TryParseSubBlockCacheSize, TryParseGeneratorPixeltype", "Src/CZICmd/utils.cpp: skipWhiteSpaceAndOneOfThese, trim, icasecmp, ConvertHexStringToInteger"]}
{"id": "C106", "title": "Attachments and sub-blocks extracted with CZIcmd are those selected, with the contents written", "statement": "Whatever calls are made to the writer: the command ExtractAttachment creates, for every attachment of the finished document that the selection asks for, a file of its own beside the output file named by the user, with exactly the bytes given to the writer, and changes no other file; the command ExtractSubBlock creates exactly one picture for each selected sub-block, showing the pixels written. A selection by index or name asks for exactly the items with this index and name, and a selection that is no such thing is reported.", "quantifier": "all sequences of calls of the writer, all names, types and contents of attachments, all pictures of sub-blocks, all selections and output names", "why_tests_cant": "Tests extract one thumbnail; which names collide or leave the directory, and which selections are misunderstood, is a question about all names and all selections", "anchors": ["Src/CZICmd/execute.cpp: CExecuteExtractAttachment::execute, CreateSelectionInfo, IsSelection, GenerateFilename, WriteFile, CExecuteExtractSubBlock::execute, WriteImage", "Src/CZICmd/cmdlineoptions.cpp: TryParseSelection, GetSelectionItemValue, MakeOutputFilename"]}
{"id": "C107", "title": "The exit status of CZIcmd tells whether it did its work", "statement": "The process ends with the status 0 exactly if the arguments were accepted and the command did what it was asked to, in particular wrote its output; every failure (arguments, a document that is missing or damaged, a region that cannot be shown) gives another status and a message, and nothing is written then.", "quantifier": "all arguments, all files, all outcomes of the commands", "why_tests_cant": "Tests of the tool look at a few failures; that no failure ends like a success is a statement about all of them", "anchors": ["Src/CZICmd/CZIcmd.cpp: main", "Src/CZICmd/execute.cpp: execute, CExecuteSingleChannelTileAccessor::execute", "Src/CZICmd/executeBase.cpp: CreateAndOpenCziReader", "Src/CZICmd/cmdlineoptions.cpp: Parse, CheckArgumentConsistency"]}
