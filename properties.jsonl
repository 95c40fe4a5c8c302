{"id": "C01", "title": "Sectors are disjoint 256-byte windows that tile the image", "statement": "For every supported image layout, each (track, sector) pair accepted by the block device names a 256-byte window lying entirely inside the data area of the image (below the error table); two different accepted pairs name disjoint windows; and every data byte belongs to exactly one window.", "quantifier": "every supported geometry (D64 35/40 tracks with and without error table, D71, D81), every pair of locations, every byte offset", "why_tests_cant": "Overlap or a gap for a single track boundary would only show for specific pairs; tests touch a handful of sectors.", "anchors": ["src/disk/block.rs ImageBlockDevice::get_offset", "src/disk/d64.rs TRACKS/GEOMETRIES", "src/disk/d71.rs", "src/disk/d81.rs"]}
{"id": "C02", "title": "Sector write / read law with frame", "statement": "After write_sector(l, data) succeeds, read_sector(l) returns exactly data, read_sector of every other location returns what it returned before, and neither the image length nor any byte outside that sector (error table included) changes.", "quantifier": "every image content, every geometry, every location and every 256-byte buffer", "why_tests_cant": "The frame part quantifies over all other sectors and all contents.", "anchors": ["src/disk/block.rs BlockDevice::sector/sector_mut", "src/disk/image.rs slice/slice_mut", "src/disk/mod.rs read_sector/write_sector"]}
{"id": "C03", "title": "Rejected sector accesses have no effect", "statement": "write_sector fails with WriteUnderrun exactly when the buffer is not 256 bytes long, otherwise with ReadOnly on a read-only image, otherwise with InvalidLocation exactly when the location does not exist; read_sector fails exactly with InvalidLocation on locations that do not exist; a failing access changes no byte.", "quantifier": "every image, every location (all 65536 byte pairs), every buffer", "why_tests_cant": "Needs the exact domain of success, not sampled locations.", "anchors": ["src/disk/block.rs get_offset/check_writability/sector_mut", "src/disk/mod.rs write_sector"]}
{"id": "C04", "title": "A disk opened read-only is never modified", "statement": "If an image is opened non-writable, no sequence of library operations (format, create, write, flush, delete, rename, raw sector writes, BAM flush) changes a single byte of the image.", "quantifier": "every image content and every finite sequence of operations", "why_tests_cant": "Quantifies over all histories; every code path that obtains a mutable sector must check.", "anchors": ["src/disk/image.rs check_writability/slice_mut", "src/disk/block.rs sector_mut", "all mutating operations in src/disk/mod.rs, chain.rs, bam.rs, directory.rs, file.rs"]}
{"id": "C05", "title": "Image type detection by size is unambiguous and exact", "statement": "An image is accepted as D64/D71/D81 exactly when its byte length is one of the lengths listed for that type, no length is accepted by two types or two layouts, and any other length is rejected with InvalidLayout.", "quantifier": "every file length (natural number)", "why_tests_cant": "A test checks a few sizes; ambiguity and acceptance of odd sizes is a statement about all lengths.", "anchors": ["src/disk/mod.rs Geometry::find_by_size/size/open", "src/disk/d64.rs d71.rs d81.rs GEOMETRIES"]}
{"id": "C06", "title": "The block availability map behaves as a set of free sectors", "statement": "After any sequence of allocate and free calls on valid locations, a sector is reported free exactly when the last call concerning it was free (or it was free initially and never touched), no other sector is affected, and each track's free count equals the number of its free sectors whenever it did so initially.", "quantifier": "every BAM state and every finite sequence of allocate/free on in-range locations", "why_tests_cant": "Bit masks: an error for one sector index or an aliasing between tracks is invisible to sampled tests; the property is an invariant over all histories.", "anchors": ["src/disk/bam.rs BamEntry::allocate/free/update_free_sectors, Bam::allocate/free"]}
{"id": "C07", "title": "BAM survives flush and re-read; flush touches only BAM bytes", "statement": "Writing the BAM to the image and reading it back yields the same availability of every sector and the same free counts, for all three formats; bytes of the image that do not belong to the BAM area (disk name, id, GEOS signature, all other sectors) are unchanged by the flush.", "quantifier": "every BAM content whose bitmaps fit the on-disk width, every prior image content, all three formats", "why_tests_cant": "All offsets/strides for 35/70/80 tracks; a wrong stride corrupts only some tracks for some contents.", "anchors": ["src/disk/bam.rs BamWriter::write, Bam::read, BamEntry::from_bytes/write_bitmap", "src/disk/d64.rs d71.rs d81.rs BAM_FORMAT"]}
{"id": "C08", "title": "Block allocation returns only free, existing, permitted sectors", "statement": "Whenever next_free_block returns a location, that sector exists in the layout, is marked free in the BAM, is not on the directory track (unless the previous block was), and the call does not alter the BAM.", "quantifier": "every BAM content, every previous location (or none), CBM and GEOS policies, all three formats", "why_tests_cant": "Search loops over tracks and interleaved sectors depend on the whole BAM content.", "anchors": ["src/disk/format.rs next_free_block/first_free_block/next_free_block_from_previous/next_free_track_cbm/next_free_track_geos/first_free_track"]}
{"id": "C09", "title": "DiskFull is reported exactly when no data block is free", "statement": "For a BAM whose counts agree with its bitmaps, next_free_block for file data succeeds if and only if some sector outside the directory and reserved tracks is free; otherwise it returns DiskFull. With no previous location under the CBM policy this needs the sectors of the reserved track to be allocated, as formatting leaves them: that search does not skip the reserved track 53 of the 1571.", "quantifier": "every consistent BAM, every previous data location (or none), CBM and GEOS policies", "why_tests_cant": "Completeness of a search over 2^683.. BAM states cannot be sampled.", "anchors": ["src/disk/format.rs next_free_block and helpers"]}
{"id": "C10", "title": "Block allocation always terminates without arithmetic overflow or out-of-range indexing", "statement": "For every BAM content and every previous location on a BAM-covered track with an existing sector, next_free_block returns a location, DiskFull or InvalidBAM: it never panics (u8 overflow, index out of range) and never loops forever.", "quantifier": "every BAM content (also inconsistent ones), every in-range previous location, all formats and policies", "why_tests_cant": "Overflow needs particular track/sector combinations; termination is not testable.", "anchors": ["src/disk/format.rs next_free_block_from_previous/next_free_track_*"]}
{"id": "C11", "title": "Directory blocks stay on the directory track and file data never lands there", "statement": "Extending the directory only ever allocates sectors of the directory track, and blocks allocated for file data are never on the directory track nor on a fully reserved track.", "quantifier": "every history of create/write operations on a consistent disk", "why_tests_cant": "Must hold for all histories and BAM contents.", "anchors": ["src/disk/format.rs next_free_track_cbm/geos", "src/disk/directory.rs next_free_directory_entry", "src/disk/chain.rs allocate_next_block"]}
{"id": "C12", "title": "blocks_free counts exactly the free data sectors", "statement": "blocks_free() equals the number of sectors outside the directory track that are free in the BAM, for every BAM whose counts agree with its bitmaps.", "quantifier": "every consistent BAM, three formats", "why_tests_cant": "Sum over all tracks for all BAM contents.", "anchors": ["src/disk/bam.rs blocks_free"]}
{"id": "C13", "title": "Formatting yields an empty, consistent, full-capacity disk", "statement": "After write_format(name, id) with a name of at most 16 characters succeeds on a writable image of any prior content, the directory is empty, blocks_free is 664 / 1328 / 3160, exactly the system sectors are allocated, validate() reports no errors, and re-opening the image gives the same result.", "quantifier": "every prior image content, every supported geometry, every name of length ≤ 16 and id", "why_tests_cant": "Prior content is arbitrary; tests format a fresh zeroed image.", "anchors": ["src/disk/mod.rs write_format/initialize", "src/disk/format.rs system_locations/total_data_blocks"]}
{"id": "C14", "title": "Disk name and id round-trip through the header", "statement": "After formatting with name n and id i, name() (also after re-opening) returns n padded with 0xA0 to 16 bytes and the header id is i; writing the header changes no byte other than the header fields.", "quantifier": "every name of length ≤ 16, every 2-byte id, every prior sector content, three formats", "why_tests_cant": "All byte values for name, all prior contents.", "anchors": ["src/disk/header.rs Header::read/write", "src/disk/mod.rs name"]}
{"id": "C15", "title": "Following a block chain always terminates and never visits a sector twice", "statement": "On every image, however corrupted, walking the chain from any start location terminates, visits pairwise distinct existing sectors (hence at most as many as the image has), and yields at most one error, at the end.", "quantifier": "every image content, every start location", "why_tests_cant": "Termination on arbitrary corrupted (cyclic) input.", "anchors": ["src/disk/chain.rs ChainIterator::next"]}
{"id": "C16", "title": "Chain reading is exact: data for well-formed chains, the right error otherwise", "statement": "Reading from a start location returns the concatenated payload exactly when the links form a finite non-repeating path to a tail block; it reports ChainLoop exactly when the path revisits a sector, InvalidLocation exactly when it leaves the disk, InvalidChainLink exactly when it meets a link 00 00.", "quantifier": "every image content, every start location", "why_tests_cant": "The path may be arbitrarily long and contain arbitrary bytes.", "anchors": ["src/disk/chain.rs ChainIterator, ChainLink::new, ChainReader"]}
{"id": "C17", "title": "File reading does not depend on the sizes of the read calls", "statement": "For a readable file, any sequence of read() calls with any buffer sizes returns consecutive pieces whose concatenation is a prefix of the file content, every non-empty read returns min(requested, remaining) bytes, and a 0 result for a non-empty buffer occurs only at the end.", "quantifier": "every image, every file, every sequence of buffer sizes", "why_tests_cant": "Unbounded sequences of arbitrary sizes.", "anchors": ["src/disk/chain.rs ChainReader::read"]}
{"id": "C18", "title": "What is written is what is read back", "statement": "Creating a file, writing data in any number of write() calls of any sizes, and flushing or dropping the writer, all succeeding, makes a subsequent read return exactly the concatenation of the data.", "quantifier": "every consistent disk, every filename, every data and every chunking that fits the disk", "why_tests_cant": "All sizes including exact multiples of 254, all chunkings.", "anchors": ["src/disk/chain.rs ChainWriter::write/flush", "src/disk/mod.rs create_file", "src/disk/file.rs LinearFile"]}
{"id": "C19", "title": "Appending preserves existing content and keeps the block count exact", "statement": "Opening a writer on an existing file of content c and writing d leaves a file with content c ++ d, and the directory entry's block count always equals the number of blocks of the chain, max(1, ceil(len/254)).", "quantifier": "every consistent disk, every existing file and data", "why_tests_cant": "Boundary conditions of the partially filled last block for every length.", "anchors": ["src/disk/chain.rs ChainWriter::new/write/increment_entry_blocks"]}
{"id": "C20", "title": "A write that runs out of space keeps the longest prefix that fits and nothing else breaks", "statement": "If write() fails with DiskFull, then after the writer is dropped the file content is the old content followed by exactly the prefix of the data that fits in its blocks plus all remaining free blocks, blocks_free is 0, and every other file is unchanged.", "quantifier": "every consistent disk, every file, every data", "why_tests_cant": "Depends on the fill level and data length; all combinations.", "anchors": ["src/disk/chain.rs ChainWriter::write/allocate_next_block"]}
{"id": "C21", "title": "Crash safety of appending: every intermediate image is readable", "statement": "Stop after any number of the individual sector writes performed by appending: the file then reads as its old content followed by a prefix of the new data, and every other file reads unchanged.", "quantifier": "every consistent disk, file, data and every crash point between two sector writes", "why_tests_cant": "All crash points for all data.", "anchors": ["src/disk/chain.rs allocate_next_block/write_current_block/flush", "src/disk/bam.rs flush"]}
{"id": "C22", "title": "File attribute bytes round-trip", "statement": "Decoding any attribute byte and encoding it again gives the same byte, and decoding an encoded attribute set gives it back (for file type codes 0..15).", "quantifier": "all 256 bytes; all attribute values", "why_tests_cant": "Small domain, but the bit layout must hold for every combination.", "anchors": ["src/disk/directory.rs FileAttributes::from_byte/to_byte"]}
{"id": "C23", "title": "Directory entries round-trip", "statement": "Rewriting a parsed directory entry into the slot it was read from changes no byte of the slot; and parsing a slot after writing an entry with a valid name into it returns that entry.", "quantifier": "every 32-byte slot content; every entry value of linear or GEOS kind", "why_tests_cant": "2^256 slot contents.", "anchors": ["src/disk/directory.rs DirectoryEntry::from_positioned_bytes/to_bytes, Extra"]}
{"id": "C24", "title": "Names round-trip through fixed-width padded fields", "statement": "Writing a PETSCII name of at most 16 bytes that does not end in 0xA0 into a padded field and reading it back yields the name; names ending in 0xA0 are stripped.", "quantifier": "every byte string", "why_tests_cant": "All byte strings.", "anchors": ["src/petscii.rs from_padded_bytes/write_bytes_with_padding"]}
{"id": "C25", "title": "File names stay unique and a created file can be found", "statement": "After a successful create or rename to a name (≤16 bytes, not ending in 0xA0), looking the name up returns that file, and, as long as no name ending in the padding byte 0xA0 is used, no operation ever leaves two live directory entries with the same name.", "quantifier": "every consistent disk, every name, every history", "why_tests_cant": "Invariant over histories.", "anchors": ["src/disk/mod.rs check_filename_availability/create_file/rename/find_directory_entry"]}
{"id": "C26", "title": "Failed creation does not disturb the disk", "statement": "create_file fails with FilenameTooLong for names over 16 bytes, FileExists for a taken name, DiskFull when no slot or block is left; in each case the directory listing, all file contents and all other allocations are unchanged.", "quantifier": "every consistent disk, every name", "why_tests_cant": "Failure paths after partial work (a freshly linked directory block) for all states.", "anchors": ["src/disk/mod.rs create_file", "src/disk/directory.rs next_free_directory_entry"]}
{"id": "C27", "title": "Rename changes the name and nothing else", "statement": "A successful rename(old, new) changes only the 16 name bytes of one directory slot; type, size, first block, contents, every other entry and the BAM are unchanged; it fails with NotFound / FileExists / FilenameTooLong without any change.", "quantifier": "every consistent disk and names", "why_tests_cant": "Frame property over the entire image.", "anchors": ["src/disk/mod.rs rename"]}
{"id": "C28", "title": "Delete frees exactly the file's blocks", "statement": "Deleting a file removes its entry from the listing, marks exactly the sectors of its chain free, increases blocks_free by the number of its blocks, and leaves every other file's content and entry unchanged.", "quantifier": "every consistent disk, every file", "why_tests_cant": "Exactness over all sectors and all other files.", "anchors": ["src/disk/file.rs LinearFile::delete", "src/disk/chain.rs remove_chain"]}
{"id": "C29", "title": "Deleting a file with a damaged chain has no effect", "statement": "If the block chain of a linear file cannot be followed to its end, delete returns an error and neither the image nor the BAM changes.", "quantifier": "every image and entry", "why_tests_cant": "All kinds of corruption.", "anchors": ["src/disk/chain.rs remove_chain", "src/disk/file.rs LinearFile::delete"]}
{"id": "C30", "title": "Directory listing: slots in order, scratched entries hidden, freed slots reused first", "statement": "The listing is exactly the non-scratched 32-byte slots of the directory chain in chain order (followed, on GEOS disks, by those of the border sector); a damaged chain gives an error. A new entry is placed in the first scratched slot if any exists; otherwise, if the last directory sector is full, in the first slot of one newly linked directory block, and every old slot keeps its entry.", "quantifier": "every image of a supported size, whatever it contains", "why_tests_cant": "All directory contents.", "anchors": ["src/disk/directory.rs DirectoryIterator::next, next_free_directory_entry"]}
{"id": "C31", "title": "Directory capacity", "statement": "Starting from a formatted disk with enough data blocks, exactly 144 / 144 / 296 files can be created; the next creation fails with DiskFull.", "quantifier": "every history of creates on D64/D71/D81", "why_tests_cant": "Hundreds of creations with any interleaving of deletes.", "anchors": ["src/disk/format.rs max_directory_entries", "src/disk/directory.rs next_free_directory_entry"]}
{"id": "C32", "title": "validate is sound and complete", "statement": "validate() returns an empty list if and only if: all system sectors and directory sectors are allocated, every file's sectors can be determined, no sector is claimed by two files or by a file and the system, and on BAM-covered tracks the allocated sectors are exactly those claimed. Every reported error describes a real violation.", "quantifier": "every image and BAM content", "why_tests_cant": "Equivalence over all images.", "anchors": ["src/disk/validation.rs validate/invert_locations/scan_file"]}
{"id": "C33", "title": "No history of operations produces a disk that validate complains about", "statement": "From a formatted disk, after any sequence of create, write, flush, rename, delete operations (successful or failing with DiskFull/FileExists/NotFound/FilenameTooLong), validate() returns no errors.", "quantifier": "every finite history, every format", "why_tests_cant": "Invariant over all histories.", "anchors": ["src/disk/mod.rs", "src/disk/validation.rs", "src/disk/chain.rs", "src/disk/file.rs"]}
{"id": "C34", "title": "The library is a file store: every history refines an abstract map with a block quota", "statement": "For every sequence of operations (create of a sequential-layout file of any type but relative, append, read, rename, delete, list, blocks_free, format, re-read) from a formatted disk that keeps to the contract (no handle of a deleted file, one writer per file, no delete or format under an open writer), all results — including which operations fail and how — equal those of an abstract store mapping names to (type, contents) with capacity total_data_blocks in units of 254 bytes (minimum one block per file) and a fixed number of directory slots.", "quantifier": "every finite history of operations with arbitrary arguments, three formats", "why_tests_cant": "Full functional correctness over unbounded histories.", "anchors": ["src/disk/mod.rs Disk trait", "src/disk/file.rs LinearFile", "src/disk/chain.rs", "src/disk/directory.rs", "src/disk/bam.rs", "src/disk/format.rs"]}
{"id": "C35", "title": "Writers on different files do not interfere under any interleaving", "statement": "With any number of writers open on pairwise different files, any interleaving of their write/flush/drop calls gives each file its old content followed by the data written through its own writer.", "quantifier": "every interleaving of calls of any number of writers", "why_tests_cant": "All schedules.", "anchors": ["src/disk/chain.rs ChainWriter"]}
{"id": "C36", "title": "Durability: after flush, delete or rename the image alone determines the state", "statement": "After a writer flush (or drop), a delete of a linear file, or a rename, with no unflushed allocation pending, re-opening the image bytes yields the same directory, the same contents and the same BAM as the live disk.", "quantifier": "every history ending in such an operation", "why_tests_cant": "All histories / crash points between API calls.", "anchors": ["src/disk/chain.rs ChainWriter::flush", "src/disk/mod.rs initialize", "src/disk/bam.rs flush"]}
{"id": "C37", "title": "A created file is durable even without a writer flush", "statement": "After create_file returns, re-opening the image yields a consistent disk containing the (empty) file. (False: the BAM is not flushed by create_file, so the re-opened BAM shows the file's block as free.)", "quantifier": "every consistent disk", "why_tests_cant": "Needs the state of the on-disk BAM versus the in-memory BAM at a crash point.", "anchors": ["src/disk/mod.rs create_file"]}
{"id": "C38", "title": "Handles obtained before the disk became unformatted are fenced off", "statement": "If the disk is re-initialised and found unformatted, every BAM access (allocate, free, next_free_block, entry) through a handle obtained earlier fails with InvalidBAM, while re-formatting keeps earlier handles attached to the new BAM.", "quantifier": "every state and history of initialise/format", "why_tests_cant": "Reference sharing over histories.", "anchors": ["src/disk/mod.rs set_bam/initialize", "src/disk/bam.rs check_validity/invalidate"]}
{"id": "C39", "title": "Location iterators enumerate every sector exactly once", "statement": "Iterating a geometry or a format yields each (track, sector) of tracks first..last exactly once, in increasing order, and then ends; BAM allocated/free sector listings partition it.", "quantifier": "all geometries and formats; all BAM contents", "why_tests_cant": "Partition claim over all BAM contents.", "anchors": ["src/disk/block.rs LocationIterator", "src/disk/format.rs LocationIterator", "src/disk/bam.rs allocated_sectors/free_sectors"]}
{"id": "C40", "title": "PETSCII text conversion is lossless on representable text", "statement": "Converting a Unicode string to PETSCII and back returns the string with exactly the unrepresentable characters replaced by U+FFFD; length is preserved; a second conversion changes nothing.", "quantifier": "every Unicode string", "why_tests_cant": "All strings / all code points.", "anchors": ["src/petscii.rs from_str_lossy/Display"]}
{"id": "C41", "title": "Entry positions: reading and rewriting an entry addresses the same bytes", "statement": "positioned_read after positioned_write at a position returns the written item, and positioned_write changes only the addressed bytes of the addressed sector.", "quantifier": "every image, position and item", "why_tests_cant": "Frame over the image.", "anchors": ["src/disk/block.rs positioned_read/positioned_write, Position", "src/disk/directory.rs PositionedData"]}
{"id": "C42", "title": "Relative file records are the fixed-size slices of the data stream", "statement": "For a well-formed relative file, record(i) returns bytes [i*L, (i+1)*L) of the concatenated data blocks listed by the side sectors (L the record length), for every i below the record count; larger i give InvalidRecordIndex.", "quantifier": "every well-formed relative file, every record index", "why_tests_cant": "Records straddle block boundaries in all alignments.", "anchors": ["src/disk/file.rs RelativeFile::new/record/record_position"]}
{"id": "C43", "title": "Opening a relative file never panics", "statement": "Opening any directory entry of a relative file returns a value or an error. (False: record length 0 and short side sectors panic.)", "quantifier": "every image and entry", "why_tests_cant": "Arbitrary corrupted side sectors.", "anchors": ["src/disk/file.rs RelativeFile::new"]}
{"id": "C44", "title": "GEOS VLIR records are addressed by their index position", "statement": "record(i) of a VLIR file returns the chain named by the i-th pair of the VLIR index (positions 0..126). (False by one: the link bytes of the index block are counted as record 0.)", "quantifier": "every VLIR file and record index", "why_tests_cant": "All index contents.", "anchors": ["src/disk/geos/file.rs GEOSFile::new/record/record_start"]}
{"id": "C45", "title": "The GEOS export stream is well defined and independent of read sizes", "statement": "Reading a GEOS file's export stream yields directory block, info block, and (for VLIR) converted index followed by the record data, in any sequence of read sizes. (False: a read that fills its buffer does not consume what it returned.)", "quantifier": "every GEOS file, every sequence of read sizes", "why_tests_cant": "Unbounded sequences of arbitrary sizes.", "anchors": ["src/disk/geos/reader.rs GEOSReader::read/next_state"]}
{"id": "C46", "title": "GEOS info blocks can be serialised", "statement": "Serialising a parsed GEOS info block succeeds and yields the parsed fields again. (False: to_bytes panics for every parsed info block.)", "quantifier": "every 256-byte info block", "why_tests_cant": "All blocks.", "anchors": ["src/disk/geos/mod.rs GEOSInfo::to_bytes/from_bytes"]}
{"id": "C47", "title": "GEOS type codes round-trip", "statement": "GEOS structure and file-type bytes decode and re-encode to the same byte for all 256 values.", "quantifier": "all 256 bytes", "why_tests_cant": "Complete table.", "anchors": ["src/disk/geos/mod.rs GEOSFileStructure, GEOSFileType"]}
{"id": "C48", "title": "Sprite rendering is faithful", "statement": "The Unicode rendering of a 63-byte sprite determines the sprite: two sprites render equally only if their 504 pixels are equal, and the rendering always has 11 lines of 12 glyphs.", "quantifier": "all 2^504 sprites", "why_tests_cant": "Injectivity.", "anchors": ["src/sprite.rs Sprite::to_unicode"]}
{"id": "C49", "title": "Hex dumps show every byte", "statement": "A hex dump of n bytes has ceil(n/16) lines and shows each byte, in order, as two hex digits; distinct contents give distinct dumps.", "quantifier": "all byte strings", "why_tests_cant": "Injectivity, all lengths.", "anchors": ["src/util/mod.rs hexdump"]}
{"id": "C50", "title": "Library errors survive conversion to and from io::Error", "statement": "Converting any library error into an io::Error and back returns the same library error, and the io kind is as documented.", "quantifier": "all error variants", "why_tests_cant": "Complete over variants and any wrapped error.", "anchors": ["src/disk/error.rs"]}
{"id": "C51", "title": "Opening a writer terminates on every image", "statement": "Opening a writer on any file returns a writer or an error. (False: on a cyclic chain it loops forever, unlike reading, which reports ChainLoop.)", "quantifier": "every image, every start location", "why_tests_cant": "Non-termination is not observable by testing.", "anchors": ["src/disk/chain.rs ChainWriter::new"]}
{"id": "C52", "title": "A stale handle cannot damage other files", "statement": "Deleting twice through one handle, or dropping a writer of a file that has been deleted, leaves other files intact. (False.)", "quantifier": "every history with retained handles", "why_tests_cant": "Needs histories where the freed blocks are reused.", "anchors": ["src/disk/file.rs LinearFile::delete", "src/disk/chain.rs ChainWriter drop"]}
{"id": "C53", "title": "A failed operation on a read-only disk leaves blocks_free unchanged", "statement": "On a read-only disk a failing create_file or delete leaves the reported number of free blocks unchanged. (False: the in-memory BAM is modified before the write is refused.)", "quantifier": "every consistent read-only disk", "why_tests_cant": "State after the error path.", "anchors": ["src/disk/mod.rs create_file", "src/disk/chain.rs remove_chain"]}
{"id": "C54", "title": "A rejected format request leaves the disk intact", "statement": "write_format with an invalid name (over 16 bytes) fails without changing the disk. (False: every sector is zeroed before the name is checked.)", "quantifier": "every image, every over-long name", "why_tests_cant": "State after the error path.", "anchors": ["src/disk/mod.rs write_format", "src/disk/header.rs write"]}
{"id": "C55", "title": "Deleting any file never panics", "statement": "Deleting a file whose chain can be followed returns without panicking. (False on 40-track D64 images when the chain uses tracks 36-40, which the BAM does not cover, and for GEOS files whose entry names an info block that cannot be in the BAM.)", "quantifier": "every image and file", "why_tests_cant": "Only particular layouts.", "anchors": ["src/disk/file.rs delete", "src/disk/bam.rs free/entry_mut", "src/disk/d64.rs"]}
{"id": "C56", "title": "cdisk bam edit keeps the map consistent", "statement": "Editing the BAM from the command line changes only the requested entries and keeps counts equal to the number of free sectors of the track. (False: sectors beyond the end of a track can be marked free; tracks 36-40 panic.)", "quantifier": "every BAM and track/sector selection", "why_tests_cant": "All selections and BAM contents.", "anchors": ["src/bin/cdisk.rs cmd_bam_edit/optional_u8_parser"]}
{"id": "C57", "title": "Files created with a size contain exactly that many bytes", "statement": "The zero-fill source used by cdisk create delivers exactly the requested number of bytes for any sequence of read sizes, then end of file.", "quantifier": "every size and sequence of read sizes", "why_tests_cant": "Unbounded sequences.", "anchors": ["src/bin/cdisk.rs FillReader"]}
{"id": "C58", "title": "No call changes the size, kind, layout or type of the image", "statement": "From opening an image on, whatever calls are made with whatever arguments and results, the image keeps its length, its kind (read-only, in-memory, mapped), its geometry and its disk type.", "quantifier": "every image, every sequence of calls", "why_tests_cant": "Invariant over all histories and arguments.", "anchors": ["src/disk/image.rs", "src/disk/block.rs BlockDevice", "src/disk/mod.rs Disk"]}
{"id": "C59", "title": "The per-sector error table is never changed", "statement": "On images that carry an error table after the sectors, no sequence of calls reads it as a sector or changes a byte of it.", "quantifier": "every image with an error table, every sequence of calls", "why_tests_cant": "Invariant over all histories and arguments.", "anchors": ["src/disk/geometry.rs Geometry", "src/disk/d64.rs GEOMETRIES", "src/disk/block.rs BlockDevice::get_offset"]}
{"id": "C60", "title": "Placing a new directory entry never panics", "statement": "next_free_directory_entry (and so create_file) returns an entry or an error on every image. (Refuted: it panics exactly when there is no free slot and the used part of the last directory sector is not a multiple of 32 bytes, or that sector lies on a track that the BAM does not cover.)", "quantifier": "every image of a supported size", "why_tests_cant": "All directory contents, including malformed ones.", "anchors": ["src/disk/directory.rs next_free_directory_entry", "src/disk/mod.rs create_file"]}
{"id": "C61", "title": "Creating, deleting and renaming are atomic under a crash", "statement": "Stop after any number of the individual sector writes performed by create_file, delete or rename: the image opens, and its name, directory and the contents of all files are either all as before the call or all as after it.", "quantifier": "every reachable state, every call of these kinds (successful or not), every crash point between two sector writes", "why_tests_cant": "A test can stop at a few points of a few runs only.", "anchors": ["src/disk/mod.rs create_file, rename", "src/disk/file.rs File::delete", "src/disk/chain.rs remove_chain", "src/disk/directory.rs write_directory_entry"]}
{"id": "C62", "title": "cdisk create and cdisk format make an empty disk of the right size", "statement": "`cdisk create IMAGE` writes a file of zeros that has exactly the size of the disk type the extension names (1541 when it names none), and that file opens as such an image. `cdisk format IMAGE NAME ID`, on any file that opens as an image whatever it holds, succeeds for names of up to 16 characters and leaves an empty disk with that name and id in a file of the same size.", "quantifier": "every extension, every way the copying is cut into buffers, every previous contents of the image, every name of at most 16 characters and id", "why_tests_cant": "A test checks a few names on a blank file; the claim covers arbitrary previous contents and buffer sizes.", "anchors": ["src/bin/cdisk.rs cmd_create, FillReader, cmd_format", "src/disk/mod.rs open, DiskType::from_extension"]}
{"id": "C63", "title": "cdisk commands see what earlier commands did", "statement": "Starting from a formatted image, any sequence of cdisk runs (write, read, rename, delete, format, dir, validate), each a process of its own that shares only the image file with the others, behaves like operations on one map of named files: a file written by one run is listed with its size and read back byte for byte by later runs, deleted files are gone, the free blocks add up, and validation never finds an error. (False on a full disk: a write that fails because no block is left may have extended the directory by a sector that the BAM in the image still marks as free.)", "quantifier": "every sequence of commands with arbitrary names, types and data, every state of the image that such sequences reach", "why_tests_cant": "The histories and file contents are unbounded; each run re-reads the image from its bytes.", "anchors": ["src/bin/cdisk.rs cmd_write, cmd_read, cmd_rename, cmd_delete, cmd_format, cmd_dir, cmd_validate", "src/disk/mod.rs open"]}
{"id": "C64", "title": "cdisk append adds data to a file", "statement": "`cdisk append IMAGE FILE` adds the data to the end of an existing file.", "quantifier": "every image, every file, every data", "why_tests_cant": "Whether it can ever work, for any image, is not visible from single runs.", "anchors": ["src/bin/cdisk.rs cmd_append, open_cbm_appender, open_cbm_file"]}
{"id": "C65", "title": "Deleting a relative or GEOS file gives back exactly its blocks, for good", "statement": "Deleting a relative file, a sequential GEOS file or a VLIR file that was found in a listing and opened removes its entry from the listing, gives back exactly the blocks of the file (data and side sectors; chain and info block; index sector, info block and the chains of all records) so that the number of free blocks grows by their number, changes nothing else on the image, and the BAM in the image says so too. (Refuted for the last part: side sectors and the info block of a sequential file stay allocated in the image.)", "quantifier": "every image with an intact directory, every listed file of these kinds with intact chains, every state of the BAM", "why_tests_cant": "The structures are of arbitrary length and shape; a test covers a few sample files, none of which is in the repository for deletion.", "anchors": ["src/disk/file.rs RelativeFile::delete", "src/disk/geos/file.rs GEOSFile::delete", "src/disk/chain.rs remove_chain", "src/disk/bam.rs BAM::free"]}
{"id": "C66", "title": "Which files can be read and written as one stream", "statement": "For a file found in a listing: an ordinary file can be read and a writer can be opened on it; a sequential GEOS file reads back the content of its chain whatever buffer sizes are used but refuses a writer with ReadOnly; a VLIR file and a relative file refuse both with NonLinearFile. A refused request changes nothing.", "quantifier": "every image, every listed file of each kind, every content and buffer size", "why_tests_cant": "The kind of a file is decided by the bytes of its directory slot, which are arbitrary.", "anchors": ["src/disk/file.rs FileOps::reader, FileOps::writer", "src/disk/geos/file.rs GEOSFile::new, reader, writer", "src/disk/directory.rs DirectoryEntry::new"]}
{"id": "C67", "title": "A directory listing shows exactly what the directory says", "statement": "`cdisk dir` prints the title, one line for each listed file in directory order, and the number of free blocks; it fails exactly when the directory or the BAM cannot be read. The line of a file is the size, the quoted name and the type with its marks in fixed columns (as long as the size is below 10000), and two slots get the same line only if they agree in size, characters of the name, type, flags and border; the verbose line also tells side sector and record length of relative files and structure, type and time of GEOS files. Two images with the same listing have the same files and the same free blocks as far as the lines tell. For an image made by cdisk commands, the lines are those of the files that were written.", "quantifier": "every 32-byte slot, every image, every history of commands", "why_tests_cant": "The slots are arbitrary bytes; names may contain quotes, blanks and unprintable characters, so that lines could be ambiguous.", "anchors": ["src/disk/directory.rs Display for DirectoryEntry, Display for FileAttributes, Display for FileType, Debug for Extra", "src/disk/mod.rs Display for dyn Disk", "src/bin/cdisk.rs cmd_dir", "src/petscii.rs Display for Petscii"]}
{"id": "C68", "title": "The validation report tells every error and the verdict", "statement": "`cdisk validate` prints one line for each error that the check finds, in its order, and a line that says so if there is none; the command fails, telling the number of errors, exactly if there are errors, and fails without a verdict exactly if the check does. Two errors get the same line only if they are of the same kind and agree in the block, the error and the characters of the file names, so that reports can be compared line by line. An image made by cdisk commands validates successfully.", "quantifier": "every image, every pair of errors, every history of commands", "why_tests_cant": "Names in directory slots are arbitrary bytes, including quotes and unprintable characters; the errors of arbitrary images are unbounded in number.", "anchors": ["src/bin/cdisk.rs cmd_validate", "src/disk/validation.rs Display for ValidationError", "src/disk/error.rs Display for DiskError", "src/petscii.rs Debug for Petscii", "src/disk/block.rs Display for Location"]}
{"id": "C69", "title": "The printed BAM shows exactly which sectors are free", "statement": "`cdisk bam show` works on every image that opens formatted: it prints a line for each track with the recorded count, the number of sectors and for every sector whether it is free, and then the number of free blocks. Two images of the same type that show the same map agree in every sector and every count. For an image made by cdisk commands the count in each line is the number of free sectors shown, and the last line tells the free blocks of the file store. An unformatted disk is refused with Unformatted and prints nothing.", "quantifier": "every image of a supported size, every BAM contents", "why_tests_cant": "All bit patterns of the BAM on all three disk types.", "anchors": ["src/bin/cdisk.rs cmd_bam_show", "src/disk/bam.rs Debug for BAM, Debug for BAMEntry", "src/disk/bam.rs BAM::blocks_free"]}
{"id": "C70", "title": "A dump shows every byte", "statement": "`cdisk dump IMAGE` succeeds on every image that opens and prints every block under its track and sector, in order, and the error table if the image has one; two images with the same dump are the same byte for byte. `cdisk dump IMAGE FILE` prints the name and every record under its number if all records can be read, and otherwise fails with the error of the first that cannot; two files with the same dump have the same records. For an image made by cdisk commands the dump shows the data that was written.", "quantifier": "every image of a supported size and any contents, every file, every history of commands", "why_tests_cant": "All contents of images of up to 822400 bytes; records of arbitrary number and length.", "anchors": ["src/bin/cdisk.rs cmd_dump", "src/disk/block.rs dump", "src/disk/file.rs FileOps::dump", "src/util.rs hexdump"]}
{"id": "C71", "title": "Verbose listings show where files are stored", "statement": "With `-v`, `cdisk dir` adds to each line the kind of the file (for relative files the side sector and record length, for GEOS files structure, type and time). With `-vv` each line is followed by a description of the first file with that name and an empty line, with `-vvv` this includes the directory slot and all sectors of the file: the chain of an ordinary or sequential GEOS file, data and side sectors of a relative file, index sector and the chain of every record of a VLIR file (records are numbered from 1, and trailing empty ones are only counted), and the text of the info block. For an image made by cdisk commands with distinct names, the sectors shown for a file are the chain that holds its content, and no sector is shown twice.", "quantifier": "every image with intact file structures, every history of commands", "why_tests_cant": "Files of arbitrary number, kind and length; the chains are arbitrary.", "anchors": ["src/bin/cdisk.rs cmd_dir", "src/disk/file.rs FileOps::details", "src/disk/geos/file.rs GEOSFile::details", "src/disk/directory.rs Debug for Extra", "src/disk/block.rs Location::format_locations, Display for Position"]}
{"id": "C72", "title": "The text of a GEOS info block tells its contents", "statement": "The text of an info block is eleven lines: the icon drawn with two by two pixels per character, and beside its first six rows the type and structure, the three addresses, and class, author, application and description up to the first zero byte, with unprintable bytes escaped. Two info blocks have the same text exactly if they agree in all of these.", "quantifier": "every 256-byte block", "why_tests_cant": "All contents of the icon and of the texts, including newlines and backslashes, which could make the lines ambiguous.", "anchors": ["src/disk/geos/mod.rs Display for GEOSInfo", "src/disk/geos/mod.rs GEOSInfo::from_bytes", "src/sprite.rs Sprite::to_unicode"]}
{"id": "C73", "title": "File type names are read as the listing writes them", "statement": "A word names a file type exactly if it is one of the five names of the listing (del, seq, prg, usr, rel) in letters of either case, and it names the type that the listing calls by this name; `cdisk write` makes a file of the type named by its argument, and a sequential file if there is no argument or one that names no type.", "quantifier": "every string, every attribute byte", "why_tests_cant": "All strings; case folding is defined on all of Unicode.", "anchors": ["src/disk/directory.rs FileType::from_string, Display for FileType", "src/bin/cdisk.rs cmd_write"]}
{"id": "C74", "title": "Exporting a GEOS file with cdisk writes its export stream", "statement": "`cdisk geosread` writes the export (Convert) stream of the first file with the given name, for every GEOS file whose structures are intact; other files are refused with an error; the image is not changed.", "quantifier": "every image, every name, every GEOS file and size of its stream", "why_tests_cant": "Streams of arbitrary size, copied through a buffer of fixed size; small test files do not fill the buffer.", "anchors": ["src/bin/cdisk.rs cmd_geosread, open_geos_file, open_geos_reader", "src/disk/geos/file.rs GEOSFile::reader", "src/disk/geos/reader.rs GEOSReader::read"]}
{"id": "C75", "title": "Every file that can be created can be opened and deleted again", "statement": "A file created under a name (that does not end in a padding byte) with any of the accepted types can afterwards be opened by that name, read as an empty file, and deleted, after which it is gone. (False for the type REL, which is accepted: the entry then reads as that of a relative file without side sectors, and every later attempt to open it by name fails.)", "quantifier": "every reachable state, every name, every file type", "why_tests_cant": "The types are a parameter of a public call and of cdisk write; which of them lead to entries that can be read again has to be settled for all states of the directory.", "anchors": ["src/disk/mod.rs create_file, open_file", "src/disk/directory.rs DirectoryEntry::parse", "src/disk/file.rs RelativeFile::new", "src/bin/cdisk.rs cmd_write"]}
{"id": "C76", "title": "Which block is allocated next is fixed by the drive's policy", "statement": "When the block availability map is in order, the block found after a given block is exactly the one the policy names: the tracks are tried moving away from the directory track, then over the other half and then over the own half (GEOS: upwards, then from the first track; the directory: its own track only), and on the first track with a free sector the search starts at the interleave and goes round the track. The first block of a file is the lowest free sector of the track nearest to the directory that has one. The disk is full exactly when the policy names no block.", "quantifier": "every consistent allocation map of every disk type, both policies, every previous block", "why_tests_cant": "All sets of free sectors and all previous blocks; the wrap-around and the change of halves show only on nearly full disks.", "anchors": ["src/disk/format.rs next_free_block, first_free_block, next_free_block_from_previous, next_free_track_cbm, next_free_track_geos", "src/disk/bam.rs Bam::next_free_block"]}
{"id": "C77", "title": "The blocks of a file are spaced by the drive's interleave", "statement": "When a file grows, each new block is the one the drive's policy puts after the block before it, so that a file written on an empty disk can be read at the drive's speed; the first block of a new file is the one nearest to the directory track; and no other file moves. (False: every block is chosen like the first block of a file, so the blocks of a file written on an empty 1541 or 1571 disk lie in adjacent sectors.)", "quantifier": "every reachable state, every file and every amount of data", "why_tests_cant": "Depends on the set of free sectors at every step of a write; all states of the allocation map have to be covered.", "anchors": ["src/disk/chain.rs ChainWriter::allocate_next_block", "src/disk/mod.rs create_file", "src/disk/bam.rs Bam::next_free_block"]}
{"id": "C78", "title": "Reading an image with arbitrary bytes never crashes and never hangs, but for two kinds of broken relative files", "statement": "Whatever the bytes of an image, opening it, listing its directory, looking for a file, asking for the free blocks, reading a sector, opening a file, reading its content, its records, its GEOS info block and its export stream, and validating the disk all come back with a result or an error, also after any history of other calls. The only exceptions are relative files whose side sectors end in one with fewer than sixteen used bytes, and relative files in order but with record length zero: opening one of these panics, and so does validating a disk whose directory lists one.", "quantifier": "every image of every size, every history of calls that install no foreign format or BAM, every file and every sequence of reads, also when the bytes of the image change between the reads", "why_tests_cant": "The space of damaged images is the space of all byte strings; loops and bad links can be anywhere in chains, directories, side sectors and index blocks.", "anchors": ["src/disk/mod.rs Disk::directory, Disk::open_file, Disk::blocks_free", "src/disk/chain.rs ChainIterator, ChainReader", "src/disk/file.rs File::reader, File::record, File::occupied_sectors, RelativeFile::new", "src/disk/geos/reader.rs GEOSReader::read", "src/disk/validation.rs validate"]}
{"id": "C79", "title": "Changing an image with arbitrary bytes never crashes and never hangs, but for a known list of cases", "statement": "Whatever the bytes of an image and whatever calls were made on it before, successful or not, every call that changes it comes back with a result or an error: initializing, formatting, setting and flushing the header, creating, opening, renaming and deleting files, opening writers, writing, flushing and dropping them, writing directory entries and sectors, and changing the BAM. The exceptions are: opening a broken relative file (C78); creating a non-linear file; asking for a directory slot when there is none free and the last directory sector is odd or beyond the BAM; opening a writer on a chain that loops; a write that would take the block count of the file beyond 65535, or one for a file whose directory slot is in a sector marked free or in the last sector of the file itself; deleting on a 40-track 1541 image, or a GEOS file whose info block is beyond the BAM; writing an entry that has no slot, or a name too long for it; a sector of the wrong length; and a BAM change beyond the BAM.", "quantifier": "every image of every size, every history of calls and every further call with every argument; only formats, BAMs and entries made up by the caller are left out", "why_tests_cant": "The space of damaged images is the space of all byte strings, and every history of calls on each of them has to be covered.", "anchors": ["src/disk/mod.rs Disk", "src/disk/file.rs FileOps::delete, File", "src/disk/chain.rs ChainWriter", "src/disk/directory.rs next_free_directory_entry", "src/disk/bam.rs BAM::allocate, BAM::free, BAM::flush"]}
{"id": "C80", "title": "Creating an image file gives a blank image and overwrites an existing file only if allowed", "statement": "Creating an image of a type at a path makes a file with exactly the size of the geometry, filled with zeros, and opens it for writing; other files do not change. If new files are demanded and there is a file at the path, the call fails and the file is left alone; otherwise an existing file is overwritten, as the documentation of create says.", "quantifier": "every state of the host's files, every path, every type and geometry, both values of create_new", "why_tests_cant": "The outcome depends on what is in the file before, which can be any byte string of any length.", "anchors": ["src/disk/image.rs Image::create", "src/disk/d64.rs D64::create", "src/disk/d71.rs D71::create", "src/disk/d81.rs D81::create"]}
{"id": "C81", "title": "The extension of the path decides the type of the image, and otherwise its size", "statement": "A path whose name is a stem and one of the extensions d64, d71, d81, in either case of the letter, is opened as an image of that type if the size fits and is refused with InvalidLayout otherwise, whatever else the size could mean. A path with any other name is opened as the one type its size belongs to, and refused if there is none. A missing file and an empty file are refused. The disk holds exactly the bytes of the file, writable if asked for.", "quantifier": "every path that names a file, with any directories, dots and letters, every file contents, both modes", "why_tests_cant": "Paths and file contents are unbounded; hidden files, several dots and dots in directories are easily forgotten.", "anchors": ["src/disk/mod.rs open, DiskType::from_extension", "src/disk/image.rs Image::open_read_only, Image::open_read_write", "src/disk/d64.rs D64::open"]}
{"id": "C82", "title": "A program that uses a disk changes only the file of that disk, and finds it again", "statement": "After opening an image file and any calls on the disk, all other files of the host are as before and this file has the size it had; opened for reading only it is unchanged. Opening the path again gives a disk of the same type with exactly the bytes the disk had.", "quantifier": "every state of the host's files, every path and every history of calls", "why_tests_cant": "The histories are unbounded.", "anchors": ["src/disk/image.rs Image", "src/disk/mod.rs open"]}
{"id": "C83", "title": "Two disk objects on the same image file do not damage each other's files", "statement": "When a program opens the same image file twice for writing and uses the two disk objects alternately, each of them sees at once the files the other one made, and what one of them does leaves the files of the other intact.", "quantifier": "every reachable saved state at the second opening, every history of calls through the first object, every file that the second one deletes", "why_tests_cant": "All histories of two clients of one file, with every state of the allocation maps that each of them keeps.", "anchors": ["src/disk/image.rs Image::open_read_write", "src/disk/d64.rs D64::open", "src/disk/bam.rs BAM::flush", "src/disk/file.rs FileOps::delete"]}
{"id": "C84", "title": "cdisk comes back from every command on every file", "statement": "Given any file as the image, whatever its bytes, each command of cdisk ends with its result or with an error message; it does not panic and it does not run for ever. The exceptions are: a relative file that is damaged in one of the two ways of C78 and is named by the command, or is on the disk when the directory is listed with two or more -v or the disk is validated; editing the map of a 1541 disk beyond track 35; writing to a disk with no free slot whose directory ends in an odd sector, or with a directory sector that is marked as free; appending to a file whose chain is a loop; deleting a file of a 40-track 1541 disk, or a GEOS file whose info block is beyond the map; and geosread of a file that is not a GEOS file. On images that cdisk made itself there are no exceptions but the map beyond track 35 and geosread.", "quantifier": "every file, every extension, every command with every argument the command-line parser accepts", "why_tests_cant": "The image can be any byte string, and the damage can be anywhere in it.", "anchors": ["src/bin/cdisk.rs cmd_dir, cmd_validate, cmd_dump, cmd_bam, cmd_read, cmd_write, cmd_append, cmd_rename, cmd_delete, cmd_format, cmd_geosread"]}
{"id": "C85", "title": "Each call changes only the bytes it is about", "statement": "On a disk with any bytes, after any calls, a call changes only the bytes it is about, whether or not it succeeds, and so do all the sector writes on the way: looking things up and opening changes nothing; renaming changes the 16 bytes of the name in the slot of the file; deleting changes the slot of the file and the map of the disk; creating changes the link of the last directory sector, slots without a file and sectors marked as free; writing through a writer changes the sector the writer is in, sectors marked as free and the two bytes of the size in the slot; flushing or dropping it changes its sector and the map; writing the header changes the bytes of the header. A sector is marked as free after a call only if it was before, or if the call deletes the file it is a sector of, formats, reads the map anew, replaces it or frees that sector.", "quantifier": "every image, every history of calls, every call, every sector and byte, every sector write of the call", "why_tests_cant": "The images are arbitrary byte strings with arbitrary links; the histories are unbounded.", "anchors": ["src/disk/mod.rs Disk", "src/disk/chain.rs ChainWriter, remove_chain", "src/disk/directory.rs next_free_directory_entry, DirectoryEntry::write", "src/disk/file.rs FileOps::delete", "src/disk/bam.rs BAM::flush", "src/disk/header.rs Header::write"]}
{"id": "C86", "title": "A program stays within the sectors and slots it claims", "statement": "A program that opens, changes or names only files, slots and sectors it lays claim to (what is free on the disk, plus the files it means to work with, with all sectors their links lead to) changes no other byte of the image except the map, the header and the link at the end of the directory, whatever else it does with those files: delete them twice, write through several writers at once, or through writers of deleted files, and whether the calls succeed or fail. This holds after each single sector write, and no map ever marks a sector outside of the claim as free.", "quantifier": "all images the disk object can be opened on, all claims that include what is free, all finite sequences of calls within the claim, all stopping points", "why_tests_cant": "The misuse possible with open handles (double delete, stale writers, aliased chains) makes an unbounded space of histories, and the images are arbitrary.", "anchors": ["src/disk/mod.rs Disk", "src/disk/chain.rs ChainWriter, remove_chain", "src/disk/directory.rs next_free_directory_entry", "src/disk/file.rs FileOps", "src/disk/bam.rs BAM"]}
{"id": "C87", "title": "On a disk that validates clean, work on some files leaves every other file as it is", "statement": "Open an image on which validate reports nothing and whose directory does not run through the sectors of the map and the header. Open any files of the listing, and then create, write, flush, drop and delete, in any order, with any misuse of the handles, and whether or not the calls succeed. Then every file that was not opened, be it linear, relative, GEOS sequential or VLIR, is still listed with the same entry, opens to the same file, reads the same record by record, has its sectors marked as allocated in every map, and none of its bytes changed at any time in between. For an opened relative file the chain of its data has to be among the sectors that its side sectors list.", "quantifier": "all images that validate clean, all sets of opened files, all finite sequences of calls, all other files of every kind, all stopping points", "why_tests_cant": "The images with their mixture of file kinds, the programs and the points at which they stop are unbounded.", "anchors": ["src/disk/mod.rs Disk, validate", "src/disk/validation.rs", "src/disk/chain.rs ChainWriter, remove_chain", "src/disk/file.rs File, FileOps", "src/disk/geos/mod.rs", "src/disk/bam.rs BAM"]}
{"id": "C88", "title": "A file has as many records as it says", "statement": "Asking an opened file of the directory for the record with a given index is answered with 'no such record' (InvalidRecord or InvalidRecordIndex) exactly if the index is not below the number of records that the file reports. The one record of a linear file is its whole content.", "quantifier": "all images, all listed files of every kind, all indexes", "why_tests_cant": "Indexes, chains, side sectors and index sectors are unbounded in combination, and the number of records is computed apart from the lookup.", "anchors": ["src/disk/file.rs FileOps::record_count, FileOps::record, RelativeFile::record_position", "src/disk/geos/file.rs GEOSFile::record_start, GEOSFile::record"]}
{"id": "C89", "title": "Deleting a file of a disk that validates clean leaves a disk that validates clean", "statement": "On a disk on which validate reports nothing, deleting a file of any kind (linear, relative, GEOS sequential or VLIR) whose chains are in order and within the map succeeds, and then validate reports nothing again; the file is not listed any more, and all the others are.", "quantifier": "all images that validate clean, with any mixture of files of all kinds, all files of them that are in order", "why_tests_cant": "The number, kinds and layouts of the files on the disk are unbounded, and validate looks at all of them.", "anchors": ["src/disk/file.rs FileOps::delete", "src/disk/geos/file.rs GEOSFile::delete", "src/disk/validation.rs", "src/disk/bam.rs BAM"]}
{"id": "C90", "title": "Renaming a file of any kind changes its name and nothing else", "statement": "On an image with any bytes whose directory can be listed, and after any calls, renaming a file gives exactly one of these results, checked in this order: not found if no file is listed under the old name, name too long if the new name has more than 16 characters, file exists if a file is listed under the new name, read only if the image cannot be written, and otherwise success. An error changes nothing. On success the listing is the same, in the same order, but for the name of the first file that had the old name, which keeps its kind, size and place; open files, writers and the free map stay as they are. On a disk on which validate reports nothing, it reports nothing afterwards, and every file (linear, relative, GEOS sequential or VLIR), the renamed one included, has the same sectors, the same number of records and the same bytes in each of them.", "quantifier": "all images, all preceding calls, all old and new names, all files of every kind", "why_tests_cant": "The bytes of the image, the files on it, the names and the history of calls are unbounded.", "anchors": ["src/disk/mod.rs Disk::rename, check_filename_availability, write_directory_entry", "src/disk/directory.rs DirectoryEntry::to_bytes, check_filename_validity", "src/disk/file.rs File::open_from_entry, FileOps", "src/disk/validation.rs"]}
{"id": "C91", "title": "A clean disk stays clean however many files are created, renamed, opened and deleted", "statement": "Take a writable disk on which validate reports nothing, the last sector of whose directory is in use to its end, and whose GEOS border sector, if it has one, is not in the directory as well; it may hold files of every kind. Creating a file (not of type REL, which the library cannot create as such), whatever the result, leaves a disk of the same sort: validate reports nothing, every file there was is listed as before and in the same order, with the same sectors and records, and on success exactly one file has been added, with the name asked for, no content and a sector that was free, even if the directory had to be extended by a sector for it. The same holds of renaming and of deleting a file that is in order, and so of any number of such calls.", "quantifier": "all images that validate clean and meet the two conditions on the directory, with any mixture of files of all kinds, all names and types, all finite sequences of calls with any results", "why_tests_cant": "The number, kinds and layouts of the files, the state of the directory and the free map, and the sequences of calls are unbounded, and validate looks at all of the disk.", "anchors": ["src/disk/mod.rs Disk::create_file, rename", "src/disk/directory.rs next_free_directory_entry", "src/disk/file.rs FileOps::delete", "src/disk/validation.rs", "src/disk/bam.rs BAM"]}
{"id": "C92", "title": "A clean disk stays clean while a file on it is written", "statement": "Take a disk as in C91, with files of any kind on it, whose directory does not run through the sectors of the free map. Open a writer on a linear file whose size does not claim more blocks than it has, and write to it and flush it any number of times, with any results. At every moment in between, even before anything is flushed, validate reports nothing, the listing is the same in the same order but for the size of that file, which has grown by exactly the blocks that were added to it, every other file has the same sectors and the same bytes in its records, and the file is a proper chain that starts with the blocks it had. Once the writer is flushed or goes out of scope, the file holds the bytes it had, then bytes that were written: all of them, in order, if no call failed, and otherwise the first so many of those of each call. Opening the writer and flushing it do not fail, and, if the counts in the free map agree with its bits, a write fails only with disk full and only when no sector for data is free any more. So a file that is created, written and closed without an error is added to the listing with the name asked for, exactly the bytes written and the size of the chain that holds them, whatever else is on the disk.", "quantifier": "all images that validate clean and meet the conditions on the directory, all linear files on them, all finite sequences of writes of any bytes and flushes, with any results", "why_tests_cant": "The files on the disk, the state of the free map and the directory, and the lengths and number of the writes are unbounded, and validate looks at all of the disk.", "anchors": ["src/disk/chain.rs ChainWriter::new, write, flush, Drop, allocate_next_block, increment_entry_blocks", "src/disk/file.rs LinearFile::writer", "src/disk/validation.rs", "src/disk/bam.rs BAM"]}
{"id": "C93", "title": "What was written to a clean disk is there when its image is opened again", "statement": "Take a disk as in C92 whose header is on the image as it is in memory, in a sector that the directory does not run through, and whose free map has counts that agree with its bits. Write to a linear file, with any results, and flush the writer or let it go out of scope. Then, even if the program does nothing more, opening the image anew succeeds and gives a disk on which validate reports nothing, with the same listing but for the size of that file; the file holds the bytes it had, then those that were written (all of them if no call failed), and every other file, of any kind, opens and reads as it did before. The same holds of a file that is created, written and closed without an error: after reopening it is listed with its name and holds exactly the bytes written. And any disk in order whose header and free map are on the image reopens as a disk in order with the same listing, the same free sectors and the same files. If the free map on the image says what the one in memory says, a file of any kind that is renamed has its new name after reopening, and every file reads as it did. A linear file that is deleted is gone after reopening, its sectors are free, no other sector has become free or taken, and every other file reads as it did.", "quantifier": "all images that validate clean and meet the conditions on the directory, all linear files on them and all new ones, all names for a renamed file, all finite sequences of writes of any bytes and flushes", "why_tests_cant": "Whether anything was left in memory only shows when the image is opened again, and the files, the free map, and the lengths and number of the writes are unbounded.", "anchors": ["src/disk/chain.rs ChainWriter::flush, Drop", "src/disk/bam.rs BAM::flush, read", "src/disk/mod.rs initialize", "src/disk/d64.rs D64::open", "src/disk/d71.rs D71::open", "src/disk/d81.rs D81::open", "src/disk/directory.rs", "src/disk/mod.rs rename", "src/disk/file.rs delete"]}
