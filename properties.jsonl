{"id": "C01", "title": "Atari DOS: what is written is what is read", "statement": "On a consistent Atari DOS 2 volume, when write_file(name, type, data) returns normally for an 8.3 name and non-empty data, find_file(name) afterwards returns exactly the bytes of data, and the name is in the listing.", "quantifier": "for every consistent Atari DOS volume with 128 or 256 byte sectors, every canonical 8.3 name that is not listed, all non-empty data that fits, fewer than 64 listed files (empty data: C50, full directory: C51)", "why_tests_cant": "Depends on every fragmentation pattern of free sectors, every data length relative to the 125/253-byte payload, and every directory shape; tests use a handful of lengths on two template disks.", "anchors": ["atrcopy/diskimages.py:DiskImageBase.write_file", "atrcopy/diskimages.py:DiskImageBase.find_file", "atrcopy/ataridos.py:AtariDosDiskImage", "atrcopy/ataridos.py:AtariDosDirent", "atrcopy/utils.py:VTOC.assign_sector_numbers"]}
{"id": "C02", "title": "Atari DOS: writing a file leaves every other file alone", "statement": "After a successful write_file, every file that was live before is still listed, under the same name and in the same relative order, and reads back the same bytes.", "quantifier": "for every consistent volume with fewer than 64 listed files, every other live file, every canonical new name and non-empty data", "why_tests_cant": "Interference between files depends on arbitrary sector layouts and directory contents.", "anchors": ["atrcopy/diskimages.py:DiskImageBase.write_file", "atrcopy/ataridos.py:AtariDosDirectory", "atrcopy/ataridos.py:AtariDosVTOC"]}
{"id": "C03", "title": "Atari DOS: deleting a file removes it and only it", "statement": "After delete_file(name) of a live file, name is no longer found, every other live file reads the same bytes in the same order, and every sector of the deleted file below 720 is free again.", "quantifier": "for every consistent volume and every live file", "why_tests_cant": "Requires reasoning about arbitrary chains and directories.", "anchors": ["atrcopy/diskimages.py:DiskImageBase.delete_file", "atrcopy/utils.py:Directory.remove_dirent", "atrcopy/utils.py:VTOC.free_sector_list"]}
{"id": "C04", "title": "Atari DOS: a write that does not fit changes nothing", "statement": "write_file raises NotEnoughSpaceOnDisk exactly when the data needs more sectors than are free, and in that case every byte of the image and the file listing are what they were before.", "quantifier": "for every consistent volume and every data length", "why_tests_cant": "The failure point depends on free-map contents; the rollback code is only exercised by failing writes, at any allocation history.", "anchors": ["atrcopy/diskimages.py:DiskImageBase.begin_transaction", "atrcopy/diskimages.py:DiskImageBase.rollback_transaction", "atrcopy/utils.py:VTOC.reserve_space"]}
{"id": "C05", "title": "Atari DOS: any history of add / remove / shred commands acts like a map from names to contents", "statement": "Starting from a consistent volume, after any sequence of command-line style add (with or without force), remove and shred operations the set of live files and their contents is exactly what the corresponding sequence of map insertions and deletions gives; a command that cannot be carried out leaves the map unchanged.", "quantifier": "for every initial consistent volume of at most 1279 sectors and every finite sequence of operations whose adds are forced or of one file each (multi-file adds without force: C37), with canonical names, non-empty data and at most 64 names in all", "why_tests_cant": "An inductive invariant over unbounded histories; no finite test suite covers all interleavings of allocation and freeing.", "anchors": ["atrcopy/__init__.py:save_file", "atrcopy/__init__.py:remove_files", "atrcopy/__init__.py:shred_image", "atrcopy/diskimages.py:DiskImageBase"]}
{"id": "C06", "title": "Atari DOS: exact space accounting", "statement": "A successful write takes exactly ceil(len(data)/payload) sectors from the free pool, they are the lowest-numbered free ones, and deleting the file just written gives back exactly the original free pool.", "quantifier": "for every consistent volume with fewer than 64 listed files, every canonical new name and every non-empty data", "why_tests_cant": "The claim is an equality of whole free maps for all data lengths and free maps.", "anchors": ["atrcopy/utils.py:VTOC.assign_sector_numbers", "atrcopy/utils.py:VTOC.reserve_space", "atrcopy/utils.py:VTOC.get_next_free_sector", "atrcopy/utils.py:VTOC.free_sector_list"]}
{"id": "C07", "title": "Atari DOS: no sector ever belongs to two files, to a file and the free pool, or to a file and the VTOC/directory", "statement": "In every state reachable from a consistent volume through successful or failed operations the sector chains of the live files are duplicate free, pairwise disjoint, disjoint from the free pool and from sectors 360-368.", "quantifier": "for every state reachable from a consistent volume by any number of operations (writes: non-empty data, new name, fewer than 64 files; deletes: listed or completely unknown names; shred: at most 1279 sectors)", "why_tests_cant": "Invariant over unbounded histories.", "anchors": ["atrcopy/utils.py:VTOC", "atrcopy/ataridos.py:AtariDosVTOC", "atrcopy/ataridos.py:AtariDosDirectory"]}
{"id": "C08", "title": "Atari DOS: reading a file always terminates", "statement": "Reading any directory entry that is not flagged as MyDOS ends after at most max_sectors sector reads, with data or with an AtrError/IndexError, whatever bytes the image holds; in particular cyclic sector links are reported as an error.", "quantifier": "for every image content, including hostile ones, and every non-MyDOS directory entry", "why_tests_cant": "Quantifies over every possible link structure.", "anchors": ["atrcopy/ataridos.py:AtariDosDirent.process_raw_sector", "atrcopy/ataridos.py:AtariDosDirent.read_sector", "atrcopy/ataridos.py:AtariDosDiskImage.get_file_segment"]}
{"id": "C09", "title": "Shredding touches free sectors only", "statement": "shred(fill) sets every byte of every free sector to fill, changes no other byte, and every live file still reads the same.", "quantifier": "for every consistent volume of at most 1279 sectors and every fill value (larger volumes: C09_big_images_fail)", "why_tests_cant": "Byte-exact frame condition for all free maps.", "anchors": ["atrcopy/diskimages.py:DiskImageBase.shred", "atrcopy/utils.py:VTOC.iter_free_sectors"]}
{"id": "C10", "title": "DOS 3.3: what is written is what is read, up to sector padding", "statement": "On a consistent DOS 3.3 volume, when write_file(name, type, data) returns normally for a canonical name, non-text type and non-empty data, find_file(name) returns data followed by zero bytes up to the next multiple of 256.", "quantifier": "for every consistent volume whose last catalog sector holds no entry, every canonical name that is not listed, every non-text type and all data (including data needing several track/sector lists)", "why_tests_cant": "More than 122 sectors needs several track/sector lists; alignment and fragmentation vary without bound.", "anchors": ["atrcopy/dos33.py:Dos33Dirent", "atrcopy/dos33.py:Dos33TSSector", "atrcopy/dos33.py:Dos33VTOC", "atrcopy/diskimages.py:DiskImageBase.write_file"]}
{"id": "C11", "title": "DOS 3.3: writing a file leaves every other file alone", "statement": "After a successful write_file every other live file is still listed in the same order under the same name, type and content.", "quantifier": "for every consistent volume whose last catalog sector holds no entry, every write of a name that is not listed, and every other live file", "why_tests_cant": "Depends on every catalog and allocation shape; the whole catalog is re-encoded on every write.", "anchors": ["atrcopy/dos33.py:Dos33Directory", "atrcopy/dos33.py:Dos33Dirent.encode_dirent", "atrcopy/dos33.py:Dos33DiskImage.get_directory"]}
{"id": "C12", "title": "DOS 3.3: deleting a file removes it and only it", "statement": "After delete_file(name) of a live file, the name is no longer found, every other file reads the same, and exactly the file's data and track/sector-list sectors became free.", "quantifier": "for every consistent volume whose last catalog sector holds no entry and every live file", "why_tests_cant": "Same.", "anchors": ["atrcopy/diskimages.py:DiskImageBase.delete_file", "atrcopy/dos33.py:Dos33Dirent.get_sectors_in_vtoc"]}
{"id": "C13", "title": "DOS 3.3: a failing write changes nothing", "statement": "If write_file raises, the image bytes are the same as before.", "quantifier": "for every volume and every data", "why_tests_cant": "Failure can strike at several points (data sectors, track/sector list sectors, catalog) depending on the free map.", "anchors": ["atrcopy/diskimages.py:DiskImageBase.begin_transaction", "atrcopy/dos33.py:Dos33Dirent.add_metadata_sectors", "atrcopy/dos33.py:Dos33Directory.set_sector_numbers"]}
{"id": "C14", "title": "DOS 3.3: any history of add / remove / shred commands acts like a map from names to contents", "statement": "Same as C05 for DOS 3.3 volumes, contents compared up to zero padding to a multiple of 256.", "quantifier": "for every consistent volume whose last catalog sector holds no entry, and every finite sequence of add (single file, or forced), remove and shred commands with canonical ASCII names, non-text types and at most 7*(catalog sectors - 1) names", "why_tests_cant": "Invariant over unbounded histories.", "anchors": ["atrcopy/__init__.py:save_file", "atrcopy/__init__.py:remove_files", "atrcopy/dos33.py:Dos33DiskImage"]}
{"id": "C15", "title": "Sectors partition the image", "statement": "Distinct valid sector numbers denote disjoint byte ranges, all inside the image, and together they cover the data area.", "quantifier": "for every header produced by opening an image and every pair of valid sectors", "why_tests_cant": "Quantifies over all geometries and sector pairs.", "anchors": ["atrcopy/ataridos.py:AtrHeader.get_pos", "atrcopy/ataridos.py:AtrHeader.check_size", "atrcopy/diskimages.py:BaseHeader.get_pos", "atrcopy/diskimages.py:DiskImageBase.get_sector_slice"]}
{"id": "C16", "title": "ATR header round trip", "statement": "Decoding the 16 bytes produced by encoding an ATR header gives back image size, sector size, crc, unused word and flags, for every image size that is a multiple of 16 below 2^28 and every field in range.", "quantifier": "for every field value in range", "why_tests_cant": "The field space is far too large to enumerate.", "anchors": ["atrcopy/ataridos.py:AtrHeader.to_array", "atrcopy/ataridos.py:AtrHeader.__init__", "atrcopy/ataridos.py:add_atr_header"]}
{"id": "C17", "title": "XEX executables: building then parsing gives the same segments", "statement": "Parsing the bytes built from a list of memory segments yields the run-address segment followed by the same segments with the same origins and bytes, in order.", "quantifier": "for every list of segments (non-empty, fitting in 64 KiB, origin not 0xffff) and every legal run address", "why_tests_cant": "Unbounded number and size of segments.", "anchors": ["atrcopy/executables.py:get_xex", "atrcopy/ataridos.py:AtariDosFile.parse_segments"]}
{"id": "C18", "title": "XEX parser is total and faithful on arbitrary bytes", "statement": "Parsing arbitrary bytes either raises InvalidBinaryFile or yields segments that are consecutive, non-overlapping pieces of the file in file order, each with the length its header promises except possibly the last; only the 4-byte headers and 0xffff markers are skipped.", "quantifier": "for every byte string", "why_tests_cant": "Every malformed input.", "anchors": ["atrcopy/ataridos.py:AtariDosFile.parse_segments"]}
{"id": "C19", "title": "BSAVE executables hold the memory image", "statement": "get_bsave gives a file whose 4-byte header is the load address and length and whose body, at every address of the covered range, is the byte of the last segment covering that address, or zero when no segment covers it; when the run address differs from the lowest origin the body is preceded by a JMP to it.", "quantifier": "for every non-empty list of segments within 64 KiB and every run address (with a jump: lowest origin at least 3; otherwise the load address wraps, proved separately)", "why_tests_cant": "Overlap patterns of arbitrary segments.", "anchors": ["atrcopy/executables.py:get_bsave"]}
{"id": "C20", "title": "BSAVE round trip", "statement": "Parsing the BSAVE file built from segments gives one segment with the load address and the memory image.", "quantifier": "for every non-empty list of segments whose span is under 64 KiB (a full 64 KiB span wraps to length 0, proved separately)", "why_tests_cant": "Unbounded inputs.", "anchors": ["atrcopy/executables.py:get_bsave", "atrcopy/dos33.py:Dos33BinFile.parse_segments"]}
{"id": "C21", "title": "KBoot boot images contain the executable", "statement": "Opening the boot disk built from segments as a KBoot image shows one file whose contents are exactly the XEX bytes of those segments.", "quantifier": "for every list of segments", "why_tests_cant": "Size-dependent 16-bit length field; unbounded sizes.", "anchors": ["atrcopy/kboot.py:KBootImage.create_boot_image", "atrcopy/kboot.py:add_xexboot_header", "atrcopy/kboot.py:KBootDirent"]}
{"id": "C22", "title": "Boot images start where the user asked", "statement": "A KBoot boot disk built with an explicit run address contains that run address.", "quantifier": "for every list of segments and run address", "why_tests_cant": "All run addresses.", "anchors": ["atrcopy/kboot.py:KBootImage.create_boot_image", "atrcopy/executables.py:get_xex"]}
{"id": "C23", "title": "Segment indexes: raw index and reverse index are inverse", "statement": "For every segment (whole, slice, or reordered view) mapping a position to the base array and back gives the same position; positions of the base not covered by the segment are reported as not mapped.", "quantifier": "for every nesting of slices and reorderings and every index", "why_tests_cant": "Unbounded nesting and arbitrary permutations.", "anchors": ["atrcopy/segments.py:SegmentData.get_raw_index", "atrcopy/segments.py:SegmentData.get_reverse_index", "atrcopy/segments.py:SegmentData.reverse_index", "atrcopy/segments.py:SegmentData.get_indexed", "atrcopy/segments.py:SegmentData.__getitem__"]}
{"id": "C24", "title": "Segment views alias the base array", "statement": "Writing a byte or style through a segment changes exactly the corresponding base position, is seen by every other segment covering that position, and by no other; a copy of a segment shows the same bytes and is independent.", "quantifier": "for every pair of views, index and value", "why_tests_cant": "Quantifies over all pairs of overlapping views.", "anchors": ["atrcopy/segments.py:OrderWrapper", "atrcopy/segments.py:SegmentData.copy", "atrcopy/segments.py:SegmentData.get_indexed"]}
{"id": "C25", "title": "Style ranges: set, query, clear", "statement": "get_style_ranges returns the maximal runs, in order, of exactly the positions whose style has the requested bits; after set_style_ranges the positions given match and others are unchanged; clear_style_ranges of the same kind undoes it.", "quantifier": "for every segment length, style array, set of ranges and style kind", "why_tests_cant": "All style arrays and range lists.", "anchors": ["atrcopy/segments.py:get_style_bits", "atrcopy/segments.py:get_style_mask", "atrcopy/segments.py:DefaultSegment.set_style_ranges", "atrcopy/segments.py:DefaultSegment.clear_style_ranges", "atrcopy/segments.py:DefaultSegment.get_style_ranges", "atrcopy/segments.py:DefaultSegment.bool_to_ranges"]}
{"id": "C26", "title": "find_next / find_previous navigate to the nearest match", "statement": "find_next(i) is the start of the first matching range after i, wrapping to the first; find_previous(i) is the start of the last matching range before i, wrapping to the last; None exactly when nothing matches.", "quantifier": "for every style array and index", "why_tests_cant": "All run layouts relative to the cursor.", "anchors": ["atrcopy/segments.py:DefaultSegment.find_next", "atrcopy/segments.py:DefaultSegment.find_previous"]}
{"id": "C27", "title": "get_entire_style_ranges partitions the segment", "statement": "The returned ranges are contiguous, start at 0, end at the segment length, and each carries the (masked) style of every byte in it.", "quantifier": "for every segment, style array, comments and split set", "why_tests_cant": "All combinations.", "anchors": ["atrcopy/segments.py:DefaultSegment.get_entire_style_ranges"]}
{"id": "C28", "title": "Session save/restore round trip", "statement": "Restoring a serialised session onto a fresh segment of the same size reproduces comments and the user, data and comment style bits of every byte.", "quantifier": "for every style array and comment set", "why_tests_cant": "All 256^n style arrays.", "anchors": ["atrcopy/segments.py:DefaultSegment.serialize_session", "atrcopy/segments.py:DefaultSegment.restore_session"]}
{"id": "C29", "title": "Comment undo data restores comments", "statement": "get_comment_restore_data followed by any edits of comments inside the ranges and restore_comments gives back the comment text at every position and the style bytes of those ranges.", "quantifier": "for every comment set, ranges and edits", "why_tests_cant": "All edit histories between save and restore.", "anchors": ["atrcopy/segments.py:DefaultSegment.get_comment_restore_data", "atrcopy/segments.py:DefaultSegment.restore_comments"]}
{"id": "C30", "title": "Interleaving segments", "statement": "Interleaving equal-length segments by n bytes takes n bytes of each in turn: byte k of the result is byte (k div (n*m))*n + k mod n of segment (k div n) mod m, and the length is m times the usable length.", "quantifier": "for every number of segments, chunk size and length", "why_tests_cant": "All index patterns.", "anchors": ["atrcopy/segments.py:interleave_indexes", "atrcopy/segments.py:interleave_segments"]}
{"id": "C31", "title": "Cartridge banks tile the cartridge", "statement": "For every known banked cartridge type, the fixed bank and the switchable banks are disjoint pieces that together cover the cartridge image.", "quantifier": "for every known cartridge type and every image of the right size", "why_tests_cant": "The table times every image content; a property of every entry of the table.", "anchors": ["atrcopy/cartridge.py:known_cart_types", "atrcopy/cartridge.py:A8CartHeader.set_type", "atrcopy/cartridge.py:BaseAtariCartImage"]}
{"id": "C32", "title": "Cartridge header round trip", "statement": "Decoding an encoded cartridge header gives back type and checksum.", "quantifier": "for every 32-bit type and checksum", "why_tests_cant": "2^64 values.", "anchors": ["atrcopy/cartridge.py:A8CartHeader"]}
{"id": "C33", "title": "ROM size check accepts exactly powers of two", "statement": "RomImage accepts an image exactly if its size is a power of two (or zero).", "quantifier": "for every size", "why_tests_cant": "All sizes.", "anchors": ["atrcopy/cartridge.py:RomImage.strict_check"]}
{"id": "C34", "title": "Container detection", "statement": "DCM data is recognised and refused exactly for its three known density codes; container detection tries containers in the documented order, the first that accepts wins, and data no container accepts is passed through unchanged.", "quantifier": "for every byte string and every behaviour of the external decompressors", "why_tests_cant": "All inputs and all decompressor behaviours.", "anchors": ["atrcopy/dcm.py:DCMContainer", "atrcopy/container.py:DiskImageContainer", "atrcopy/parsers.py:guess_container"]}
{"id": "C35", "title": "Parser selection", "statement": "The parser chosen is the first in the documented order that accepts the data, and if none accepts no parser is returned; errors other than rejection propagate.", "quantifier": "for every list of parsers and every accept/reject behaviour", "why_tests_cant": "All behaviours.", "anchors": ["atrcopy/parsers.py:guess_parser_for_mime", "atrcopy/parsers.py:iter_parsers", "atrcopy/parsers.py:SegmentParser.parse"]}
{"id": "C36", "title": "Numeric arguments", "statement": "text_to_int reads 0x/$ as hexadecimal, # as decimal, % as binary and anything else in the default base, giving the value the digits denote.", "quantifier": "for every natural number, every base prefix", "why_tests_cant": "All numerals.", "anchors": ["atrcopy/utils.py:text_to_int"]}
{"id": "C37", "title": "Command-line add: added files are saved", "statement": "After atrcopy IMAGE add f1 ... fn (not a dry run), every file that was added to the in-memory image is in the saved image file.", "quantifier": "for every list of files and every subset that already exists", "why_tests_cant": "All combinations of skipped and added files.", "anchors": ["atrcopy/__init__.py:add_files", "atrcopy/__init__.py:save_file"]}
{"id": "C38", "title": "Command-line dry run and skip behaviour", "statement": "With --dry-run the image file on disk is never rewritten; without --force an existing file is never replaced; with --force it is replaced by the new contents.", "quantifier": "for every command and every image", "why_tests_cant": "All images and file lists.", "anchors": ["atrcopy/__init__.py:save_file", "atrcopy/__init__.py:add_files", "atrcopy/__init__.py:remove_files", "atrcopy/__init__.py:shred_image"]}
{"id": "C39", "title": "Atari DOS directory entry codec", "statement": "Encoding then parsing a directory entry returns the same flags, sector count, start sector and 8.3 name, for every canonical entry.", "quantifier": "for every entry with canonical name and in-range numbers", "why_tests_cant": "Large field space.", "anchors": ["atrcopy/ataridos.py:AtariDosDirent.parse_raw_dirent", "atrcopy/ataridos.py:AtariDosDirent.encode_dirent", "atrcopy/ataridos.py:AtariDosDirent.set_values"]}
{"id": "C40", "title": "DOS 3.3 directory entry codec", "statement": "Encoding then parsing a catalog entry returns the same type, lock state, name, track/sector and length.", "quantifier": "for every entry with a canonical name", "why_tests_cant": "Large field space.", "anchors": ["atrcopy/dos33.py:Dos33Dirent.parse_raw_dirent", "atrcopy/dos33.py:Dos33Dirent.encode_dirent"]}
{"id": "C41", "title": "Reported free space follows the free map", "statement": "After a write or delete the number of free sectors reported by the image equals the number of sectors marked free.", "quantifier": "for every volume and operation", "why_tests_cant": "All histories.", "anchors": ["atrcopy/ataridos.py:AtariDosDiskImage.get_vtoc", "atrcopy/ataridos.py:AtariDosVTOC.calc_bitmap"]}
{"id": "C42", "title": "SpartaDOS file reading", "statement": "Reading a SpartaDOS file returns the concatenation of the sectors in its sector map cut to the file length.", "quantifier": "for every image and sector map", "why_tests_cant": "All maps and lengths.", "anchors": ["atrcopy/spartados.py:SpartaDosDirent", "atrcopy/spartados.py:SpartaDosDiskImage.get_file_segment"]}
{"id": "C43", "title": "Rectangular selections", "statement": "set_style_ranges_rect styles exactly the positions whose row and column are inside the rectangle.", "quantifier": "for every rectangle, width and segment length", "why_tests_cant": "All geometries.", "anchors": ["atrcopy/segments.py:DefaultSegment.get_rect_indexes", "atrcopy/segments.py:DefaultSegment.set_style_ranges_rect"]}
{"id": "C44", "title": "Standard Delivery boot disks place every page once", "statement": "In the boot disk built for Apple, every 256-byte page of every segment is stored in its own sector, in loader order, and no page overwrites the boot sector or another page.", "quantifier": "for every list of segments that fits", "why_tests_cant": "All segment lists.", "anchors": ["atrcopy/standard_delivery.py:StandardDeliveryImage.create_boot_image"]}
{"id": "C45", "title": "Opening arbitrary bytes fails cleanly", "statement": "Building an Atari disk header from arbitrary bytes either succeeds or raises an AtrError.", "quantifier": "for every byte string", "why_tests_cant": "Every malformed input.", "anchors": ["atrcopy/ataridos.py:AtrHeader", "atrcopy/ataridos.py:AtrHeader.check_size", "atrcopy/diskimages.py:DiskImageBase.read_header"]}
{"id": "C46", "title": "DOS 3.3 and MyDOS reading terminates", "statement": "Opening a DOS 3.3 catalog, reading a track/sector list, or reading a MyDOS file ends for every image.", "quantifier": "for every image content", "why_tests_cant": "Every link structure.", "anchors": ["atrcopy/dos33.py:Dos33DiskImage.get_directory", "atrcopy/dos33.py:Dos33Dirent.get_track_sector_list", "atrcopy/ataridos.py:MydosDirent.process_raw_sector"]}
{"id": "C47", "title": "Segment state save/restore", "statement": "A segment restored from its saved state over the same base array shows the same bytes at the same base positions.", "quantifier": "for every slice and reordering", "why_tests_cant": "All views.", "anchors": ["atrcopy/segments.py:DefaultSegment.__getstate__", "atrcopy/segments.py:DefaultSegment.reconstruct_raw"]}
{"id": "C48", "title": "compare_segment marks exactly the differences", "statement": "After comparing two segments a position carries the diff style exactly when both segments have it and the bytes differ.", "quantifier": "for every pair of segments and prior styles", "why_tests_cant": "All contents.", "anchors": ["atrcopy/segments.py:DefaultSegment.compare_segment"]}
{"id": "C49", "title": "Extracting an empty file gives no bytes", "statement": "A file whose sectors hold zero data bytes is extracted as an empty byte string.", "quantifier": "for every volume with such a file", "why_tests_cant": "Every layout of such a file.", "anchors": ["atrcopy/ataridos.py:AtariDosDiskImage.get_file_segment", "atrcopy/segments.py:EmptySegment"]}
{"id": "C50", "title": "Writing an empty file is harmless", "statement": "write_file with empty data either succeeds with a readable empty file or fails leaving the volume usable.", "quantifier": "for every volume", "why_tests_cant": "Every volume state.", "anchors": ["atrcopy/diskimages.py:DiskImageBase.write_file", "atrcopy/utils.py:VTOC.assign_sector_numbers", "atrcopy/ataridos.py:AtariDosDirent.sanity_check"]}
{"id": "C51", "title": "A full directory is refused", "statement": "write_file to a volume whose directory has no free entry raises NoSpaceInDirectory and changes nothing.", "quantifier": "for every volume with a full directory", "why_tests_cant": "Every full directory.", "anchors": ["atrcopy/utils.py:Directory.get_free_dirent", "atrcopy/ataridos.py:AtariDosDirectory", "atrcopy/dos33.py:Dos33Directory"]}
{"id": "C52", "title": "Deleting a missing file is refused", "statement": "delete_file of a name that is not live raises FileNotFound and changes nothing.", "quantifier": "for every volume and name", "why_tests_cant": "Every directory.", "anchors": ["atrcopy/diskimages.py:DiskImageBase.delete_file", "atrcopy/utils.py:Directory.find_dirent"]}
{"id": "C53", "title": "Cartridge boot segment reopens", "statement": "The emulator boot segment of a headerless cartridge image forced to some type opens in strict mode as that type and contains the image unchanged behind the header; an image with a header is its own boot segment.", "quantifier": "for every image and every known cartridge type", "why_tests_cant": "All contents of images up to 128 MB and all types.", "anchors": ["atrcopy/cartridge.py:BaseAtariCartImage.create_emulator_boot_segment", "atrcopy/cartridge.py:BaseAtariCartImage.relaxed_check"]}
{"id": "C54", "title": "MAME archive segments", "statement": "Opening a MAME archive gives one segment per entry that holds exactly the entry's bytes, and the segments follow each other through the whole ROM data.", "quantifier": "for every non-empty list of entries whose sizes are multiples of 16", "why_tests_cant": "All archives.", "anchors": ["atrcopy/mame.py:MameZipImage"]}
{"id": "C55", "title": "Detailed type by signature", "statement": "The detailed MIME type reported is the first entry of the same general type whose signature the data satisfies, and the general type if there is none.", "quantifier": "for every byte string and every general type", "why_tests_cant": "All byte strings.", "anchors": ["atrcopy/magic.py:guess_detail_for_mime", "atrcopy/magic.py:check_signature"]}
{"id": "C56", "title": "A Standard Delivery boot disk loads the program it was built from", "statement": "Booting the Apple disk built from a list of segments puts every byte of every segment at its address, leaves the rest of memory alone, and jumps to the given run address or the origin of the first segment.", "quantifier": "for every list of segments for which the disk can be built and whose pages the loader can fill, and every initial memory", "why_tests_cant": "All segment lists, sizes and layouts; depends on the loader interpreting the address list.", "anchors": ["atrcopy/standard_delivery.py:StandardDeliveryImage.create_boot_image", "atrcopy/standard_delivery.py:get_fstbt_code", "atrcopy/fstbt.py:fstbt"]}
{"id": "C57", "title": "SpartaDOS sector maps are read in finite time", "statement": "Following the links between the map sectors of a SpartaDOS file ends for every image.", "quantifier": "for every image content and map sector", "why_tests_cant": "Every link structure.", "anchors": ["atrcopy/spartados.py:SpartaDosDiskImage.get_sector_map"]}
{"id": "C58", "title": "Which images open as Atari DOS volumes", "statement": "A byte string opens as an Atari DOS volume exactly if its header is accepted, it has at least 368 sectors of at least 5 bytes, the VTOC code in sector 360 is 0 or 2, the second VTOC exists on images of 133120 bytes, and every directory entry up to the end marker is whole and, if in use, starts in an existing sector and counts at most as many sectors as the disk has.", "quantifier": "for every byte string", "why_tests_cant": "Every image; the VTOC size check uses a sector count that is still zero, so larger MyDOS VTOCs are never accepted.", "anchors": ["atrcopy/ataridos.py:AtariDosDiskImage.get_vtoc", "atrcopy/ataridos.py:AtariDosDiskImage.calc_vtoc_code", "atrcopy/ataridos.py:AtariDosDiskImage.get_directory"]}
{"id": "C59", "title": "Extracting writes exactly the files of the volume", "statement": "Extracting from a consistent volume, all files or those named, raises no error and puts every selected file on the host at its output path with exactly its contents (0x7f and 0x9b turned into tab and newline for text), unless the path exists and force is off, when the host file stays; no other host file changes. An unreadable file stops the command after the files before it.", "quantifier": "For every consistent Atari DOS or DOS 3.3 volume of any number of files, every list of names, every combination of options, every host content.", "why_tests_cant": "Tests extract a few files of fixed disks into an empty directory; interactions of name selection, existing host files, force, case folding and collisions over all volumes and hosts are unbounded.", "anchors": ["atrcopy/__init__.py:100-128", "atrcopy/diskimages.py:281-288"]}
{"id": "C60", "title": "Extraction into a directory stays inside it", "statement": "With an output directory given, extraction changes only host files that are entries of that directory.", "quantifier": "For every volume, every directory, every list of names and every host.", "why_tests_cant": "A test needs to think of a file whose name starts with a slash; the claim is about all names that fit in a directory entry.", "anchors": ["atrcopy/__init__.py:109-115"]}
{"id": "C61", "title": "A dry run of extract changes nothing on the host", "statement": "With the dry run option, extract writes no file, makes no directory and raises no error.", "quantifier": "For every listing, readable or not, every list of names, every other option and every host.", "why_tests_cant": "Tests look at the files, not at directories made on the way, and cannot cover all hosts and volumes.", "anchors": ["atrcopy/__init__.py:109-128"]}
{"id": "C62", "title": "Data files on the assemble command line", "statement": "A data file argument name[i:j]@address puts exactly the bytes i to j (bounds optional, negative bounds count from the end) of the named file at the address, whichever file name and whichever notation for the numbers is used.", "quantifier": "For every file store, every name, every address text, every pair of bounds and every list of arguments.", "why_tests_cant": "The argument grammar is unbounded: names may contain the separators, the numbers may be written in any notation.", "anchors": ["atrcopy/__init__.py:202-232", "atrcopy/utils.py:82-118"]}
{"id": "C63", "title": "Reassembling an executable reproduces it", "statement": "Assembling from an existing executable yields its segments in order and its run address, so that building the executable again gives the same file; a run address on the command line wins over those in the files, and one that is not a number is reported.", "quantifier": "For every list of segments inside 64 KiB, every run address, every number of object files.", "why_tests_cant": "Tests use one or two object files; the claim is over all segment lists, including segments at unusual addresses.", "anchors": ["atrcopy/__init__.py:233-275", "atrcopy/executables.py:62-113"]}
{"id": "C64", "title": "Assembled programs read back from the disk image", "statement": "After a successful assemble on a consistent disk image the file found under the output name parses as an executable with exactly the given segments and run address, all other files unchanged; the command succeeds whenever the free sectors suffice.", "quantifier": "For every consistent Atari DOS or DOS 3.3 volume, every output name, every list of segments and every run address.", "why_tests_cant": "Combines segment layout, directory and free space over all volumes; tests only write single fixed programs to a blank disk.", "anchors": ["atrcopy/__init__.py:276-302", "atrcopy/diskimages.py:213-225"]}
{"id": "C65", "title": "Exactly which files are cartridges", "statement": "A file is taken for a cartridge of a type exactly if it has a CART header with that type number, known for that machine, followed by exactly the number of bytes in the table; a type can be forced on a file exactly if that holds or the file has no header and exactly that size. Everything else is refused with InvalidDiskImage, and at most one type fits a file.", "quantifier": "For every byte string of every length, every type number, both machines.", "why_tests_cant": "All byte strings times all type numbers; tests use a handful of sample cartridges.", "anchors": ["atrcopy/cartridge.py:107-158", "atrcopy/cartridge.py:205-237", "atrcopy/cartridge.py:280-303"]}
{"id": "C66", "title": "Cartridge banks appear in the cartridge area", "statement": "For every type with a memory layout, the fixed bank and the bank window lie inside 0x4000-0xbfff and do not overlap; the type numbers are 0 to 67, each once.", "quantifier": "For every type number.", "why_tests_cant": "A property of every row of the table after it went through set_type.", "anchors": ["atrcopy/cartridge.py:15-94", "atrcopy/cartridge.py:180-195"]}
{"id": "C67", "title": "Boot sectors survive every file operation", "statement": "On an Atari DOS image that opens and whose bitmap does not offer sectors 1 to 3, write_file, delete_file and shred leave the header, the image length and the first three sectors as they were, whether the operation succeeds or raises. This also holds after any sequence of operations on a consistent volume. The condition is needed: when the bitmap offers sector 1, shred overwrites the boot sector.", "quantifier": "all images that open, all operations and arguments, all outcomes; all histories on mounted volumes", "why_tests_cant": "The boot area must survive every failure path of every operation on every image, including directories and chains that are not consistent; tests only follow a few successful writes on template disks.", "anchors": ["atrcopy/diskimages.py:337-408", "atrcopy/ataridos.py:34-67", "atrcopy/ataridos.py:416-427"]}
{"id": "C68", "title": "What an Atari disk is taken for", "statement": "A file with an ATR header, or of one of the four usual disk sizes without one, that is no container and not in the signature database is taken for: a KBoot disk if bytes 9-11 of sector 1 fit the image size as a length; else for SpartaDOS if its boot sector has the SpartaDOS fields; else for Atari DOS if VTOC and directory can be read; else for a boot disk if sector 1 looks like one; else for a plain disk. A consistent Atari DOS volume is therefore found with all its files unless its boot sector happens to look like KBoot or SpartaDOS, and on every such volume three unused boot bytes can be set so that it is taken for KBoot and its files disappear.", "quantifier": "all byte strings of at least 2141 bytes that open as disks with at least 4 sectors of at least 33 bytes; all mounted volumes; all decompressors and databases", "why_tests_cant": "The order of eight groups of parsers, each of which may accept, refuse or crash on any bytes; tests look at one sample per format.", "anchors": ["atrcopy/parsers.py:17-84", "atrcopy/parsers.py:214-263", "atrcopy/parsers.py:317-368", "atrcopy/kboot.py:38-61", "atrcopy/ataridos.py:700-760", "atrcopy/diskimages.py:167-175"]}
{"id": "C69", "title": "Histories in which every command finds out the format by itself", "statement": "For every history of add, delete and shred commands on a consistent Atari DOS volume that is not taken for KBoot or SpartaDOS, running each command from the file on (containers, signature database, all parsers, then the operation) gives the same results and files as the map operations; after every command the file is still taken for an Atari DOS disk.", "quantifier": "all volumes, all histories of any length within the limits of C05, all decompressors and databases that refuse files of this length with these boot sectors", "why_tests_cant": "Each command must neither turn the file into something another parser claims nor change what the commands before it stored.", "anchors": ["atrcopy/__init__.py:57-175", "atrcopy/parsers.py:214-263", "atrcopy/diskimages.py:186-195"]}
{"id": "C70", "title": "The segments shown for an Atari DOS disk", "statement": "The segments of a consistent Atari DOS volume are the header, the raw data (together the whole file), the boot sectors of which there are as many as byte 1 of sector 1 says, the VTOC sectors, the directory sectors, and one segment per listed file with the contents of the file.", "quantifier": "all mounted volumes", "why_tests_cant": "Depends on all sector positions, all file chains and both densities at once; tests compare a few sample listings.", "anchors": ["atrcopy/ataridos.py:592-660", "atrcopy/diskimages.py:261-270"]}
{"id": "C71", "title": "What a file without ATR header is taken for", "statement": "A file without ATR header that has none of the sizes of headerless Atari disks, does not look like SpartaDOS, and that no library claims is an executable if it starts with 0xffff and is well-formed (or is at most one byte long), else a cartridge of the type its CART header names if the size fits, else (143360 bytes) a DOS 3.3 disk if it opens as one, else a BSAVE file if address and length fit, else a ROM if its size is a power of two, else refused with UnsupportedDiskImage.", "quantifier": "all byte sequences, all decompressors, signature databases and zip readers that do not claim the file", "why_tests_cant": "Fifty-odd parsers are tried in turn; a sample of files never covers the order of all pairs.", "anchors": ["atrcopy/parsers.py:214-415", "atrcopy/__init__.py:57-82", "atrcopy/cartridge.py:107-344", "atrcopy/dos33.py:600-641"]}
{"id": "C72", "title": "DOS 3.3: file operations leave all other sectors alone", "statement": "Whatever a 143360-byte image contains and whatever the outcome, writing, deleting and shredding keep the length and change no sector except free ones, the VTOC, and those linked in the catalog. On a consistent volume a whole history of commands leaves the boot sectors, the operating system and all other sectors in use that belong to no file unchanged.", "quantifier": "all images, all operations and outcomes; all histories of any length within the limits of C14", "why_tests_cant": "A stray write shows only when the sector it hits is compared, for corrupt images and every failure path as well.", "anchors": ["atrcopy/dos33.py:100-215", "atrcopy/dos33.py:383-480", "atrcopy/diskimages.py:300-440"]}
{"id": "C73", "title": "The segments shown for a DOS 3.3 disk", "statement": "The segments of a consistent DOS 3.3 volume are the raw data (the whole file), boot sectors 0, 1-9, 10-11, 12-37, the VTOC, the catalog sectors in the order of their links, and one segment per listed file with the contents of the file.", "quantifier": "all mounted DOS 3.3 volumes, catalogs of any length and order", "why_tests_cant": "Depends on all sector positions, catalog links and file maps at once.", "anchors": ["atrcopy/dos33.py:486-566", "atrcopy/diskimages.py:261-270"]}
{"id": "C74", "title": "DOS 3.3 disks are found", "statement": "A consistent DOS 3.3 volume whose boot sector is not mistaken for another format is taken for a DOS 3.3 disk, whatever files are on it; so histories of commands that find out the format by themselves act like the map operations of C14.", "quantifier": "all volumes, all histories of any length within the limits of C14, all libraries", "why_tests_cant": "Depends on the contents of every file on the disk.", "anchors": ["atrcopy/parsers.py:214-415", "atrcopy/mame.py:14-64", "atrcopy/__init__.py:57-175"]}
{"id": "C75", "title": "Reading a DOS 3.3 file from any image", "statement": "For every image of 143360 bytes, every number of sectors stated in its VTOC and every catalog entry, reading the file gives the bytes of its data sectors in the order of the track/sector lists when the lists end and all data sectors are on the disk; otherwise the outcome is determined by where the lists lead: NameError for no data sectors or one outside the disk, ByteNotInFile for a list that leads outside the disk, no end for a list that goes round in circles.", "quantifier": "all images, all catalog entries, all numbers of sectors", "why_tests_cant": "Tests read files that DOS or the program wrote; damaged and unusual disks are unboundedly many.", "anchors": ["atrcopy/dos33.py:296-345", "atrcopy/dos33.py:575-597", "atrcopy/diskimages.py:64-74"]}
{"id": "C76", "title": "DOS 3.3 disks that cannot be used at all", "statement": "A file of 143360 bytes that opens as DOS 3.3 is shown with all its files, unless its VTOC claims 272 sectors or fewer or reading one of its files raises an exception other than InvalidFile; in that case detection ends with that exception (or does not end), so that no command works on the disk, and this happens exactly for the files described (no data sectors, a data sector outside the disk, circular list, binary file that starts beyond the image).", "quantifier": "all images, all commands, all options", "why_tests_cant": "Needs a disk of exactly this kind, and a statement that nothing else can go wrong.", "anchors": ["atrcopy/diskimages.py:301-309", "atrcopy/dos33.py:575-597", "atrcopy/parsers.py:70-83", "atrcopy/__init__.py:57-98"]}
{"id": "C77", "title": "Which files open as DOS 3.3 volumes", "statement": "A file opens as a DOS 3.3 volume exactly if it has 143360 bytes, is not a ProDOS disk, its VTOC states a catalog start that is on the disk (and on tracks 0-34, sectors 0-15 for release 3), the chain of catalog sectors ends, and every catalog entry that is looked at is deleted or starts on the disk and is no longer than the disk; the files listed are then exactly the entries that are not deleted, in catalog order, with name, type, lock, start and length as stored. Every other file is refused with a determined exception, except that a circular catalog never ends.", "quantifier": "all byte strings", "why_tests_cant": "Needs a description of every possible image, and a statement that nothing else is accepted or listed.", "anchors": ["atrcopy/dos33.py:371-381", "atrcopy/dos33.py:408-484", "atrcopy/dos33.py:230-245", "atrcopy/dos33.py:284-294"]}
{"id": "C78", "title": "What is listed for a SpartaDOS disk", "statement": "A disk image opens as a SpartaDOS disk exactly if its boot record is one and its root directory has a complete map ended by a zero, a length that is a whole number of 23-byte records and all of these bytes; the files listed are then exactly the records after the first, in order, numbered from 1, with name, extension, length, map sector and status bits as stored (deleted files and subdirectories included), and a name is looked up as the first of these records.", "quantifier": "all images with sectors of at least 33 bytes, all names", "why_tests_cant": "Needs a description of every possible directory, and a statement that nothing else is accepted or listed.", "anchors": ["atrcopy/spartados.py:53-82", "atrcopy/spartados.py:146-179", "atrcopy/diskimages.py:281-292"]}
{"id": "C79", "title": "Clearing the free sectors of a SpartaDOS disk", "statement": "vtoc --clear-empty on a SpartaDOS disk fills with zeros exactly the sectors that its bitmap marks as free, leaves every other byte of the image as it is, and saves the result.", "quantifier": "all images taken for SpartaDOS disks with sectors of at least 33 bytes and their bitmap on the disk, whatever the bitmap marks", "why_tests_cant": "The sectors filled depend on every bit of the bitmap; that no sector in use is filled cannot be seen from a few disks.", "anchors": ["atrcopy/diskimages.py:396-407", "atrcopy/ataridos.py:32-44", "atrcopy/spartados.py:195-208", "atrcopy/__init__.py:300-308"]}
{"id": "C80", "title": "Commands change only the images that can be changed", "statement": "add, delete and vtoc --clear-empty change an image file only if it is taken for an Atari DOS or a DOS 3.3 disk (or, vtoc --clear-empty only, a SpartaDOS disk), and then do what the operations of that format do on the image, or on the image that a compressed file unpacks to; every other file, of whatever kind, is byte for byte the same after any history of commands.", "quantifier": "all files, all behaviours of the decompressors, of zipfile and of the signature database, all commands, options and histories", "why_tests_cant": "Ranges over every file that can be handed to the program and every history of commands.", "anchors": ["atrcopy/__init__.py:57-98", "atrcopy/__init__.py:131-175", "atrcopy/__init__.py:300-304", "atrcopy/diskimages.py:186-195", "atrcopy/diskimages.py:337-407"]}
{"id": "C81", "title": "How the arguments are taken apart", "statement": "Without a request for help, the first argument that does not start with a dash is the disk image, all other arguments are handed on in their order, and list is appended if there is no other argument without a dash; with a request for help anywhere among the arguments, no image is worked on and help is shown; options alone give help for the program.", "quantifier": "all lists of arguments", "why_tests_cant": "Ranges over all argument lists; the failing ones are the most common way to ask for help.", "anchors": ["atrcopy/__init__.py:442-456", "atrcopy/__init__.py:537-588"]}
{"id": "C82", "title": "A run of the program changes only the file it names", "statement": "A run of a command on a machine with named files changes no file but the image (or, for extract and the image '.', the files named by the arguments); runs with --dry-run or without -f change nothing that exists, and a failing run of any command but extract and create leaves everything as it was. add, delete, vtoc -e and assemble do to the image file exactly what the command on the image does.", "quantifier": "all machines, templates, images of every kind, commands and arguments, and all sequences of runs", "why_tests_cant": "The statement is about every file of the machine that is not named, for all images, including ones that make the program fail half-way.", "anchors": ["atrcopy/__init__.py:100-305", "atrcopy/__init__.py:409-637"]}
{"id": "C83", "title": "create takes the one template whose name contains the text", "statement": "create with a text writes the bytes of the template if exactly one template name contains the text and fails otherwise, never overwriting without -f; every shipped template can be selected by its full name. On the image '.' files are copied to and from the current directory, and delete removes files there.", "quantifier": "all machines, sets of templates, texts and image names", "why_tests_cant": "Any text may be given; uniqueness of a substring among names is not covered by trying some texts.", "anchors": ["atrcopy/__init__.py:307-407", "atrcopy/__init__.py:562-637"]}
{"id": "C84", "title": "The program as a whole keeps the files of a disk", "statement": "Over any sequence of runs of the program, of any commands on any images of the machine, an Atari DOS disk image holds exactly the files the runs on it ask for; an image made by create is empty, and extract brings out every file as it was put in.", "quantifier": "all sequences of runs, machines, names and contents within the limits of the format", "why_tests_cant": "A fault may need a particular sequence of runs on several images; the theorem is an induction over all of them.", "anchors": ["atrcopy/__init__.py:57-637", "atrcopy/diskimages.py"]}
{"id": "C85", "title": "A boot disk made from segments boots", "statement": "When an Atari has read the boot sectors of a disk made by create_boot_image and starts the boot code in them, the 6502 loads every segment, one after the other, to its own addresses, reads every byte of the executable exactly once, calls the routine whose address a segment has put into 0x2e2 before it goes on with the next segment, and then jumps through the run address at 0x2e0. With no segment at 0x2e0 this is the origin of the first segment. Where segments overlap the later one counts.", "quantifier": "all lists of segments that are not empty, do not reach 0xffff, stay clear of the memory of the loader and of the operating system and whose executable has fewer than 65536 bytes, all init routines that return and keep what the loader needs, all contents of memory and registers at boot, all operating systems that change only their own memory", "why_tests_cant": "The boot code is an opaque string of 300 bytes; a test can at most compare it with itself, and the number of states of the loader (sector, position in the buffer, pointer, bytes left) is too large to run through.", "anchors": ["atrcopy/kboot.py:70-123", "atrcopy/executables.py:15-62"]}
{"id": "C86", "title": "The boot code of Standard Delivery disks loads and starts the program on an Apple ][", "statement": "On an Apple ][ whose ROM has read the first sector of a disk built by create_boot_image, the machine code in that sector moves the head from track to track, reads the sectors in its order to the pages named by the address list, leaves every byte of every segment at its address and jumps to the run address.", "quantifier": "for every list of segments for which the disk can be built, every controller slot, and every state of memory and registers left by the ROM", "why_tests_cant": "The loader is 133 bytes of self-modifying machine code that no test executes; the claim covers all address lists, all head movements over 35 tracks and all memory contents.", "anchors": ["atrcopy/fstbt.py:fstbt", "atrcopy/standard_delivery.py:StandardDeliveryImage.create_boot_image", "atrcopy/standard_delivery.py:get_fstbt_code"]}
{"id": "C87", "title": "What list prints says what the directory says", "statement": "Reading the lines printed by list gives back, in order, the entries of the directory on the disk: number, flags, first sector, name, extension, length. With checksums every line ends in the checksum of the contents of its file and the listing ends at the first file that cannot be read. There is one line per file, with the name at a fixed column, and the first line gives the number of lines that follow.", "quantifier": "for every Atari DOS, DOS 3.3 and SpartaDOS disk that opens, every KBoot disk, every list of names asked for and every history of changes", "why_tests_cant": "The printed numbers have widths that overflow, the names can have any bytes, and the directories any contents; tests compare a few listings.", "anchors": ["atrcopy/__init__.py:list_files", "atrcopy/__init__.py:crc_files", "atrcopy/ataridos.py:AtariDosDirent.__str__", "atrcopy/dos33.py:Dos33Dirent.__str__", "atrcopy/spartados.py:SpartaDosDirent.__str__", "atrcopy/ataridos.py:AtariDosDiskImage.__str__"]}
{"id": "C88", "title": "The printed checksums are CRC-32 and notice short changes", "statement": "The checksum printed by list -c and crc is the CRC-32 of the contents: the residue of the contents as a polynomial modulo the generator. Two different files that differ only inside a window of 32 bits (so in up to four neighbouring bytes) get different checksums. Longer changes can go unnoticed: four appended bytes give a file any checksum.", "quantifier": "for all files, all windows at bit positions and all checksums", "why_tests_cant": "There are 2^32 patterns in a window at every position of files of any length.", "anchors": ["atrcopy/__init__.py:crc_files", "atrcopy/__init__.py:list_files"]}
{"id": "C89", "title": "Labels name the sector and the byte", "statement": "The label of byte i of a segment made of sectors names the sector that holds this byte of the disk and the position of the byte in the sector, in both spellings.", "quantifier": "for every disk that opens, every byte of the segments Raw disk sectors, VTOC, Directory and Bitmap", "why_tests_cant": "Labels depend on the position, the sizes of sectors and the way the segment was made; no test looks at labels.", "anchors": ["atrcopy/segments.py:RawSectorsSegment.label", "atrcopy/segments.py:RawTrackSectorSegment.label", "atrcopy/diskimages.py:DiskImageBase.parse_segments", "atrcopy/ataridos.py:AtariDosDiskImage.get_directory_segments"]}
{"id": "C90", "title": "Containers grow under their segments", "statement": "A container that is resized keeps its bytes and styles as far as they fit and gets zeros after them. Every segment made from it can be moved to the new arrays, shows what it showed before at the same places of the container, and shares its bytes with the container. Resizing and moving can be repeated.", "quantifier": "for every container and contents, every new size, every nesting of slices and reorderings, every byte stored afterwards", "why_tests_cant": "Tests resize one container once, to one size; what is wrong shows only at the second resize, when shrinking, or for sizes that are no multiples.", "anchors": ["atrcopy/segments.py:SegmentData.resize", "atrcopy/segments.py:SegmentData.replace_arrays", "atrcopy/segments.py:DefaultSegment.resize", "atrcopy/segments.py:DefaultSegment.replace_data"]}
{"id": "C91", "title": "The segments shown for a SpartaDOS disk", "statement": "The segments shown for a SpartaDOS disk are its boot record, the boot code in sector 1, the boot record's fields, the bitmap and the root directory with exactly their bytes, followed by one segment for each directory entry with exactly the bytes of that file; a disk whose entries include deleted ones is shown too.", "quantifier": "all images with sectors of at least 33 bytes that open as SpartaDOS disks, all directories", "why_tests_cant": "Needs a statement that nothing else is shown for any of the possible disks, and that every failure has one of the named causes.", "anchors": ["atrcopy/spartados.py:181-245", "atrcopy/parsers.py:96-130"]}
{"id": "C92", "title": "Runs end with a message, not with an exception", "statement": "Every command on a recognised, sound disk ends normally unless a file given to it is missing, there is no room, or the segments given to assemble are wrong, and then nothing has changed; on a file that is missing or not recognised every command reports this and changes nothing; no other run ends with an uncaught exception.", "quantifier": "all commands with all options, all machines and disks with any files", "why_tests_cant": "Needs all commands on all disks; a test shows single runs that work.", "anchors": ["atrcopy/__init__.py:601-637", "atrcopy/__init__.py:85-304"]}
{"id": "C93", "title": "DOS 3.3 disks whose last catalog sector is in use", "statement": "If the catalog of a DOS 3.3 image has more entries than fit in all its sectors but the last, write_file and delete_file fail for every name, type and contents; the commands add and delete leave the file as it was; and a failing delete leaves the image in memory as it was.", "quantifier": "all images that open as DOS 3.3 (any catalog, any number of sectors, damaged files and bitmaps included), all names, contents, options and lists of files", "why_tests_cant": "Needs all catalogs and all files; a test with a full catalog of the standard size only shows one.", "anchors": ["atrcopy/dos33.py:126-149", "atrcopy/dos33.py:564-573", "atrcopy/utils.py:249-291", "atrcopy/diskimages.py:337-394"]}
{"id": "C94", "title": "The catalog of any DOS 3.3 disk after a file has been added or deleted", "statement": "After a successful write_file or delete_file the catalog consists of the entries that were looked at before, without their lock bits, packed from the first catalog sector on, the deleted one marked or the new one in the first slot marked as deleted (or behind all); then of zeros up to the end of that sector; then of the old contents of the sectors behind. So a file is gone once it has been deleted, and the others stay: this is false on disks with sparsely filled catalog sectors or locked text files.", "quantifier": "all images that open as DOS 3.3 with 560 sectors (any catalog chain, damaged files and bitmaps included), all names, types and contents", "why_tests_cant": "Needs all catalogs; tests use disks written by one program, whose catalog sectors are filled one after the other.", "anchors": ["atrcopy/dos33.py:126-149", "atrcopy/dos33.py:206-300", "atrcopy/dos33.py:564-573", "atrcopy/utils.py:249-291", "atrcopy/diskimages.py:337-394"]}
{"id": "C95", "title": "The picture while a boot disk loads", "statement": "When the boot code of a disk made by create_boot_image has set up the computer and before it reads the first sector of the program, the display list of the computer is the one in the boot sectors. It shows the lines LOADING..., DEMO (double height, colour 3), FROM, and AN ATARI USER (colour 1), each in the middle of a line of 20 characters, and the jump at its end leads back to its start. The picture does not depend on the program.", "quantifier": "all lists of segments whose executable has fewer than 65536 bytes, all contents of memory and registers at boot", "why_tests_cant": "The display list is part of an opaque string and the texts are put into it at computed offsets; no test looks at the picture, and it has to be the same for every program.", "anchors": ["atrcopy/kboot.py:85", "atrcopy/kboot.py:88-123"]}
{"id": "C96", "title": "From the command line to the running program", "statement": "boot with files given as name@address makes a disk that loads these files to these addresses. With an image name ending in .atr the program writes one file; an Atari that boots it has every file in memory at its address (the last one where files overlap) and starts at the address of the first. With an image name ending in .dsk an Apple ][ that boots it has every file at its address and starts at the run address, or at the first address if none is given. Addresses may be typed in hexadecimal (plain, after $ or after 0x), in decimal after # and in binary after %, with leading zeros and in small or capital letters. Other image names, or no files, write nothing. assemble makes the executable of the same segments: an Atari executable for output names ending in xex, an Apple one for bin and bsave, otherwise the one of the image, and an AttributeError if there is no image.", "quantifier": "all lists of files, names, contents and addresses that fit into the memory and on the disk, all image names, all ways to type the addresses, all machines", "why_tests_cant": "It combines the parser of addresses, the command, two disk formats and two boot loaders; a test can check one of them at a time on a few programs, and none of them runs the loader.", "anchors": ["atrcopy/__init__.py:202-297", "atrcopy/executables.py:15-112", "atrcopy/parsers.py:296-314", "atrcopy/kboot.py:70-123", "atrcopy/standard_delivery.py:65-162"]}
{"id": "C97", "title": "The type of a new DOS 3.3 file", "statement": "A file added to a DOS 3.3 disk with --filetype c gets the catalog type of the letter c (T, I, A, B, S, R, a, b; B for anything else), is not locked, and is listed afterwards with that letter.", "quantifier": "all consistent volumes, all names and contents, all characters; for the catalog entry all volumes that open", "why_tests_cant": "Type T has the byte 0 that also ends a catalog sector; whether a listed file appears depends on the type, on the place of the entry and on what is behind it.", "anchors": ["atrcopy/dos33.py:181-192", "atrcopy/dos33.py:349-353", "atrcopy/dos33.py:460-484"]}
{"id": "C98", "title": "Saving and restoring a parser", "statement": "A parser that is saved with its segments and restored over the same file has the same segments again, in the same order: every saved attribute, the memory map and the positions each segment shows are what they were; states of older versions get defaults and the renamed address.", "quantifier": "all segment classes, all attribute values, all views, all lists of segments, all raw data lengths", "why_tests_cant": "The state of a segment depends on its kind of view and on attributes that exist only in some classes; restoring consumes the state, and other raw data shifts what is shown without an error.", "anchors": ["atrcopy/parsers.py:44-92", "atrcopy/segments.py:471-546"]}
{"id": "C99", "title": "What segments prints", "statement": "The lines printed by segments can be read back: for every part of a file one line, in order, with its name, its size, the addresses it is loaded to and the position of its first byte in the file; for disks also the sectors of VTOC and directory and one line for each file with its name, its number of sectors and its size.", "quantifier": "all executables, BSAVE files, cartridges, ROM images, MAME archives, boot and KBoot disks, Atari DOS, SpartaDOS and DOS 3.3 volumes with any files, all names and numbers", "why_tests_cant": "The numbers printed come from several places of the file and are printed in two number systems with widths that overflow; names can hold anything, also text that looks like numbers.", "anchors": ["atrcopy/__init__.py:636-637", "atrcopy/segments.py:600-608", "atrcopy/segments.py:1096-1163", "atrcopy/ataridos.py:300-335", "atrcopy/ataridos.py:592-667", "atrcopy/kboot.py:57-61", "atrcopy/cartridge.py:239-262", "atrcopy/dos33.py:486-597", "atrcopy/spartados.py:181-245", "atrcopy/mame.py:58-64"]}
{"id": "C100", "title": "Addresses and positions", "statement": "An address inside a segment gives the position in the file of the byte the segment shows there; a position gives back the index that shows it, and is refused if the segment does not show it; addresses outside a segment are refused; a subset shows the chosen bytes in the chosen order; data parallel to a segment lies at the positions of that segment.", "quantifier": "all arrays, all nested slices and reorderings of them, all origins, addresses and positions (negative ones too), all lists of indexes", "why_tests_cant": "Segments of segments of reordered segments have no bound in depth; negative numbers are valid list indexes in Python, so that wrong answers look like right ones.", "anchors": ["atrcopy/segments.py:281-289", "atrcopy/segments.py:464-469", "atrcopy/segments.py:547-554", "atrcopy/segments.py:637-662"]}
{"id": "C101", "title": "Comments and user data through segments", "statement": "A comment or user value set through one segment is what every other segment shows at the same position of the file and nothing else changes; listing, iterating and copying comments give all comments of the segment at their indexes; comments taken by index can be put back; the marks in the styles agree with the comments; user data is listed as sorted ranges; entries of old session files are understood.", "quantifier": "all segments of any shape, all dictionaries of comments and user data, all lists of indexes and ranges, all styles", "why_tests_cant": "Comments live in one dictionary shared by all segments of a file and are found through two index maps and one style bit; a disagreement needs a particular mix of shapes and orders.", "anchors": ["atrcopy/segments.py:576-595", "atrcopy/segments.py:696-712", "atrcopy/segments.py:889-959", "atrcopy/segments.py:1003-1069"]}
{"id": "C102", "title": "Saving a segment", "statement": "The raw file of a segment holds its bytes in order; saved as an Apple ][ binary the segment is read back with the same bytes at the same address, and the file is recognised as such a binary.", "quantifier": "all segments cut and reordered in any way, all addresses (also beyond 16 bits), all lengths", "why_tests_cant": "The header has two 16-bit fields that wrap without notice; the recognition depends on what the first bytes happen to look like.", "anchors": ["atrcopy/segments.py:60-80", "atrcopy/dos33.py:620-641"]}
{"id": "C103", "title": "The loader plug-in", "statement": "Asked about any file, the plug-in of the package for other programs answers with parser and type, or with None if the file is unknown or cannot be read; it raises no exception.", "quantifier": "all files, all behaviours of the decompressors and the signature database", "why_tests_cant": "It holds for all usual files; the files that break it have headers that no tool writes.", "anchors": ["atrcopy/omnivore_loader.py:7-27", "atrcopy/__init__.py:57-82", "atrcopy/ataridos.py:388-414", "atrcopy/spartados.py:146-162", "atrcopy/kboot.py:8-28"]}
{"id": "C104", "title": "What vtoc prints", "statement": "For every disk image with a sector bitmap, vtoc prints one line per track showing for each sector of the disk whether it is free, and then the number of sectors shown as free; after a file is written the number has gone down by the sectors the file takes.", "quantifier": "all Atari DOS, DOS 3.3 and SpartaDOS images that open; all files written to a mounted Atari volume", "why_tests_cant": "The test images have clean bitmaps, where counted and shown sectors agree, and no SpartaDOS bitmap is looked at.", "anchors": ["atrcopy/utils.py:270-312", "atrcopy/__init__.py:616-620", "atrcopy/ataridos.py:16-68", "atrcopy/dos33.py:14-52", "atrcopy/spartados.py:166-195"]}
{"id": "C105", "title": "What list -m prints", "statement": "With -m, list prints below each entry asked for its metadata: the flags that are set for Atari DOS, SpartaDOS and KBoot disks; for DOS 3.3 the sectors of the track/sector list, each with the sector that follows it, and the data sectors of the file. What is printed agrees with the disk.", "quantifier": "all images that open, all names, with and without checksums", "why_tests_cant": "Nothing in the tests looks at the output; files with more than one sector of track/sector list are rare.", "anchors": ["atrcopy/__init__.py:178-190", "atrcopy/ataridos.py:122-134", "atrcopy/spartados.py:43-51", "atrcopy/dos33.py:223-228", "atrcopy/utils.py:75-76", "atrcopy/utils.py:121-122"]}
{"id": "C106", "title": "What follows the end of the directory stays there", "statement": "Adding a file to an Atari DOS disk adds just this file and leaves the others as they are, whatever is stored in the directory after the entry that ends it.", "quantifier": "all Atari DOS volumes that open and are consistent up to the end of the directory, all bytes after it, all names without NUL and all contents that fit", "why_tests_cant": "Blank test images have zeros after the end of the directory; old entries matter only when the new entry fills its sector.", "anchors": ["atrcopy/ataridos.py:552-573", "atrcopy/ataridos.py:51-67", "atrcopy/utils.py:186-292", "atrcopy/diskimages.py:337-360"]}
{"id": "C107", "title": "The line about an image tells what is in it", "statement": "The line that every command but crc prints about an image can be read back and tells the truth: size, sectors and header fields of a disk, usable and free sectors and the number of files, length of the executable, type, size, banks and checksum of a cartridge, and the sizes of archives and ROM images.", "quantifier": "all files that open as one of the formats, all headers and sizes", "why_tests_cant": "Tests do not look at the printed text, and what is called the number of banks, files or sectors is right for the images at hand.", "anchors": ["atrcopy/__init__.py:614-615", "atrcopy/ataridos.py:372-373", "atrcopy/ataridos.py:438-439", "atrcopy/ataridos.py:477-478", "atrcopy/spartados.py:118-119", "atrcopy/kboot.py:39-40", "atrcopy/dos33.py:368-369", "atrcopy/cartridge.py:158-159", "atrcopy/cartridge.py:317-318", "atrcopy/mame.py:26-27"]}
{"id": "C108", "title": "DOS 3.3 files with holes are read, deleted and leave the boot sector alone", "statement": "A DOS 3.3 file whose track/sector list has holes (pairs of zeros, sectors of a random-access text file that were never written) is read as DOS reads it: zeros for every hole and then the remaining sectors. Deleting it frees exactly its sectors, and nothing that is done to the disk afterwards touches the boot sector.", "quantifier": "all DOS 3.3 disks that open, all entries whose list can be followed and whose sector count is that of DOS, any number and position of holes, any file added afterwards", "why_tests_cant": "Test images hold files written in one go; a hole in a list never occurs in them, and the damage shows only in files added after the deletion.", "anchors": ["atrcopy/dos33.py:15-43", "atrcopy/dos33.py:296-341", "atrcopy/diskimages.py:337-407"]}
{"id": "C109", "title": "Disks with sectors above 719 can be used up", "statement": "On an Atari DOS disk with more than 720 sectors, such as the enhanced density disks of DOS 2.5, a file can be added whenever the free sectors the program reports suffice, the sectors of a removed file become free again wherever they are, and files of DOS 2.5 that use sectors above 719 are listed and keep their directory entry when another file is added.", "quantifier": "for every consistent volume of any size, every name and data, and every history of add, remove and shred", "why_tests_cant": "the test disks are single and double density; the limits depend on the whole allocation map and on any history", "anchors": ["atrcopy/ataridos.py:AtariDosVTOC", "atrcopy/ataridos.py:AtariDosDiskImage.get_vtoc", "atrcopy/ataridos.py:AtariDosDirent.parse_raw_dirent", "atrcopy/utils.py:Directory.get_free_dirent"]}
{"id": "C110", "title": "A disk is copied file by file", "statement": "Extracting all files of a disk, creating a second disk from a blank template and adding the extracted files to it, in any order, gives a disk with exactly the same files and contents, and leaves the first disk as it was, provided the names can be stored and are not paths, and the files fit on the second disk. In particular one add with many new files that fit succeeds for all of them.", "quantifier": "for every consistent Atari DOS or DOS 3.3 disk with any files, every blank disk of the same kind in any density, every order of the files, every output directory and everything else on the machine", "why_tests_cant": "there is no end to the sets of files, their sizes and orders; that all of the files fit follows from the bookkeeping of free sectors over the whole list", "anchors": ["atrcopy/__init__.py:extract_files", "atrcopy/__init__.py:save_file", "atrcopy/__init__.py:add_files", "atrcopy/__init__.py:create_image", "atrcopy/diskimages.py:DiskImageBase.write_file"]}
{"id": "C111", "title": "Object files of any kind give their segments", "statement": "Every file given with --obj to assemble or boot, be it an Atari executable, a BSAVE file, a cartridge, a disk image or a compressed file with any of these, gives the program the pieces of memory it would be loaded to and its run address; other files give nothing. The pieces come in the order of the files, the last run address counts, an address in the arguments overrides it, and an executable that was built and is given as the only object file is built again byte for byte.", "quantifier": "for all argument lists with any number of object files of any contents and length, all libraries for decompression, all further segments and run addresses", "why_tests_cant": "the object files are arbitrary byte strings of several formats; which format a file is taken for and which pieces it gives depends on the whole file", "anchors": ["atrcopy/__init__.py:assemble", "atrcopy/__init__.py:boot_image", "atrcopy/utils.py", "atrcopy/parsers.py", "atrcopy/kboot.py", "atrcopy/dos33.py", "atrcopy/ataridos.py"]}
{"id": "C112", "title": "Disks of MyDOS are safe", "statement": "A file with 16 bit links (flag bit 2) is read in full from sectors anywhere on a disk of any size. Adding, removing and shredding other files keeps its directory entry with all flags and its contents, and keeps subdirectories with all that is in them. Every listed file can be removed.", "quantifier": "for all disks, all chains of sectors, all histories of add, remove and shred commands", "why_tests_cant": "chains may run over any of 65535 sectors in any order, and the histories are unbounded", "anchors": ["atrcopy/ataridos.py:MydosDirent", "atrcopy/ataridos.py:AtariDosDirent", "atrcopy/ataridos.py:get_directory", "atrcopy/utils.py:VTOC.free_sector_list", "atrcopy/utils.py:Directory.get_free_dirent"]}
{"id": "C113", "title": "Atari DOS still finds the files", "statement": "After files were added and removed, Atari DOS finds every listed file under its name: it compares eight bytes of the name and three of the extension, both padded with blanks, in the entries before the first one with the flag 0.", "quantifier": "for all consistent disks, all histories of add, remove and shred commands, all names", "why_tests_cant": "the program reads the names back the same, with blanks or with zeros; only a comparison as Atari DOS makes it shows the difference, and it has to hold for every file and history", "anchors": ["atrcopy/ataridos.py:AtariDosDirent.encode_dirent", "atrcopy/ataridos.py:AtariDosDirent.set_values", "atrcopy/ataridos.py:AtariDosDirent.parse_raw_dirent", "atrcopy/utils.py:Directory.calc_sectors"]}
{"id": "C114", "title": "DOS 3.3 finds every sector of files that were added", "statement": "After a file was added to a DOS 3.3 volume, DOS 3.3 itself finds every sector of the file through the track/sector lists (each list tells in bytes 5-6 which sector of the file it begins with), and still finds those of the other files.", "quantifier": "every consistent volume, name, type and data; every sector number; for other files every operation and outcome", "why_tests_cant": "The program's own reader ignores bytes 5-6, so reading a file back through it passes whatever they hold.", "anchors": ["dos33.py:Dos33TSSector.set_tslist", "dos33.py:Dos33Dirent.add_metadata_sectors"]}
{"id": "C115", "title": "DOS 3.3 still finds the files by their names", "statement": "After a file was added to or removed from a DOS 3.3 volume, DOS 3.3, which compares all 30 bytes of a name, still finds every other file under its name, at the same track/sector list, and finds the new file.", "quantifier": "every consistent volume, every name looked up, every file added or removed; histories through an invariant on the names", "why_tests_cant": "The program reads 29 characters of a name and writes back what it read, so its own listing is the same before and after; only a reader that compares all 30 bytes notices.", "anchors": ["dos33.py:Dos33Dirent.parse_raw_dirent", "dos33.py:Dos33Dirent.encode_dirent"]}
{"id": "C116", "title": "Assembled programs run under DOS 3.3", "statement": "A program assembled from segments and stored on a DOS 3.3 disk can be run with BRUN: every segment is in memory at its addresses, the program starts at the lowest address or jumps to the run address that was asked for, and other memory is left alone.", "quantifier": "every list of segments with lowest origin at least 3, every run address, every consistent volume with plain names, every memory before", "why_tests_cant": "The behaviour depends on how the real DOS reads the catalog, the track/sector lists and the header of the file; the tests only read files back with the program itself.", "anchors": ["executables.py:get_bsave", "dos33.py:Dos33TSSector", "dos33.py:Dos33Dirent.encode_dirent", "__init__.py:assemble"]}
{"id": "C117", "title": "Assembled programs load under Atari DOS", "statement": "A program assembled from segments and stored on an Atari disk is loaded by Atari DOS 2: every segment is in memory at its addresses, init routines are called after the segment that names them, the program starts at the run address that was asked for or at the first segment, and other memory is left alone.", "quantifier": "every list of segments, every run address, every consistent volume, every memory before, every effect of the init routines", "why_tests_cant": "The behaviour depends on how the real DOS compares names and follows the sectors, with the number of the file in every sector; the tests only read files back with the program itself.", "anchors": ["executables.py:get_xex", "ataridos.py:AtariDosDirent.encode_dirent", "ataridos.py:AtariDosFile", "__init__.py:assemble"]}
{"id": "C118", "title": "The last picture is on the screen while a Standard Delivery disk loads", "statement": "While an Apple ][ boots a disk built by create_boot_image, after each segment has been read the whole screen shows, in high resolution, the graphics page of the picture loaded last (page 1 before any picture): origins in page 0x20 are pictures on graphics page 1, origins in page 0x40 pictures on page 2, and origins 0x2001 and 0x4001 are not shown.", "quantifier": "every list of segments in pages the loader can fill, every prefix of the list, every state of an Apple ][ that has read the boot sector", "why_tests_cant": "what is shown depends on the order of all pictures before, together with the machine code in the boot sector; a test shows a few orders on one emulator", "anchors": ["atrcopy/standard_delivery.py:103-155", "atrcopy/fstbt.py:1-4"]}
{"id": "C119", "title": "Disks with DOS on them can be worked on", "statement": "A disk on which DOS has written its files (like the templates dos2sd+2.0s and dos2ed+2.5) opens with exactly these files, their full contents and all other sectors free; add, remove and shred commands act on it like map operations; as long as DOS.SYS is not removed, its boot sectors, the first sector of DOS.SYS and the contents of DOS.SYS stay, and DOS finds all of its files that are still there.", "quantifier": "every disk with files in consecutive sectors from 4 on, any names, sizes and contents; every history of operations", "why_tests_cant": "tests use blank disks; what becomes of the files of the system depends on all operations since", "anchors": ["atrcopy/templates/dos2sd+2.0s.atr", "atrcopy/templates/dos2ed+2.5.atr", "atrcopy/ataridos.py:120-164", "atrcopy/ataridos.py:199-235", "atrcopy/ataridos.py:552-573", "atrcopy/diskimages.py:330-420"]}
{"id": "C120", "title": "The autobrun disk runs what was assembled to it", "statement": "On a disk made from the template dos33autobrun, any number of assemble, add, remove and shred commands (not replacing or removing HELLO, and not adding text files) leave tracks 0-2 unchanged and HELLO where DOS 3.3 finds it, with the same type and bytes; and after an assemble command to AUTOBRUN without an error message the command BRUN AUTOBRUN, which HELLO gives, loads the segments and starts the program.", "quantifier": "every disk like the template, every history of assemble, add, remove and shred commands with any names, data, segments, run addresses, options and outcomes", "why_tests_cant": "tests neither boot the disks nor assemble to them repeatedly; whether BRUN works depends on the length of the program and on all commands before", "anchors": ["README.rst:296-313", "README.rst:410-434", "atrcopy/templates/dos33autobrun.dsk", "atrcopy/__init__.py:276-283", "atrcopy/dos33.py:247-259", "atrcopy/dos33.py:268-282", "atrcopy/dos33.py:349-353", "atrcopy/__init__.py:131-175", "atrcopy/__init__.py:300-304"]}
{"id": "C121", "title": "A disk with Atari DOS starts the program assembled to AUTORUN.SYS", "statement": "On a disk made from a template with Atari DOS 2, any number of assemble, add, remove and shred commands leave the boot sectors, and every file of DOS that they do not remove or replace, where they are and with the same contents; after an assemble command with force to AUTORUN.SYS without an error message, the file that DOS loads at the start holds exactly the segments and starts the program; and DOS still finds its other files, such as the menu DUP.SYS.", "quantifier": "every disk with files of DOS in consecutive sectors from 4 on, every history of assemble, add, remove and shred commands with up to 64 names, any data, segments, run addresses, options and outcomes; segments that leave 0x2e0-0x2e3 alone", "why_tests_cant": "tests neither boot the disks nor assemble to them repeatedly; what DOS finds depends on bytes of the directory that atrcopy itself reads differently", "anchors": ["atrcopy/templates/dos2sd+2.0s.atr", "atrcopy/templates/dos2ed+2.5.atr", "atrcopy/__init__.py:276-283", "atrcopy/ataridos.py:199-235", "atrcopy/__init__.py:131-175", "atrcopy/__init__.py:300-304"]}
{"id": "C122", "title": "The cartridge types of a size", "statement": "Grouping the table of cartridges by size lists every type exactly once, under its own size, in the order of the table; for a file without header the group of its size has exactly the types that can be forced on it; and the types that check_size finds for a size are those whose cartridges have that size, with or without header.", "quantifier": "every size, every file without header, every type; the grouping for every table", "why_tests_cant": "tests go through the rows of one table and never look at possible_types; the claim is about all sizes and all files", "anchors": ["atrcopy/cartridge.py:99-104", "atrcopy/cartridge.py:197-204", "atrcopy/parsers.py:403-415"]}
{"id": "C123", "title": "Long descriptions of segments", "statement": "Every segment has a long description (verbose_info), which says its name, the number of its bytes and, depending on its kind, the position of its first byte, its addresses or its sectors; an error is shown behind it. For a file of an Atari DOS or DOS 3.3 disk it says name, sectors, first sector, flags or type, length and where in the image the first byte is.", "quantifier": "every segment of every class, all names, errors and contents; every file of every consistent Atari DOS or DOS 3.3 disk", "why_tests_cant": "tests never look at verbose_info; the claim is about all numbers, names and disks", "anchors": ["atrcopy/segments.py:610-619", "atrcopy/segments.py:1101-1106", "atrcopy/segments.py:1127-1134", "atrcopy/segments.py:1161-1171", "atrcopy/ataridos.py:652-667", "atrcopy/dos33.py:575-597"]}
{"id": "C124", "title": "The addresses shown for programs on DOS 3.3 disks", "statement": "The description of a file of type B on a DOS 3.3 disk shows every byte of the program at the address where BRUN puts it, and the range of addresses shown is the one the program takes.", "quantifier": "every program of less than 64 KB at every address, on every consistent plain DOS 3.3 disk, all memories", "why_tests_cant": "needs DOS 3.3 and a model of BRUN to compare with; tests only look at names and lengths of files", "anchors": ["atrcopy/dos33.py:575-597", "atrcopy/dos33.py:355-359", "atrcopy/segments.py:1127-1134"]}
{"id": "C125", "title": "What assemble -v prints", "statement": "With -v, assemble prints one line for each segment of the program, in the order of the program, which says its first address, the first address behind it and its length.", "quantifier": "all programs from any data and object files, all addresses (negative ones in the line itself), all lengths", "why_tests_cant": "tests do not look at what is printed; claim is about all addresses and lengths", "anchors": ["atrcopy/__init__.py:261-263", "atrcopy/segments.py:1237-1245", "atrcopy/segments.py:600-608"]}
{"id": "C126", "title": "DOS 3.3 disks whose VTOC states another length of track/sector lists", "statement": "A file is written to a DOS 3.3 volume only if the VTOC byte that states the number of pairs of a track/sector list is not 0, and if it is more than 122 only a file of at most 122 sectors. If it is 0, add without --force leaves the image file as it is, and succeeds exactly if all names are on the disk already.", "quantifier": "every image that opens as a DOS 3.3 volume, whatever its catalog, map and files; all names, types, contents and lists of files", "why_tests_cant": "tests only use disks that state 122; the claim is about every volume", "anchors": ["atrcopy/dos33.py:268-282", "atrcopy/dos33.py:18-33", "atrcopy/dos33.py:446-458", "atrcopy/__init__.py:131-159"]}
{"id": "C127", "title": "Reading track/sector lists of another length", "statement": "The sectors that are read from the track/sector lists made for a file are the sectors of the file, whatever number of pairs for a list the VTOC states.", "quantifier": "every number of pairs from 1 to 122, all lists of sectors of a file, all sectors for the lists, every image that holds the lists there", "why_tests_cant": "tests only use disks that state 122 pairs, with files that need one list", "anchors": ["atrcopy/dos33.py:18-43", "atrcopy/dos33.py:268-282", "atrcopy/dos33.py:296-311"]}
{"id": "C128", "title": "Removing a file with track/sector lists of another length", "statement": "Adding a file to a DOS 3.3 volume and removing it again gives back exactly the sectors that the file took, whatever number of pairs for a list the VTOC states.", "quantifier": "every disk that opens, every number of pairs from 1 to 122, all sectors of a file and of its lists, every place of its entry in the catalog; the refutation: all names, types other than text and contents of 257 to 512 bytes", "why_tests_cant": "tests only use disks that state 122 pairs, and do not look at the map of free sectors after a file has been removed", "anchors": ["atrcopy/dos33.py:268-282", "atrcopy/dos33.py:296-320", "atrcopy/diskimages.py:379-394", "atrcopy/utils.py:365-368"]}
