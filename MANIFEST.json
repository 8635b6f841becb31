{"claims": [
{"property": "C01", "status": "proved", "theorems": ["Atr.C01_write_then_read", "Atr.C01_write_any_name", "Atr.C01_write_succeeds"], "note": "hypotheses: consistent volume, canonical name not live, a free directory slot, non-empty data; excluded cases are C50, C51"},
{"property": "C02", "status": "proved", "theorems": ["Atr.C02_write_frame"], "note": ""},
{"property": "C03", "status": "proved", "theorems": ["Atr.C03_delete"], "note": ""},
{"property": "C04", "status": "proved", "theorems": ["Atr.C04_not_enough_space"], "note": "no condition on name, data or directory"},
{"property": "C05", "status": "proved", "theorems": ["Atr.C05_history", "Atr.C05_plain", "Atr.C05_only_full", "Atr.C05_lookup"], "note": "Histories of any length, by induction. C05_plain: plain map semantics for forced or single-file adds over at most 64 names; C05_history: also multi-file adds, where the code drops the adds if the last file is skipped (C37). Volumes of at most 1279 sectors."},
{"property": "C06", "status": "proved", "theorems": ["Atr.C06_allocation"], "note": ""},
{"property": "C07", "status": "proved", "theorems": ["Atr.C07_no_cross_links"], "note": "operations outside Op.Allowed are covered by C50-C52"},
{"property": "C08", "status": "proved", "theorems": ["Atr.C08_read_terminates"], "note": "Every image that opens, every non-MyDOS entry; fuel independence shows the cut-off changes nothing."},
{"property": "C09", "status": "partial", "theorems": ["Atr.C09_shred", "Atr.C09_dos33_shred", "Atr.C09_big_images_fail", "Atr.C09_dos33_clear_large"], "note": "C09_shred: full claim for Atari volumes of at most 1279 sectors; C09_dos33_shred: full claim for DOS 3.3. C09_big_images_fail: for every bigger consistent Atari volume shred raises IndexError after filling the free sectors."},
{"property": "C10", "status": "proved", "theorems": ["Atr.C10_write_then_read", "Atr.C10_write_any_name", "Atr.C10_write_succeeds_iff"], "note": "Any number of sectors and track/sector lists. C10_write_succeeds_iff says exactly when a write returns normally. Consistent33 asks for 35x16 geometry, 122 pairs per list, and no entry in the last catalog sector (the code cannot rewrite that one)."},
{"property": "C100", "status": "partial", "theorems": ["Atr.C100_address", "Atr.C100_back", "Atr.C100_refuted_outside", "Atr.C100_refuted_negative", "Atr.C100_subset", "Atr.C100_parallel", "Atr.C100_refuted_parallel"], "note": "Inside a segment everything holds, for all shapes and depths; the claim is false for addresses outside, negative positions and parallel data of parts or reordered segments (refuted)."},
{"property": "C101", "status": "partial", "theorems": ["Atr.C101_comment", "Atr.C101_refuted_outside", "Atr.C101_range_partial", "Atr.C101_range", "Atr.C101_refuted_twice", "Atr.C101_first", "Atr.C101_iter", "Atr.C101_copy", "Atr.C101_at_indexes", "Atr.C101_undo", "Atr.C101_refuted_where", "Atr.C101_fixup", "Atr.C101_refuted_fixup", "Atr.C101_user", "Atr.C101_user_get", "Atr.C101_user_sorted", "Atr.C101_old_partial", "Atr.C101_refuted_old"], "note": "Proved for single comments, listing, copying, undo, marks, user data and old sessions; false for repeated positions, reordered sources, comments outside, the index answer as it is, and old ranges inside data (refuted)."},
{"property": "C102", "status": "partial", "theorems": ["Atr.C102_raw", "Atr.C102_bsave", "Atr.C102_refuted_long", "Atr.C102_detected_partial", "Atr.C102_refuted_executable"], "note": "False for 65536 bytes or more and for files whose first bytes are taken for another format (both refuted); otherwise proved."},
{"property": "C103", "status": "partial", "theorems": ["Atr.C103_raises", "Atr.C103_disks", "Atr.C103_rest", "Atr.C103_refuted_zero", "Atr.C103_refuted_small"], "note": "Exactly which exceptions escape, and what is answered for disks and other files; false for ATR headers with sectors of 0 to 32 bytes (refuted)."},
{"property": "C104", "status": "partial", "theorems": ["Atr.C104_lines", "Atr.C104_atari", "Atr.C104_atari_small", "Atr.C104_write", "Atr.C104_dos33", "Atr.C104_command", "Atr.C104_refuted_zero", "Atr.C104_refuted_tracks", "Atr.C104_refuted_sparta"], "note": "The printed lines are read back by a parser of its own. Atari: 40 lines of 18 sectors, each sector shown as free exactly if its bit is set; with sectors of fewer than 100 bytes a ValueError. DOS 3.3: 35 lines of 16 sectors; NameError if the volume table says fewer than 273 sectors. Writing a file lowers the number by the sectors of the file. False in general: the number counts bits of sectors that are not shown (sector 0 of Atari disks, tracks 35 to 49 of DOS 3.3), and for SpartaDOS each sector is shown with the bit of the one 80 further on."},
{"property": "C105", "status": "partial", "theorems": ["Atr.C105_list", "Atr.C105_atari", "Atr.C105_sparta", "Atr.C105_kboot", "Atr.C105_dos33_partial", "Atr.C105_refuted_next", "Atr.C87_command"], "note": "The printed texts are read back by a parser of its own. Flags: those of the entry on the disk. DOS 3.3: list sectors in order and data sectors, an error if the list leads out of the disk, no end if it goes round. False: the sector said to follow is always 0 (C105_refuted_next: right exactly for lists of one sector)."},
{"property": "C106", "status": "partial", "theorems": ["Atr.C106_write", "Atr.C106_only", "Atr.C106_refuted_returns", "Atr.C106_refuted_opens"], "note": "C106_write says exactly which files are listed afterwards and when the disk can still be opened; C106_only proves the claim if an entry of the directory is free, or the new entry does not fill its sector, or no used entry follows. Otherwise it is false: old entries in the next directory sector come back (C106_refuted_returns), and if such an entry names a sector that does not exist the disk cannot be opened any more (C106_refuted_opens). Loose is the consistency of C01-C08 without the condition on what follows the directory."},
{"property": "C107", "status": "partial", "theorems": ["Atr.C107_disk", "Atr.C107_atari", "Atr.C107_sparta", "Atr.C107_sparta_refuted", "Atr.C107_kboot", "Atr.C107_boot", "Atr.C107_plain", "Atr.C107_dos33", "Atr.C107_dos33_refuted", "Atr.C107_cart", "Atr.C107_cart_refuted", "Atr.C107_mame", "Atr.C107_rom", "Atr.C107_rom_refuted", "Atr.C107_xex", "Atr.C107_bin"], "note": "The whole line is read back for every format and its numbers are related to the bytes of the file. False where refuted: deleted SpartaDOS files are counted, the sectors of a DOS 3.3 disk are those of its VTOC even if the file has others, the banks of a cartridge are the size of a bank, and ROM images are rounded down to whole kilobytes."},
{"property": "C108", "status": "partial", "theorems": ["Atr.C108_sectors", "Atr.C108_read", "Atr.C108_read_partial", "Atr.C108_read_refuted", "Atr.C108_delete", "Atr.C108_delete_refuted", "Atr.C108_boot_refuted", "Atr.C108_shred_refuted", "Atr.C108_refuted"], "note": "Holds for files without holes (C108_read_partial). False for every file with a hole: as many sectors as there are holes are missing at the end of what is read (C108_read_refuted), the last sector stays allocated after deleting and the boot sector becomes free (C108_delete_refuted), and the next file added is written over it (C108_boot_refuted), as shredding is (C108_shred_refuted); C108_refuted is a disk with all of this."},
{"property": "C109", "status": "partial", "theorems": ["Atr.C109_limit", "Atr.C109_pool", "Atr.C109_not_given_back", "Atr.C109_entry_taken", "Atr.C109_refuted_space", "Atr.C109_refuted_remove", "Atr.C109_refuted_add", "Atr.C109_partial"], "note": "False for the code: only the 720 bits of sector 360 are read and written. C109_limit (more than 707 sectors are refused on every disk), C109_pool, C109_not_given_back (removing gives no sector above 719 back) and C109_entry_taken (adding takes the first entry without bit 6, also one with the flag 3 of DOS 2.5) say for all volumes what happens; the witnesses are C109_refuted_space, C109_refuted_remove and C109_refuted_add. C109_partial is what holds: no history changes a sector above 719."},
{"property": "C11", "status": "proved", "theorems": ["Atr.C11_write_frame"], "note": "Listing L1++L2 becomes L1++new::L2; every other name finds the same; the volume is consistent again."},
{"property": "C110", "status": "proved", "theorems": ["Atr.C110_add_all", "Atr.C110_copy", "Atr.C110_add_all33", "Atr.C110_copy33"], "note": "Atari DOS in any density and size below 1280 sectors, and DOS 3.3 when zipfile sees no archive in the images (C74). The type of DOS 3.3 files is not kept: all get the type given to add. File names with a slash in them are left out: they are paths on the machine."},
{"property": "C111", "status": "partial", "theorems": ["Atr.C111_args", "Atr.C111_xex", "Atr.C111_bsave", "Atr.C111_cart", "Atr.C111_rest", "Atr.C111_packed", "Atr.C111_asked", "Atr.C111_reassemble_partial", "Atr.C111_refuted_atari", "Atr.C111_refuted_kboot", "Atr.C111_refuted_boot", "Atr.C111_refuted_dos33", "Atr.C111_refuted_run"], "note": "Proved for executables, BSAVE files, cartridges, compressed files and files that are not recognised, with the order of the pieces and the choice of the run address; rebuilding an executable is byte for byte. False for disks, shown with concrete disks: files on Atari DOS disks give nothing; a KBoot disk (also the ones made by boot) gives its executable file as one piece at address 400 or wherever it is in the image; a DOS 3.3 disk raises TypeError or gives only its boot code. A run address of one byte raises ValueError."},
{"property": "C112", "status": "partial", "theorems": ["Atr.C112_read", "Atr.C112_kept", "Atr.C112_unlisted", "Atr.C112_remove_high", "Atr.C112_refuted_remove", "Atr.C112_refuted_subdir"], "note": "Reading is proved for every chain of data sectors and every disk size; entries and contents of files that are not removed, and all sectors in use outside the listed files, are kept by every history. False: the entry of a subdirectory is taken by the next added file, a file with a sector above 1279 cannot be removed (IndexError), and disks with another VTOC code than 0 or 2 do not open (C58_mydos_vtoc)."},
{"property": "C113", "status": "partial", "theorems": ["Atr.C113_refuted_add", "Atr.C113_refuted_remove", "Atr.C113_added", "Atr.C113_partial"], "note": "False: after any successful add or remove, no file that was on the disk before and has a name of less than eight or an extension of less than three characters is found any more, because all entries are written again with zeros in place of the blanks. A new file is found exactly if its extension has no or three characters. Proved for the rest: names of eight and three characters are found after every history."},
{"property": "C114", "status": "partial", "theorems": ["Atr.C114_refuted", "Atr.C114_partial", "Atr.C114_kept"], "note": "False for files with more than one track/sector list (C114_refuted): bytes 5-6 of the lists are not written. Proved: the first 122 sectors of each added file are found with the right contents, and what is found for files already on the disk does not change."},
{"property": "C115", "status": "partial", "theorems": ["Atr.C115_refuted_remove", "Atr.C115_refuted_add", "Atr.C115_removed_partial", "Atr.C115_added_partial", "Atr.C115_plain_added", "Atr.C115_plain_removed", "Atr.C115_lost"], "note": "False: the 30th character of a name and characters without the high bit are not kept when the catalog is rewritten (C115_refuted_remove, C115_refuted_add: after removing or adding any file, no entry is found under such a name; C115_lost is a concrete disk). With plain names (at most 29 characters with the high bit, no trailing blanks) every other file is found where it was and the new file is found; the condition itself is kept by both operations. The catalog is assumed to have no gaps, no entries of type 0 and no free sectors on track 0 (PlainCat33)."},
{"property": "C116", "status": "partial", "theorems": ["Atr.C116_partial", "Atr.C116_assemble", "Atr.C116_unique", "Atr.C116_refuted_long", "Atr.C116_refuted_gap"], "note": "False as stated. A file of more than 31232 bytes is stored but cannot be run, because DOS 3.3 does not find its sectors from 122 on (C116_refuted_long). Memory in gaps between the segments is overwritten with zeros (C116_refuted_gap). C116_partial and C116_assemble: with at most 31232 bytes and plain names on the disk the segments are loaded, the program is started as asked, and memory outside the extent is unchanged but for the jump in the three bytes before the lowest origin. C116_unique: the outcome of BRUN is determined."},
{"property": "C117", "status": "partial", "theorems": ["Atr.C117_partial", "Atr.C117_plain_partial", "Atr.C117_assemble_partial", "Atr.C117_unique", "Atr.C117_refuted_name"], "note": "False for names with an extension of one or two characters: DOS does not find the file (C117_refuted_name). C117_partial, C117_plain_partial and C117_assemble_partial: with no extension or one of three characters, and segments that are not empty, end by 0xffff and do not start there, the load does what the property says. C117_unique: the outcome is determined."},
{"property": "C118", "status": "partial", "theorems": ["Atr.C118_partial", "Atr.C118_start_partial", "Atr.C118_refuted"], "note": "C118_partial: at a moment after every prefix of the segments these are in memory, the last picture is on the screen, and the program is reached from there; C118_start_partial: so it is when the program starts. Excluded is exactly the case refuted by C118_refuted: the first picture on page 1 after pictures on page 2 leaves page 2 on the screen."},
{"property": "C119", "status": "partial", "theorems": ["Atr.C119_holds", "Atr.C119_history", "Atr.C119_boots", "Atr.C119_found", "Atr.C119_refuted_add", "Atr.C119_refuted_remove"], "note": "Proved: what the disk holds (all files in full, 707 free sectors but those of the files), histories of commands as map operations, boot sectors, first sector and contents of DOS.SYS after every history that keeps it. Refuted: after any file is added or removed DOS does not find its files with short names any more (DUP.SYS, AUTORUN.SYS), though it found them before. That the template files have this form was checked by reading their bytes."},
{"property": "C12", "status": "proved", "theorems": ["Atr.C12_delete", "Atr.C12_write_delete"], "note": "Free set after = free set before plus exactly the data and list sectors of the file, none of which was free."},
{"property": "C120", "status": "partial", "theorems": ["Atr.autobrun_consistent", "Atr.C120_kept", "Atr.C120_runs_partial", "Atr.C120_succeeds", "Atr.C120_succeeds_again", "Atr.C120_refuted_long", "Atr.autobrun_disk"], "note": "Proved: the template is consistent with 494 free sectors; what is kept after any history (C120_kept); the first command succeeds if the program fits (C120_succeeds); after any history the command with --force succeeds if the catalog has room for a file and the program fits on the free sectors (C120_succeeds_again); BRUN loads and starts programs of up to 31232 bytes with header, not starting in the first three bytes of memory (C120_runs_partial). Refuted for longer programs, which are assembled without a message and cannot be loaded (C120_refuted_long, after C114/C116)."},
{"property": "C121", "status": "partial", "theorems": ["Atr.C121_kept", "Atr.C121_runs_partial", "Atr.C121_succeeds", "Atr.C121_refuted_menu", "Atr.C121_refuted_order"], "note": "kept for every history; the program is loaded and started after every successful command to AUTORUN.SYS, and the command succeeds if there is room. Refuted: DOS does not find its other files with short names (DUP.SYS) after any command that saved a program, nor AUTORUN.SYS itself once another program was saved after it"},
{"property": "C122", "status": "partial", "theorems": ["Atr.C122_groups", "Atr.C122_order", "Atr.C122_parsers", "Atr.C122_group_opens", "Atr.C122_refuted", "Atr.C122_one", "Atr.C122_right_iff"], "note": "Proved: the groups (C122_groups), their use (C122_group_opens), and that the loops of parsers.py are a stable sort for any table (C122_order, C122_parsers). False for check_size, which compares with the number of the type: C122_refuted (only types 0 and 16 are found for their own size), C122_one (at most one type is found), C122_right_iff (exactly the sizes for which the answer is right)."},
{"property": "C123", "status": "partial", "theorems": ["Atr.C123_said", "Atr.C123_fails_iff", "Atr.C123_error", "Atr.C123_atari", "Atr.C123_dos33", "Atr.C123_sparta", "Atr.C123_sparta_empty", "Atr.C123_unreadable"], "note": "Descriptions are read back by a parser of its own (C123_said, C123_error for error texts without quotes, C123_atari, C123_dos33, C123_sparta and C123_sparta_empty for files, C123_unreadable for files that cannot be read). False exactly for reordered segments without bytes, which raise IndexError (C123_fails_iff)."},
{"property": "C124", "status": "partial", "theorems": ["Atr.C124_partial", "Atr.C123_dos33"], "note": "Bytes are shown at the addresses BRUN puts them to (C124_partial, C123_dos33). The range shown is wider: it begins four addresses before the program, where address and length are shown, and ends with the last sector; the end is right exactly when program and header fill their sectors (last part of C124_partial, and the example)."},
{"property": "C125", "status": "proved", "theorems": ["Atr.C125_line", "Atr.C125_printed", "Atr.C125_args"], "note": "Each line is read back by a parser of its own (C125_line); C125_printed compares all lines with the segments the executable is made of, C125_args with the files given."},
{"property": "C126", "status": "proved", "theorems": ["Atr.C126_writes", "Atr.C126_add"], "note": "Necessary conditions only: which exception is raised (ValueError or IndexError, neither caught by the command) is not part of the claim. What is read back when the byte is between 1 and 121: C127."},
{"property": "C127", "status": "partial", "theorems": ["Atr.C127_partial", "Atr.C127_write_partial", "Atr.C127_refuted"], "note": "False: C127_refuted gives a disk on which every file of two sectors is written without an error and read back with the boot sector in the place of its second sector. C127_partial says exactly when the lists give the sectors of the file (the VTOC states 122 pairs or the file needs one list only); C127_write_partial is the same for write_file and get_file on any disk that opens, with enough room and with the boot sector in use."},
{"property": "C128", "status": "partial", "theorems": ["Atr.C128_delete_partial", "Atr.C128_refuted"], "note": "False: C128_refuted gives a disk whose VTOC states one pair, on which every file of two sectors is added and removed without an error, after which the boot sector is free and a sector of the file is not, so that the next file is written over the boot sector. C128_delete_partial: for every disk and number of pairs, exactly the sectors of the file become free if 122 pairs are stated or one list was enough; otherwise the boot sector becomes free and at least one sector of the file stays taken."},
{"property": "C13", "status": "partial", "theorems": ["Atr.C13_refuted", "Atr.C13_failing_write_partial", "Atr.C13_data_too_long", "Atr.C13_leak_lists", "Atr.C13_leak_name"], "note": "False for the code: the rollback restores nothing. C13_refuted: one failing write on the blank volume loses all 496 free sectors. C13_failing_write_partial: listing, contents and all sectors but the VTOC are kept; C13_leak_* and C13_data_too_long say what each failure does."},
{"property": "C14", "status": "proved", "theorems": ["Atr.C14_history", "Atr.C14_plain", "Atr.C14_only_full", "Atr.C14_lookup", "Atr.C14_initial"], "note": "Every history, by simulation with a finite map. Needs the last catalog sector to hold no entry, because delete raises otherwise after freeing sectors."},
{"property": "C15", "status": "partial", "theorems": ["Atr.C15_sector_in_bounds", "Atr.C15_sectors_disjoint_partial", "Atr.C15_sectors_cover_partial", "Atr.C15_sector_count", "Atr.C15_refuted_boot_sectors"], "note": "boot sectors of 183936-byte images overlap: refuted there, proved for ordinary sectors"},
{"property": "C16", "status": "proved", "theorems": ["Atr.C16_atr_header_roundtrip", "Atr.C16_size_limit_sharp", "Atr.C16_add_atr_header"], "note": ""},
{"property": "C17", "status": "proved", "theorems": ["Atr.C17_build_then_parse", "Atr.C17_run_address", "Atr.C17_build_succeeds", "Atr.C17_top_byte_lost", "Atr.C17_refused"], "note": "Building then parsing gives the run address segment and the same segments. The origin 0xffff exception of the quantifier is shown to be real by C17_top_byte_lost."},
{"property": "C18", "status": "proved", "theorems": ["Atr.C18_grammar", "Atr.C18_only_invalid", "Atr.C18_pieces"], "note": "parseXex is exactly the grammar XexBody; only InvalidBinaryFile is raised; pieces are in order and cover the file."},
{"property": "C19", "status": "proved", "theorems": ["Atr.C19_plain", "Atr.C19_jump", "Atr.C19_jump_wraps", "Atr.C19_bad_run"], "note": "Header, body as last-writer-wins memory image, JMP prefix; the wrap below origin 3 is proved too."},
{"property": "C20", "status": "proved", "theorems": ["Atr.C20_roundtrip", "Atr.C20_roundtrip_jump", "Atr.C20_full_64k_fails", "Atr.C20_refused"], "note": "Round trip for spans under 64 KiB; the full 64 KiB span is proved to fail."},
{"property": "C21", "status": "partial", "theorems": ["Atr.C21_partial", "Atr.C21_too_long"], "note": "Holds for executables under 65536 bytes; every longer one gives an image that is rejected (C21_too_long)."},
{"property": "C22", "status": "partial", "theorems": ["Atr.C22_run_address_ignored", "Atr.C22_states_first_origin", "Atr.C22_partial"], "note": "False: the run address is ignored, the disk states the first origin; holds only if that is what was asked."},
{"property": "C23", "status": "proved", "theorems": ["Atr.C23_raw_index", "Atr.C23_exists", "Atr.C23_reverse", "Atr.C23_inverse", "Atr.C23_nodup", "Atr.C23_repeated_index", "Atr.C23_outside"], "note": "Every nesting of slices and reorderings; the round trip needs reorderings without repetition, and C23_repeated_index shows that it fails otherwise."},
{"property": "C24", "status": "proved", "theorems": ["Atr.C24_write_data", "Atr.C24_write_style", "Atr.C24_copy", "Atr.C24_copy_independent", "Atr.C24_original_independent"], "note": "Writes to data and style through any view, and copies."},
{"property": "C25", "status": "partial", "theorems": ["Atr.C25_query", "Atr.C25_query_unique", "Atr.C25_set", "Atr.C25_clear_partial", "Atr.C25_undo_partial", "Atr.C25_data_never_cleared"], "note": "Query, set and clear are proved for every kind except clearing data=True without a user style, which never changes anything (C25_data_never_cleared)."},
{"property": "C26", "status": "partial", "theorems": ["Atr.C26_next", "Atr.C26_previous_exact", "Atr.C26_previous_partial", "Atr.C26_previous_skips"], "note": "find_next is proved as stated. find_previous skips a run that starts directly before the index (C26_previous_skips); C26_previous_exact says what it does, and C26_previous_partial proves the claim when no run starts there."},
{"property": "C27", "status": "proved", "theorems": ["Atr.C27_partition", "Atr.C27_degenerate"], "note": "Partition of the whole segment, uniform masked style, and neighbouring ranges differ except at split comments; degenerate cases separately."},
{"property": "C28", "status": "proved", "theorems": ["Atr.C28_styles", "Atr.C28_comments"], "note": "All style arrays and comment sets, any target segment of the same length that shows every base position at most once."},
{"property": "C29", "status": "proved", "theorems": ["Atr.C29_restore", "Atr.C29_history"], "note": "Arbitrary changes inside the ranges, and every history of calls of the comment editing methods."},
{"property": "C30", "status": "partial", "theorems": ["Atr.C30_indexes", "Atr.C30_interleave_partial", "Atr.C30_indexed_fails", "Atr.C30_arrays", "Atr.C30_nothing", "Atr.C30_step_zero"], "note": "Proved for segments that are whole arrays or slices. Missing: reordered segments, for which the call fails (C30_indexed_fails)."},
{"property": "C31", "status": "proved", "theorems": ["Atr.C31_strict", "Atr.C31_forced"], "note": "For every image that opens as a cartridge of type t (strict with header, or forced without header) the bank ranges tile the image behind the header: inside, disjoint, covering. The table of 68 types is decided row by row by the kernel."},
{"property": "C32", "status": "partial", "theorems": ["Atr.C32_partial"], "note": "Round trip for every known type and every 32-bit checksum. The statement fails for unknown type numbers: decoding raises InvalidDiskImage, which the third clause proves for all of them."},
{"property": "C33", "status": "proved", "theorems": ["Atr.C33_rom"], "note": "A ROM size is accepted iff it is zero or a power of two, for every size."},
{"property": "C34", "status": "proved", "theorems": ["Atr.C34_dcm", "Atr.C34_order", "Atr.C34_passthrough", "Atr.C34_other_error"], "note": "Every byte string and every behaviour of the three decompressors (parameters of the model). Other exceptions of a decompressor (zlib.error) escape: C34_other_error."},
{"property": "C35", "status": "proved", "theorems": ["Atr.C35_parse_accepts", "Atr.C35_parse_errors", "Atr.C35_parse_new_error", "Atr.C35_unsupported_check", "Atr.C35_first", "Atr.C35_none", "Atr.C35_error", "Atr.C35_cases", "Atr.C35_system", "Atr.C35_find_first", "Atr.C35_find_none", "Atr.C35_find_error"], "note": "One parser (phases and error classes), lists of parsers, and the whole detection over the signature database and mime_parse_order, for arbitrary parsers. Cases are complete by C35_cases."},
{"property": "C36", "status": "proved", "theorems": ["Atr.C36_value", "Atr.C36_roundtrip", "Atr.C36_refuse", "Atr.C36_empty", "Atr.C36_blanks", "Atr.C36_blanks_marked"], "note": "Every numeral of any length and letter case and every natural number, in all prefixes and default bases; refusal of foreign characters; blanks around the digits (C36_blanks). ASCII only."},
{"property": "C37", "status": "partial", "theorems": ["Atr.C37_added_file_lost", "Atr.C37_partial"], "note": "False: an add whose last file is skipped saves nothing (C37_added_file_lost, on every volume). C37_partial: if the last file is not skipped everything is saved."},
{"property": "C38", "status": "proved", "theorems": ["Atr.C38_dry_run", "Atr.C38_not_replaced", "Atr.C38_replaced"], "note": "Dry run for every image class (abstract driver) and command; force behaviour for Atari DOS volumes."},
{"property": "C39", "status": "proved", "theorems": ["Atr.C39_layout", "Atr.C39_roundtrip", "Atr.C39_set_values", "Atr.C39_flag_bit_lost", "Atr.C39_padding_lost"], "note": "Byte layout, encode-then-parse for all canonical entries and for every entry made by set_values. Also proved: the opposite direction loses flag bit 3 and space padding."},
{"property": "C40", "status": "partial", "theorems": ["Atr.C40_dirent_roundtrip_partial", "Atr.C40_lock_lost", "Atr.C40_locked_text_ends_listing", "Atr.C40_deleted", "Atr.C40_name_cut", "Atr.C40_encode_iff"], "note": "Round trip holds for unlocked entries. The lock state is lost by encoding, and a locked text file encodes to a flag byte that ends the listing: both proved as refutations, with the exact condition in C40_encode_iff."},
{"property": "C41", "status": "partial", "theorems": ["Atr.C41_count_not_updated", "Atr.C41_report_wrong", "Atr.C41_partial"], "note": "False for the code: C41_count_not_updated (every successful write leaves the reported count alone while sectors are allocated) and the witness C41_report_wrong. C41_partial is what holds: the reported count is constant over all reachable states."},
{"property": "C42", "status": "partial", "theorems": ["Atr.C42_read_partial", "Atr.C42_reads_iff", "Atr.C42_refuted_full_map", "Atr.C42_refuted_hole", "Atr.C42_refuted_empty"], "note": "Claim is false as stated. Proved: for every accepted image, a sane entry of positive length whose map lists valid sectors followed by a zero reads as those sectors cut to the length; exactly which entries read without error; and that files filling their map raise IndexError, holes end the file and empty files read as the whole image. A concrete disk shows all cases."},
{"property": "C43", "status": "proved", "theorems": ["Atr.C43_rect"], "note": "Exactly the bytes of the rectangles change."},
{"property": "C44", "status": "proved", "theorems": ["Atr.C44_every_page_once", "Atr.C44_succeeds_iff", "Atr.C44_fits"], "note": "Pages, visiting order and emptiness of the other sectors; exact condition for the disk to be built and a simple sufficient one."},
{"property": "C45", "status": "partial", "theorems": ["Atr.C45_refuted_zero_sector_size", "Atr.C45_open_header_partial"], "note": "false as stated: a zero sector size raises ZeroDivisionError"},
{"property": "C46", "status": "partial", "theorems": ["Atr.C46_dos33_consistent_partial", "Atr.C46_mydos_hang_iff", "Atr.C46_refuted_mydos", "Atr.C46_refuted_mydos_image", "Atr.C46_dos33_list_hang_iff", "Atr.C46_dos33_catalog_hang_iff", "Atr.C46_refuted_dos33_catalog", "Atr.C46_refuted_dos33_list", "Atr.C46_refuted_dos33_open", "Atr.C46_refuted_dos33_file"], "note": "Claim is false. Proved: for MyDOS files, DOS 3.3 catalogs and DOS 3.3 track/sector lists the loop either ends within one step more than there are sectors or never ends; concrete images that hang when opened or when a file is read; and that on consistent DOS 3.3 volumes nothing hangs."},
{"property": "C47", "status": "partial", "theorems": ["Atr.C47_partial", "Atr.C47_empty_order"], "note": "State round trip proved except for reordered segments with an empty order list, where it is false (C47_empty_order)."},
{"property": "C48", "status": "partial", "theorems": ["Atr.C48_partial", "Atr.C48_one_byte", "Atr.C48_lengths_differ", "Atr.C48_from_one_byte", "Atr.C48_reordered", "Atr.C48_reordered_style"], "note": "Proved for segments of equal length that are not reordered, and against one byte. For other lengths every byte is marked and the call raises (C48_lengths_differ). A reordered segment never gets a difference marked in the base array (C48_reordered): self.style becomes a new array (C48_reordered_style)."},
{"property": "C49", "status": "partial", "theorems": ["Atr.C49_refuted_empty_file", "Atr.C49_refuted_image", "Atr.C49_nonempty_partial"], "note": "Claim is false (the whole image is returned); the part that holds for files with at least one byte is proved."},
{"property": "C50", "status": "partial", "theorems": ["Atr.C50_empty_write_corrupts", "Atr.C50_dos33_empty_write"], "note": "Atari DOS: false for the code, on every consistent volume with a free slot the write raises InvalidDiskImage and the image cannot be opened any more. DOS 3.3: holds, IndexError and nothing changed."},
{"property": "C51", "status": "partial", "theorems": ["Atr.C51_full_directory_not_refused", "Atr.C51_wide_not_refused", "Atr.C51_dos33_full_catalog_partial", "Atr.C51_dos33_refuted"], "note": "Atari DOS: false. On every single density volume with 64 files the write reports success, lists nothing new and overwrites sector 369. On every double density volume with 64 files (the directory sectors hold 128 entries) the write reports success and lists the new file, which then can neither be read nor deleted. DOS 3.3: raises NoSpaceInDirectory and keeps all files, but the sectors of the file are lost (C51_dos33_refuted: concrete volume with 98 files)."},
{"property": "C52", "status": "partial", "theorems": ["Atr.C52_second_delete_succeeds", "Atr.C52_partial"], "note": "False for the code: a second delete of the same name succeeds (C52_second_delete_succeeds). C52_partial: a name that no entry has, live or deleted, is refused and nothing changes."},
{"property": "C53", "status": "proved", "theorems": ["Atr.C53_boot", "Atr.C53_add_header_useless"], "note": "Every image and type. The unused function add_cart_header writes type 0xffffffff, which never opens (second theorem)."},
{"property": "C54", "status": "proved", "theorems": ["Atr.C54_mame", "Atr.C54_empty_archive"], "note": "Entries with the declared size, all sizes multiples of 16. The zip layer is an input of the model. Second theorem: an archive without entries raises ValueError, which is not an AtrError."},
{"property": "C55", "status": "partial", "theorems": ["Atr.C55_partial", "Atr.C55_short_image", "Atr.C55_xex", "Atr.C55_atr"], "note": "Whenever a type is reported it is the right one. C55_xex and C55_atr give the exact answer for every file against a table of single bytes; an image that ends inside one of the two Jumpman signatures raises IndexError instead (C55_atr, witness C55_short_image), so the claim that a type is always reported is false."},
{"property": "C56", "status": "partial", "theorems": ["Atr.C56_boot", "Atr.C56_contents_partial", "Atr.C56_refuted_shared_page", "Atr.C56_refuted_hgr"], "note": "Exact memory after booting in C56_boot. The claim holds when no two segments share a page (C56_contents_partial) and fails otherwise: a later segment zeroes the rest of a shared page; data at 0x2001 or 0x4001 is loaded one byte lower. The loader machine code is described by runLoader in the specification and trusted."},
{"property": "C57", "status": "partial", "theorems": ["Atr.C57_map_ends_partial", "Atr.C57_map_hang_iff", "Atr.C57_refuted_self_link"], "note": "Claim is false: a map sector that links to itself hangs. Proved: the loop either ends within two steps more than there are sectors or never ends, and it ends with the map whenever the links lead to one."},
{"property": "C58", "status": "proved", "theorems": ["Atr.C58_opens_iff", "Atr.C58_mydos_vtoc"], "note": "Equivalence for every byte string; the corollary says that MyDOS volumes with more than one VTOC sector never open."},
{"property": "C59", "status": "partial", "theorems": ["Atr.C59_extract", "Atr.C59_extract33", "Atr.C59_apart", "Atr.C59_every_set", "Atr.C59_text", "Atr.C59_error_stops", "Atr.C59_refuted_lower", "Atr.C59_lower"], "note": "Proved when the selected files go to different paths (always so without --lower and without names starting with a slash); refuted otherwise: A and a extracted with --lower give one host file. DOS 3.3 contents are padded to whole sectors. C59_lower: the lower case of a name, letter by letter."},
{"property": "C60", "status": "partial", "theorems": ["Atr.C60_confined_partial", "Atr.C60_escape", "Atr.C60_refuted"], "note": "Refuted: a name starting with a slash is written to that absolute path. Proved for names without a slash."},
{"property": "C61", "status": "partial", "theorems": ["Atr.C61_dry_run_partial", "Atr.C61_makes_directory"], "note": "Refuted: a missing output directory is made. Proved for files and errors, and when the directory exists."},
{"property": "C62", "status": "partial", "theorems": ["Atr.C62_whole", "Atr.C62_subset", "Atr.C62_list", "Atr.C62_no_address", "Atr.C62_refuted_hex", "Atr.C62_refuted_name"], "note": "Whole files and decimal subsets proved for all names and bounds. False: bounds in hex or with a dollar sign and [5] are silently ignored and the whole file is loaded (C62_refuted_hex); a file name with brackets is cut (C62_refuted_name)."},
{"property": "C63", "status": "partial", "theorems": ["Atr.C63_reassemble_partial", "Atr.C63_run_text", "Atr.C63_run_file", "Atr.C63_refuted_zero_page", "Atr.C63_refuted_init", "Atr.C63_refuted_cut", "Atr.C63_bad_run_ignored", "Atr.C63_run_piece"], "note": "Proved for segments that are not at address 0 and do not start at 0x2e0. False otherwise: segments at 0 vanish, the init address next to the run address is lost, a truncated file is assembled silently, a run address that is no number is ignored."},
{"property": "C64", "status": "partial", "theorems": ["Atr.C64_atari", "Atr.C64_succeeds", "Atr.C64_dos33", "Atr.C64_succeeds33", "Atr.C64_refuted_dos33"], "note": "Proved for Atari DOS. On DOS 3.3 the file comes back padded to whole sectors and the BSAVE parser refuses it unless its length is a multiple of 256 (exact characterisation C64_dos33, witness C64_refuted_dos33)."},
{"property": "C65", "status": "proved", "theorems": ["Atr.C65_strict_iff", "Atr.C65_forced_iff", "Atr.C65_errors", "Atr.C65_unique"], "note": "Both directions, for all byte strings."},
{"property": "C66", "status": "partial", "theorems": ["Atr.C66_memory_partial", "Atr.C66_refuted", "Atr.C66_table"], "note": "Proved for all types but 59, whose row has one number too many: its 4 KB appear at address 0 (C66_refuted)."},
{"property": "C67", "status": "proved", "theorems": ["Atr.C67_boot_sectors", "Atr.C67_history", "Atr.C67_free_boot_sector_erased"], "note": "Proved without a consistency assumption for single operations (the image only has to open), and for histories on mounted volumes; the side condition on the bitmap is shown to be needed."},
{"property": "C68", "status": "proved", "theorems": ["Atr.C68_kboot", "Atr.C68_sparta", "Atr.C68_atari", "Atr.C68_rest", "Atr.C68_mounted", "Atr.C68_kboot_hides"], "note": "All cases: C68_kboot, C68_atari, C68_rest; C68_mounted for consistent volumes; C68_kboot_hides is the flaw (files hidden by three boot bytes). Which images are SpartaDOS is the condition SpartaLike; what happens on them is in C42 and C57."},
{"property": "C69", "status": "proved", "theorems": ["Atr.C69_command", "Atr.C69_history"], "note": "Atari DOS volumes; the condition that the libraries refuse the file is on all files of the same length with the same boot sectors."},
{"property": "C70", "status": "partial", "theorems": ["Atr.C70_partial", "Atr.C70_no_boot", "Atr.C70_boot_number"], "note": "False for the boot sectors: they are looked up in the VTOC instead of sector 1 (C70_no_boot, C70_boot_number). All other segments are right (C70_partial)."},
{"property": "C71", "status": "proved", "theorems": ["Atr.C71_xex", "Atr.C71_cart", "Atr.C71_dos33", "Atr.C71_rest"], "note": "Complete decision for files that are no Atari disks. A file of 143360 bytes must open as DOS 3.3 and its segments must be readable; other files of this size are not covered."},
{"property": "C72", "status": "proved", "theorems": ["Atr.C72_sectors_in_use", "Atr.C72_history"], "note": "For any image and any outcome (C72_sectors_in_use), and for histories on consistent volumes (C72_history)."},
{"property": "C73", "status": "proved", "theorems": ["Atr.C73_segments"], "note": "Contents of every segment."},
{"property": "C74", "status": "partial", "theorems": ["Atr.C74_detected_partial", "Atr.C74_zip_hides", "Atr.C74_history_partial"], "note": "False when zipfile finds an archive in the image, for example a zip file stored near the end of the disk: the MAME parser comes first (C74_zip_hides). Proved when no file reached contains one."},
{"property": "C75", "status": "proved", "theorems": ["Atr.C75_outcome", "Atr.C75_not_sane"], "note": "Every case is covered: entries that failed the check, lists that end, lead outside, or go round; data sectors inside and outside the image."},
{"property": "C76", "status": "proved", "theorems": ["Atr.C76_segments", "Atr.C76_detect", "Atr.C76_commands"], "note": "Exact condition for the segments, for detection and for all commands; example: a disk with one empty text file, on which every command fails."},
{"property": "C77", "status": "proved", "theorems": ["Atr.C77_opens", "Atr.C77_volume", "Atr.C77_errors", "Atr.C77_text_hides"], "note": "Both directions, the listing, and the exception for every file that is refused. Also: an unlocked text file (flag byte 0) ends the listing of its catalog sector."},
{"property": "C78", "status": "proved", "theorems": ["Atr.C78_record", "Atr.C78_record_short", "Atr.C78_directory", "Atr.C78_opens", "Atr.C78_sane", "Atr.C78_find"], "note": "Both directions for every image. As the statement says, deleted files and subdirectories are listed like files, and a deleted record hides a later one of the same name (finding 27)."},
{"property": "C79", "status": "partial", "theorems": ["Atr.C79_wrong_sectors", "Atr.C79_shred", "Atr.C79_file", "Atr.C79_boot_record", "Atr.C79_large"], "note": "Refuted by C79_wrong_sectors: the bitmap is read as an Atari DOS VTOC, so that sector s is filled if s+80 is free. What is filled is characterised exactly (C79_shred, C79_file); proved failures without saving: C79_boot_record, C79_large."},
{"property": "C80", "status": "proved", "theorems": ["Atr.C80_opened", "Atr.C80_unchanged", "Atr.C80_unchanged_history", "Atr.C80_sparta", "Atr.C80_atari", "Atr.C80_dos33", "Atr.C80_history", "Atr.C80_history33_partial", "Atr.C80_add", "Atr.C80_remove", "Atr.C80_clear", "Atr.C80_packed", "Atr.C80_names", "Atr.C80_names_listed", "Atr.C80_remove_listed"], "note": "C80_opened: what a command works on was opened by its format. C80_unchanged(_history), C80_sparta: files that stay. C80_atari, C80_dos33, C80_history: files that are changed, as C05/C14/C69 say (C80_history33_partial keeps the proviso of C74). Exact results on the other kinds: C80_add, C80_remove, C80_clear, with the names the image knows: C80_names, C80_names_listed, C80_remove_listed. C80_packed: a compressed file ends up uncompressed."},
{"property": "C81", "status": "partial", "theorems": ["Atr.C81_run", "Atr.C81_options", "Atr.C81_help", "Atr.C81_fails", "Atr.C81_refuted_help", "Atr.C81_help_partial", "Atr.C81_aliases"], "note": "Proved: C81_run, C81_options, C81_help (exact answer), C81_aliases. Refuted by C81_refuted_help: with one name that is no command a request for help raises IndexError; C81_fails says exactly when, C81_help_partial is the claim where it does not fail."},
{"property": "C82", "status": "partial", "theorems": ["Atr.C82_footprint", "Atr.C82_runs", "Atr.C82_dry_run_partial", "Atr.C82_error", "Atr.C82_no_force_partial", "Atr.C82_add", "Atr.C82_add_missing", "Atr.C82_delete", "Atr.C82_clear", "Atr.C82_assemble", "Atr.C82_boot", "Atr.C82_refuted_dry_run"], "note": "boot ignores --dry-run and -f (C82_refuted_dry_run); C82_dry_run_partial and C82_no_force_partial are the parts that hold. Left out: messages, negative addresses in -s/-d arguments; pyatasm is a parameter."},
{"property": "C83", "status": "partial", "theorems": ["Atr.C83_create", "Atr.C83_result", "Atr.C83_shipped", "Atr.C83_ambiguous", "Atr.C83_local_add", "Atr.C83_local_delete", "Atr.C83_local_fails"], "note": "Holds for create and for copying into '.'; delete on '.' removes nothing (C83_local_delete), other commands fail there (C83_local_fails). C83_ambiguous: names given in the README select several templates."},
{"property": "C84", "status": "proved", "theorems": ["Atr.C84_run", "Atr.C84_runs", "Atr.C84_created", "Atr.C84_extract", "Atr.C84_add_fits", "Atr.C84_roundtrip", "Atr.C84_runs33_partial", "Atr.C84_created33", "Atr.C84_extract33"], "note": "As stated, for Atari DOS disks. C84_runs33_partial, C84_created33, C84_extract33: the same for DOS 3.3 disks as long as zipfile finds no archive in the image (C74)."},
{"property": "C85", "status": "partial", "theorems": ["Atr.C85_init_partial", "Atr.C85_boot_partial", "Atr.C85_start", "Atr.C85_refuted_empty", "Atr.C85_refuted_top"], "note": "Proved by running the bytes of xexboot_header on a formal 6502 (Spec/Cpu6502.lean) with the sector call of the operating system, with init routines (C85_init_partial: they are called as subroutines after the segment that sets 0x2e2 and the address is cleared) and without. Partial: the claim is false for empty segments and for segments that reach 0xffff (the refuted theorems) and for executables of 64K and more (the length field wraps, C21_too_long); segments in the memory of the loader and init routines that change it are excluded by hypothesis."},
{"property": "C86", "status": "partial", "theorems": ["Atr.C86_loader", "Atr.C86_boots", "Atr.C86_contents_partial", "Atr.C86_page8_refuted", "Atr.C86_page8_stops_refuted", "Atr.C86_page0_refuted", "Atr.C86_io_page_refuted", "Atr.C86_card_page_refuted", "Atr.C86_burst_page_refuted"], "note": "C86_loader: the machine code does what runLoader says, for every disk that starts with it; C86_boots: memory and jump for every disk that can be built and whose pages the loader can fill; C86_contents_partial: every byte at its address when no two segments share a page (false otherwise, see C56). False for the pages the loader and the ROM need: page 8 (C86_page8_refuted, C86_page8_stops_refuted), page 0 (C86_page0_refuted), page 0xc0 (C86_io_page_refuted), pages 0xd0 to 0xd2, whose sector is read to the page of the next segment (C86_card_page_refuted), pages 0xe0+n, whose bytes go behind the segment before them while n-1 further pages are cleared (C86_burst_page_refuted). Missing: what happens with pages 1, 3, 0xc1 to 0xcf and 0xd3 to 0xdf (stack, buffer of the ROM, slots and ROM)."},
{"property": "C87", "status": "partial", "theorems": ["Atr.C87_atari", "Atr.C87_dos33", "Atr.C87_sparta", "Atr.C87_kboot", "Atr.C87_list", "Atr.C87_sums", "Atr.C87_sum_read", "Atr.C87_command", "Atr.C87_lines", "Atr.C87_screen", "Atr.C87_columns", "Atr.C87_newline", "Atr.C87_newline_lines", "Atr.C87_directory_hidden", "Atr.C87_summary"], "note": "False as stated in two places: a name with a newline byte takes more than one line (C87_newline says exactly when, C87_newline_lines), and the directory flag of Atari entries is not shown (C87_directory_hidden). Proved otherwise: the lines of all four formats read back as the entries on disk, the whole screen for Atari disks without newline bytes, the columns, checksums, and the first line after any history."},
{"property": "C88", "status": "proved", "theorems": ["Atr.C88_residue", "Atr.C88_burst", "Atr.C88_bytes", "Atr.C88_forge", "Atr.C88_refuted", "Atr.C88_window"], "note": "zlib.crc32 is modelled by its shift register and compared with polynomial division (Spec/Crc). C88_window and C88_forge show that the bound of 32 bits is sharp."},
{"property": "C89", "status": "partial", "theorems": ["Atr.C89_text", "Atr.C89_track_text", "Atr.C89_place", "Atr.C89_raw", "Atr.C89_read", "Atr.C89_dos33", "Atr.C89_bitmap", "Atr.C89_system", "Atr.C89_refuted_system"], "note": "False for VTOC and directory of disks with 256 byte sectors: C89_refuted_system says that exactly the first 128 bytes are labelled correctly. Proved for the raw sectors of all Atari and DOS 3.3 disks, for bitmaps, and for VTOC and directory with 128 byte sectors."},
{"property": "C90", "status": "partial", "theorems": ["Atr.C90_container", "Atr.C90_inside", "Atr.C90_itself", "Atr.C90_stale", "Atr.C90_once", "Atr.C90_shrink", "Atr.C90_twice"], "note": "C90_container and C90_inside prove the claim for the first resize that does not shrink. The rest is false and refuted: a container can be resized only once (C90_once), after shrinking no segment can be moved (C90_shrink), a second move of a slice fails unless the new size is a multiple of the old (C90_twice), and segments not moved are left behind (C90_stale), and a segment that shows the whole container cannot be moved (C90_itself)."},
{"property": "C91", "status": "partial", "theorems": ["Atr.C91_segments", "Atr.C91_no_boot", "Atr.C91_refuted_unused", "Atr.C91_refuted_full", "Atr.C91_refuted_circle", "Atr.C91_refuted_root", "Atr.C91_refuted_damaged", "Atr.C91_refuted_bitmap", "Atr.C91_refuted_short", "Atr.C91_refuted_short_bare", "Atr.C91_short_wrong"], "note": "C91_segments: shown exactly if bitmap and root directory are on the disk and every entry can be shown, then exactly these segments. Partial: the code fails or loops on disks with an unused entry without a map, with a file whose map sectors are full, with cyclic maps, does not recognise a disk with a damaged entry, and shows the wrong bytes for a bitmap that starts in sector 1 of a file without a header (the refuted theorems); a file without bytes is shown as the whole image. A bitmap that starts in one of the three short sectors of a double density disk is shown from byte 3(s-1) of the disk instead of 128(s-1) (C91_refuted_short, C91_refuted_short_bare, C91_short_wrong). A disk whose root directory has an empty map is read without complaint and cannot be shown, AttributeError (C91_refuted_root)."},
{"property": "C92", "status": "partial", "theorems": ["Atr.C92_atari", "Atr.C92_dos33", "Atr.C92_missing", "Atr.C92_told", "Atr.C92_refuted_detect", "Atr.C92_refuted_executables", "Atr.C92_refuted_vtoc"], "note": "Proved for sound Atari DOS and DOS 3.3 disks within their limits (C92_atari, C92_dos33, C92_missing) and for unknown files (C92_told). Partial: exceptions of the detection other than the two that are caught end every command (C92_refuted_detect); on executables the commands that use files end with AttributeError (C92_refuted_executables); vtoc fails on images without a file system (C92_refuted_vtoc)."},
{"property": "C93", "status": "partial", "theorems": ["Atr.C93_delete", "Atr.C93_write", "Atr.C93_run", "Atr.C93_delete_frees", "Atr.C93_refuted_intact"], "note": "All of it except the last clause, which is false: a failing delete has already marked the sectors of the file as free (C93_delete_frees says exactly how the image in memory looks, C93_refuted_intact gives a disk). C93_write also covers catalogs that become too long by the new entry."},
{"property": "C94", "status": "partial", "theorems": ["Atr.C94_delete", "Atr.C94_write", "Atr.C94_listing", "Atr.C94_text", "Atr.C94_locked_text", "Atr.C94_delete_succeeds", "Atr.C94_write_succeeds", "Atr.C94_stays", "Atr.C94_refuted_gone", "Atr.C94_refuted_others"], "note": "The catalog after a rewrite is given exactly, and when deleting and adding succeed. That a deleted file is gone and the others stay is false (C94_refuted_gone, C94_refuted_others)."},
{"property": "C95", "status": "proved", "theorems": ["Atr.C95_screen"], "note": "The boot code is run up to the call that reads the first sector (0x756); the display list at the address left in 0x230 (and in the hardware register 0xd402) is then interpreted as ANTIC does (Spec/Antic.lean)."},
{"property": "C96", "status": "proved", "theorems": ["Atr.C96_args", "Atr.C96_atari", "Atr.C96_apple", "Atr.C96_nothing", "Atr.C96_kind", "Atr.C96_local", "Atr.C96_asked"], "note": "C96_args: segments and run address from what is typed. C96_atari and C96_apple: the command, the file it writes, and the run of the boot loader on the two machines (built on C85 and C86, with their conditions on memory). C96_nothing, C96_kind, C96_local and C96_asked: other names, formats, and assemble."},
{"property": "C97", "status": "partial", "theorems": ["Atr.C97_listed", "Atr.C97_entry", "Atr.C97_text", "Atr.C97_text_space"], "note": "C97_listed for every type but T, C97_entry for the catalog entry on any disk. False for text files: C97_text says that a text file that has been added is never listed, C97_text_space that on a consistent volume it is added all the same and takes its space."},
{"property": "C98", "status": "partial", "theorems": ["Atr.C98_segment", "Atr.C98_classes", "Atr.C98_again", "Atr.C98_old", "Atr.C98_twice", "Atr.C98_other_length", "Atr.C98_other_order", "Atr.C98_parser_partial", "Atr.C98_not_restored", "Atr.C98_parser_twice", "Atr.C98_incomplete"], "note": "Proved for every parser with an image type whose segments are complete and are not reorderings of nothing. False otherwise: the raw data parser has no image type (C98_not_restored), an empty reordering comes back as the whole file (C47_empty_order), restoring works only once (C98_twice, C98_parser_twice). jsonpickle is taken as giving back the states."},
{"property": "C99", "status": "partial", "theorems": ["Atr.C99_line", "Atr.C99_printed", "Atr.C99_xex", "Atr.C99_refuted_tail", "Atr.C99_atari", "Atr.C99_boot", "Atr.C99_refuted_boot", "Atr.C99_refuted_kboot", "Atr.C99_cart", "Atr.C99_cart_name", "Atr.C99_bin", "Atr.C99_dos33", "Atr.C99_sparta", "Atr.C99_mame", "Atr.C99_refuted_mame", "Atr.C99_rom", "Atr.C99_cart_unknown", "Atr.C99_rom_name"], "note": "Names, sizes, addresses and sectors are right for all formats but KBoot; positions are right for complete segments of executables and for BSAVE files. Refuted: position of cut off pieces, of boot sectors (always 0), of entries of MAME archives, address and position of KBoot executables; boot sectors of DOS disks have the address from the VTOC."}
]}
