# Formal model of atrcopy in Lean 4 — design

Source: robmcmullen/atrcopy at the pinned commit in `/repo` (read as text only, never run).
Properties: `properties.jsonl`. Status of each: `MANIFEST.json`. Mutation log: `seeded/LOG.jsonl`.

## Trusted base

* Lean 4.33.0's kernel.
* Axioms: only Lean's standard `propext`, `Classical.choice`, `Quot.sound` (many theorems need fewer).
  No own axioms, no `sorry`/`admit`, no `native_decide`/`bv_decide`.  Only Lean's core library is imported.
* `decide +kernel` is used for whole finite tables (cartridge types, sector interleave, the 250-odd bytes of the
  boot loader) and for facts about literal sectors in examples; the kernel evaluates these.
* The hand translation Python -> Lean in `Verif/Model/*.lean`.  Every definition cites file and lines.
  This translation is the part that is trusted without a machine check.
* The runtime facts listed under "Runtime semantics".
* `Spec/Cpu6502.lean`: the 6502 instructions used by the two boot loaders, the call of the Atari operating system for reading a sector,
  and what it does when it boots a disk.  Interrupts, decimal mode and input/output registers are left out.
* `Spec/Antic.lean`: the display list instructions of the Atari used by the boot disks (blank lines, text modes 6 and 7, jump).
* `Spec/Apple2.lean`: the disk drive of an Apple ][ (stepper motor, sectors of a track) and the three ROM routines called by the loader of
  Standard Delivery disks, and the switches of the display.  Timing is left out.  `runLoader` (`Spec/Delivery.lean`), which says what the loader does with
  its address list, is no longer trusted: C86 proves it from the machine code.
* `zlib.crc32` is the usual shift register (`crc32` in `Model/Display.lean`; C88 shows that this is polynomial division).
* The specifications in `Verif/Spec/*.lean` (what the claims mean).

## Runtime semantics assumed

* NumPy < 1.23 (the code calls `np.alen`, removed in 1.23): storing an out-of-range Python integer in a
  `uint8`/`uint16`/`uint32` slot wraps modulo 2^n; `np.uint8 (+) python int` is computed in int64 (no wrap);
  `uint16 (+) uint16` wraps.
* Slices `a[i:j]` of arrays are views that share storage; slice bounds are clipped to the array;
  integer indexing out of range raises `IndexError`; `a[i:j] = v` raises `ValueError` unless the lengths agree
  (or `v` has length one / is a scalar).
* `S8`/`S3` fields drop trailing NULs when read and truncate/NUL-pad when written.
* `bytes.rstrip()` strips space, \t, \n, \r, \x0b, \x0c.
* `np.resize(a, n)` concatenates `ceil(n / len(a))` copies of `a` and returns a view of the first `n` bytes; only for `len(a) = 0` or
  `n = 0` the result has no base.
* `"text" % np.uint16(..)` (a format string without a conversion) does not raise: NumPy scalars pass `PyMapping_Check`, for
  which `%` skips the "not all arguments converted" test.

## Representation

* Bytes: `List UInt8`.  `UInt8.ofNat` is the wrapping store, `.toNat` the load.
* Exceptions: `Err` (`Verif/Model/Py.lean`).  `Err.isAtr` says whether the class derives from `AtrError`
  (only those are caught by `except errors.AtrError`).  `Err.hang` marks a Python loop that never ends.
* Functions that mutate the image and may raise half-way return *both* the result and the state at the time of
  the exception, so "a failing call changes nothing" is a real statement.
* Loops are structural recursion where the Python loop has a bound, and fuel recursion otherwise; a separate
  theorem shows that the fuel used is enough, i.e. that running out of fuel (`Err.hang`) happens exactly when the
  Python loop does not end.

## What is not modelled (global)

* Styles and comments *of disk images* (the style array is modelled for segments, C23-C29), logging, `__str__` (except of
  directory entries and Atari disks, C87), verbose names, `_xd` debugging output.
* Real file I/O: the command-line layer is modelled over an abstract file store.
* External decompressors (gzip, bz2, lzma) are parameters.
* `jsonpickle`, numpy memory addresses (`np.byte_bounds`) are replaced by explicit offsets.
* File names are byte strings (latin-1); a name with characters above 255 makes `.encode` raise before anything
  else happens.

## Layout of the project

* `Verif/Model`: the code, function by function.  `Py` (errors), `Utils` (sector lists, VTOC base class),
  `AtariHeader`, `AtariDos` (Atari DOS 2 / DOS 2.5 / MyDOS), `Dos33`, `Sparta`, `Cli` (command line over an abstract
  driver for one disk format), `Executables` (XEX, BSAVE), `Segments`, `Style`, `Cart`, `Parsers`, `Text`, `Delivery`,
  `Extract`, `Assemble`, `Detect` (all parser classes, the segments of disk images, `find_diskimage_from_data`), `Images` (every kind of
  image under the command line), `Args`, `Program` (`process` and `run`: all commands on a machine with named files).
* `Verif/Spec`: what the claims say, independent of the model's helpers.
* `Verif/Lemmas`: invariants and supporting lemmas.
* `Verif/Props`: the property theorems, each with an `example` on concrete data.  A theorem is named after its property;
  `_partial` marks what holds of a claim that is false or not fully proved, `_refuted` the proof that it is false.

## Per property

| id | model | proof |
|----|-------|-------|
| C01-C07, C09, C50-C52 | `AtariHeader`, `AtariDos`, `Dos33`: geometry, VTOC bitmap, directory codec, `write_file`, `delete_file`, `shred`, `get_metadata`, `find_file` | consistency invariant `Mounted` on the whole image (chains of live files valid, duplicate-free, disjoint, allocated; directory terminated), preserved by each operation; refinement to an abstract map by induction on the operation list |
| C08 | chain reader with explicit `sectors_seen` | measure: valid sectors not yet seen; fuel `max_sectors+1` suffices |
| C10-C14, C40, C53, C54 | `Dos33`: T/S lists, catalog chain, VTOC bitmap | invariant `Mounted33`, same structure as for Atari DOS; C13 is false (rollback restores nothing because the saved state is a view) |
| C15, C16, C45 | `AtariHeader` | arithmetic; C15 false for the first three sectors of 183936-byte images |
| C17, C18 | `Executables` | induction on the segment list / on remaining file length |
| C19, C20 | `get_bsave`, BSAVE parser | induction on the segment list; pointwise byte statement |
| C21, C22 | KBoot part of `Executables` | arithmetic; C22 is false (run address ignored) |
| C23, C24, C47 | `Segments`: views over one base array | case analysis on views, list lemmas |
| C25-C29, C43, C48 | `Style`, comments in `Segments` | induction on arrays; bit lemmas; C25 false for data style, C26 false for find_previous |
| C30 | interleave | division/modulo arithmetic, index-wise |
| C31-C33, C55 | `Cart`, `Magic` | table by kernel evaluation over the whole (finite) table; bits for power of two; the game signatures (`Spec/Magic.lean`, position and byte) decide the reported type exactly |
| C34, C35 | `Parsers` | decision logic; induction on the list |
| C36 | `Text` | induction on digits |
| C37, C38 | `Cli` | induction on the file list; C37 is false |
| C39 | Atari dirent codec | field arithmetic |
| C41 | `get_vtoc` | false: count bytes never change (negation for every write) |
| C42, C57 | `Sparta` | induction on the sector map; `Walk` for termination |
| C44, C56 | `Delivery` | injectivity of the sector order; the loader against the written sectors |
| C46 | MyDOS chains, DOS 3.3 catalogs and T/S lists | false; `Walk`: a walk that has not ended after as many steps as there are sectors never ends |
| C49 | Atari file reading | false for empty files |
| C58 | `AImg.open` | exact characterisation of the images that open |
| C59-C61 | `Extract`: host as a map of paths and a list of directories | induction on the selected entries; C60 and C61 false |
| C67 | `AtariDos` operations on any image that opens | frame argument: every store of an operation lies behind the boot area unless the bitmap offers a boot sector |
| C65, C66 | `Cart` | case analysis on what construction can give; table by kernel evaluation |
| C68-C70 | `Detect` | the parsers one after the other, each as an exact condition on header and boot bytes (`Spec/Detect`); frame argument C67 for histories; C70 false for the boot segments |
| C71 | `Detect` | every parser as an exact condition on the file, in the order of the table |
| C72 | `Dos33` | frame argument for any image (free, VTOC, linked sectors), then with the invariant of C10-C14 for histories |
| C73-C74 | `Detect`, `Dos33` | segments from the invariant; histories through detection as in C69; C74 false when `zipfile` finds an archive in the disk |
| C75-C76 | `Dos33`, `Detect` | own description of list sectors and pairs on the bytes of any image (`Spec/Dos33Read`), equal to the loop; the errors that `get_file_segments` does not catch characterised and carried through detection |
| C77 | `Dos33` | VTOC, catalog chain and entries described on the bytes of any image (`Spec/Dos33Open`); opening equals that description |
| C78 | `Sparta` | records of a directory described on the bytes of its sectors (`Spec/SpartaDir`); opening, listing and looking up equal that description |
| C79 | `Sparta`, `Images` | the sectors marked free in the bitmap (`Spec/SpartaShred`) against those filled by `vtoc -e` |
| C80 | `Images` | the kinds of images a command may change (`Image.Changes`), `Spec/Images` for what was opened; results on all other kinds |
| C81 | `Args` | arguments cut at the first one without a dash; `argparse` itself is trusted and not modelled |
| C82 | `Program` | a run maps files of the machine to files; `Command.Targets` (`Spec/Program`) says without running which file a run may change; the commands on an image file equal those of C80 |
| C83 | `Program` | `Selects`: the only template whose name contains the text; the image "." separately |
| C84 | `Program` | C80 histories carried to runs of the whole program by C82: other runs do not touch the image, runs on it do what `Run.asked` says |
| C85 | `Executables` (`xexbootHeader`, `kbBoot`) | the boot code run instruction by instruction on the 6502 of `Spec/Cpu6502`; invariant `Ready` (bytes read so far, buffer, sector number, bytes left), induction over the bytes of a segment and over the segments; init routines as a relation on memory (`InitReturns`: called as a subroutine with this memory, it returns, leaves that memory and keeps what the loader needs) |
| C86 | `Delivery` (`fstbtCode`) | the boot code run instruction by instruction on the 6502 with the drive of `Spec/Apple2`; invariant `AInv` (entries taken, sectors visited, head over the track, next page), induction over the address list and over the pages of an entry 0xe0+n; pages 0, 8, 0xc0, 0xd0-0xd2 and 0xe0-0xff refuted by running the code up to the first load (`Props/DeliveryPages`) |
| C87 | `Display` (`__str__` of the entries, `list_files`, `crc_files`, `str(image)` of Atari disks) | a reader of the printed lines (`Spec/Display`: numbers, columns, flags, written without the printing functions) gives back exactly the entries of the directory on disk; columns; the number of lines; which names spoil it; the first line after any history. `print` is taken to succeed (encodings of the terminal are out of scope) |
| C88 | `Display` (`crc32`) | `zlib.crc32` as a shift register; equal to polynomial division in `Spec/Crc` by induction on the bits; one step is linear and bijective, up to 32 bits go in as one word |
| C89 | `Labels` | labels are read back (`Spec/Labels`) and compared with counting through the sizes of the sectors (`locate`) |
| C90 | `Resize` | the contents after a resize are stated position by position (`grown`); segments inside are any `Nest` of C24 |
| C91 | `Detect` | what is shown for an entry is an inductive description (`Spec/SpartaShown`); `m.segments` equals front matter plus these, and fails otherwise |
| C92 | `Program` | reasons for failing are an inductive `Excuse` (`Spec/Outcome`), errors that end in a message a list; sound disks are those of C84 |
| C93 | `Dos33` | `Crowded33` counts the entries of `Spec/Dos33Open` by position; `VtocOnly` says that other sectors keep their bytes; nothing is assumed of the disk but that it opens |
| C94 | `Dos33` | `Packed33` gives every entry of the rewritten sectors by position in the image, in the terms of `Spec/Dos33Open`; nothing is assumed of the entries but that the disk opens with 560 sectors |
| C95 | `Executables` (`kbBoot`, `insertBytes`) | first part of the loader run on the 6502; the picture depends only on addresses that are read (`anticReads`), which are all in the boot sectors behind the length field; the picture itself by kernel evaluation |
| C96 | `Program`, `Assemble`, `Executables`, `Delivery` | the arguments by C36 and C62, the endings of names against `HasEnding` (letters of either case), the disk by C82, C21 and C44, what it does by C85 and C86 |
| C97 | `Dos33` | type letters against the table of `Spec/Display`; entries by C94; for text files the catalog after the write is a `Volume33` again (`Packed33.volume`) |
| C98 | `Session` (attribute values abstract) | states compared attribute by attribute; views by C47; the loop over the segments by induction |
| C99 | `SegLines` (`say` stands for the text of an exception; entries of a MAME archive with their names are a parameter) | the lines are read back from their ends; executables by induction over `XexBody`; disks from C70/C73/C91, cartridges from C31, archives from C54 |
| C100 | `Addresses` over the views of `Segments` | positions of the view (`Nest.pos`); negative indexes as Python counts them; false outside the segment |
| C101 | `UserData` (dictionaries as association lists in order of insertion) | comments as a map from positions of the file; sorted ranges by an invariant of the loop; false where named below |
| C102 | `Savers` | bytes at the positions of the view; BSAVE round trip (C20's `parseBsave_enc`); recognition by C71 |
| C103 | `Savers` over `Detect` | exceptions of detection that are not caught; whole classes of ATR headers for which there is one |
| C104 | `VtocText` | printed lines read back by a parser in `Spec/VtocText`; bitmap of the disk against the shown tracks |
| C105 | `Display`, `Program` (`list` with `-m`) | texts read back by a parser in `Spec/Metadata`; chains of the track/sector list |
| C106 | `AtariDos` (`write_file`) | sixteen-byte entries after the end of the directory, `Spec/AtariLeft`; lemmas in `Lemmas/AtariLeft` |
| C107 | `FirstLine` (`__str__` of the images), `Display` | the line is read back by a parser in `Spec/FirstLine`; what it should say is stated on the bytes of the file |
| C108 | `Dos33` | `Spec/Dos33Holes` says what DOS reads in terms of the pairs of the list; `Added33` (of `C94_write_succeeds`) gives the sectors, list, entry and bitmap after adding a file to any disk that opens |
| C109 | `AtariDos` | `Spec/Atari25` says which sectors DOS 2.5 has free and which entries are files for it; `C109_partial` is an induction over `Reach`, the limit counts the free pool; the witness is an enhanced density disk with one file on sector 800 |
| C110 | `Program` | one `add` of a list of files by induction over the list, generic in the driver (`addLoop_fitsG`: free sectors and directory slots go down by what each file takes); extract, create and add put together with C59, C82, C83 and C84 |
| C111 | `ObjFiles`: which pieces of an object file are at an address (`asObjAll`, `objRead`), used by `Program` | the pieces by format from the detection theorems (C34, C68, C69) and the parsers' round trips; a fold over the object files; false for disks |
| C112 | `MydosDirent` as the bit 2 of the entry (`processRaw`); the chain as an inductive relation in `Spec/MyDos` | induction on the chain with the bound of C46; one lemma on the effect of an operation on entries and on sectors in use, then induction on the history; false for subdirectories and for sectors above 1279 |
| C113 | how Atari DOS looks up a name (`DosFinds` in `Spec/AtariNames`), on the raw entries | the directory after an operation is the encoded entries and an entry with flag 0; names that were read do not end with a blank, so their encoding does not either; false for shorter names |
| C114 | Spec/Dos33Lists.lean says how DOS 3.3 finds sector `n` of a file: along the track/sector lists to the one whose bytes 5-6 put `n` among its 122 sectors. | Props/Dos33Lists.lean. False for files of more than 31232 bytes (`C114_refuted`, for every such file); `C114_partial`: the first 122 sectors are found and hold the data; `C114_kept`: what is found for a file on the disk is the same after every operation, failed or not. |
| C115 | Spec/Dos33Names.lean says how DOS 3.3 finds a file: the first entry before the end of the catalog whose 30 bytes are the name. | Props/Dos33Names.lean. The catalog after an operation as in C94 with the bytes of the names kept (`delete_named`, `write_named`). False for names of 30 characters and for characters without the high bit (`C115_refuted_remove`, `C115_refuted_add`); with other names `C115_removed_partial`, `C115_added_partial`, and the condition is kept (`C115_plain_added`, `C115_plain_removed`) |
| C116 | Spec/BRun.lean says what BRUN does: entry by name, type B, address and length words, bytes through the track/sector lists. | Props/BRun.lean. The entry of the new file by C115, its sectors by C114, the content of the file by C19. False for files of more than 31232 bytes (`C116_refuted_long`) and for the memory in gaps (`C116_refuted_gap`); the rest is `C116_partial`, for the command `C116_assemble` |
| C117 | Spec/BLoad.lean says what the binary load of Atari DOS 2 does: first entry with the name, sectors with the number of the file, markers and segments, the vectors 0x2e2 and 0x2e0. The init routines are any relation on memories. | Props/BLoad.lean. The entry as in C113 (`bload_file`, `other_name`), its sectors by the lemmas of C01, the segments by induction (`bin_pieces`). False for short extensions (`C117_refuted_name`); otherwise `C117_partial`, `C117_plain_partial`, for the command `C117_assemble_partial` |
| C118 | Spec/Apple2 (`softSwitch`, `ShowsHires`), Spec/Delivery (`pictureAt`) / Model/Delivery | the run of C86 cut after each segment (`list_prefix`): memory, and the display switches kept in cells behind the address space; `displayed_last` for the order of the pictures |
| C119 | Spec/System (`SystemDisk`) / Model/AtariDos | the chains of consecutive sectors are read by induction on the rest of the file (`sys_readLoop`); the disk is `Consistent`, so that C05, C67, C112 and C113 apply |
| C120 | Spec/Autobrun (`Autobrun33`, `DosHas33`) / Model/Assemble, Dos33 | the disk is `Consistent33` and `PlainDisk33`; an invariant (`HelloIn`) says that `HELLO` is listed and found in sector 49 and that sectors 0 to 49 are those of the template; it is kept by deleting and writing other files (C72, C115) and by shredding, so by every history of commands; then C116 applies |
| C121 | Spec/System, Spec/BLoad / Model/Assemble, Cli, AtariDos | `DevelopedA` is a history of `assemble`, `add`, `remove` and `shred` commands; each command leaves the disk alone or deletes and writes names, so the volume stays in `ReachBut` (C112, C119) and represents a file map with names from a fixed supply; then C117 applies to `AUTORUN.SYS`, and C113 to the other files |
| C122 | Model/CartSizes / Props/CartSizes (`FitsSize`) | the dictionary of lists as an association list; for any table the groups are the filters by size (induction on the rows), and the loops over the sorted sizes are a stable sort (so the list of parsers in Model/Detect, which uses one, is that of the code); `check_size` characterised for every size |
| C123 | Spec/Verbose (`readVerbose`) / Model/Verbose | descriptions are read back from the end, as the lines of C99, by a reader that tries the forms one after the other; a segment is its view of the bytes, so the position said for reordered bytes is the first of the view; for files of Atari and SpartaDOS disks the view is the one made from the chain of sectors or the sector map; `C123_unreadable` compares with `getFile`: its exceptions are described or passed on |
| C124 | Spec/Verbose, Spec/BRun / Model/Verbose (`DDirent.verboseSeg`) | the description is read back and compared with what `BRUN` of Spec/BRun does; the range shown is inclusive of the header of four bytes and of the rest of the last sector, so only the address of each byte is right |
| C125 | Spec/AsmLines (`readAsmLine`) / Model/AsmLines | the lines of `assemble -v` are read back from the end; numbers said twice must agree; the messages while files are read are left out |
| C126 | Spec/Dos33Open (`secByte33`), Spec/Dos33 (`dataSecs33`) / Model/Dos33, Model/Cli | any volume that opens; the byte is read from the image; `--force` is left out of the command part because the deletion in between may rewrite sector 272 if the catalog leads there |
| C127 | Model/Dos33 (`buildTsList`, `linkSectors`, `tsMap`, `writeFile`, `getFile`) | lists alone (`C127_partial`): any image that holds the linked list sectors, exact condition for the round trip; `C127_write_partial`: a whole `write_file` on any disk that opens and states 1 to 122 pairs, then reading by the new entry; `C127_refuted`: a disk where it goes wrong for every file of two sectors |
| C128 | Model/Dos33 (`deleteFile`, `writeFile`) | lists of 1 to 122 pairs as `write_file` makes them, on any disk that opens; free sectors before and after by `IsFree33`; `C128_refuted` is a whole history of adding and removing |
| C62-C64 | `Assemble`: argument strings as character lists, files as a partial map; the command as an `add` of the built file | string splitting lemmas; composition of the XEX/BSAVE round trips with the volume refinement; each false in part |

## Where the code disagrees with what one would expect

Proved in Lean (theorem names in `MANIFEST.json` under the property):

1. C13: the rollback of a failing write restores nothing (it saves views, not copies); DOS 3.3 loses sectors.
2. C15: `AtrHeader.get_pos` multiplies the sector number by the number of initial sectors, so boot sectors of
   183936-byte images overlap.
3. C50: writing an empty file to an Atari image leaves an image that no longer opens; on DOS 3.3 it raises `IndexError`.
4. C51: with 64 files on a single density image the write reports success and destroys sector 369; on a double density
   image it reports success and lists a file that can neither be read nor deleted.
5. C41: the free sector count in the VTOC is never updated.
6. C52: deleting a name a second time succeeds, because deleted entries are matched too.
7. C39/C40: flag bit 0x08 is dropped, names are NUL padded, the DOS 3.3 lock bit is lost, only 29 characters are stored.
8. C46/C57: endless loops on MyDOS chains, DOS 3.3 T/S lists and catalogs, SpartaDOS maps.
9. C45: an ATR header with sector size 0 raises `ZeroDivisionError`.
10. C17: an XEX segment with origin 0xffff is lost; C21/C22: KBoot images from 65536 bytes on are rejected and the run
    address is ignored; C19/C20: BSAVE lengths wrap.
11. C25: data style is never cleared; C26: `find_previous` skips a run.
12. C37: `add` saves nothing when the last file is skipped; C09: shred raises `IndexError` above 1279 sectors.
13. C49: a zero-byte Atari file extracts as the whole image.  C42: likewise on SpartaDOS, where also files that fill their
    map raise `IndexError` and holes cut a file off.
14. C31-C35: `add_cart_header` gives a file that does not open, unknown cartridge types raise, `zlib.error` escapes,
    empty MAME archives raise `ValueError`, `guess_detail` raises `IndexError`, a strict check turns
    `UnsupportedDiskImage` into a rejection.
15. C56: Standard Delivery disks zero the rest of a page shared by two segments and shift data at 0x2001 and 0x4001.
16. C58: `calc_vtoc_code` runs while the sector count is still 0, so MyDOS volumes with more than one VTOC sector never open.
17. C59: with `--lower`, files that differ in case overwrite or hide one another.  C60: `extract -d` writes a file whose name
    starts with a slash to that absolute path.  C61: a dry run makes the output directory.
18. C62: subset bounds that are not decimal are ignored and the whole file is loaded; a name with brackets is cut.  C63: segments
    at address 0 and initialisation addresses vanish on reassembly, truncated files and run addresses that are no numbers
    are accepted silently.  C64: a BSAVE file written to DOS 3.3 comes back padded and the BSAVE parser refuses it.
19. C66: the row of cartridge type 59 has an extra 0, so its 4 KB appear at address 0.
20. C67: nothing protects the boot sectors except the bitmap of the image: if it offers sector 1, `shred` erases it.
21. C68: the KBoot parser comes first and looks at three bytes only, so an Atari DOS disk whose boot sector has its size at bytes
    9-11 is taken for a KBoot disk and its files are not shown.
22. C70: `get_boot_segments` (ataridos.py:592-608) of Atari DOS images reads the VTOC sector instead of sector 1: with the usual VTOC code no boot
    sectors are shown, with code 0 their number is the low byte of the sector count.
23. C71: an empty file and a file of one byte are taken for Atari executables.
24. C74: the MAME parser is tried before the DOS 3.3 parser, and `zipfile` searches for an archive from the end of the file, so a
    DOS 3.3 disk with a zip archive near its end (all member sizes divisible by 16) is taken for a set of ROMs.  What
    `zipfile` finds is a parameter of the model; the theorem says what follows from it.
25. C75, C76: a DOS 3.3 file without data (one sector, an empty track/sector list, as DOS makes for a file that is opened and closed)
    cannot be read: `read_sector` asks for sector -1 and `get_pos` fails with `NameError`, because diskimages.py does not import
    `ByteNotInFile166`.  `get_file_segments` only catches `InvalidFile`, so detection fails and no command works on such a disk.
    Example with a locked text file in `Props/Dos33Crash`.  A file all of whose data sectors are beyond the end of the image is
    shown as the whole image.
26. C77: `get_directory` stops at an entry with flag byte 0 (dos33.py:471), but 0 is the type of an unlocked text file: such a file and
    everything behind it in its catalog sector is not listed (`C77_text_hides`).
27. C78: `SpartaDosDiskImage.get_directory` (spartados.py:176-178) lists every record, also those of deleted files and of subdirectories
    (`C78_directory`), and a deleted record is found instead of a later file of the same name (example after `C78_find`).
28. C79: SpartaDOS images use the VTOC class of Atari DOS (ataridos.py:469-471), which skips the first ten bytes of the bitmap and drops
    all after the first 100: `vtoc -e` fills sector `s` if sector `s + 80` is free (`C79_file`), whether `s` is in use or not, and saves the
    result (`C79_wrong_sectors`: a file is destroyed).  If sector 81 is free the boot record is filled and the command fails without saving
    (`C79_boot_record`); with 1280 sectors or more it always fails (`C79_large`).
29. C80: `add` to a KBoot, SpartaDOS, boot, unidentified, cartridge, ROM, MAME, XEX or BSAVE image ends in a `TypeError`, `IndexError` or
    `AttributeError` instead of a message (`C80_add`); `vtoc -e` likewise (`C80_clear`); `delete` says that the file was not found on an image
    that can have no files (`C80_remove`).  The image file is not harmed.  A compressed image file is replaced by an uncompressed one under
    the same name by any command that saves (`C80_packed`).
30. C81: `atrcopy disk.atr --help` ends in an `IndexError`: `len(non_dash) > 0 and non_dash[1]` (`__init__.py:568`) is evaluated with one
    name (`C81_refuted_help`; `C81_fails` says exactly when).
31. C82: `boot` overwrites an existing image without `-f` and even with `--dry-run` (`C82_boot`, `C82_refuted_dry_run`).  `delete -f` is the
    same as `delete` (`C82_delete`).  `extract --dry-run -d dir` makes the directory.
32. C83: templates named in the README ("dos2ed", "dos2sd", "dos33") are not accepted, because the names of several templates contain
    them (`C83_ambiguous`).  On the image "." `delete` reports success and removes nothing (`C83_local_delete`); `list`, `crc`, `segments`,
    `vtoc`, and `add` without `-t` end in an `AttributeError` (`C83_local_fails`).
33. C87: a name with a newline byte is printed as it is, so `list` shows more lines than files (`C87_newline`,
    `C87_newline_lines`); the line of an Atari entry never shows that it is a directory (`C87_directory_hidden`).
34. C89: labels in VTOC and directory of double density disks are wrong but for the first 128 bytes (`C89_refuted_system`): the segments are
    made with three boot sectors of 128 bytes although they begin at sector 360 or 361 (ataridos.py:613, 625, 639).
35. C90: a container can be resized only once, since `np.resize` returns a view and `is_base` is false afterwards (`C90_once`); after shrinking
    no segment can be moved, and the error meant, `errors.NotImplementedError`, does not exist (`C90_shrink`); a slice can be moved a second
    time only if the new size is a multiple of the old (`C90_twice`).

36. C91: a SpartaDOS disk with an unused entry without map sector makes detection fail with `TypeError` (`C91_refuted_unused`), one with a
    completely used map sector with `IndexError` (`C91_refuted_full`), one with a circle of map sectors never ends (`C91_refuted_circle`); an
    entry in use with a bad map sector hides the whole disk (`C91_refuted_damaged`).  A disk whose root directory has an empty
    map is read as a disk without files and then fails with `AttributeError` when its segments are made (`C91_refuted_root`).  Only sector 1 of the boot code is shown (`C91_no_boot`).
    For a bitmap of two or more sectors that starts in sector 1 of a file without a header the bytes from sector 2 on are shown, because
    `get_contiguous_sectors` takes position 0 for "none yet" (`C91_refuted_bitmap`).  A bitmap that starts in one of the three short sectors of a double density disk is
    shown from byte 3(s-1) of the disk instead of 128(s-1), since `get_pos` multiplies by the number of short sectors
    (`C91_refuted_short`, `C91_refuted_short_bare`, `C91_short_wrong`).
37. C92: only `UnsupportedContainer`, `UnsupportedDiskImage` and `IOError` are caught (`__init__.py:611`); an executable is recognised, but
    `add`, `delete`, `vtoc`, `assemble` and `extract NAME` on it end with an `AttributeError` (`C92_refuted_executables`), `vtoc` on a boot
    disk with an `IndexError` (`C92_refuted_vtoc`).
38. C93: `set_sector_numbers` (dos33.py:140-149) needs a link to a next sector even for the last sector it writes, so the last catalog
    sector can never be rewritten.  A disk with a full catalog (99 to 105 files on a standard disk, which DOS itself allows) cannot be
    changed at all: not even deleting works, and in memory the sectors of the file are free afterwards (`C93_refuted_intact`).
39. C94: the catalog is rewritten from its start, all entries packed together, and the sectors behind are left alone (dos33.py:126-149,
    utils.py:249-291).  On a disk whose catalog sectors are not full the old entries behind stay: a deleted file can still be listed,
    with its sectors free (`C94_refuted_gone`), and others are listed twice.  The entries are written without their lock bit, and an
    unlocked text file has flag byte 0, which ends the listing of its sector: deleting `A` takes a locked text file `T` off the disk
    (`C94_refuted_others`).
40. C48: `OrderWrapper` has no `|=`, so comparing a reordered segment binds `style` to a new array and marks nothing in the base array
    (`C48_reordered`); comparing two reordered segments raises `TypeError`.
41. C97: a file added with `--filetype T` gets the type byte 0, at which `get_directory` stops (dos33.py:471): it takes its sectors but is not
    listed, cannot be found, and cannot be deleted (`C97_text`, `C97_text_space`).

42. C98: a parser of raw data has no image type, so a saved one cannot be restored (`TypeError`, `C98_not_restored`).  Reconstructing deletes
    the bounds it needs, so it works once only (`C98_twice`, `C98_parser_twice`).  Over shorter raw data contiguous segments silently shrink
    (`C98_other_length`).
43. C09: clearing a DOS 3.3 disk whose VTOC claims more than 1280 sectors runs over the end of the sector map (`C09_dos33_clear_large`).
44. C99: `segments` shows the last byte of an executable one position too high and a header that is cut off at position 0 (`C99_refuted_tail`); boot sectors, banks and DOS 3.3
    files at position 0 (`C99_refuted_boot`); and the executable of a KBoot disk with its position as its address (`C99_refuted_kboot`).  The boot sectors of a DOS disk are
    shown at the address found in the VTOC (`C99_atari`, `bootLines`; the same mistake as in C70).  The entries of a MAME archive are shown at their positions in the unpacked
    data (`C99_refuted_mame`).
45. C100: an address a little below a reordered segment gives a byte near its end; other segments answer any address, below their start even with a negative position
    (`C100_refuted_outside`); negative positions are counted from the end of the file (`C100_refuted_negative`); parallel data is shifted if it is asked of a part of a file,
    and never given for a reordered segment (`AttributeError`, `C100_refuted_parallel`).
46. C101: comments are accepted at indexes outside a segment (`C101_refuted_outside`); a comment shown twice is listed once (`C101_refuted_twice`); the comments of reordered
    segments cannot be iterated, so not copied either (`IndexError`, `C101_iter`); what `get_comments_at_indexes` gives are no indexes of the segment, though
    `set_comments_at_indexes` takes them as such (`C101_refuted_where`); `fixup_comments` removes all marks and stops with `IndexError` if one comment lies beyond the end
    (`C101_refuted_fixup`); a user range of an old session inside a data range becomes another user range (`C101_refuted_old`).
47. C102: a segment of 65536 bytes or more is saved as a binary that nothing can read (`C102_refuted_long`); one at 0xffff is taken for an executable
    (`C102_refuted_executable`).
48. C103: an ATR header with sector size 0 makes detection stop with `ZeroDivisionError` (`C103_refuted_zero`), one with 1 to 32 with `ValueError` or `IndexError`
    (`C103_refuted_small`).

49. C104: the number printed by `vtoc` counts bits that belong to no shown sector: the one of sector 0 on Atari disks (`C104_refuted_zero`), those of tracks 35 to 49 on
    DOS 3.3 disks (`C104_refuted_tracks`).  On SpartaDOS disks the sectors are shown with the bits of others (`C104_refuted_sparta`).

50. C105: below a DOS 3.3 file `list -m` says `next=0` for every sector of the track/sector list, because `WriteableSector.__str__` shows a field that is never set
    (`C105_refuted_next`).
51. C106: `Directory.calc_sectors` rewrites only as many directory sectors as the entries need.  When the new entry fills its sector and the next sector begins with a used entry, the entries there become part of the directory again; if one of them names a sector that does not exist the disk cannot be opened any more.  For this reason `Consistent` asks that no directory sector after the end of the directory begins with a used entry; nothing else is asked of what follows the end.
52. C85: the boot code of KBoot disks stores a byte before it looks at the end address.  An empty segment therefore puts it one byte off and the segments behind it are not loaded (`C85_refuted_empty`).  Behind a segment that reaches 0xffff the pointer is 0 again, which is not above the end address, so the rest of the executable goes to address 0 and on (`C85_refuted_top`).
53. C107: the line about an image says `%d banks` for cartridges but prints the size of a bank in kilobytes (`C107_cart_refuted`); it is right by chance for five types if the main bank is counted.  For SpartaDOS disks it counts the deleted files (`C107_sparta_refuted`), for DOS 3.3 disks it gives the sectors of the VTOC beside the size of the file (`C107_dos33_refuted`), and ROM images of less than a kilobyte are `0k` (`C107_rom_refuted`).  The lines of XFD and DOS 3.3 disks lack the closing parenthesis, and with `-v` the type is printed between a parenthesis and a brace.
54. C86: create_boot_image accepts segments in the pages its boot code needs. A first segment in page 8 (a usual place for programs, e.g. 0x803) replaces the loader while it runs: the ROM goes on at 0x801 in the bytes of the segment, which is a `BRK` for origins from 0x802 on, and nothing else is loaded (`C86_page8_refuted`, `C86_page8_stops_refuted`). A segment in page 0 is never loaded (`C86_page0_refuted`); a first segment in page 0xc0 ends the list, so no page at all is loaded (`C86_io_page_refuted`). Pages 0xd0 to 0xd2 are taken for commands; the sector of such a page is then read to the page of the next segment (`C86_card_page_refuted`). A segment in page 0xe0 + n is read to the page behind the segment before it, and the n - 1 pages after that are cleared (`C86_burst_page_refuted`).

55. C108: `get_track_sector_list` takes the first `num_sectors - len(tslist)` pairs of the list, but a hole (a pair of zeros) is a pair without a sector. So a file with holes loses one sector at its end for every hole; a hole is read as sector 0, the boot sector. `delete_file` marks sector 0 as free and leaves the last sectors allocated; as the lowest free sector is taken first, the next file added (or `shred`) overwrites the boot sector.
56. C109: only the 720 bits of sector 360 are used. On an enhanced density disk the free sectors above 719 are counted in what `list` says, but no file is ever put there; removing a file that has sectors there does not give them back; and a file with the flag 3, by which DOS 2.5 marks such files, is not listed and loses its directory entry to the next file that is added. (The comment for the bits of 720-1023 is also put at byte 0x44 of the sector instead of 0x54, ataridos.py:628.)
57. C111: an object file that is a disk does not give the files on it. From Atari DOS disks nothing is taken (the segments of files have no origin of their own). Of a KBoot disk, also one made by `boot`, the whole executable file is taken as data for address 400, its position in the image. A DOS 3.3 disk raises `TypeError` if it has a binary file at an address above 4, else its boot sectors are taken. A run address of one byte in an executable raises `ValueError`.
58. C112: the directory entry of a MyDOS subdirectory counts as unused; the next added file takes it, and the sectors of the subdirectory stay in use with nothing referring to them. A file with a sector above 1279 is listed and read, but removing it raises `IndexError`.
59. C113: adding or removing one file rewrites the names of all others with zeros in place of the blanks at the end, so that Atari DOS finds only those with eight and three characters. The program itself does not notice. A new file with an extension of one or two characters is not found from the start.
60. C114: Files of more than 31232 bytes added to a DOS 3.3 volume are unreadable for DOS 3.3 from sector 122 on.
    `Dos33TSSector.set_tslist` (dos33.py:25-33) never writes bytes 5-6 of a list, the number of its first sector in the file,
    so every list claims to begin with sector 0. The program ignores these bytes when it reads (`C10`), so it does not
    notice.
61. C115: A DOS 3.3 file whose name has 30 characters is lost for DOS 3.3 as soon as any file is added to or removed from the
    volume. `Dos33Dirent.parse_raw_dirent` reads 29 of the 30 characters and `encode_dirent` pads them with a blank. The
    same holds for names with characters without the high bit (inverse and flashing), which are dropped.
62. C116: A BSAVE file assembled from segments with gaps overwrites the gaps with zeros when it is run. One with more than 31232
    bytes is stored without an error, but DOS 3.3 cannot run it (the lists are the ones of finding 60).
63. C117: A program assembled to a name with an extension of one or two characters (such as `PROG.X`) is stored, but Atari DOS
    cannot load it, because the extension is padded with zeros and not with blanks (finding of C113).
64. `create_boot_image` (standard_delivery.py:149-155) adds no command for the first picture on graphics page 1, because the list starts with one.
    When pictures on page 2 come before it, page 2 stays on the screen although the last picture was loaded to page 1 (C118_refuted).
65. The templates with DOS on them (`dos2sd+2.0s.atr`, `dos2ed+2.5.atr`) can be worked on and start the computer afterwards, but after the first
    `add` or `remove` DOS does not find `DUP.SYS`, `AUTORUN.SYS`, `RAMDISK.COM` and so on: `encode_dirent` (ataridos.py:155-164) has replaced the
    blanks in their names by zeros (C119_refuted_add, C119_refuted_remove, after C113).  `SystemDisk` is stated for any list of files; that the bytes
    of these two templates have this form (and those of `dos2ed.atr` and `dos2sd.atr`, with no files) was checked with a script that
    compares the entries, the bitmap and the last three bytes of each sector, outside Lean.
66. The workflow of the README for `dos33autobrun` works for programs of up to 31232 bytes: DOS and `HELLO` survive any number of `assemble`,
    `add`, `remove` and `shred` commands, and `BRUN AUTOBRUN` starts the last program (C120_kept, C120_runs_partial).  The example in the README has 20218 bytes.  A longer
    program, as two hi-res pictures and some code would be with the gap between them filled, is stored without a message and cannot be loaded
    (C120_refuted_long; the reason is finding C114).  `Autobrun33` fixes the VTOC, the catalog and the list of `HELLO`; that the template has
    these bytes was checked with a script outside Lean.
67. A program for `AUTORUN.SYS` on the templates with Atari DOS is loaded and started by DOS, after any number of commands, and
    `DOS.SYS` stays where the boot sectors expect it (C121_kept, C121_runs_partial).  But the first command that saves anything makes DOS
    lose `DUP.SYS`, its menu, because all entries are written again with zero bytes behind the names (C121_refuted_menu; the reason is the
    finding on C113).  `AUTORUN.SYS` is found only since the extension has three characters and the entry is the last one written: when
    another program is assembled after it, DOS does not find it either (C121_refuted_order).

68. `A8CartHeader.check_size` compares the size with the number of the type instead of its size (`t[0]` for `t[2]`): of all types only
    type 16 (and the unknown type 0) is ever proposed for files of its own size, and the answer is right exactly for sizes that are no
    number of kilobytes, less than a kilobyte, or above 67 KB and of no type (C122_refuted, C122_right_iff).  Nothing in the package uses the answer.
    The groups made by `get_known_carts`, which the menus use, are right (C122_groups, C122_group_opens).

69. `verbose_info` of a reordered segment without bytes raises `IndexError`; all other descriptions exist and can be read back (C123_fails_iff,
    C123_said).  `create_subset` and `get_indexed` make such segments from an empty list.  `EmptySegment` ignores its verbose name.

70. The address range in the description of a DOS 3.3 program begins four addresses before the program and ends with its last sector: a
    program of 3 bytes at $2000 is shown as $1FFC-$20FC.  The addresses of its bytes are right (C124_partial).

71. The number of pairs of a track/sector list is taken from the VTOC without a check (dos33.py:446-458) and is the step of a `range` when a
    file is written (dos33.py:272).  A volume that states 0 opens and lists its files, but takes no file: step 0 is a `ValueError`, which nothing catches
    (`C126_writes`, `C126_add`).  One that states more than 122 takes no file of more than 122 sectors (`IndexError`).  Reading always
    looks at 122 pairs (dos33.py:35-43), so with a smaller number a file that needs two lists is read with sector 0 of the disk in place of one of its
    sectors (`C127_partial`, `C127_write_partial`, `C127_refuted`).

72. The date and time of a SpartaDOS file without bytes are passed as the error of its segment (spartados.py:244), so its long description says
    `NAME (empty file)  error='1/2/3 4:5:6'` (`C123_sparta_empty`).

73. On a disk whose VTOC states fewer than 122 pairs, removing a file that needed two lists marks the boot sector as free, because the
    empty pairs at the end of the first list are taken for sectors of the file (dos33.py:296-320).  At least one sector of the file is not given back,
    and the next file is written over the boot sector (`C128_delete_partial`, `C128_refuted`).

Seen while reading, not proved:

* `user_data` is not serialised.
* `StandardDeliveryHeader.__str__` has more values than places in its format and would raise `TypeError`.

## Mutation tests

`seeded/LOG.jsonl` has one line per wrong program that was tried: single edits of model definitions (changed constants,
comparisons, dropped updates, swapped arguments), each built against all theorems in a scratch copy.  `theorems_failed` are
the declarations that no longer checked.  For most edits that nothing noticed, the line says whether the edit is harmless or
which theorem was added or tightened.

33 lines are marked `not yet triaged`: no theorem noticed the edit when it was tried, and it was not settled whether the edit
is harmless.  About a third change only the class of an exception.  The others change behaviour of the model that may not be
covered by any theorem, among them `CErr.reported`, `bootMaker`, `crcLoop`, `Image.isDisk`, `Command.onImage`, `exeKind`,
`lowerByte`, `isPySpace` and `spartaBootSegs`.  Theorems added later may notice some of them (the later line for `showCodes`
with the same edit is noticed by `showCodes_picture`), but they were not run again.
