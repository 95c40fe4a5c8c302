# Formal model of simmons/cbm in Lean 4

## Layout

* `properties.jsonl` – the English properties (C01 …).
* `lean/Verif/Model/*.lean` – the model: one Lean definition per Rust function,
  each with a comment citing file and lines in `/repo`.
* `lean/Verif/Spec/*.lean` – small independent specifications used to state
  the properties (abstract file store, "is a chain", "is a consistent disk", …).
* `lean/Verif/Lemmas/*.lean` – helper lemmas.
* `lean/Verif/Props/*.lean` – the property theorems, each with a non-vacuity
  example next to it.
* `MANIFEST.json` – property → theorem names and status.
* `seeded/LOG.jsonl` – mutation experiments.

## Modelling decisions

* A byte is `UInt8`; a sector and a whole image are `List UInt8`; the image
  bytes are kept explicitly, so sector access is byte slicing at an offset
  computed from the geometry tables exactly as in `block.rs`.
* Result of an operation: `ok a`, `err e` with `e : DiskError` (the 25 variants
  of error.rs) or `panic` (index out of range, failed assert, unwrap on None,
  arithmetic overflow as in a debug build, length mismatch in
  `copy_from_slice`) or `diverge` (an unbounded loop that provably never ends).
* Every mutating operation is a state transformer that returns the new state
  also on the error paths, so partial effects of failed operations are visible.
* Rust loops become structural recursion on a list or on fuel.  Where fuel is
  used the bound is one that provably suffices (a theorem says so), or running
  out of it provably means the Rust loop does not terminate (`diverge`).
* `Rc<RefCell<..>>` sharing: the block device is a single component of the
  state.  The BAM lives in a cell; handles keep a reference to a cell, and
  `set_bam` either replaces the content of the live cell or invalidates it and
  detaches it.  `RefCell` dynamic borrow failures are not modelled: no code
  path borrows the same cell mutably twice (checked by reading).
* Numbers that are `u8`/`usize` in Rust and cannot overflow are `Nat`; the
  places where overflow is conceivable (`u8` sector arithmetic of the
  allocator, `u16` block counter, `u64` shift) check for it and yield `panic`.

## Trusted base

* Lean 4.33.0's kernel, and the axioms `propext`, `Classical.choice`,
  `Quot.sound` only.  No axioms of our own, no `sorry`, no `native_decide`, no
  `bv_decide`.
* The correspondence between the Rust source and the model (by reading; each
  definition carries its citation).
* External behaviour assumed: `memmap` makes the image bytes readable and
  writable as a byte slice and `flush` does not change them; `std::io::Write::
  write_all` repeatedly calls `write`; `std::io::copy` reads with non-empty
  buffers until a read delivers nothing; `OpenOptions`, `File::set_len`,
  `Path::file_name` and `Path::extension` behave as documented for Unix, and
  `memmap` refuses to map an empty file, and two maps of one file show the same
  bytes; `HashSet`/`HashMap` behave as finite
  sets/maps (iteration order unspecified).

### Not modelled

* The host's file system beyond a map from paths to contents (`Model/Host.lean`:
  no links, no permissions, no lack of room, no other process), command-line
  parsing of `cdisk`, `Debug` output (except where `Display` prints it).  What
  the library and `cdisk` print is in `Model/Display.lean`; the writer that takes
  the text is assumed never to fail.

## Per-property plan

| Id | Model | Proof |
|----|-------|-------|
| C01 | geometry tables, `get_offset` | offset injectivity: complete table check (`decide` on ≤80 tracks) + arithmetic on sectors |
| C02, C03 | image slice/splice, `sector`, `sector_mut`, `write_sector` | list splice algebra |
| C04 | all operations | each operation preserves the bytes of a read-only device; induction over the operation list |
| C05 | `find_by_size`, `open_*` | table + arithmetic |
| C06 | `BamEntry`, `Bam.allocate/free` | bit-level lemmas on `BitVec 64`, induction over the op list |
| C07 | `BamWriter.write`, `Bam.read` | fold over tracks with disjoint byte ranges |
| C08–C11 | `format.rs` allocator | loop invariants by fuel induction |
| C12 | `blocks_free`, `total_data_blocks` | sum = count; the total is what a disk without files has |
| C13, C14 | `write_format`, `initialize`, header | symbolic execution over sector laws |
| C15, C16 | `ChainIterator` | induction, pigeonhole on visited set |
| C17 | `ChainReader.read` | refinement: reader state ↔ remaining bytes |
| C18–C20 | `ChainWriter` | writer invariant; refinement to byte append |
| C21 | trace of sector writes | invariant at each prefix of the trace |
| C22–C24 | directory.rs, petscii.rs | list lemmas, complete 256-row tables |
| C25–C31 | Disk operations | the disk invariant `Inv` |
| C32 | `validate` | set reasoning |
| C33, C34, C36 | operation histories | simulation with abstract store |
| C35 | multi-writer histories | invariant with open writers |
| C37, C43–C46, C51–C56 | as above | the claim is false of the code: the negation is proved with a witness, and the part that holds is proved as `_partial` |
| C38 | BAM cells | case analysis |
| C39 | `LocationIterator` | loop invariant |
| C40 | petscii table | complete table + induction on strings |
| C41 | positioned read/write | sector laws |
| C42 | `RelativeFile` | arithmetic + list slicing |
| C47 | type tables | complete 256-row tables |
| C48, C49 | sprite, hexdump | injectivity by inversion |
| C50 | error conversion | cases |
| C57 | `FillReader` | induction over read sizes |
| C58, C59 | formatting, error table | writes of `write_format` and of all calls stay in the sector area |
| C60 | `next_free_directory_entry` | false of the code: panic proved for the bad directories, its absence for all others |
| C61 | trace of sector writes | every prefix of the trace holds the old or the new volume |
| C62 | `cmdCreate`, `cmdFormat` | C57 + C05; reachability of the empty store from any image |
| C63 | the commands, each opening the image from its bytes | simulation: a saved state is held by its image, one case per command, induction over the sequence; false of the code on a full disk whose directory grows (refutation beside the partial theorems) |
| C64 | `cmdAppend` on a read-only image | false of the code: no write leaves the writer clean, so the final flush fails |
| C65 | `File.delete` on the four kinds | chains freed one after the other from an image that changes in the BAM area only; listing as a function of the slots |
| C66 | `File.reader`, `File.writer` | the kind follows from the slot; C17 for the content |
| C67 | `DirectoryEntry.text`, `Disk.text`, `cmdDirText` | separators cannot occur in the fields; `Says` calculus for printing actions |
| C68 | `ValidationError.text`, `printValidation`, `cmdValidateText` | the kinds differ in their first characters, quoting is injective; lines cannot contain a newline |
| C69 | `Bam.print`, `Bam.trackText`, `cmdBamShow` | every opened image has a BAM entry for each track of the table, so that printing cannot panic; the line is read back column by column |
| C70 | `Device.dump`, `File.dump`, `cmdDump` | blocks take 18 lines each, so the lines fix the shape and then every block (C49); records end at a line that starts with R |
| C71 | `File.details`, `GEOSFile.details`, `printEntry`, `cmdDirText` | one case per kind of file against `Details`; the entry that is described is the first with the same name |
| C72 | `GEOSInfo.text`, `sideBySide` | the fields hold no newline after escaping; escaping and the drawing of the icon (C48) are injective |
| C73 | `FileType.fromString`, `writeType` | a character whose upper case is a given letter is that letter, its lower case or the long s |
| C74 | `cmdGeosread` (`Model/Export.lean`), `GEOSReader.copyOut` | a read that fills its buffer leaves the reader in front of a segment it has already delivered; induction on the reads |
| C75 | `create_file` with type REL, then `open_file` | false of the code: the new entry parses as a relative file with side sector 0/0; for the other types from the simulation |
| C76 | `Bam.nextFreeBlock` and the searches behind it | the order of tracks is compared with the specification over the whole table of types and tracks; the circular scan finds the first set bit, by induction |
| C77 | `create_file`, `ChainWriter` writes, the chains they leave | false of the code: both ask for a block without naming the previous one; the blocks actually taken come from C76 and the write loop, by induction over the blocks added |
| C78 | opening, the read side of `Disk` and `File`, `GEOSReader`, validation, on images with any bytes; histories from `Disk.new` | every read walks a chain without repetitions, or a finite list, so it ends; the parts that index or divide are bounded by the shape of the disk, except in `RelativeFile::new` (C43); that the disk object keeps its format and the size of its BAM goes by induction over the calls |
| C79 | every call of a session, on images with any bytes, after any history | each call is shown to end in a result or an error unless its exception (`Spec.Excuse`) holds, and to keep an invariant of the disk object, of every BAM ever handed out, of every file handle and of every writer (`Steady`); the rest is induction over the history |
| C80 | `Image::create`, `D64::create` and its siblings, on a map from paths to contents | false of the code without `create_new`: `OpenOptions` lacks `create` and `truncate`; case analysis over the flag and the old contents, and C13 for what formatting makes of it |
| C81 | `open`, `DiskType::from_extension`, `Path::extension` | splitting a path at slashes and a name at its last dot, by induction; C05 for the sizes |
| C82 | shared memory maps: the file holds what the image holds | C04 and C58 for any history; C81 for opening again |
| C83 | `Disk.sees`: the file as changed through another map of it, with the header, format and BAM this object keeps | false of the code: each object saves its own BAM; deletion with an old BAM (`delete_gen`), opening what is on the image then, and counting: the files use more blocks than the old BAM knows of |
| C84 | the commands of `cdisk` (`Spec.Line`) on any bytes | opening any file gives a disk that C78 and C79 are about; each command is taken apart into calls and prints (`Fine`), and the exception of each (`Line.Risk`) is traced to those of its calls; for `write` the exceptions of the single writes are shown not to arise in a file that was just created; images with files (C63) meet none of the exceptions |
| C85 | every call of a session, on any image | `Spec.Footprint` and `Spec.Released` say for each call which bytes and which sectors it is about; per operation, the device after each sector write and the maps are compared with those before the call (`Framed`, `WFramed` with the Hoare logic of C79) |
| C86 | sequences of calls on any image | `Spec.Territory` states what a program claims and when a call is within the claim; an invariant (`Held`) says that the sectors the open files and writers lead to stay inside the claim although their links are rewritten (`Zone`, `Shut`, `Fence` in `Lemmas/Fence.lean`: a set of sectors closed under following links, whose unfinished ends are the writers' last sectors), and C85 bounds each step |
| C87 | clean disks with files of any kind | the claim of C86 is built from a clean report of `validate` (C32: no sector has two owners, none that is owned is free), so that the sectors and the entry of every other file lie outside of it; then opening, scanning and reading a file only looks at its own sectors (`SameOn` in `Lemmas/Bystander.lean`), and the directory still leads to its entry; `C87_condition_is_needed` is a clean disk on which the condition on relative files fails and another file loses its sectors |
| C88 | `File.record`, `File.recordCount` of every kind | case analysis over the kinds; reading a chain or a position never gives one of the two errors (C16) |
| C89 | `Session.step (.delete k)`, `Disk.validate` | the claims of the files left are a sublist of those before (frame of each kind of scan); the map loses exactly the sectors of the file (C65); C32 in both directions |
| C90 | `Session.step (.rename a b)`, `Disk.directory`, `Disk.validate`, `File.fromEntry`, `File.record` | the result read off the listing; only the 16 bytes of the name in one slot change, so every slot parses as before but for that name; on a clean disk the slot's sector belongs to no file, so every scan and record is the same |
| C91 | `Session.step` of `.create`, `.rename`, `.delete`, opening calls and `.nextFreeDirectoryEntry`; `Disk.validate` | an invariant (`Tidy`: validate reports nothing, the end of the directory is full, the border is not in it) kept by each call: the slot found is free, the sector taken is in no claim, so the claims gain one sector and the map loses it; induction over the calls |
| C92 | `Session.step` of `.openWriter`, `.write`, `.flush`, `.drop`; `Disk.validate` | an invariant of the writer (`Inked`, `Lemmas/Inked.lean`) that relates the image to the one it was opened on, kept by each block the writer fills, allocates and flushes; from it the listing, the claims and the map are computed again (`Tidy.written`); induction over the calls |
| C93 | `Session.step` as in C92; `Disk.new` of the image it leaves | the writer's invariant also says that the map on the image is the one in memory whenever nothing is pending (`AtWork`); a disk whose header and map are on the image opens as a copy with the same sectors (`Tidy.copy`), and the listing, the claims and the map are the same; renaming leaves the bytes of the map alone, and deleting a linear file stores the map (deleting one of another kind does not: C65); `Verif/Props/CleanReopen.lean` |

## Claims the code does not meet

For each of these the negation is proved, for all the states it concerns, next
to the part of the claim that holds (suffix `_partial`).

| Id | What happens | Theorem |
|----|--------------|---------|
| C37 | `create_file` leaves the stored BAM stale | `C37_create_is_not_durable` |
| C43 | opening a relative file with record length 0, or with a short side sector, panics | `C43_panics_iff_refuted`, `C43_zero_length_refuted`, `C43_short_side_sector_refuted` |
| C44 | VLIR record numbers are off by one | `C44_refuted` |
| C45 | export reads that fill their buffer repeat data | `C45_small_reads_refuted` |
| C46 | writing an info block panics | `C46_refuted` |
| C51 | opening a writer on a cyclic chain never returns | `C51_loops_forever` |
| C52 | stale handles damage other files | `C52_second_delete_refuted`, `C52_stale_writer_refuted` |
| C53 | refused requests on read-only disks change the free count | `C53_create_refuted`, `C53_delete_refuted` |
| C54 | a rejected format request has erased the disk | `C54_refuted` |
| C55 | deleting a file on a track without BAM entry panics | `C55_panics_iff_refuted`, `C55_info_block_refuted` |
| C56 | the BAM editor accepts sectors that do not exist panics on tracks 36–40 of a 1541 disk, and no argument selects a track above 40 of a 1571 or 1581 disk | `C56_stray_sector_refuted`, `C56_track_refuted`, `C56_tracks_refuted` |
| C60 | a full directory whose last sector has an odd used size, or lies on a track without BAM entry, panics | `C60_panics_iff_refuted`, `C60_short_tail_panics`, `C60_far_tail_panics`, `C60_create_panics` |
| C63 | a write that fails on a full disk may extend the directory by a sector the saved BAM marks free | `C63_full_directory_refuted` |
| C64 | `cdisk append` opens the image read-only and always fails | `C64_refuted` |
| C65 | side sectors and info blocks stay allocated in the image | `C65_side_sectors_lost_refuted`, `C65_info_block_lost_refuted` |
| C74 | `cdisk geosread` writes too much, or never ends, for files larger than its buffer, and panics on other files | `C74_long_refuted`, `C74_endless_refuted`, `C74_not_geos_refuted` |
| C75 | a file created with type REL can never be opened by its name | `C75_relative_refuted` |
| C77 | the interleave is never used: blocks of a file on a new disk lie in adjacent sectors | `C77_interleave_refuted` |
| C80 | `create` without `create_new` fails if there is no file, and overwrites nothing if there is one | `C80_missing_refuted`, `C80_not_overwritten_refuted` |
| C83 | a disk object that deletes a file after another object on the same image file has used up blocks marks blocks of existing files as free | `C83_second_disk_refuted` |
| C88 | a GEOS sequential file reports one record, and gives its content for every index | `C88_sequential_refuted` |
