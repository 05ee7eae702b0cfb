# EmbedDB: formal model and proofs

## 1. Layout

Lean 4.33.0, Mathlib imported module by module.  Everything is under `lean/Verif/`.

| directory | content |
|-----------|---------|
| `Model/` | executable model of the C code, function by function; every definition cites file and lines in /repo |
| `Spec/` | small independent specifications: the log of records, what a scan, lookup, query, stream must return |
| `Proofs/` | invariants and helper lemmas |
| `Props/` | the property theorems `Cnn_…`, each with an `example` that meets its hypotheses |
| `Findings/` | proofs that a stated property is false of the code, with a concrete witness |

`properties.jsonl` holds the properties in words, `MANIFEST.json` the theorem names per property.  `tools/` holds the scripts
that generate both and the mutation tester; `seeded/LOG.jsonl` records what wrong programs the theorems were tried against.

## 2. Method

* **Memory.** A page is `Nat → UInt8`; header fields, slots, bitmaps, variable data are read and written at the offsets the C
  code uses.  A file is `Nat → Option Page` (`none`: the device's `read` fails).
* **Outcomes.** C undefined behaviour is `Res.ub`, a loop that exceeds the model's bound is `Res.fuel`; every property theorem
  that says "returns" shows that neither occurs.
* **Devices.** What `erase` does to a page, whether a `write` or `erase` fails and whether erased pages are readable are
  parameters.  Every storage operation is recorded in the device's log.  A power failure leaves the image of a prefix of the log.
* **Histories.** Clients are lists of operations (`Spec.Op`, `Spec.VOp`, query plans), files with power failures are inductive
  predicates (`Life`, `Rlc`, `LifeV`).  Theorems quantify over all of them.
* **Refinement.** The table is related to an abstract log (`Spec.Log`: completed pages and write buffer) by an invariant
  (`Sim`, `Table`, `TableX`, `VTable`, `Journal`, `Trail`); reads are specified on the log alone.

## 3. Trusted base

1. The Lean 4.33.0 kernel (and, for building, elaborator and Mathlib's tactics, whose output the kernel checks).
2. Axioms: each theorem named in `MANIFEST.json` depends on a subset of `propext`, `Classical.choice`, `Quot.sound` (checked with
   `#print axioms` for all of them).  No axioms are added; there is no `sorry`, `native_decide` or `bv_decide`.
3. That the definitions in `Model/` say what the C code does, and that those in `Spec/` and the theorem statements say what
   `properties.jsonl` says.  Nothing connects the model to the C text mechanically; no C code was compiled or run.

### What is modelled

| C code | model |
|--------|-------|
| embedDB.c `initBufferPage`, `embedDBPut`, `indexPage`, `writePage`, `embedDBFlush`, `cleanSpline`, `readPage` | Model/Data |
| `embedDBSearchNode`, `searchBuffer`, `linearSearch`, `binarySearch`, `embedDBGet` | Model/Data |
| `shiftRecordLevelConsistencyBlocks`, `writeTemporaryPage` | Model/Data |
| `embedDBInitIterator`, `embedDBNext`, `readIndexPage` | Model/Iter |
| `writeIndexPage`, index parts of put and flush, `embedDBInitIndex` | Model/Index |
| checks and size computations of `embedDBInit` | Model/Init |
| `embedDBInitData(FromFile)`, record-level consistency recovery, `embedDBInitSplineFromFile` | Model/Recover |
| `embedDBPutVar`, `GetVar`, `NextVar`, `FlushVar`, stream set-up and reads, `writeVariablePage`, `readVariablePage` | Model/Var |
| the same functions with `uint32_t` positions | Model/VarWord |
| a client that keeps several `embedDBVarDataStream`s open | Model/VarStreams |
| `embedDBInitVarData`, `embedDBInitVarDataFromFile` | Model/VarRecover |
| `embedDBInitIndex`, `embedDBInitIndexFromFile` on an existing file | Model/IdxRecover |
| clients with several iterators, between and during inserts | Model/Cursor, Mixed |
| power failures | Model/Life, RlcLife, VarCrash, VarRecover, RlcVarLife, Formatted (devices with content) |
| spline.c (add, segment search, find, erase; build) | Model/Spline, SplineBuild |
| embedDBUtility.c comparators and bitmap functions | Model/Utility |
| schema.c; advancedQueries.c: exec, selection, projection, aggregation, COUNT/SUM/MIN/MAX/AVG, key join | Model/Query |
| the floating-point division of `avgCompute` | Model/Avg |
| table scan operator and operator trees | Model/TableScan, Plan |
| allocation, `init`, `close` and freeing of query operators; allocations of `embedDBInit`, `splineInit`, iterators and their release | Model/Memory |
| `embedDBInit`, `embedDBInitData`, `embedDBInitIndex`, `embedDBInitVarData`, `embedDBClose`, `FILE_OPEN`, `FILE_CLOSE`, `tearDownFile` as far as files are opened and closed | Model/OpenClose |
| the counters and buffer tags in `readPage`, `readIndexPage`, `readVariablePage`, `writePage`, `writeIndexPage`, `writeVariablePage`, `writeTemporaryPage`, `embedDBResetStats`, `embedDBInit` | Model/Counters |
| the calls of `fileInterface->flush` in `embedDBFlush`, `embedDBFlushVar`, `embedDBPutVar`, `embedDBGetVar`, `embedDBNextVar` and what they bring to the medium | Model/Sync |
| the same calls of the query operators when requests for memory fail; `embedDBCreateSchema`, `splineInit`, the bitmap of an iterator when they fail | Model/Oom |
| a client that makes any interface calls in any order, with any iterators and streams | Model/Calls |
| the same with power failures: the variable data file keeps some of the operations, the data file may hold anything | Model/VarLives |
| `embedDBCalculateSlope`, `embedDBEstimateKeyLocation`, `getMaxError` in `float`, the quotient of `splineFind` in `long double`, and the operations that use them | Model/Estimate |
| reads that fail during lookups and iterators | Model/Fault |
| desktopFileInterface.c, SDFileInterface.c with sdcard_c_iface.cpp, dataflashFileInterface.c: read, write, erase | Model/Desktop, SdFile, Dataflash |
| `embedDBCalculateSlope` of lib/Distribution and the operations that use it | Model/Distribution |

### What is not modelled

* Printing; allocation failures outside Model/Oom.
* Below the file interfaces: stdio buffering (except that C78 says which writes were followed by a flush) and the file system, SdFat (only the behaviour of seek, read and write at the end
  of a file is used), the dataflash chip driver.  Tables work on the abstract device described above; C51 connects it with the bytes of a
  desktop file for plain tables, tables with record-level consistency and tables with variable data.  C52 says the same of SD cards (plain tables and tables with
  variable data), whatever is read in between, up to the first page behind the end.  C53 says the same of a dataflash chip shared with
  other files, for plain tables on chips with earlier content (C65).
* `float`/`double` columns.  The quotient computed by AVG is a parameter of Model/Query; Model/Avg says what it is.
* Other orders of writes on the medium: power failures keep the first operations of each file; for two files they keep the order of the
  writes across the files, which the code does not enforce (`C54_false_order`, `C78_false_wrong_data`).
* Concurrency (the library has none).
* The example programs, benchmarks, `radix spline`-era code in comments, and the script in /repo/amalgamation.  Of the amalgamated copy
  in /repo/lib/Distribution only what differs from src is modelled: line 884 of embedDB.c is missing there
  (Model/Distribution.lean, C71).  That this is the only difference besides white space and includes was checked by comparing
  the texts, not proved.

### Modelling decisions that a reader should know

* Page numbers, spline pages and the variable-data position are unbounded naturals (`uint32_t` in C).  Model/VarWord has the 32-bit
  position; C72 says when it makes no difference.  Where a 4-byte id is stored in
  a page it is truncated, and recovery theorems assume fewer than 2^32 pages.  `linearSearch` works with `int32_t`.
* The spline interpolation's `long double` quotient is the exact floor, and the float estimate in `embedDBSearchNode` is an arbitrary
  parameter (theorems hold for every value).  Model/Estimate computes both with rounding; C61 says when the conversions to integer
  types are defined, C62 when the rounded quotient has the same integer part as the exact one.  Floating point numbers are rationals
  and every operation is followed by a rounding function (`Spec.Rnd`: monotone, exact on numbers of the format); overflow, subnormal
  numbers and NaN do not occur.  The spline's 64-bit products wrap as in C (`Bounds.prod` excludes overflow).
* `int8_t` results and sizes are truncated where the code does so and it matters (`searchBuffer`, `validData`, `recordSize`).
* Keys are the unsigned values of their bytes; the comparator is a parameter that must agree with the numeric order on the keys used (`CmpOk`).
* Uninitialised memory (fresh read buffers, spline arrays, record buffers) is an arbitrary parameter of the theorems.
* A page write is atomic; a failing read leaves the buffer as it was; a page that was never written cannot be read.  For plain tables on
  the desktop interface this is proved down to bytes (C51).  With record-level consistency temporary pages are written behind pages
  not yet written; there a desktop file shows zero pages and an SD file pages of 255 (`C51_gap_partial`, `C52_gap_partial`).  The
  lives of such tables (C20, C21, C64) therefore let never-written pages become readable with such content (`Gaps`).  Props/RlcFile derives this from the bytes
  (`C51_rlc_partial`, `C20_desktop_partial`, `C20_sd_partial`).
* `pt (count - 1)` with `count = 0` in the spline would read outside the array in C; the theorems only use it with `count > 0`.

## 4. Hypotheses used by the table theorems

| name | meaning |
|------|---------|
| `Cfg.Ok K` | block size divides the file size, at least two blocks, a page holds `initBufferPage`'s writes and 1 to 65535 records, at least 4 spline points, consistent header layout (C22), spline mode without record-level consistency, comparator is the numeric order below `K`, the device does not fail |
| `Bounds c lo K P` | keys in `[lo, K)`, at most `P` pages: 64-bit products in the spline do not overflow, keys fit `keySize` bytes |
| `Client`, `ClientX` | strictly ascending keys, data of the right length, keys of lookups and bounds below `K` |
| `NoStale`, `SafeX` | no page is overwritten while it is in a read cache that is used afterwards; false otherwise (C02) |
| `MClient`, `MSafe`, `FSafe` | the same for runs with open iterators (C55, C58): keys as above, every insert and flush safe |
| `Spacious` (C59) | the ring of spline points has room: at most `splSize` pages are ever written, or cleaning is on and `N + 2 ≤ splSize` |
| `LifeX`, `AllowedX` | lives of a table with an index file: any power failures; index pages are written only while every data page has a bitmap (`Aligned`) and never over a cached index page, flushes complete an index page |
| `Cfg.VFile`, `ClientV`, `WrapSafe`, `CleanRead` (C26–C29) | variable data: file geometry; keys and data as `Client`; no variable page is written empty and the variable read cache agrees with the file; no lookup of a buffered record replaces a data page in the read cache |
| `IdxSafe`, `IdxRoom`, `IdxAlong` (C09, C26–C30, C49, C69, C70, C72) | with an index file: before every flush the index page has room for a bitmap, or (C29 with bitmaps) room for exactly one |
| `StreamsOk` (C73) | before every operation: the conditions of C26 for table operations; no piece of a stream ends exactly at a page end with more to come; when the file may wrap, no variable page was reclaimed since a stream that is read was opened |
| `EraserX` | erasing leaves every page of the index file as it is, or gives every page a page number never reached |
| `Past` (C63) | any state reached by any operations, refused writes and erases, failing reads and power failures; excludes only torn reads and writes and erases that leave a readable page with foreign content |
| `RlcV`, `RlcVDurable` (C64) | lives of a table with variable data and record-level consistency: any power failures; keys above 0, the variable data file does not wrap, flushes do not complete a block |
| `Gaps` (C20, C21, C64) | while power is off, pages never written may become readable: zero pages in front of a written page, and pages without records and with a page number never reached (an erased chip) that erasing leaves alone and whose number does not look like a block start |
| `Vacant` (C65) | the device before the table was created: no page can be read, or all can and none carries the number its place would have (and no valid record count, at the pages recovery probes); an erased chip with an even block size, or zeros, qualify (`vacant_erased`, `vacant_zeroed`) |
| `Durable` | additionally at most 127 records a page (C41), erased pages readable, spline error at most 1 if the file wraps (C12) |

The `NoStale` family is a condition on runs; theorems ending in `insert_then_read`, `inserts_then_reads`, `unwrapped` replace it
by conditions on the client only.

## 5. Where code and properties disagree

Each line is a theorem in `Findings/` (or beside the property) with a concrete run of the model.

| property | theorem | what the code does |
|----------|---------|--------------------|
| C01, C12 | `C01_false_overflow`, `C12_false_overflow` | the products of key and page distances in the spline wrap at 64 bits: with 8-byte keys far apart an inserted record is reported as absent |
| C02, C05 | `C02_false_stale_cache`, `C05_false_stale_cache` | a page that is overwritten while it sits in the read buffer keeps being served from the buffer |
| C03 | `C03_false_duplicate`, `_descending`, `_refused` | the order check after a page write looks at slot `maxRecordsPerPage - 1` of the last page, which is not its last record after a flush of a partial page: equal and smaller keys get in, larger ones are refused |
| C10 | `C10_false_tiny_page` | `initBufferPage` writes behind the end of very small pages |
| C12 | `C12_false_first_page` | a spline started at a page other than 0 with error bound ≥ 2 can miss its page |
| C16 | `C16_false`, `C16_false_one_page` | `binarySearch` runs off its end without a return value; in every table with a stored page some lookup is undefined |
| C18 | `C18_false_first_block`, `C18_false_unreadable` | power failure after the erase of block 0 loses the whole table when erase clears pages; unreadable erased pages stop recovery |
| C20, C21 | `C20_false_flush`, `C21_false_flush`, `_spec`, `_lost` | a flush that completes a block does not move the temporary area: temporary pages overwrite permanent ones |
| C20 | `C20_false_stale_cache` | stale read buffer after recovery and further inserts |
| C22 | `C22_false_bmap`, `C22_false_maxMin`, `C22_false_accepted` | bitmap without index, or min/max without index or with bitmaps below 8 bytes, overlap the first record; `embedDBInit` accepts them |
| C23 | `C23_false_flush`, `_stored`, `_full`, `C23_false_stale_index` | a flush misaligns index entries and hides records; with a full index page it writes behind the buffer; index read cache goes stale |
| C24 | `C24_int16_ub`, `C24_int16_false`, `C24_inBitmap16_false` | overflow in the 16-bucket function; `inBitmapInt16` returns `int8_t` |
| C25 | `C25_false`, `C25_min_hidden`, `C25_inBitmap64_false` | 64-bucket range queries hide matching values |
| C26 | `C26_false_buffered_get`, `C26_false_plain_put` | `embedDBGetVar` of a buffered record replaces the read buffer without noting it; `embedDBPut` leaves an uninitialised data location |
| C27 | `C27_false_page_edge` | a chunk ending exactly at a page end makes the next chunk start in the page header |
| C28 | `C28_false_stale_cache`, `_empty_page`, `_erase` | stale variable read cache; empty variable pages; erased pages |
| C29 | `C29_false_buffered`, `C29_false_page_zero` | `embedDBNextVar` decides by page number whether the record is buffered |
| C30 | `C30_false_flush` | flush writes the data page before the variable page |
| C31 | `C31_int32_false`, `C31_int64_false` | comparators subtract: undefined for keys far apart |
| C36, C50 | `C36_sum_signed_false`, `C50_avg_signed_false` | SUM and AVG of signed columns of 5 to 8 bytes shifts an `int` by 32 or more |
| C37, C39 | `C37_row_after_end`, `C39_aggregate_join_false`, `C39_false_join_ranges` | the join returns rows after its end if a bounded scan is an input; the aggregation calls its input after the end, so it reports extra groups of records outside the range |
| C40 | `C40_false_slot255` | slot 255 of the write buffer is reported as not found |
| C41 | `C41_false`, `C41_false_reached` | pages with more than 127 records are not recognised on reopening: the table is lost |
| C42 | `C42_false_put`, `C42_false_retry`, `C42_false_neighbours` | `embedDBPut` ignores a failed page write; a failed flush consumes a page number; the error code -1 enters the spline as page number 2^32-1, so that stored records next to a lost page are not found |
| C43 | `C43_false_reopen` | after reopening at a block boundary a page is written without erase |
| C44 | `C44_false_scan`, `C44_false_wrap` | binary-search mode uses the unallocated spline in iterators and when reclaiming a block |
| C47 | `C47_false_record`, `_header`, `_capacity`, `_var` | `int8_t` sizes overflow; capacity 0 and an empty variable data file are accepted |
| C48 | `C48_false`, `C48_false_initial` | bitmaps of more than 8 bytes overlap min/max and are not cleared on a new page |
| C49 | `C49_false_lone_page`, `_blank_page`, `_wrapped`, `_block_boundary` | a single variable page naming key 0 is taken for no page: its data is reported reclaimed, and a stale copy of it is served later; after a wrap recovery gives up data that is still stored |
| C51 | `C51_false_offset`, `_gap`, `_torn` | page offsets are 32-bit products: in files of 4 GiB pages overwrite each other; skipped pages can be read; a failed read can change the buffer |
| C52 | `C52_false_write`, `_code`, `_read` | the SD interface reports refused writes as successes, its failure code -1 counts as success, reading behind the end returns another page |
| C53 | `C53_false_reset` | on dataflash opening a file anew does not clear it: after a reset and a crash, recovery finds records of the previous table |
| C54 | `C54_false_hidden`, `_flushed`, `_unerased`, `_erase_range` | bitmaps in memory are lost with the power, later index pages are then read for other data pages and records are hidden (also after an orderly flush and reopening); after a wrap cut in mid-block index pages are written without erase, or blocks are erased from the middle and past the end of the file |
| C54 | `C54_false_order` | no flush of the data file between a data page and the index page written after it: if only the index page reaches the medium, it later describes other data pages and records are hidden |
| C55 | `C55_false_reclaimed`, `C55_false_resume` | an iterator whose page is reclaimed goes on with the new content of the storage page: newest records first, dropped ones after them, some twice; an iterator advanced again after it reported the end leaves out records |
| C56 | `C56_false_aggregate`, `_join`, `_reinit`, `_schema`, `_keys`, `_close_twice`, `_unclosed` | `closeAggregate` clears `op->input`, so the recursive free loses the operators below; it never reaches the second input of a join; a second `init` of a join loses a buffer; `init` cannot report that schemas do not fit and NULL is accessed afterwards |
| C57 | `C57_false_init`, `C57_false_iterator_twice` | a failing `embedDBInit` leaves the spline's six blocks allocated; closing an iterator twice frees its bitmap twice |
| C58 | `C58_false_silent`, `C58_false_put`, `C58_false_torn` | a failed read looks like an absent record or the end; `embedDBPut` ignores a failed read in its order check and accepts a key again; a read that fails half-way leaves its bytes in a buffer that still counts as the page before |
| C59 | `C59_false_spline_full` | when the ring of spline points is full, points of retained pages are given up and lookups of old keys search page by page (six pages read with error bound 1) |
| C61 | `C61_false_first_page`, `_reopen`, `_reopen_long` | before the first page is written, a lookup of a key far from those in the write buffer converts a `float` out of the range of `int16_t`; `getMaxError` looks at the free slots of flushed pages, and for 8-byte keys uses the slope of the write buffer, and converts out of the range of `int32_t` on opening |
| C62 | `C62_false_float`, `C62_false_double` | where `long double` has 24 bits (AVR) or 53 bits (ARM) the rounded quotient can be the next integer, the window of pages searched moves by one and a stored record is reported as missing (keys near 2^30, or near 2^59 for `double`) |
| C64, C30 | `C64_false_unacknowledged` | `embedDBPutVar` makes the record durable, with the place of its variable data, before the variable data: after a power failure in between the record is there without data, and as soon as the next record is inserted a lookup returns that record's variable data for it |
| C65 | `C65_false_odd` | on an erased chip with blocks of an odd number of pages recovery can take a blank page for the oldest page of the table (0xFFFFFFFF modulo the number of pages equals its place); the smallest page number becomes 4294967295 and records are not found |
| C65 | `C65_false_stale` | a chip that never held a table, opened without EMBEDDB_RESET_DATA: the blank page read last stays in the read cache when the page is written, and the records on it are not found |
| C66 | `C66_false_selection` | `initSelection` does not check `copySchema`; when memory runs out there, `createBufferFromSchema` reads through NULL |
| C66 | `C66_false_projection`, `C66_false_columns`, `C66_false_join` | `init` returns nothing, so an operator whose input could not allocate its schema reads it through NULL |
| C66 | `C66_false_aggregate` | when the private buffer of an aggregation cannot be allocated nothing the client can see is NULL, and `exec` writes through NULL |
| C66 | `C66_false_leak` | create calls whose second request fails return NULL without freeing the first block |
| C66 | `C66_false_schema`, `C66_false_spline`, `C66_false_iterator` | `embedDBCreateSchema`, `embedDBInit`/`splineInit` and `embedDBInitIterator` do not check their requests |
| C67 | `C67_false_data`, `C67_false_index` | `writePage` and `writeIndexPage` count a page before the device has taken it: after one refused write all later erases start inside a block, and one reaches beyond the end of the file (`writeVariablePage` counts afterwards and is not affected, `C67_variable`) |
| C67 | `C67_false_reopen` | after a power failure with the newest variable page at the end of a block, the next block counts as available without having been erased |
| C68 | `C68_false_first_block` | power failure after the erase of the first block of the full variable data file, erased pages reading 0xFF: the erased page 0 is taken for the oldest page, 2^32 - 1 pages count as available, nothing is erased any more, and lookups offer streams of 2^32 - 1 bytes |
| C68 | `C68_false_unreadable` | unreadable erased pages: the variable data file is taken for empty, or for one that has not wrapped |
| C69 | last example of `Props/VarKept.lean` | not a contradiction, stated in the source ("We lose some records"): after a power failure the data that starts on the oldest page kept is given up, though it is complete on the medium and was found before |
| C70 | `C70_false_again` | records lost with the write buffer and inserted again after the power failure: their variable data, just written to the newest page, is reported as reclaimed, because the oldest page kept names a key that is not smaller |
| C71 | `C71_false_open`, `C71_false_witness` | the copy of `embedDBCalculateSlope` in lib/Distribution lacks the test for an empty page; with keys of more than 4 bytes opening any file that starts with a page of the table reads about 2^32 bytes behind the write buffer |
| C42 | `C42_false_putVar` | an insert whose variable page is refused returns 0; the lookup later offers an empty stream |
| C42 | `C42_false_flush_again` | a flush whose variable page is refused returns -1, the next returns 0 without another attempt, because the data buffer is empty |
| C42 | `C42_false_index`, `C42_false_index_overflow` | a flush whose index page is refused has written the data page and keeps the records: scans return them twice; every attempt appends to the index write buffer, finally behind its end |
| C72 | `C72_false_other_data` | a file size that does not divide 2^32: after 2^26 + 1 inserts of 50 bytes into a file of 6 pages of 64 bytes the counter has wrapped, and the lookup of the last record returns the variable data of another record |
| C72 | `C72_false_full_size` | a variable data file of exactly 4 GiB: the product `numVarPages * pageSize` is 0 and every insert with variable data divides by it |
| C73 | `C73_false_reclaimed` | a stream whose pages were reclaimed since it was opened is not told: its next read returns bytes of another record, with the full length |
| C74 | `C74_false_close`, `C74_false_twice` | `embedDBClose` after a refused `embedDBInit`, or a second time, calls `fclose(NULL)` on the desktop |
| C74 | `C74_false_no_var` | a table with variable data whose `varFile` is NULL: `embedDBInit` dereferences it instead of refusing it |
| C74 | `C74_false_again` | `embedDBInit` of a table that is open loses its streams |
| C75 | `C75_false_temp` | `numWrites` does not count the temporary pages of record-level consistency |
| C75 | `C75_false_start` | `embedDBInit` of a table with variable data returns before `embedDBResetStats`: the counters start with whatever memory held |
| C77 | `C77_false_float`, `C77_false_double` | AVG of equal values can be less than each of them: the sum is rounded to `float` or `double` before the division |
| C78 | `C78_false_var`, `C78_false_var_full` | `embedDBFlush` returns 0 without flushing the variable data file when the variable write buffer is empty, although pages written before may still be in memory; after a power failure a record then gets the variable data of another one (`C78_false_wrong_data`) |
| C78 | `C78_false_ignored` | `embedDBFlush` ignores the answer of `fileInterface->flush` |
| C78 | `C78_false_rlc` | the temporary pages of record-level consistency are written but never flushed |
| C67 | `C67_false_rlc_one`, `C67_false_rlc_flush` | with record-level consistency pages are written without having been erased if blocks have one page, or after a flush that completed a block |

Smaller observations made while modelling, without a theorem of their own: with error bound ≥ 2 every page becomes a spline
point once the corridor has been restarted; `splineErase` of all points leaves `tempLastPoint` set (not reachable); BMAP without
INDEX divides by the uninitialised `maxIdxRecordsPerPage`; a failed index write in `embedDBPut` is ignored; `createSchema`
accepts negative sizes; where `double` has 4 bytes (AVR) an AVG of 8 bytes writes only the first 4 of them; the largest key makes `minVarRecordId` wrap; the shift of the record-level-consistency area erases two
blocks when wrapped and three when not (harmless); with one-page blocks `writeTemporaryPage` never erases.

## 6. Wrong programs

`tools/seed.py` applies one edit to a model definition in a copy of the project, rebuilds and lists the theorems that stop
compiling.  `seeded/LOG.jsonl` has one line per attempt, including the cases in which nothing failed and what was tightened then.
