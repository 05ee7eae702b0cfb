{
 "claims": [
  {
   "property": "C01",
   "status": "partial",
   "theorems": [
    "EDB.C01_unwrapped_partial",
    "EDB.C01_false_overflow",
    "EDB.C01_false_overflow_client"
   ],
   "note": "All plain spline-mode configurations with at most 255 records per page and key ranges whose 64-bit products do not overflow; false for more records per page (C40) and when the products overflow (witness)."
  },
  {
   "property": "C02",
   "status": "partial",
   "theorems": [
    "EDB.C02_wrapped_partial",
    "EDB.C02_insert_then_read_partial",
    "EDB.C02_false_stale_cache",
    "EDB.C02_false_stale_cache_client"
   ],
   "note": "Holds for histories that never overwrite the page in the read cache; false otherwise (witness)."
  },
  {
   "property": "C03",
   "status": "partial",
   "theorems": [
    "EDB.C03_order_partial",
    "EDB.C03_state_partial",
    "EDB.C03_false_duplicate",
    "EDB.C03_false_descending",
    "EDB.C03_false_refused"
   ],
   "note": "Exact when pages are full when they are written (no flush of a partial page); false after a flush of a partial page (witnesses)."
  },
  {
   "property": "C04",
   "status": "proved",
   "theorems": [
    "EDB.C04_rejected_state",
    "EDB.C04_rejected_reads"
   ],
   "note": ""
  },
  {
   "property": "C05",
   "status": "partial",
   "theorems": [
    "EDB.C05_full_scan_partial",
    "EDB.C05_false_stale_cache"
   ],
   "note": "Same hypotheses as C02."
  },
  {
   "property": "C06",
   "status": "partial",
   "theorems": [
    "EDB.C06_range_scan_partial"
   ],
   "note": "Same hypotheses as C02."
  },
  {
   "property": "C07",
   "status": "partial",
   "theorems": [
    "EDB.C07_iterators_partial"
   ],
   "note": "Any interleaving of any number of iterators and lookups from any state reached under the hypotheses of C02."
  },
  {
   "property": "C08",
   "status": "proved",
   "theorems": [
    "EDB.C08_retention",
    "EDB.dropped_rule"
   ],
   "note": "For every configuration satisfying Cfg.Ok and every history of puts, flushes, lookups and scans; dropped_rule says independently what the dropped-page count is."
  },
  {
   "property": "C09",
   "status": "partial",
   "theorems": [
    "EDB.C09_flush_partial",
    "EDB.C09_life_partial",
    "EDB.C09_var_partial"
   ],
   "note": "For tables created empty, and for every life of a data file with power failures and reopenings (Durable configurations), clients inserting ascending keys; the second theorem also says what is found if power fails after the flush. C09_var_partial: the same with variable data, after any life of C70 (any wraps of both files, any power failures): after a flush and a power failure every record inserted is in the file and has its variable data, unless given up; with or without an index file with room for a bitmap at the flush. No record-level consistency."
  },
  {
   "property": "C10",
   "status": "partial",
   "theorems": [
    "EDB.C10_in_bounds_partial",
    "EDB.C10_false_tiny_page"
   ],
   "note": "False without a lower bound on the page size (initBufferPage writes beyond a tiny page): C10_false_tiny_page. With Cfg.Ok every storage and buffer access is in bounds."
  },
  {
   "property": "C11",
   "status": "proved",
   "theorems": [
    "EDB.C11_search_node"
   ],
   "note": "Any page, any comparator that is a strict order on the keys concerned."
  },
  {
   "property": "C12",
   "status": "partial",
   "theorems": [
    "EDB.C12_bracket",
    "EDB.C12_bracket_partial",
    "EDB.C12_false_first_page",
    "EDB.C12_false_overflow",
    "EDB.C12_build"
   ],
   "note": "Full for splines started at page 0 when the 64-bit products do not overflow; for a spline started at a later page it holds for maxErr <= 1 and is false for maxErr >= 2 (witness); false when the products overflow (witness)."
  },
  {
   "property": "C13",
   "status": "proved",
   "theorems": [
    "EDB.C13_capacity"
   ],
   "note": ""
  },
  {
   "property": "C14",
   "status": "proved",
   "theorems": [
    "EDB.C14_segment"
   ],
   "note": ""
  },
  {
   "property": "C15",
   "status": "proved",
   "theorems": [
    "EDB.C15_linear_search"
   ],
   "note": ""
  },
  {
   "property": "C16",
   "status": "partial",
   "theorems": [
    "EDB.C16_returned_partial",
    "EDB.C16_returned_unwrapped_partial",
    "EDB.C16_stored_partial",
    "EDB.C16_false",
    "EDB.C16_false_one_page"
   ],
   "note": "False as stated: binarySearch leaves its loop without a return value when one page is left; C16_false shows that in every reachable table with a stored page some retained record's lookup is undefined. Proved: every lookup that returns is correct (all histories, also wrapped), and exactly which stored records are found (C16_stored_partial). Missing: record-level consistency, page counts above 2^31."
  },
  {
   "property": "C17",
   "status": "partial",
   "theorems": [
    "EDB.C17_reopen_partial",
    "EDB.recovered_rule"
   ],
   "note": "Any history of an ascending client ending in a flush, any number of wraps: reopening succeeds, leaves the device alone and lookups and scans see exactly the records from page Spec.recovered on (recovered_rule: at most one block beyond what was dropped). For Durable configurations: spline mode, at most 127 records per page (C41), readable erased pages, error bound at most 1 if the file wraps."
  },
  {
   "property": "C18",
   "status": "partial",
   "theorems": [
    "EDB.C18_crash_partial",
    "EDB.recovered_rule",
    "EDB.C18_false_first_block",
    "EDB.C18_false_first_block'",
    "EDB.C18_false_unreadable"
   ],
   "note": "Any life of a data file (sessions cut at arbitrary storage operations and reopened, inductive Life), power failure after any prefix of the storage operations: reopening exposes exactly the pages written, from Spec.recovered on. False of the code for a cut right after the erase of the first block when erasing clears pages (C18_false_first_block), and on devices where erased pages cannot be read (C18_false_unreadable); these are the excluded cases."
  },
  {
   "property": "C19",
   "status": "partial",
   "theorems": [
    "EDB.C19_usable_partial",
    "EDB.C19_usable_unwrapped_partial"
   ],
   "note": "After recovery at any point every continuation (lookups, scans, inserts, flushes) agrees with the abstract log of recovered pages. NoStale (read-cache condition, C02_false_stale_cache) is needed only when the file wraps."
  },
  {
   "property": "C20",
   "status": "partial",
   "theorems": [
    "EDB.C20_crash_partial",
    "EDB.C20_found_partial",
    "EDB.C20_desktop_partial",
    "EDB.C20_sd_partial",
    "EDB.mayHold_sound",
    "EDB.C20_false_flush",
    "EDB.C20_false_stale_cache"
   ],
   "note": "Proved for every life of a file (any number of sessions, power failing between any two storage operations of an insert, a flush or a recovery): opening succeeds and lookups and scans answer from a log that contains every acknowledged record, except pages dropped because of the ring size. Missing: flushes that complete a block (false, C20_false_flush), lookups after recovery mixed with further inserts (false with a stale read cache, C20_false_stale_cache), binary-search mode, failing devices, more than 127 records per page, spline error bound above 1 for files that wrap. Pages never written may be readable (Gaps: holes of zeros in front of temporary pages, erased chips); not covered is a zeroed chip opened before the first insert. C20_desktop_partial and C20_sd_partial: the same with the file as its bytes show it (desktop file with holes of zeros, SD card file with holes of bytes 255)."
  },
  {
   "property": "C21",
   "status": "partial",
   "theorems": [
    "EDB.C21_temporary_partial",
    "EDB.C21_intact_partial",
    "EDB.C21_false_flush",
    "EDB.C21_false_flush_spec",
    "EDB.C21_false_flush_lost"
   ],
   "note": "Proved for every life of a file with crashes and recoveries: no temporary page write and no erase hits a retained permanent page, provided no flush completes a block. Without that proviso the property is false (C21_false_flush). The file is exactly what the storage operations of the life made of it, up to readable pages without records (Spec.MadeBy)."
  },
  {
   "property": "C22",
   "status": "partial",
   "theorems": [
    "EDB.C22_append_partial",
    "EDB.C22_fields_exact",
    "EDB.C22_false_bmap",
    "EDB.C22_false_maxMin",
    "EDB.C22_false_accepted"
   ],
   "note": "Proved: with BMAP only together with INDEX and MAX_MIN only together with INDEX and bitmapSize >= 8, appending a record changes no other byte of the record area (all pages, sizes, keys, data), and these are exactly the combinations in which the header fields fit and are disjoint (8-byte bitmaps when both). False of the code otherwise: every BMAP-without-INDEX and every MAX_MIN-without-INDEX (or short bitmap) configuration corrupts the first record; both are accepted by embedDBInit."
  },
  {
   "property": "C23",
   "status": "partial",
   "theorems": [
    "EDB.C23_scan_partial",
    "EDB.C23_history_partial",
    "EDB.C23_inserts_then_reads_partial",
    "EDB.C23_unwrapped_partial",
    "EDB.sound8",
    "EDB.C23_false_flush",
    "EDB.C23_false_flush_stored",
    "EDB.C23_false_flush_full",
    "EDB.C23_false_stale_index"
   ],
   "note": "For every sound bitmap function: filtered scans with the index return exactly the records the scan without the index returns, for every history of inserts in ascending key order in which no flush happens and no index page can be stale in the read buffer (inserts then reads with any number of wraps; or any interleaving before the index file wraps). The full statement is false of the code: after a flush the index is misaligned and hides records (even in the write buffer), a flush with a full index page writes past the buffer, and the index read cache is stale after a wrap (witnesses C23_false_*)."
  },
  {
   "property": "C24",
   "status": "partial",
   "theorems": [
    "EDB.C24_int8_sound",
    "EDB.C24_int8_inBitmap",
    "EDB.C24_int16_sound_partial",
    "EDB.C24_inBitmap16_partial",
    "EDB.C24_int16_ub",
    "EDB.C24_int16_false",
    "EDB.C24_inBitmap16_false"
   ],
   "note": "8-bit version proved for all values; 16-bit version proved for values whose bucket arithmetic does not overflow int32; exactly when inBitmapInt16 answers yes; witnesses that the full 16-bit claim (overflow near INT32_MAX, inBitmapInt16 returning int8_t) is false."
  },
  {
   "property": "C25",
   "status": "partial",
   "theorems": [
    "EDB.C25_sound_partial",
    "EDB.C25_inBitmap64_partial",
    "EDB.C25_min_hidden",
    "EDB.C25_false",
    "EDB.C25_inBitmap64_false"
   ],
   "note": "Sound when only an upper bound is used or the bounds fall in the range the theorem states; exactly when inBitmapInt64 answers yes; witnesses that the 64-bucket functions hide matching values."
  },
  {
   "property": "C26",
   "status": "partial",
   "theorems": [
    "EDB.C26_unwrapped_partial",
    "EDB.C26_data_wrapped_partial",
    "EDB.C26_false_buffered_get",
    "EDB.C26_false_plain_put"
   ],
   "note": "Every history of putVar, flush, get, getVar on a spline-mode table (with or without an index file), arbitrary page geometry, lengths and contents, variable data file unwrapped (data file wrapped or not): exact bytes, no stream for records without. Missing: histories that continue after getVar of a buffered record while data pages exist, and tables also filled with embedDBPut - there the claim is false (witnesses); largest key of the key size, more than 128 records per page, record-level consistency; with an index file, flushes when its page under construction is full."
  },
  {
   "property": "C27",
   "status": "partial",
   "theorems": [
    "EDB.C27_chunks_partial",
    "EDB.C27_life_partial",
    "EDB.C27_false_page_edge"
   ],
   "note": "Any list of read sizes, provided no piece ends exactly at the end of a variable page with more data to come; in that case the claim is false (witness). C27_chunks_partial: variable data file not wrapped; C27_life_partial: any number of wraps, power failures and reopenings (lives of C70). The lives may use an index file."
  },
  {
   "property": "C28",
   "status": "partial",
   "theorems": [
    "EDB.C28_history_partial",
    "EDB.C28_exact_partial",
    "EDB.C28_insert_then_read_partial",
    "EDB.C28_false_stale_cache",
    "EDB.C28_false_empty_page",
    "EDB.C28_false_erase"
   ],
   "note": "Any number of wraps of both files: whole histories, the exact condition for result 1, and a version with conditions only on the client and the final page count; all of them with or without an index file (if there is one, every index write succeeds: IdxSafe). Conditions: erased pages stay readable, no variable page is written empty, variable read cache not stale; without each of them the claim is false (witnesses)."
  },
  {
   "property": "C29",
   "status": "partial",
   "theorems": [
    "EDB.C29_scan_partial",
    "EDB.C29_index_scan_partial",
    "EDB.C29_life_partial",
    "EDB.C29_false_buffered",
    "EDB.C29_false_page_zero"
   ],
   "note": "All states with all records in storage or all in the write buffer, every range, data file wrapped or not; with records in both the claim is false (witnesses). C29_life_partial: after any number of wraps of the variable data file, power failures and reopenings (lives of C70), if the variable read cache agrees with the file: data is missing exactly if it starts before the limit stated. C29_index_scan_partial: tables with a bitmap index, data ranges included (every flush completes the index page). The lives may use an index file."
  },
  {
   "property": "C30",
   "status": "partial",
   "theorems": [
    "EDB.C30_partial",
    "EDB.C30_life_partial",
    "EDB.C30_false_flush"
   ],
   "note": "Every history (flushes included) followed by a power failure during the next putVar, get or getVar, after any number of storage operations on either file: every record of every retained stored data page has exactly its bytes in the variable data file, or (wrapped variable data file) is marked as reclaimed. C30_partial: new table, data file wrapped or not, variable data file not wrapped. C30_life_partial: after any life of the table (operations, power failures, reopenings), both files wrapped or not. During embedDBFlush the claim is false (witness). With an index file: room for a bitmap before every flush. Missing: record-level consistency."
  },
  {
   "property": "C31",
   "status": "partial",
   "theorems": [
    "EDB.C31_int32_partial",
    "EDB.C31_int64_partial",
    "EDB.C31_int32_nonneg",
    "EDB.C31_int64_nonneg",
    "EDB.C31_int32_false",
    "EDB.C31_int64_false",
    "EDB.C31_int32_ub_iff"
   ],
   "note": "Numeric order whenever the signed difference does not overflow (in particular for non-negative keys); undefined behaviour exactly otherwise."
  },
  {
   "property": "C32",
   "status": "proved",
   "theorems": [
    "EDB.C32_compare",
    "EDB.C32_unsigned",
    "EDB.C32_signed"
   ],
   "note": "All widths, both signednesses, six operators."
  },
  {
   "property": "C33",
   "status": "proved",
   "theorems": [
    "EDB.C33_selection",
    "EDB.C33_selection_clean"
   ],
   "note": "For every input operator that yields a finite stream."
  },
  {
   "property": "C34",
   "status": "proved",
   "theorems": [
    "EDB.C34_projection",
    "EDB.C34_projection_clean",
    "EDB.C34_layout"
   ],
   "note": ""
  },
  {
   "property": "C35",
   "status": "proved",
   "theorems": [
    "EDB.C35_aggregate",
    "EDB.grouping_exists"
   ],
   "note": "For inputs that keep returning 0 after their end."
  },
  {
   "property": "C36",
   "status": "partial",
   "theorems": [
    "EDB.C36_count",
    "EDB.C36_sum_unsigned",
    "EDB.C36_sum_signed_partial",
    "EDB.C36_min",
    "EDB.C36_max",
    "EDB.C36_feeds",
    "EDB.C36_sum_signed_false",
    "EDB.C36_sum_signed_overflow"
   ],
   "note": "COUNT, MIN, MAX, unsigned SUM in full; signed SUM only for widths 1..4, the code is undefined behaviour for signed widths 5..8."
  },
  {
   "property": "C37",
   "status": "proved",
   "theorems": [
    "EDB.C37_join",
    "EDB.C37_join_forever",
    "EDB.C37_join_mem",
    "EDB.C37_row_after_end"
   ],
   "note": "Rows up to the first 0 are exactly the join. C37_row_after_end: calling next again after 0 may return a bogus row when an input is a bounded table scan."
  },
  {
   "property": "C38",
   "status": "proved",
   "theorems": [
    "EDB.C38_offset",
    "EDB.C38_adjacent",
    "EDB.C38_record_size",
    "EDB.C38_columns",
    "EDB.C38_fits",
    "EDB.C38_widths"
   ],
   "note": ""
  },
  {
   "property": "C39",
   "status": "partial",
   "theorems": [
    "EDB.C39_queries_partial",
    "EDB.C39_keyed",
    "EDB.C39_false_join_ranges"
   ],
   "note": "Any number of tables (new ones after ordinary histories, indexed ones, reopened ones), any sequence of queries, each any tree of bounded scans, selections, projections, aggregations (COUNT, SUM, MIN, MAX, AVG) and key joins: the rows are those of the relational expression. Missing: plans outside PlanOk; for an aggregation over a join of bounded scans the property is false (C39_false_join_ranges)."
  },
  {
   "property": "C40",
   "status": "partial",
   "theorems": [
    "EDB.C40_buffer_slot_partial",
    "EDB.C40_false_slot255",
    "EDB.C40_false_slot255_reached"
   ],
   "note": "False: the int8_t result of searchBuffer makes slot 255 look absent, for every configuration with more than 255 records a page. Every other slot is found."
  },
  {
   "property": "C41",
   "status": "partial",
   "theorems": [
    "EDB.C41_recognised_partial",
    "EDB.C41_recognised_iff",
    "EDB.C41_false",
    "EDB.C41_false_reached"
   ],
   "note": "False of the code above 127 records per page: the count is read as int8_t, the page is not recognised and the table is lost (C41_false, C41_false_reached). Proved: the exact condition for one page, and that every page ever written in any life is recognised when pages hold at most 127 records."
  },
  {
   "property": "C42",
   "status": "partial",
   "theorems": [
    "EDB.C42_flush_partial",
    "EDB.C42_flush_all_partial",
    "EDB.C42_false_put",
    "EDB.C42_false_retry",
    "EDB.C42_false_neighbours",
    "EDB.C42_false_putVar",
    "EDB.C42_false_flush_again",
    "EDB.C42_false_index",
    "EDB.C42_false_index_overflow"
   ],
   "note": "embedDBFlush returns 0 exactly if the data page, the index page and the variable page have been written (C42_flush_all_partial, any state, any failures); a failing flush keeps the data buffer. False for inserts: embedDBPut and embedDBPutVar ignore failed page writes (C42_false_put, C42_false_putVar), which also hides stored neighbours of the lost page (C42_false_neighbours). After a failed flush: a page number is consumed (C42_false_retry), the next flush reports success without writing the variable page (C42_false_flush_again), records are returned twice and the index buffer overflows (C42_false_index, C42_false_index_overflow)."
  },
  {
   "property": "C43",
   "status": "partial",
   "theorems": [
    "EDB.C43_erase_before_write_partial",
    "EDB.C43_life_partial",
    "EDB.C43_false_reopen"
   ],
   "note": "Every history on a table started new, and every life with power failures, except writes to the block that was about to be reused when the file was reopened; for those it is false: C43_false_reopen."
  },
  {
   "property": "C44",
   "status": "partial",
   "theorems": [
    "EDB.C44_put_partial",
    "EDB.C44_flush_partial",
    "EDB.C44_false_scan",
    "EDB.C44_false_wrap"
   ],
   "note": "False as stated: opening an iterator in binary-search mode is undefined in every state, and reclaiming a block uses the unallocated spline unless spline cleaning is disabled. Proved: exact conditions under which inserts and flushes are undefined, for every state."
  },
  {
   "property": "C45",
   "status": "partial",
   "theorems": [
    "EDB.C45_sorted_storage_partial",
    "EDB.C45_sorted_storage_life_partial"
   ],
   "note": "For tables created empty under Cfg.Ok, and for files with any number of power failures and reopenings behind them under Durable."
  },
  {
   "property": "C46",
   "status": "proved",
   "theorems": [
    "EDB.C46_buffer_no_read",
    "EDB.C46_bounded_reads"
   ],
   "note": ""
  },
  {
   "property": "C47",
   "status": "partial",
   "theorems": [
    "EDB.C47_sizes_partial",
    "EDB.C47_accepted",
    "EDB.C47_false_record",
    "EDB.C47_false_header",
    "EDB.C47_false_capacity",
    "EDB.C47_false_var"
   ],
   "note": "Proved: sizes are exact while record and header are at most 127 bytes, and what acceptance by embedDBInit guarantees. False of the code otherwise: int8_t overflow of recordSize and headerSize in accepted configurations, and capacity 0 is accepted."
  },
  {
   "property": "C48",
   "status": "partial",
   "theorems": [
    "EDB.C48_header_stats_partial",
    "EDB.initBm_zero",
    "EDB.C48_false",
    "EDB.C48_false_initial"
   ],
   "note": "For every history of inserts (any key order, refused ones included), flushes, lookups and scans: the header of the write buffer and of every page ever written has correct min/max key and data, and the bitmap is the fold of updateBitmap over its records. Missing: configurations whose header fields overlap (bitmap of more than 8 bytes together with min/max, for which C48_false is a counterexample) and the initial bitmap for more than 8 bytes (C48_false_initial)."
  },
  {
   "property": "C49",
   "status": "partial",
   "theorems": [
    "EDB.C49_life_partial",
    "EDB.C49_reopen_partial",
    "EDB.C49_false_lone_page",
    "EDB.C49_false_blank_page",
    "EDB.C49_false_wrapped",
    "EDB.C49_false_block_boundary"
   ],
   "note": "Lives with any number of operations, power failures during them and reopenings, also after the data file has wrapped (then with maxErr at most 1, and not right after the erase of the first block unless that erase leaves pages unchanged, C18_false_first_block). Missing: power failures during embedDBFlush (false, C30_false_flush), a variable data file that fills up (then data still stored is given up: C49_false_wrapped, C49_false_block_boundary), a single variable page naming key 0 (false: C49_false_lone_page, C49_false_blank_page), conditions of C26. With an index file: room for a bitmap before every flush (the index pages found after a power failure may be any)."
  },
  {
   "property": "C50",
   "status": "partial",
   "theorems": [
    "EDB.C50_avg_unsigned",
    "EDB.C50_avg_signed_partial",
    "EDB.C50_avg_size",
    "EDB.C50_avg_signed_false"
   ],
   "note": "Unsigned columns in full; signed columns of widths 1..4; false for signed widths 5..8 (undefined shift). The floating-point quotient is a parameter here; C77 says what it is."
  },
  {
   "property": "C51",
   "status": "partial",
   "theorems": [
    "EDB.C51_read_partial",
    "EDB.C51_write_partial",
    "EDB.C51_gap_partial",
    "EDB.C51_life_partial",
    "EDB.C51_rlc_partial",
    "EDB.C51_var_partial",
    "EDB.C51_varlife_partial",
    "EDB.C51_false_offset",
    "EDB.C51_false_gap",
    "EDB.C51_false_torn"
   ],
   "note": "Page store for whole pages below 4 GiB written without gaps, and every life of a plain table on either desktop interface shows exactly the pages of the abstract device. With record-level consistency (C51_rlc_partial, no-op erase): the same wherever the abstract device can be read; elsewhere reads fail or show the zeros of a hole. Variable data files (C51_var_partial: any calls, refused requests and power failures) and both files of tables with variable data after any life of C70 (C51_varlife_partial): the same, with the no-op erase. False for offsets of 4 GiB and more (32-bit product), for skipped pages (readable as zeros) and incomplete last pages (failed read changes the buffer)."
  },
  {
   "property": "C52",
   "status": "partial",
   "theorems": [
    "EDB.C52_read_partial",
    "EDB.C52_write_partial",
    "EDB.C52_gap_partial",
    "EDB.C52_life_partial",
    "EDB.C52_var_partial",
    "EDB.C52_varlife_partial",
    "EDB.C52_false_write",
    "EDB.C52_false_code",
    "EDB.C52_false_read"
   ],
   "note": "Page store while the card accepts writes and reads go at most one page behind the end. False: a write the card refuses is reported as success, the failure code -1 counts as success, and reading behind the end returns another page. For tables (C52_life_partial, C52_varlife_partial) and variable data files (C52_var_partial): after any life, with reads in between, the card answers read requests for the stored pages and the first one behind them as the device of the other theorems, and reports every write."
  },
  {
   "property": "C53",
   "status": "partial",
   "theorems": [
    "EDB.C53_store_partial",
    "EDB.C53_life_partial",
    "EDB.C53_open",
    "EDB.C53_separate",
    "EDB.C53_false_reset"
   ],
   "note": "Reads, writes, window checks and separation are proved; false that opening anew clears the file, which lets recovery find records of an earlier table. C53_life_partial: after any life of a table on a chip that held nothing that looks like the table (C65), and whatever was written to other files of the chip in between, the chip answers read requests as the device of the other theorems."
  },
  {
   "property": "C54",
   "status": "partial",
   "theorems": [
    "EDB.C54_reopen_partial",
    "EDB.C54_scan_partial",
    "EDB.C54_operation_partial",
    "EDB.C54_false_hidden",
    "EDB.C54_false_flushed",
    "EDB.C54_false_unerased",
    "EDB.C54_false_erase_range",
    "EDB.C54_false_order"
   ],
   "note": "Proved for every life (LifeX) with any number of power failures at any storage operation of either file, wrapped index files included: reopening succeeds and knows the index pages on file (all not overwritten where erasing changes nothing, at least the latest round otherwise); every scan returns exactly the retained records in bounds; every allowed operation succeeds with the prescribed result. Missing: flushes that leave an index page incomplete, overwriting a cached index page, and completing index pages while data pages lack bitmaps (there the claim is false, C54_false_hidden, _flushed); after mid-block cuts of wrapped files erases are misplaced (C54_false_unerased, _erase_range), which matters only on storage that must be erased before writing. The order in which the two files reach the medium is assumed to be that of the writes (Moment); the code does not flush in between, and without that the claim is false (C54_false_order)."
  },
  {
   "property": "C55",
   "status": "partial",
   "theorems": [
    "EDB.C55_unwrapped_partial",
    "EDB.C55_wrapped_partial",
    "EDB.C55_index_partial",
    "EDB.C55_index_unwrapped_partial",
    "EDB.C55_false_reclaimed",
    "EDB.C55_false_resume"
   ],
   "note": "Proved for all interleavings of inserts, flushes, lookups, scans and any number of iterators: exact deliveries while the pages fit (no other condition), and after any number of wrap-arounds for iterators that still stand on a retained page, without stale read caches; also with a bitmap index. False for iterators whose page was reclaimed and for iterators advanced again after the end."
  },
  {
   "property": "C56",
   "status": "partial",
   "theorems": [
    "EDB.C56_chain_partial",
    "EDB.C56_each_partial",
    "EDB.C56_recursive_partial",
    "EDB.C56_false_aggregate",
    "EDB.C56_false_join",
    "EDB.C56_false_reinit",
    "EDB.C56_false_schema",
    "EDB.C56_false_keys"
   ],
   "note": "Proved in full for selections and projections over a scan, for every tree when the client frees each operator itself (joins initialised once), and for every tree freed recursively that exactly the operators below aggregations and in second join inputs are lost. False as stated: see the C56_false theorems. malloc does not fail in the model."
  },
  {
   "property": "C57",
   "status": "partial",
   "theorems": [
    "EDB.C57_partial",
    "EDB.C57_false_init",
    "EDB.C57_false_iterator_twice"
   ],
   "note": "Proved for every sequence of iterator calls when embedDBInit succeeds; false for a failing embedDBInit and for an iterator closed twice."
  },
  {
   "property": "C58",
   "status": "partial",
   "theorems": [
    "EDB.C58_unwrapped_partial",
    "EDB.C58_wrapped_partial",
    "EDB.C58_index_partial",
    "EDB.C58_false_silent",
    "EDB.C58_false_put",
    "EDB.C58_false_torn"
   ],
   "note": "Every interleaving with any set of unreadable pages per lookup or iterator step, with and without wrap-around and index: exact or a miss that changes nothing. Missing: failed reads inside put (false), reads that overwrite the buffer before failing (false), reporting of misses (false)."
  },
  {
   "property": "C59",
   "status": "partial",
   "theorems": [
    "EDB.C59_lookup_reads_partial",
    "EDB.C59_scan_reads_partial",
    "EDB.C59_insert_cost",
    "EDB.C59_false_spline_full",
    "EDB.C59_history_reads_partial"
   ],
   "note": "Inserts: every state. Lookups and scans: histories without a stale read cache (C02), at most 255 records per page, products within 64 bits (C01), no bitmap index for scans. Without room for the spline points the bound is false (witness). Whole histories: C59_history_reads_partial bounds the total number of page reads."
  },
  {
   "property": "C60",
   "status": "partial",
   "theorems": [
    "EDB.C60_even_wear",
    "EDB.C60_life_partial",
    "EDB.C60_life_erases_partial"
   ],
   "note": "Without power failures: all histories, writes and erases. With power failures: Durable configurations; writes stay even, erases differ by at most one more per power failure."
  },
  {
   "property": "C61",
   "status": "partial",
   "theorems": [
    "EDB.C61_lookup_partial",
    "EDB.C61_put_partial",
    "EDB.C61_reopen_partial",
    "EDB.C61_reopen_long_partial",
    "EDB.C61_false_first_page",
    "EDB.C61_false_reopen",
    "EDB.C61_false_reopen_long"
   ],
   "note": "Lookups once a page was written (before that only keys within the write buffer), page completion in embedDBPut, and opening files of full pages with keys of at most 4 bytes, or with longer keys less than 2^30 apart on a page; false otherwise (witnesses), spline search mode only."
  },
  {
   "property": "C62",
   "status": "partial",
   "theorems": [
    "EDB.C62_lookup_partial",
    "EDB.C62_lookup_x87_partial",
    "EDB.C62_false_float",
    "EDB.C62_false_double"
   ],
   "note": "For every precision with one bit more than the largest product of key and page differences, hence always with 64 bits (x86) in the setting of C02; false for binary32 (AVR) and binary64 (ARM) in general (witnesses)."
  },
  {
   "property": "C63",
   "status": "partial",
   "theorems": [
    "EDB.C63_result_partial",
    "EDB.C63_history_partial",
    "EDB.C63_getVar_partial",
    "EDB.C63_nextVar_partial"
   ],
   "note": "Every configuration. Missing: torn reads (C58_false_torn) and torn writes, erases that leave readable foreign content, the bytes of the variable data. Nothing is claimed about completeness, order or repetition (C05-C08, C42, C58)."
  },
  {
   "property": "C64",
   "status": "partial",
   "theorems": [
    "EDB.C64_durable_partial",
    "EDB.C64_temporary_partial",
    "EDB.C64_false_unacknowledged"
   ],
   "note": "Proved for all lives of spline-mode tables with at least four blocks, positive keys and a variable data file that does not wrap; flushes that complete a block are excluded (C21_false_flush). False of inserts that were cut off: their records may come back with the variable data of the next record (C64_false_unacknowledged). Pages of the data file never written may be readable as in C20 (Gaps); the file is what the storage operations made (Spec.MadeBy)."
  },
  {
   "property": "C65",
   "status": "partial",
   "theorems": [
    "EDB.C65_crash_partial",
    "EDB.C65_usable_partial",
    "EDB.C65_usable_unwrapped_partial",
    "EDB.C65_created_partial",
    "EDB.vacant_erased",
    "EDB.vacant_zeroed",
    "EDB.C65_false_odd",
    "EDB.C65_false_stale"
   ],
   "note": "Lives of plain spline-mode tables (Durable, SafeCut as in C18) on a device with initial content: recovery finds exactly the pages written, from Spec.recovered on, and everything observed afterwards agrees with them. The content must not look like the table (Vacant): proved for erased chips with an even block size and for zeroed ones. False otherwise: C65_false_odd (odd block size, erased chip), C53_false_reset (old table). Use after recovery needs at least one page found: opening an empty formatted chip leaves a blank page in the cache (C65_false_stale)."
  },
  {
   "property": "C66",
   "status": "partial",
   "theorems": [
    "EDB.C66_sporadic_partial",
    "EDB.C66_exhausted_partial",
    "EDB.C66_created_partial",
    "EDB.C66_runs",
    "EDB.C66_false_selection",
    "EDB.C66_false_projection",
    "EDB.C66_false_columns",
    "EDB.C66_false_join",
    "EDB.C66_false_aggregate",
    "EDB.C66_false_leak",
    "EDB.C66_false_schema",
    "EDB.C66_false_spline",
    "EDB.C66_false_iterator"
   ],
   "note": "False in general (witnesses C66_false_*). Proved: no undefined behaviour and at most one block lost (none if no request fails) for one projection, aggregation or join over scans whichever requests fail; for towers of projections and aggregations over a scan or a join of scans when requests fail from some point on; for every valid tree when only requests of the create calls fail. In the first two, exec is not called if there is an aggregation. Missing: the cases in which the code is wrong; the client's own objects and the database are taken to be allocated."
  },
  {
   "property": "C67",
   "status": "partial",
   "theorems": [
    "EDB.C67_variable",
    "EDB.C67_index_partial",
    "EDB.C67_data_partial",
    "EDB.C67_rlc_partial",
    "EDB.C67_false_data",
    "EDB.C67_false_index",
    "EDB.C67_false_rlc_one",
    "EDB.C67_false_rlc_flush"
   ],
   "note": "Any interleaving of interface calls on tables started new. Variable data file: proved for every configuration and with requests refused by the device at any time. Index and data file: for devices that carry out every request; false otherwise (C67_false_data, C67_false_index: after one refused write a later erase leaves the file). Data file with record-level consistency: bounds, whole blocks and erase before write, for blocks of two or more pages and when no flush completes a block (both needed: C67_false_rlc_one, C67_false_rlc_flush); wear is not claimed there."
  },
  {
   "property": "C68",
   "status": "partial",
   "theorems": [
    "EDB.C68_ring_partial",
    "EDB.C68_reopen_partial",
    "EDB.C68_false_first_block",
    "EDB.C68_false_unreadable",
    "EDB.C67_false_reopen"
   ],
   "note": "Any number of lives, any calls, any refused requests, power failing after any operation on the variable data file, any data file: pages stay inside the file, are written in turn with even wear, the number of the next page is the number of pages written, all pages not counted as available are in the file byte for byte, space ends at a block boundary and is at most one block. Opening succeeds if the oldest data page can be read; new data starts at the next page; the smallest key follows the oldest page kept. Partial: a single page naming key 0 (C49_false_lone_page), power failure between the erase of the first block and the write of its first page when erasing clears (C68_false_first_block), unreadable erased pages (C68_false_unreadable); the given-up block is not always erased before it is used (C67_false_reopen)."
  },
  {
   "property": "C69",
   "status": "partial",
   "theorems": [
    "EDB.C69_reads_partial",
    "EDB.C69_exact_partial",
    "EDB.C69_inserts_partial",
    "EDB.C69_crash_partial"
   ],
   "note": "Any number of wraps of the variable data file: after a power failure between two operations (C69_reads_partial) or at any storage operation inside an insert or lookup (C69_crash_partial) the table opens, and after any lookups every lookup gives the record as kept by the data file, with its variable data exact or given up (code 1), given up exactly if it starts on or before the oldest page counted as stored, that page not being page 0 (C69_exact_partial). C69_inserts_partial: no conditions on the states for a client that only inserts (keys at least 1, all with variable data) and flushes. Partial: only lookups afterwards (inserts: C70); not inside a flush (C30_false_flush); erased pages stay readable; data file not wrapped or spline error at most 1 (as C18); states before as in C28; a single variable page naming key 0 (C49_false_lone_page). With an index file: room for a bitmap before every flush (the index pages found after a power failure may be any)."
  },
  {
   "property": "C70",
   "status": "partial",
   "theorems": [
    "EDB.C70_step_partial",
    "EDB.C70_reopen_partial",
    "EDB.C70_false_again"
   ],
   "note": "Any number of power failures (between operations or at any storage operation inside an insert or lookup), reopenings and wraps of the variable data file: every operation of the client runs and has the right result, the variable data being exact, or gone exactly if it starts before the limit stated (C70_step_partial); every reopening succeeds and finds all data pages written (C70_reopen_partial). Partial: new keys exceed all keys ever offered, also those of lost records (C70_false_again shows this is needed); not inside a flush (C30_false_flush); erased pages stay readable; data file not wrapped or spline error at most 1 at a power failure (as C18); each operation under the conditions of C28 on its state (CacheFree, WrapSafe, CleanRead); a single variable page naming key 0 (C49_false_lone_page). With an index file: room for a bitmap before every flush (the index pages found after a power failure may be any)."
  },
  {
   "property": "C71",
   "status": "partial",
   "theorems": [
    "EDB.C71_open_partial",
    "EDB.C71_lookup_partial",
    "EDB.C71_put_partial",
    "EDB.C71_false_open",
    "EDB.C71_false_witness"
   ],
   "note": "The same as the library for lookups and inserts with keys of up to 8 bytes and for opening files with keys of at most 4 bytes. False for opening files with longer keys: every file that starts with a page of the table is opened with a read out of bounds (C71_false_open), also files the library opens (C71_false_witness)."
  },
  {
   "property": "C72",
   "status": "partial",
   "theorems": [
    "EDB.C72_history_partial",
    "EDB.C72_below_partial",
    "EDB.C72_false_other_data",
    "EDB.C72_false_full_size"
   ],
   "note": "Every history is answered as in C28 although the 32-bit position wraps, if the size of the variable data file divides 2^32 (under the conditions of C28_history_partial); for any size while the position is below 2^32. Otherwise false: the location stored with a record jumps when the counter wraps and another record's bytes are returned (C72_false_other_data, by induction over 2^26 + 1 inserts); a file of exactly 4 GiB divides by zero (C72_false_full_size). With an index file: room for a bitmap before every flush (the index pages found after a power failure may be any)."
  },
  {
   "property": "C73",
   "status": "partial",
   "theorems": [
    "EDB.C73_unwrapped_partial",
    "EDB.C73_wrapped_partial",
    "EDB.C73_life_partial",
    "EDB.C73_false_reclaimed"
   ],
   "note": "Proved for every interleaving of streams with inserts, flushes and lookups on a new table, with an index file or without, and (C73_life_partial) on a table after any life with power failures and reopenings, under the conditions of C26/C27 (no piece ends exactly at the end of a variable page with more to come; no lookup of a buffered record while the read cache is in use; the data page overwritten is not cached). When the variable data file wraps: as long as no variable page was reclaimed since the stream was opened. False without that: C73_false_reclaimed. Missing: streams from embedDBNextVar."
  },
  {
   "property": "C74",
   "status": "partial",
   "theorems": [
    "EDB.C74_open_partial",
    "EDB.C74_keeps",
    "EDB.C74_reset",
    "EDB.C74_missing",
    "EDB.C74_sessions_partial",
    "EDB.C74_close_iff",
    "EDB.C74_false_close",
    "EDB.C74_false_twice",
    "EDB.C74_false_no_var",
    "EDB.C74_false_again"
   ],
   "note": "Proved for any number of sessions: what is opened, kept and emptied, and that no stream is lost or closed twice if a refused embedDBInit is followed by tearing the files down. False: embedDBClose after a refused embedDBInit and closing twice call fclose(NULL) on the desktop (exact condition: C74_close_iff), a missing variable data file is dereferenced, embedDBInit of an open table loses its streams. What recovery returns and the checks of the configuration are parameters."
  },
  {
   "property": "C75",
   "status": "partial",
   "theorems": [
    "EDB.C75_counts_partial",
    "EDB.C75_reset",
    "EDB.C75_hits",
    "EDB.C75_start_partial",
    "EDB.C75_data",
    "EDB.C75_idx",
    "EDB.C75_var",
    "EDB.C75_false_temp",
    "EDB.C75_false_start"
   ],
   "note": "For every sequence of accesses and answers of the device: the counters modulo 2^32, and exactly when the device is not asked. False in two respects, both proved: writes of temporary pages are not counted, and a table with variable data is opened without resetting the counters. C75_data, C75_idx and C75_var tie the model of the counters to the functions that read pages in the models of the three files; for writes the tie is by reading."
  },
  {
   "property": "C76",
   "status": "partial",
   "theorems": [
    "EDB.C76_reads_partial",
    "EDB.C76_life_partial"
   ],
   "note": "Under the conditions of C23 (no flush that leaves an index page incomplete, no stale read cache) and, after power failures, of C54, for bitmaps of at most 8 bytes: longer ones do not start empty (C48_false_initial), so they match more than their records. The number of index pages read is not bounded here."
  },
  {
   "property": "C77",
   "status": "partial",
   "theorems": [
    "EDB.C77_error",
    "EDB.C77_rounded_partial",
    "EDB.C77_between_partial",
    "EDB.C77_exact_partial",
    "EDB.C77_false_float",
    "EDB.C77_false_double"
   ],
   "note": "The error bound is proved in full. Being between the smallest and the largest value, and exact for whole means, is false of the code when the sum has more than 24 (53) bits (C77_false_float, C77_false_double); it is proved when sum and count fit. Signed columns of more than 4 bytes are excluded as in C50."
  },
  {
   "property": "C78",
   "status": "partial",
   "theorems": [
    "EDB.C78_flush_partial",
    "EDB.C78_var_partial",
    "EDB.C78_var_put_partial",
    "EDB.C78_kept_partial",
    "EDB.C78_false_var",
    "EDB.C78_false_var_full",
    "EDB.C78_false_ignored",
    "EDB.C78_false_rlc",
    "EDB.C78_false_wrong_data"
   ],
   "note": "Data file and index file: proved for every history (inserts, lookups, iterators, streams), with or without record-level consistency, whatever writes and erases fail, if fileInterface->flush itself succeeds; its answer is ignored (C78_false_ignored). C78_kept_partial: the records of the data file accepted before such a flush are found after a power failure at any later moment. Variable data file: the exact condition (C78_var_partial), for an insert followed by a flush in terms of the length of the data (C78_var_put_partial); false when the variable write buffer is empty (C78_false_var, C78_false_var_full, with the consequence C78_false_wrong_data). C78_false_rlc: inserts with record-level consistency do not flush."
  }
 ]
}