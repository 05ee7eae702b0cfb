{"id": "C01", "title": "Point lookup returns exactly what was inserted (before storage reuse)", "statement": "For a table in the default (spline) mode whose data file has never been filled past its capacity, after any sequence of inserts with strictly ascending keys, flushes, lookups and complete scans, embedDBGet(k) returns 0 and the byte-exact data that was inserted with k if k was inserted, and returns -1 if k was never inserted.", "quantifier": "every page geometry, every sequence of puts/flushes/gets/scans that does not wrap the data file, every key k", "why_tests_cant": "The page location is predicted by an approximate spline and a float estimate; tests only try a handful of key distributions, while the claim is for every distribution, page size, flush pattern and interleaving with cached reads.", "anchors": ["src/embedDB/embedDB.c:embedDBGet", "src/embedDB/embedDB.c:embedDBPut", "src/embedDB/embedDB.c:embedDBFlush", "src/embedDB/embedDB.c:splineSearch", "src/embedDB/embedDB.c:linearSearch", "src/embedDB/embedDB.c:embedDBSearchNode", "src/embedDB/embedDB.c:readPage"]}
{"id": "C02", "title": "Point lookup stays exact after the data file wraps", "statement": "The same exactness as C01 when older pages have been overwritten: a lookup of a key whose record is still retained returns the inserted bytes, and a lookup of a key that was never inserted or whose page has been reclaimed returns -1.", "quantifier": "every history of puts, flushes and lookups including ones that reuse storage pages any number of times", "why_tests_cant": "Whether a wrong answer appears depends on which page happens to be in the one-page read cache at the moment a page is overwritten; the schedules are unbounded.", "anchors": ["src/embedDB/embedDB.c:readPage", "src/embedDB/embedDB.c:writePage", "src/embedDB/embedDB.c:embedDBGet"]}
{"id": "C03", "title": "Insertion order is enforced", "statement": "embedDBPut accepts a key only if it is strictly greater than every key accepted before it in the life of the table; any other key is rejected with a non-zero result.", "quantifier": "every history of puts and flushes and every next key", "why_tests_cant": "The check reads a different location depending on the history (buffer empty or not, last page full or partial, after recovery), so it has to hold over all histories.", "anchors": ["src/embedDB/embedDB.c:embedDBPut", "src/embedDB/embedDB.c:embedDBFlush"]}
{"id": "C04", "title": "A rejected insert changes nothing", "statement": "When embedDBPut rejects a key because it is not ascending, the contents visible to every later lookup, scan and recovery are unchanged.", "quantifier": "every reachable state and every rejected key/data pair", "why_tests_cant": "Needs a comparison of all observable behaviour before and after, for every state.", "anchors": ["src/embedDB/embedDB.c:embedDBPut"]}
{"id": "C05", "title": "A full scan returns every retained record exactly once, in order", "statement": "An iterator opened without bounds and advanced until embedDBNext returns 0 yields exactly the retained records, each once, in insertion (ascending key) order, including those still in the write buffer.", "quantifier": "every state reachable by puts, flushes and reads; every page geometry", "why_tests_cant": "Off-by-one errors at page, block and buffer boundaries only show for particular record counts; the claim is for all of them.", "anchors": ["src/embedDB/embedDB.c:embedDBInitIterator", "src/embedDB/embedDB.c:embedDBNext"]}
{"id": "C06", "title": "A range scan returns exactly the matching records", "statement": "An iterator opened with any combination of minKey, maxKey, minData and maxData yields exactly the retained records that satisfy all given bounds (inclusive), in ascending key order, then ends.", "quantifier": "every reachable state (no bitmap index), every combination and value of the four bounds", "why_tests_cant": "The start page is predicted from the spline and the scan stops early on maxKey; every distribution of keys and every bound matters.", "anchors": ["src/embedDB/embedDB.c:embedDBInitIterator", "src/embedDB/embedDB.c:embedDBNext", "src/spline/spline.c:splineFind"]}
{"id": "C07", "title": "Open iterators are independent of other reads", "statement": "Interleaving embedDBNext calls of one iterator with lookups and with other iterators on the same table (which all share one page read buffer) does not change the sequence of records any iterator returns.", "quantifier": "every interleaving of any number of iterators and lookups between two modifications of the table", "why_tests_cant": "The number of interleavings is unbounded and the shared buffer makes each of them a potential interference.", "anchors": ["src/embedDB/embedDB.c:embedDBNext", "src/embedDB/embedDB.c:readPage", "src/embedDB/embedDB.c:embedDBGet"]}
{"id": "C08", "title": "Bounded-log retention", "statement": "With a data file of N pages and erase blocks of B pages, data is only ever reclaimed oldest first and a whole block at a time; nothing is reclaimed before N pages have been written, and at every moment the newest N-B pages' records (and the write buffer) are retained.", "quantifier": "every history of puts and flushes, every N and B with B dividing N and N >= 2B", "why_tests_cant": "The retention window must hold after arbitrarily many wrap-arounds, not just the one or two a test performs.", "anchors": ["src/embedDB/embedDB.c:writePage", "src/embedDB/embedDB.c:embedDBInitData"]}
{"id": "C09", "title": "Flush makes everything durable and changes nothing visible", "statement": "After embedDBFlush succeeds, the set of retained records is the same as before except that (only when storage was full) the oldest erase block may have been reclaimed, and every retained record is on the storage device.", "quantifier": "every reachable state", "why_tests_cant": "Has to hold for every fill level of the write buffer and every position in the erase cycle.", "anchors": ["src/embedDB/embedDB.c:embedDBFlush", "src/embedDB/embedDB.c:writePage"]}
{"id": "C10", "title": "Every storage access is inside the configured file and every buffered record inside its page", "statement": "No put, flush, lookup or scan writes a page outside [0, numDataPages) of the data file or stores a record outside the page buffer, and a page never contains more records than fit.", "quantifier": "every configuration accepted by embedDBInit and every history", "why_tests_cant": "Out-of-bounds accesses appear only at particular sizes and counts, and a test that happens not to crash proves nothing.", "anchors": ["src/embedDB/embedDB.c:embedDBPut", "src/embedDB/embedDB.c:writePage", "src/embedDB/embedDB.c:initBufferPage"]}
{"id": "C11", "title": "In-page search is exact for any starting guess", "statement": "Searching a page of records sorted by key returns the index of the record with the searched key if there is one and 'not found' otherwise, and terminates, whatever starting position the linear (floating point) estimate suggests.", "quantifier": "every sorted page, every key, every value of the float estimate", "why_tests_cant": "The estimate is a float rounding artefact; tests can't enumerate all of them.", "anchors": ["src/embedDB/embedDB.c:embedDBSearchNode", "src/embedDB/embedDB.c:embedDBEstimateKeyLocation"]}
{"id": "C12", "title": "The spline's page prediction always brackets the true page", "statement": "For any ascending sequence of (first key, page) points fed to the spline, for every key that lies on one of the pages, the [low, high] range returned by the lookup contains that page.", "quantifier": "every ascending point sequence, every error bound, every spline capacity >= 4, every key; keys/pages bounded so that 64-bit products don't overflow", "why_tests_cant": "A greedy corridor construction evaluated with mixed signed/unsigned 64-bit arithmetic: correctness for all distributions cannot be sampled.", "anchors": ["src/spline/spline.c:splineAdd", "src/spline/spline.c:splineFind", "src/spline/spline.c:splineIsLeft", "src/spline/spline.c:splineIsRight"]}
{"id": "C13", "title": "The spline never exceeds its memory", "statement": "However many points are added (and however often old ones are cleaned), the number of stored spline points never exceeds the configured capacity and the most recently added point is always present.", "quantifier": "every sequence of adds and erases, every capacity >= 4", "why_tests_cant": "Unbounded run lengths; overflow of the ring appears only after many adds.", "anchors": ["src/spline/spline.c:splineAdd", "src/spline/spline.c:splineErase", "src/embedDB/embedDB.c:cleanSpline"]}
{"id": "C14", "title": "Locating the spline segment", "statement": "For any ascending array of spline points and any key between the smallest and the largest point, the segment search returns a segment whose end points bracket the key.", "quantifier": "every ascending array of at least two points and every key in its range", "why_tests_cant": "Recursive binary search with several early exits; all shapes needed.", "anchors": ["src/spline/spline.c:pointsBinarySearch"]}
{"id": "C15", "title": "The page-by-page fallback search is exact and terminates", "statement": "Starting from any predicted page inside a bracket that contains the right page, the fallback search finds the page holding the key in at most (bracket size + 1) page reads; when no page holds the key it reports failure, and it always terminates.", "quantifier": "every ascending sequence of pages, every bracket, every starting page", "why_tests_cant": "Bouncing between two pages forever is a schedule-dependent failure.", "anchors": ["src/embedDB/embedDB.c:linearSearch"]}
{"id": "C16", "title": "Binary-search mode finds every record", "statement": "With EMBEDDB_USE_BINARY_SEARCH, embedDBGet returns the inserted data for every retained key and -1 for other keys, with defined behaviour.", "quantifier": "every sorted table and every key", "why_tests_cant": "The exit path depends on how the interval narrows, which depends on the number of pages and the key.", "anchors": ["src/embedDB/embedDB.c:binarySearch", "src/embedDB/embedDB.c:embedDBGet"]}
{"id": "C17", "title": "Reopening a flushed table restores it", "statement": "After any history followed by a successful embedDBFlush and close, reopening the same file without EMBEDDB_RESET_DATA succeeds and exposes exactly the same records (minus at most the one erase block that the next write would reclaim).", "quantifier": "every history of puts and flushes ending in a flush, including ones that wrapped the file any number of times", "why_tests_cant": "The recovery scan infers the log's position from page ids alone; all wrap positions must work.", "anchors": ["src/embedDB/embedDB.c:embedDBInitDataFromFile", "src/embedDB/embedDB.c:embedDBInitSplineFromFile"]}
{"id": "C18", "title": "Crash recovery of the data file at any storage operation", "statement": "If power fails at any point between two storage operations, reopening the file exposes exactly the records of the pages that had been written (minus the erase block being reclaimed, at most one block): nothing torn, duplicated, reordered or invented.", "quantifier": "every history and every crash point (every prefix of the sequence of page writes and block erases), every effect the erase has on the erased pages' content", "why_tests_cant": "The number of crash points is unbounded and the failing ones are specific positions in the erase cycle.", "anchors": ["src/embedDB/embedDB.c:embedDBInitDataFromFile", "src/embedDB/embedDB.c:writePage"]}
{"id": "C19", "title": "A recovered table is fully usable", "statement": "After recovery, lookups and scans answer exactly according to the recovered records, and inserts continue the same log (same invariants as before the crash).", "quantifier": "every recovered state and every continuation", "why_tests_cant": "Needs the recovered in-memory state (spline, counters) to satisfy the same invariant as the running system, for every crash point.", "anchors": ["src/embedDB/embedDB.c:embedDBInitDataFromFile", "src/embedDB/embedDB.c:embedDBInitSplineFromFile", "src/embedDB/embedDB.c:embedDBGet"]}
{"id": "C20", "title": "Record-level consistency: an acknowledged insert survives a crash", "statement": "With EMBEDDB_RECORD_LEVEL_CONSISTENCY, once embedDBPut has returned 0 the record is found after a crash at any later storage operation and recovery (as long as it is within the retention window).", "quantifier": "every history of inserts and every later crash point", "why_tests_cant": "Temporary pages rotate through two blocks that themselves move; every alignment of the two cycles must be safe.", "anchors": ["src/embedDB/embedDB.c:writeTemporaryPage", "src/embedDB/embedDB.c:shiftRecordLevelConsistencyBlocks", "src/embedDB/embedDB.c:embedDBInitDataFromFileWithRecordLevelConsistency"]}
{"id": "C21", "title": "Record-level consistency temporary pages never overwrite permanent data", "statement": "With EMBEDDB_RECORD_LEVEL_CONSISTENCY, under any mix of inserts and flushes, no temporary page is ever written over, and no temporary-area erase ever covers, a permanent page that holds retained records.", "quantifier": "every history of puts and flushes", "why_tests_cant": "Only particular alignments of flushes with block boundaries collide.", "anchors": ["src/embedDB/embedDB.c:embedDBPut", "src/embedDB/embedDB.c:embedDBFlush", "src/embedDB/embedDB.c:writeTemporaryPage", "src/embedDB/embedDB.c:shiftRecordLevelConsistencyBlocks"]}
{"id": "C22", "title": "Page header and records never overlap", "statement": "For every combination of feature flags, the header fields the library maintains (count, bitmap, min/max) lie inside the header, so that storing and maintaining them never alters a stored record.", "quantifier": "every combination of EMBEDDB_USE_INDEX / USE_BMAP / USE_MAX_MIN and every key, data and bitmap size accepted by embedDBInit", "why_tests_cant": "A combinatorial configuration space of which tests exercise one or two points.", "anchors": ["src/embedDB/embedDB.c:embedDBInit", "src/embedDB/embedDB.c:initBufferPage", "src/embedDB/embedDB.c:embedDBPut", "src/embedDB/embedDB.h:EMBEDDB_MIN_OFFSET"]}
{"id": "C23", "title": "The bitmap index never hides a matching record", "statement": "A data-filtered scan with the bitmap index enabled returns exactly the same records as the same scan without the index.", "quantifier": "every history of puts and flushes, every filter, every sound bitmap function", "why_tests_cant": "A false negative in one page for one query is invisible unless exactly that query is tested.", "anchors": ["src/embedDB/embedDB.c:embedDBNext", "src/embedDB/embedDB.c:embedDBPut", "src/embedDB/embedDB.c:embedDBFlush", "src/embedDB/embedDB.c:writeIndexPage"]}
{"id": "C24", "title": "Supplied 8-bit and 16-bit bitmap functions are sound", "statement": "For the supplied 8- and 16-bucket bitmap functions, whenever a value lies within a query's [min, max] (either side possibly absent), a page bitmap that value was added to overlaps the query's bitmap, and inBitmap agrees with the bucket set by updateBitmap.", "quantifier": "all values, all bounds, all bitmaps", "why_tests_cant": "Bucket boundaries; all integer values.", "anchors": ["lib/EmbedDB-Utility/embedDBUtility.c:updateBitmapInt8", "lib/EmbedDB-Utility/embedDBUtility.c:buildBitmapInt8FromRange", "lib/EmbedDB-Utility/embedDBUtility.c:inBitmapInt8", "lib/EmbedDB-Utility/embedDBUtility.c:updateBitmapInt16", "lib/EmbedDB-Utility/embedDBUtility.c:buildBitmapInt16FromRange", "src/embedDB/embedDB.c:bitmapOverlap"]}
{"id": "C25", "title": "Supplied 64-bit bitmap functions are sound", "statement": "Same claim as C24 for the supplied 64-bucket functions.", "quantifier": "all values, all bounds, all bitmaps", "why_tests_cant": "A false negative only appears for values and bounds in certain different buckets.", "anchors": ["lib/EmbedDB-Utility/embedDBUtility.c:updateBitmapInt64", "lib/EmbedDB-Utility/embedDBUtility.c:buildBitmapInt64FromRange", "lib/EmbedDB-Utility/embedDBUtility.c:inBitmapInt64"]}
{"id": "C26", "title": "Variable-length data round-trips", "statement": "In a table with variable-length data whose variable data file has not wrapped, embedDBPutVar followed by any number of further inserts, flushes and reads lets embedDBGetVar(key) produce a stream that returns exactly the stored bytes; a record stored without variable data produces no stream.", "quantifier": "every page geometry, every length and content, every history without wrap-around", "why_tests_cant": "Spanning any number of pages from any starting offset; header skipping at every alignment.", "anchors": ["src/embedDB/embedDB.c:embedDBPutVar", "src/embedDB/embedDB.c:embedDBGetVar", "src/embedDB/embedDB.c:embedDBSetupVarDataStream", "src/embedDB/embedDB.c:embedDBVarDataStreamRead", "src/embedDB/embedDB.c:writeVariablePage"]}
{"id": "C27", "title": "Chunked stream reads reassemble the data", "statement": "Reading a variable-data stream in chunks of any sizes yields the same bytes as reading it at once.", "quantifier": "every split of the total length into read sizes, every alignment", "why_tests_cant": "Only chunks ending exactly at a page boundary misbehave; depends on alignment.", "anchors": ["src/embedDB/embedDB.c:embedDBVarDataStreamRead"]}
{"id": "C28", "title": "Overwritten variable data is reported, not returned as garbage", "statement": "After the variable data file wraps, embedDBGetVar for a record whose variable data was reclaimed says so (result 1 / no stream), and for every record whose variable data is still stored returns exactly the stored bytes.", "quantifier": "every history with any number of wraps", "why_tests_cant": "Depends on which variable page is cached and which page was last in the erased block.", "anchors": ["src/embedDB/embedDB.c:writeVariablePage", "src/embedDB/embedDB.c:readVariablePage", "src/embedDB/embedDB.c:embedDBSetupVarDataStream"]}
{"id": "C29", "title": "Iterating variable data returns each record's own data", "statement": "embedDBNextVar pairs each record returned by the iterator with that record's own variable data, wherever the record currently is (storage or write buffer).", "quantifier": "every state and every iterator position", "why_tests_cant": "Depends on the combination of stored pages and buffered records.", "anchors": ["src/embedDB/embedDB.c:embedDBNextVar"]}
{"id": "C30", "title": "Variable data reaches storage before the record that refers to it", "statement": "When records are inserted with embedDBPutVar, at every crash point every record on a stored data page has all of its variable data on stored variable pages.", "quantifier": "every history of embedDBPutVar and embedDBFlush and every crash point", "why_tests_cant": "Ordering of writes to two files at every possible crash point.", "anchors": ["src/embedDB/embedDB.c:embedDBPutVar", "src/embedDB/embedDB.c:embedDBFlush", "src/embedDB/embedDB.c:writeVariablePage"]}
{"id": "C31", "title": "Supplied key comparators order keys numerically", "statement": "int32Comparator and int64Comparator return a negative number, zero or a positive number according to the numeric order of the two keys, for all keys.", "quantifier": "all pairs of 32-bit / 64-bit values", "why_tests_cant": "2^64 / 2^128 pairs.", "anchors": ["lib/EmbedDB-Utility/embedDBUtility.c:int32Comparator", "lib/EmbedDB-Utility/embedDBUtility.c:int64Comparator"]}
{"id": "C32", "title": "Query column comparison is numeric", "statement": "The query layer's comparison of two column values is the numeric comparison of the unsigned (or two's complement signed) little-endian integers they encode, for every column width, and each of the six selection operators agrees with it.", "quantifier": "all byte strings of every length, both signednesses, six operators", "why_tests_cant": "All byte strings of all widths.", "anchors": ["src/query-interface/advancedQueries.c:compareUnsignedNumbers", "src/query-interface/advancedQueries.c:compareSignedNumbers", "src/query-interface/advancedQueries.c:compare"]}
{"id": "C33", "title": "Selection returns exactly the qualifying rows", "statement": "A selection operator yields, in order, exactly those input rows whose column satisfies the comparison with the constant, whatever the input operator produces.", "quantifier": "every finite input stream, every schema, column, operator and constant", "why_tests_cant": "All streams.", "anchors": ["src/query-interface/advancedQueries.c:next for selection operator (nextSelection)", "src/query-interface/advancedQueries.c:createSelectionOperator"]}
{"id": "C34", "title": "Projection returns exactly the chosen columns", "statement": "A projection operator yields one row per input row containing exactly the chosen columns' bytes in order, and its output schema describes that layout.", "quantifier": "every schema, every list of column numbers, every input stream", "why_tests_cant": "All schemas.", "anchors": ["src/query-interface/advancedQueries.c:nextProjection", "src/query-interface/advancedQueries.c:initProjection", "src/query-interface/schema.c:getColOffsetFromSchema"]}
{"id": "C35", "title": "Aggregation groups exactly the consecutive runs", "statement": "The aggregate operator produces one row per maximal run of consecutive input rows in the same group, each aggregate being fed exactly the rows of that run once and in order; no row is lost or counted twice at group boundaries or at the end.", "quantifier": "every input stream and every group predicate and aggregate function list", "why_tests_cant": "Boundary rows (first of next group, last group, single-row groups) for all streams.", "anchors": ["src/query-interface/advancedQueries.c:nextAggregate"]}
{"id": "C36", "title": "COUNT, SUM, MIN and MAX compute the mathematical value", "statement": "The supplied count, sum, min and max aggregates return the number, sum (mod 2^64), minimum and maximum of the column over the group for every supported column width and signedness.", "quantifier": "every non-empty group, every column width 1..8, both signednesses", "why_tests_cant": "All values and widths; sign extension per width.", "anchors": ["src/query-interface/advancedQueries.c:sumAdd", "src/query-interface/advancedQueries.c:counterAdd", "src/query-interface/advancedQueries.c:minAdd", "src/query-interface/advancedQueries.c:maxAdd", "src/query-interface/advancedQueries.c:sumCompute"]}
{"id": "C37", "title": "Key join returns exactly the matching pairs", "statement": "The key equijoin of two streams with strictly ascending unsigned keys yields exactly the pairs with equal keys, in key order, each once.", "quantifier": "every pair of streams sorted by key", "why_tests_cant": "All interleavings of the two inputs.", "anchors": ["src/query-interface/advancedQueries.c:nextKeyJoin"]}
{"id": "C38", "title": "Schema offsets address disjoint columns that fill the record", "statement": "For every schema, column offsets computed by the library are the prefix sums of the column widths, columns do not overlap, and the record size is exactly their total.", "quantifier": "every list of column sizes and signednesses", "why_tests_cant": "All schemas.", "anchors": ["src/query-interface/schema.c:getColOffsetFromSchema", "src/query-interface/schema.c:getRecordSizeFromSchema", "src/query-interface/schema.c:embedDBCreateSchema"]}
{"id": "C39", "title": "Query pipelines compose", "statement": "For every pipeline built from table scan, selection, projection, aggregation and join operators, the rows produced are those of the corresponding relational expression over the retained records.", "quantifier": "every finite composition of operators over every table", "why_tests_cant": "Unbounded compositions.", "anchors": ["src/query-interface/advancedQueries.c:exec", "src/query-interface/advancedQueries.c:createTableScanOperator", "src/query-interface/advancedQueries.c:nextTableScan"]}
{"id": "C40", "title": "A lookup or put in the write buffer works for every page capacity", "statement": "A record that is still in the write buffer is found by embedDBGet for every slot it may occupy, for every page size embedDBInit accepts.", "quantifier": "every page size, record size and fill level", "why_tests_cant": "Only slots past 127/255 in large pages misbehave.", "anchors": ["src/embedDB/embedDB.c:searchBuffer", "src/embedDB/embedDB.c:embedDBGet", "src/embedDB/embedDB.c:embedDBGetVar"]}
{"id": "C41", "title": "Recovery recognises every page the library wrote", "statement": "Every page written to the data file is recognised as a valid page when the table is reopened, for every number of records it holds.", "quantifier": "every page size and fill level", "why_tests_cant": "Only counts above 127 misbehave.", "anchors": ["src/embedDB/embedDB.c:embedDBInitDataFromFile"]}
{"id": "C42", "title": "A failed page write is reported", "statement": "If the storage device fails to write a page during embedDBPut or embedDBFlush, the call returns a non-zero code and the records in the write buffer are not lost.", "quantifier": "every state and every failing storage operation", "why_tests_cant": "Fault injection at every storage operation of every history.", "anchors": ["src/embedDB/embedDB.c:embedDBPut", "src/embedDB/embedDB.c:embedDBFlush", "src/embedDB/embedDB.c:writePage"]}
{"id": "C43", "title": "Pages are erased before they are rewritten", "statement": "On a device with erase blocks, every page write after the first to the same physical page is preceded by an erase of its block since the last write to it.", "quantifier": "every history, every N and B", "why_tests_cant": "Unbounded histories; depends on block alignment.", "anchors": ["src/embedDB/embedDB.c:writePage", "src/embedDB/embedDB.c:embedDBInitDataFromFile"]}
{"id": "C44", "title": "Binary-search mode scans and wraps safely", "statement": "With EMBEDDB_USE_BINARY_SEARCH, opening an iterator and writing past the end of the data file have defined behaviour.", "quantifier": "every state in binary-search mode", "why_tests_cant": "Uninitialised pointers often appear to work in tests.", "anchors": ["src/embedDB/embedDB.c:embedDBInitIterator", "src/embedDB/embedDB.c:writePage", "src/embedDB/embedDB.c:cleanSpline"]}
{"id": "C45", "title": "Sorted-order invariant of storage", "statement": "At all times, if the client inserts ascending keys, the records on the retained pages followed by the write buffer are sorted strictly by key, every stored page is non-empty and is stored at (page id mod N) with its page id in its header.", "quantifier": "every history", "why_tests_cant": "An invariant over unbounded histories.", "anchors": ["src/embedDB/embedDB.c:embedDBPut", "src/embedDB/embedDB.c:writePage", "src/embedDB/embedDB.c:embedDBFlush"]}
{"id": "C46", "title": "Lookups in the write buffer need no storage access", "statement": "embedDBGet of a key not smaller than the smallest buffered key performs no page read, and any lookup performs at most (bracket size + 1) page reads.", "quantifier": "every state and key", "why_tests_cant": "Worst case over all states.", "anchors": ["src/embedDB/embedDB.c:embedDBGet", "src/embedDB/embedDB.c:searchBuffer", "src/embedDB/embedDB.c:linearSearch"]}
{"id": "C47", "title": "Sizes computed at initialisation are exact", "statement": "For every configuration embedDBInit accepts, the stored record size and header size are the true sizes, and maxRecordsPerPage is positive and is the number of records that fit behind the header.", "quantifier": "every configuration accepted by embedDBInit", "why_tests_cant": "The stored sizes are 8-bit signed integers; only particular sums overflow.", "anchors": ["src/embedDB/embedDB.c:embedDBInit", "src/embedDB/embedDB.h:embedDBState"]}
{"id": "C48", "title": "Page header statistics are correct", "statement": "With EMBEDDB_USE_MAX_MIN the header of every page holds the smallest and largest key and the smallest and largest data value of the records on the page; with EMBEDDB_USE_BMAP the header bitmap is the result of applying updateBitmap to every record of the page.", "quantifier": "every sequence of records appended to a page, every supported combination of features", "why_tests_cant": "Fields overlap for some feature and size combinations; the claim is for all record sequences.", "anchors": ["src/embedDB/embedDB.c:embedDBPut", "src/embedDB/embedDB.c:initBufferPage", "src/embedDB/embedDB.h:EMBEDDB_GET_MIN_KEY"]}
{"id": "C49", "title": "Variable data survives power failures", "statement": "After a power failure at any storage operation and embedDBInit on the existing files, a table with variable data opens, every record of a data page that was written is found with exactly the variable data inserted with it, and this stays true during further use and further power failures.", "quantifier": "every history of operations, power failures and reopenings", "why_tests_cant": "Two files written at different times; the page headers are the only link; few crash points occur in tests.", "anchors": ["src/embedDB/embedDB.c:embedDBInitVarDataFromFile", "src/embedDB/embedDB.c:embedDBInitVarData", "src/embedDB/embedDB.c:embedDBInit"]}
{"id": "C50", "title": "AVG divides the exact sum by the exact count", "statement": "The supplied avg aggregate returns the floating-point quotient of the sum of the column over the group and the number of rows, in the requested width (4 or 8 bytes), for every supported column width and signedness, as long as the sum fits 64 and the count 32 bits.", "quantifier": "every non-empty group, every column width 1..8, both signednesses", "why_tests_cant": "All values and widths; sign extension per width.", "anchors": ["src/query-interface/advancedQueries.c:avgAdd", "src/query-interface/advancedQueries.c:avgCompute", "src/query-interface/advancedQueries.c:createAvgAggregate"]}
{"id": "C51", "title": "The desktop file interface is a page store", "statement": "FILE_READ returns the bytes last written to that page with FILE_WRITE and fails, leaving the buffer alone, for pages never written; FILE_WRITE changes no other page. Consequently a data file kept in an operating system file behaves as the abstract device at every moment of its life.", "quantifier": "every file content, page number and page size; every life of a table", "why_tests_cant": "32-bit offset arithmetic fails only for large files; gaps and incomplete pages do not occur in simple tests.", "anchors": ["lib/Desktop-File-Interface/desktopFileInterface.c:FILE_READ", "lib/Desktop-File-Interface/desktopFileInterface.c:FILE_WRITE", "lib/Desktop-File-Interface/desktopFileInterface.c:MOCK_FILE_ERASE"]}
{"id": "C52", "title": "The SD card file interface is a page store that reports failures", "statement": "FILE_READ returns the bytes last written to that page and fails for pages never written, wherever the file position was before; FILE_WRITE changes no other page and reports a write that the card did not accept.", "quantifier": "every file content, file position, page number, page size and failing card write", "why_tests_cant": "Card failures and reads behind the end of the file are not exercised by tests.", "anchors": ["lib/SD-File-Interface/SDFileInterface.c:FILE_READ", "lib/SD-File-Interface/SDFileInterface.c:FILE_WRITE"]}
{"id": "C53", "title": "Dataflash files are separate page stores", "statement": "A file on the dataflash chip returns the bytes last written to a page, refuses pages outside its window, does not disturb files with other windows, and is empty after being opened for writing anew.", "quantifier": "every chip content, every pair of disjoint windows, every page number", "why_tests_cant": "All page numbers and windows; the chip keeps old content across resets.", "anchors": ["lib/Dataflash-File-Interface/dataflashFileInterface.c:DF_READ", "lib/Dataflash-File-Interface/dataflashFileInterface.c:DF_WRITE", "lib/Dataflash-File-Interface/dataflashFileInterface.c:DF_OPEN"]}
{"id": "C54", "title": "The index file survives power failures", "statement": "After a power failure at any storage operation of the data file or the index file, reopening succeeds, knows exactly the index pages written by then, and filtered scans and all later operations behave as if no index existed.", "quantifier": "every life of a table with an index file: inserts, flushes, lookups, scans, power failures at every storage operation, reopenings", "why_tests_cant": "The index file and the data file are cut at independent points; the bitmaps in memory are lost, so alignment of index entries and data pages matters.", "anchors": ["src/embedDB/embedDB.c:embedDBInitIndexFromFile", "src/embedDB/embedDB.c:embedDBInitIndex", "src/embedDB/embedDB.c:embedDBNext"]}
{"id": "C55", "title": "Iterators stay correct while the table grows", "statement": "An iterator that is open while records are inserted and pages are flushed delivers the records within its bounds that were present when it was opened, followed by those inserted since, each exactly once and in order; it reports the end exactly when no such record is left.", "quantifier": "every interleaving of inserts, flushes, lookups, scans, openings and advances of any number of iterators, with and without a bitmap index, for every number of wrap-arounds", "why_tests_cant": "Put and flush know nothing of open iterators: they move records from the write buffer to pages, overwrite pages and share the read buffers with them.", "anchors": ["src/embedDB/embedDB.c:embedDBNext", "src/embedDB/embedDB.c:embedDBInitIterator", "src/embedDB/embedDB.c:embedDBPut", "src/embedDB/embedDB.c:embedDBFlush"]}
{"id": "C56", "title": "Query operators release their memory", "statement": "Creating a tree of operators, initialising it, executing it, closing it and freeing it as documented never uses or frees a block that is not allocated, and afterwards exactly the blocks allocated before are still allocated.", "quantifier": "every tree of scans, selections, projections, aggregations and joins, every number of init and exec calls, every heap", "why_tests_cant": "Five init and five close functions share ownership of operators, states, schemas and buffers; which of them have run decides what may be freed.", "anchors": ["src/query-interface/advancedQueries.c:embedDBFreeOperatorRecursive", "src/query-interface/advancedQueries.c:closeAggregate", "src/query-interface/advancedQueries.c:initKeyJoin", "src/query-interface/advancedQueries.c:closeKeyJoin", "src/query-interface/schema.c:embedDBFreeSchema"]}
{"id": "C57", "title": "A database and its iterators release their memory", "statement": "Opening a database, opening and closing iterators in any order and closing the database leaves no block behind and frees none twice; a failed open leaves no block behind either.", "quantifier": "every sequence of iterator calls, with and without bitmaps, with spline or binary search", "why_tests_cant": "The allocations are spread over embedDBInit, splineInit and embedDBInitIterator, their release over three other functions.", "anchors": ["src/embedDB/embedDB.c:embedDBInit", "src/embedDB/embedDB.c:embedDBClose", "src/embedDB/embedDB.c:embedDBCloseIterator", "src/spline/spline.c:splineClose"]}
{"id": "C58", "title": "Failed reads do no harm", "statement": "A lookup or an iterator step during which storage pages cannot be read gives the exact result or says not found / no more rows; it never gives a wrong record, changes nothing, and once the pages can be read again all results are exact and the iterator goes on with the record it missed.", "quantifier": "every interleaving of inserts, flushes, lookups, scans and iterators, every set of unreadable pages of the data and index file in each lookup and iterator step", "why_tests_cant": "The read buffer and its page number are updated separately, searches stop in the middle of their loops, and an iterator has already moved over pages when a read fails.", "anchors": ["src/embedDB/embedDB.c:readPage", "src/embedDB/embedDB.c:readIndexPage", "src/embedDB/embedDB.c:linearSearch", "src/embedDB/embedDB.c:embedDBGet", "src/embedDB/embedDB.c:embedDBNext"]}
{"id": "C59", "title": "Cost of lookups, scans and inserts", "statement": "As long as the ring of spline points has room for the points of the retained pages, a lookup reads at most 2*splineMaxError+1 data pages whatever the size of the table; a complete scan reads no page twice and at most 2*splineMaxError+2 pages more than there are retained pages with a key within its key bounds; an insert reads at most one page, writes at most one page and erases at most one block.", "quantifier": "every history of puts, flushes, lookups and scans of any length, every key, every combination of bounds", "why_tests_cant": "How many pages are read depends on where the spline points happen to lie after points were added and removed, on the read cache and on where the scan stops; a test only measures some tables.", "anchors": ["src/embedDB/embedDB.c:embedDBGet", "src/embedDB/embedDB.c:splineSearch", "src/embedDB/embedDB.c:linearSearch", "src/embedDB/embedDB.c:embedDBInitIterator", "src/embedDB/embedDB.c:embedDBNext", "src/embedDB/embedDB.c:embedDBPut", "src/embedDB/embedDB.c:cleanSpline", "src/spline/spline.c:splineAdd", "src/spline/spline.c:splineFind"]}
{"id": "C60", "title": "Storage pages wear evenly", "statement": "The pages of the data file are written evenly (no page more than once more than another) and erased evenly, and no page is erased more often than it was written; writing stays even across power failures and reopening.", "quantifier": "every history of operations with any keys and data, every life of a data file with power failures at any storage operation", "why_tests_cant": "Wear is a property of the whole history of the device; a test would have to run for many times the capacity of the file with every pattern of flushes, wraps and crashes.", "anchors": ["src/embedDB/embedDB.c:writePage", "src/embedDB/embedDB.c:embedDBInitDataFromFile"]}
{"id": "C61", "title": "Floating point estimates are converted only when the integer type can hold them", "statement": "Lookups, inserts and reopening compute estimates in float arithmetic and convert them to int16_t and int32_t; every conversion is defined (the value fits), in every rounding mode, so that the estimates only affect the cost of an operation.", "quantifier": "every history of operations with any keys, every IEEE rounding mode, every file opened", "why_tests_cant": "An out-of-range conversion is undefined behaviour that looks harmless on the machine running the test; it depends on key values across the whole 64-bit range and on rounding.", "anchors": ["src/embedDB/embedDB.c:embedDBEstimateKeyLocation", "src/embedDB/embedDB.c:embedDBCalculateSlope", "src/embedDB/embedDB.c:getMaxError"]}
{"id": "C62", "title": "Rounding in the spline interpolation loses no record", "statement": "splineFind divides in long double; whatever its precision on the target and the rounding mode, a lookup computed with rounding answers exactly from the retained records.", "quantifier": "every history of operations with any keys, every floating point precision and rounding mode", "why_tests_cant": "The error appears only for keys whose exact quotient lies within a rounding error of an integer, and only on targets with a short long double; tests run on the desktop, where long double is longest.", "anchors": ["src/spline/spline.c:splineFind", "src/embedDB/embedDB.c:splineSearch"]}
{"id": "C63", "title": "Nothing but what was inserted", "statement": "Whatever went wrong before, a lookup that reports success delivers data that was inserted under this very key, and a scan or iterator delivers only records that were inserted and lie within its bounds.", "quantifier": "every history with keys in any order, writes and erases refused at any time, reads failing during lookups and iterators, pages overwritten while cached, any number of power failures at any storage operation with recoveries of any outcome; spline or binary search, with or without index file, variable data and record-level consistency", "why_tests_cant": "The space of failure combinations is far too large to test, and a wrong record is only seen if a test happens to look it up in the right state.", "anchors": ["src/embedDB/embedDB.c:embedDBGet", "src/embedDB/embedDB.c:embedDBNext", "src/embedDB/embedDB.c:embedDBPut", "src/embedDB/embedDB.c:embedDBFlush", "src/embedDB/embedDB.c:readPage", "src/embedDB/embedDB.c:writePage", "src/embedDB/embedDB.c:writeTemporaryPage", "src/embedDB/embedDB.c:embedDBInitDataFromFile", "src/embedDB/embedDB.c:embedDBInitDataFromFileWithRecordLevelConsistency", "src/embedDB/embedDB.c:embedDBGetVar", "src/embedDB/embedDB.c:embedDBNextVar", "src/embedDB/embedDB.c:embedDBPutVar"]}
{"id": "C64", "title": "Variable data survives power failures with record-level consistency", "statement": "With record-level consistency, after any number of power failures and recoveries every record whose insert was acknowledged is found with its data and exactly the variable data it was inserted with, unless its data page had to be dropped because of the size of the ring.", "quantifier": "every life of the two files: ascending inserts with and without variable data of any length over any number of pages, flushes, lookups, streams, scans, power failures at every storage operation of inserts, flushes, lookups and recoveries of either file", "why_tests_cant": "Record and variable data are made durable by separate writes to separate files, temporary pages carry the location of data not yet written, and recovery computes the next position and the smallest key with data from both files.", "anchors": ["src/embedDB/embedDB.c:embedDBPutVar", "src/embedDB/embedDB.c:embedDBFlushVar", "src/embedDB/embedDB.c:writeTemporaryPage", "src/embedDB/embedDB.c:embedDBInitVarDataFromFile", "src/embedDB/embedDB.c:embedDBInitDataFromFileWithRecordLevelConsistency", "src/embedDB/embedDB.c:embedDBGetVar"]}
{"id": "C65", "title": "Recovery on storage whose blank pages can be read", "statement": "On a device whose pages can be read before they are written, as a dataflash chip, reopening a table after a power failure finds exactly the pages written, whatever blank pages follow them, and the table then behaves as its records say.", "quantifier": "every life of a data file on a device with any initial content that does not look like a page of the table, power failures at every storage operation", "why_tests_cant": "Recovery recognises the end of the table by the content of pages that were never written; tests run on desktop files, where these pages do not exist.", "anchors": ["src/embedDB/embedDB.c:embedDBInitDataFromFile", "src/embedDB/embedDB.c:readPage", "src/embedDB/embedDB.c:embedDBInitSplineFromFile"]}
{"id": "C66", "title": "Running out of memory", "statement": "Whichever requests for memory fail, a client that looks at every pointer it is given and gives up when one is NULL causes no access through a NULL or freed pointer, and can release every block.", "quantifier": "every query tree, every set of failing requests, every number of exec calls", "why_tests_cant": "The failures occur in the middle of init of nested operators, whose result is not reported; a test would need a failing allocator.", "anchors": ["src/query-interface/advancedQueries.c:createTableScanOperator", "src/query-interface/advancedQueries.c:initProjection", "src/query-interface/advancedQueries.c:initSelection", "src/query-interface/advancedQueries.c:initAggregate", "src/query-interface/advancedQueries.c:initKeyJoin", "src/query-interface/schema.c:copySchema"]}
{"id": "C67", "title": "The files are rings of erase blocks", "statement": "Each of the three files of a table is used as flash memory wants it: all accesses lie inside the file, whole blocks are erased, a page is erased before it is written again, the pages wear evenly, and the most recently written pages, all but at most one block, can be read.", "quantifier": "every sequence of interface calls with any keys, data, iterators and streams, any configuration with whole blocks; for the variable data file also with requests refused by the device at any time", "why_tests_cant": "Three functions repeat the same accounting with small differences; the effects show only after a file has wrapped, and wear is invisible to tests.", "anchors": ["src/embedDB/embedDB.c:writePage", "src/embedDB/embedDB.c:writeIndexPage", "src/embedDB/embedDB.c:writeVariablePage", "src/embedDB/embedDB.c:embedDBPut", "src/embedDB/embedDB.c:embedDBPutVar", "src/embedDB/embedDB.c:embedDBFlush"]}
{"id": "C68", "title": "The variable data file is taken up again where it stopped", "statement": "When a table is opened after a power failure the variable data file is continued where it stopped, however often it has wrapped: the next page gets the next number and position, every page not counted as available is still in the file, erasing goes on at a block boundary, and at most one block is given up for it.", "quantifier": "every sequence of interface calls and power failures, each after any of the operations on the variable data file, any number of them; any content of the data file; requests refused by the device at any time", "why_tests_cant": "embedDBInitVarDataFromFile guesses from page numbers where the newest and the oldest page are; a wrong guess overwrites data or stops erasing, and shows only after the file has wrapped.", "anchors": ["src/embedDB/embedDB.c:embedDBInitVarDataFromFile", "src/embedDB/embedDB.c:embedDBInitVarData", "src/embedDB/embedDB.c:writeVariablePage", "src/embedDB/embedDB.c:readVariablePage"]}
{"id": "C69", "title": "Variable data after a power failure, the variable data file having wrapped", "statement": "When the power fails after the variable data file has wrapped, every record the data file keeps is found again; its variable data is returned exactly as it was inserted, or, exactly if it starts on the oldest page kept or before, reported as no longer available; never other data.", "quantifier": "every table built by inserts, flushes and lookups; power failing between two operations or at any storage operation inside one; any lookups afterwards; any number of wraps of the variable data file", "why_tests_cant": "The limit is taken from the key on the oldest page of the file; a limit that is too low hands out bytes of other records as data of this one.", "anchors": ["src/embedDB/embedDB.c:embedDBInitVarDataFromFile", "src/embedDB/embedDB.c:embedDBInitDataFromFile", "src/embedDB/embedDB.c:embedDBGetVar", "src/embedDB/embedDB.c:embedDBSetupVarDataStream", "src/embedDB/embedDB.c:embedDBVarDataStreamRead"]}
{"id": "C70", "title": "Lives of tables whose variable data file wraps", "statement": "Whatever the history of a table with variable data - inserts, flushes, lookups, any number of power failures inside them and reopenings, any number of wraps of the variable data file - every operation is carried out and has the right result: every record on a data page kept is found, and its variable data is returned exactly as it was inserted, or reported as no longer available exactly if it starts before the pages kept now, or before the first page delivered when the table was last opened.", "quantifier": "all histories of operations, power failures at any storage operation and reopenings, without bound; every operation after them", "why_tests_cant": "Counters, limits and page numbers taken from the files at each reopening must agree with what later inserts, wraps and further power failures make of them; an error shows only after several failures and wraps.", "anchors": ["src/embedDB/embedDB.c:embedDBInitVarDataFromFile", "src/embedDB/embedDB.c:embedDBPutVar", "src/embedDB/embedDB.c:writeVariablePage", "src/embedDB/embedDB.c:embedDBGetVar", "src/embedDB/embedDB.c:embedDBSetupVarDataStream", "src/embedDB/embedDB.c:embedDBVarDataStreamRead"]}
{"id": "C71", "title": "The single-file distribution behaves like the library", "statement": "The two files in lib/Distribution behave like the sources they are a copy of: opening a file, inserting and looking up do the same and read only inside the buffers, whatever file the library has written.", "quantifier": "every file content, every history of operations, every rounding mode, keys of up to 8 bytes", "why_tests_cant": "The copy lacks one line of embedDBCalculateSlope, the only difference in code; whether the line matters depends on when the function is called with an empty page.", "anchors": ["lib/Distribution/embedDB.c:embedDBCalculateSlope", "lib/Distribution/embedDB.c:getMaxError", "lib/Distribution/embedDB.c:embedDBInitDataFromFile", "src/embedDB/embedDB.c:embedDBCalculateSlope"]}
{"id": "C72", "title": "Variable data beyond 4 GiB", "statement": "However many bytes of variable data have been written in total, every lookup of a retained record returns exactly the bytes stored with it or reports them as reclaimed.", "quantifier": "every history of inserts, flushes and lookups of any length, every file size; the position in the variable data file is a 32-bit counter that is never reset", "why_tests_cant": "currentVarLoc counts all bytes ever written; the location stored with a record is this counter modulo the file size, which jumps when the counter wraps unless the file size divides 2^32.", "anchors": ["src/embedDB/embedDB.c:embedDBPutVar", "src/embedDB/embedDB.c:embedDBPut", "src/embedDB/embedDB.c:embedDBFlushVar", "src/embedDB/embedDB.c:embedDBSetupVarDataStream"]}
{"id": "C73", "title": "Open variable-data streams and other operations do not disturb each other", "statement": "A client that keeps the streams it got from embedDBGetVar and reads them later in pieces gets from each of them the bytes of the data it was opened for, in order, whatever inserts, flushes, lookups and reads of other streams happen in between; and those operations answer as if the streams were not there.", "quantifier": "every interleaving of any number of streams with inserts, flushes and lookups, every piece size", "why_tests_cant": "All streams share one variable read buffer and one cached page number; only particular interleavings make one stream read from a page that another operation cached or replaced.", "anchors": ["src/embedDB/embedDB.c:embedDBVarDataStreamRead, src/embedDB/embedDB.c:embedDBSetupVarDataStream, src/embedDB/embedDB.c:embedDBGetVar, src/embedDB/embedDB.c:readVariablePage"]}
{"id": "C74", "title": "The files of a table are opened and closed properly", "statement": "embedDBInit opens exactly the files the table uses; without EMBEDDB_RESET_DATA it keeps what they hold, with it it empties exactly those; a missing data file is refused and nothing is created. After embedDBClose, or after a refused embedDBInit and tearing the files down, no stream is open, none was closed that was not open, and the files can be used again.", "quantifier": "every sequence of sessions, every configuration, every outcome of opening each file in each mode, everything recovery may find in them", "why_tests_cant": "Which files are open after a refused embedDBInit depends on which check or file failed; tests open and close tables that are accepted.", "anchors": ["src/embedDB/embedDB.c:embedDBInit", "src/embedDB/embedDB.c:embedDBInitData", "src/embedDB/embedDB.c:embedDBInitIndex", "src/embedDB/embedDB.c:embedDBInitVarData", "src/embedDB/embedDB.c:embedDBClose", "lib/Desktop-File-Interface/desktopFileInterface.c:FILE_OPEN", "lib/SD-File-Interface/SDFileInterface.c:FILE_CLOSE"]}
{"id": "C75", "title": "The statistics count the accesses to storage", "statement": "After embedDBInit or embedDBResetStats the counters are zero, and from then on numReads, numIdxReads, numWrites, numIdxWrites are the page reads and writes the device answered with success, and bufferHits the requests for pages answered without it. A request is answered without the device exactly when that page is the last one read from that file.", "quantifier": "every sequence of page reads, page writes and resets, every answer of the device, every content of memory before opening", "why_tests_cant": "The counters are what the project's benchmarks report; tests never compare them with what the device saw.", "anchors": ["src/embedDB/embedDB.c:embedDBResetStats", "src/embedDB/embedDB.c:readPage", "src/embedDB/embedDB.c:readIndexPage", "src/embedDB/embedDB.c:readVariablePage", "src/embedDB/embedDB.c:writePage", "src/embedDB/embedDB.c:writeTemporaryPage", "src/embedDB/embedDB.c:embedDBInit"]}
{"id": "C76", "title": "The bitmap index saves reading pages that cannot match", "statement": "A scan with a bound on the data of a table with a bitmap index returns the right records and does not read a data page whose bitmap is on file and has no bucket in common with the query. The bitmap on file is exactly that of the page's records, and at most one index page of bitmaps is not yet on file.", "quantifier": "every history of inserts, flushes, lookups and scans, every life with power failures, every query, every sound pair of bitmap functions", "why_tests_cant": "An index that never skips is sound too (C23); this says it does its work. Tests compare results, not pages read.", "anchors": ["src/embedDB/embedDB.c:embedDBNext", "src/embedDB/embedDB.c:embedDBInitIterator", "src/embedDB/embedDB.c:writeIndexPage", "src/embedDB/embedDB.c:embedDBPut"]}
{"id": "C77", "title": "AVG is close to the mean", "statement": "The number AVG stores differs from the arithmetic mean of the column by at most the fraction 2^(3-b) of it, where b is 24 for float and 53 for double. It lies between the smallest and the largest value of the column, and is the mean itself when that is a whole number the format can represent.", "quantifier": "every group of records, every signed or unsigned column for which the sum is defined, every rounding mode", "why_tests_cant": "The sum, the count and the quotient are each rounded; tests average small numbers of small values, where nothing is lost.", "anchors": ["src/query-interface/advancedQueries.c:avgCompute", "src/query-interface/advancedQueries.c:avgAdd", "src/query-interface/advancedQueries.c:createAvgAggregate"]}
{"id": "C78", "title": "What embedDBFlush acknowledges is on the medium", "statement": "When embedDBFlush returns 0, every page written so far to the data file, the index file and the variable data file was written before the last successful flush of that file, so nothing acknowledged is left in the buffers of the file interface, and the records accepted before are found after any later power failure.", "quantifier": "every history of inserts with and without variable data, flushes, lookups, iterators and streams, every configuration, every outcome of writes and erases; every later power failure", "why_tests_cant": "Tests reopen files in the same process or after closing them, where buffered pages are not lost.", "anchors": ["src/embedDB/embedDB.c:embedDBFlush", "src/embedDB/embedDB.c:embedDBFlushVar", "src/embedDB/embedDB.c:embedDBPutVar", "src/embedDB/embedDB.c:writeTemporaryPage", "lib/Desktop-File-Interface/desktopFileInterface.c:FILE_FLUSH"]}
