#!/usr/bin/env python3
"""Writes /verif/properties.jsonl (one JSON object per line)."""
import json, os
E="src/embedDB/embedDB.c"; H="src/embedDB/embedDB.h"; S="src/spline/spline.c"
Q="src/query-interface/advancedQueries.c"; SC="src/query-interface/schema.c"; U="lib/EmbedDB-Utility/embedDBUtility.c"
P=[]
def p(id,title,statement,quantifier,why,*anchors):
    P.append(dict(id=id,title=title,statement=statement,quantifier=quantifier,why_tests_cant=why,anchors=list(anchors)))

p("C01","Point lookup returns exactly what was inserted (before storage reuse)",
  "For a table in the default (spline) mode whose data file has never been filled past its capacity, after any sequence of inserts with strictly ascending keys, flushes, lookups and complete scans, embedDBGet(k) returns 0 and the byte-exact data that was inserted with k if k was inserted, and returns -1 if k was never inserted.",
  "every page geometry, every sequence of puts/flushes/gets/scans that does not wrap the data file, every key k",
  "The page location is predicted by an approximate spline and a float estimate; tests only try a handful of key distributions, while the claim is for every distribution, page size, flush pattern and interleaving with cached reads.",
  f"{E}:embedDBGet",f"{E}:embedDBPut",f"{E}:embedDBFlush",f"{E}:splineSearch",f"{E}:linearSearch",f"{E}:embedDBSearchNode",f"{E}:readPage")
p("C02","Point lookup stays exact after the data file wraps",
  "The same exactness as C01 when older pages have been overwritten: a lookup of a key whose record is still retained returns the inserted bytes, and a lookup of a key that was never inserted or whose page has been reclaimed returns -1.",
  "every history of puts, flushes and lookups including ones that reuse storage pages any number of times",
  "Whether a wrong answer appears depends on which page happens to be in the one-page read cache at the moment a page is overwritten; the schedules are unbounded.",
  f"{E}:readPage",f"{E}:writePage",f"{E}:embedDBGet")
p("C03","Insertion order is enforced",
  "embedDBPut accepts a key only if it is strictly greater than every key accepted before it in the life of the table; any other key is rejected with a non-zero result.",
  "every history of puts and flushes and every next key",
  "The check reads a different location depending on the history (buffer empty or not, last page full or partial, after recovery), so it has to hold over all histories.",
  f"{E}:embedDBPut",f"{E}:embedDBFlush")
p("C04","A rejected insert changes nothing",
  "When embedDBPut rejects a key because it is not ascending, the contents visible to every later lookup, scan and recovery are unchanged.",
  "every reachable state and every rejected key/data pair",
  "Needs a comparison of all observable behaviour before and after, for every state.",
  f"{E}:embedDBPut")
p("C05","A full scan returns every retained record exactly once, in order",
  "An iterator opened without bounds and advanced until embedDBNext returns 0 yields exactly the retained records, each once, in insertion (ascending key) order, including those still in the write buffer.",
  "every state reachable by puts, flushes and reads; every page geometry",
  "Off-by-one errors at page, block and buffer boundaries only show for particular record counts; the claim is for all of them.",
  f"{E}:embedDBInitIterator",f"{E}:embedDBNext")
p("C06","A range scan returns exactly the matching records",
  "An iterator opened with any combination of minKey, maxKey, minData and maxData yields exactly the retained records that satisfy all given bounds (inclusive), in ascending key order, then ends.",
  "every reachable state (no bitmap index), every combination and value of the four bounds",
  "The start page is predicted from the spline and the scan stops early on maxKey; every distribution of keys and every bound matters.",
  f"{E}:embedDBInitIterator",f"{E}:embedDBNext",f"{S}:splineFind")
p("C07","Open iterators are independent of other reads",
  "Interleaving embedDBNext calls of one iterator with lookups and with other iterators on the same table (which all share one page read buffer) does not change the sequence of records any iterator returns.",
  "every interleaving of any number of iterators and lookups between two modifications of the table",
  "The number of interleavings is unbounded and the shared buffer makes each of them a potential interference.",
  f"{E}:embedDBNext",f"{E}:readPage",f"{E}:embedDBGet")
p("C08","Bounded-log retention",
  "With a data file of N pages and erase blocks of B pages, data is only ever reclaimed oldest first and a whole block at a time; nothing is reclaimed before N pages have been written, and at every moment the newest N-B pages' records (and the write buffer) are retained.",
  "every history of puts and flushes, every N and B with B dividing N and N >= 2B",
  "The retention window must hold after arbitrarily many wrap-arounds, not just the one or two a test performs.",
  f"{E}:writePage",f"{E}:embedDBInitData")
p("C09","Flush makes everything durable and changes nothing visible",
  "After embedDBFlush succeeds, the set of retained records is the same as before except that (only when storage was full) the oldest erase block may have been reclaimed, and every retained record is on the storage device.",
  "every reachable state",
  "Has to hold for every fill level of the write buffer and every position in the erase cycle.",
  f"{E}:embedDBFlush",f"{E}:writePage")
p("C10","Every storage access is inside the configured file and every buffered record inside its page",
  "No put, flush, lookup or scan writes a page outside [0, numDataPages) of the data file or stores a record outside the page buffer, and a page never contains more records than fit.",
  "every configuration accepted by embedDBInit and every history",
  "Out-of-bounds accesses appear only at particular sizes and counts, and a test that happens not to crash proves nothing.",
  f"{E}:embedDBPut",f"{E}:writePage",f"{E}:initBufferPage")
p("C11","In-page search is exact for any starting guess",
  "Searching a page of records sorted by key returns the index of the record with the searched key if there is one and 'not found' otherwise, and terminates, whatever starting position the linear (floating point) estimate suggests.",
  "every sorted page, every key, every value of the float estimate",
  "The estimate is a float rounding artefact; tests can't enumerate all of them.",
  f"{E}:embedDBSearchNode",f"{E}:embedDBEstimateKeyLocation")
p("C12","The spline's page prediction always brackets the true page",
  "For any ascending sequence of (first key, page) points fed to the spline, for every key that lies on one of the pages, the [low, high] range returned by the lookup contains that page.",
  "every ascending point sequence, every error bound, every spline capacity >= 4, every key; keys/pages bounded so that 64-bit products don't overflow",
  "A greedy corridor construction evaluated with mixed signed/unsigned 64-bit arithmetic: correctness for all distributions cannot be sampled.",
  f"{S}:splineAdd",f"{S}:splineFind",f"{S}:splineIsLeft",f"{S}:splineIsRight")
p("C13","The spline never exceeds its memory",
  "However many points are added (and however often old ones are cleaned), the number of stored spline points never exceeds the configured capacity and the most recently added point is always present.",
  "every sequence of adds and erases, every capacity >= 4",
  "Unbounded run lengths; overflow of the ring appears only after many adds.",
  f"{S}:splineAdd",f"{S}:splineErase",f"{E}:cleanSpline")
p("C14","Locating the spline segment",
  "For any ascending array of spline points and any key between the smallest and the largest point, the segment search returns a segment whose end points bracket the key.",
  "every ascending array of at least two points and every key in its range",
  "Recursive binary search with several early exits; all shapes needed.",
  f"{S}:pointsBinarySearch")
p("C15","The page-by-page fallback search is exact and terminates",
  "Starting from any predicted page inside a bracket that contains the right page, the fallback search finds the page holding the key in at most (bracket size + 1) page reads; when no page holds the key it reports failure, and it always terminates.",
  "every ascending sequence of pages, every bracket, every starting page",
  "Bouncing between two pages forever is a schedule-dependent failure.",
  f"{E}:linearSearch")
p("C16","Binary-search mode finds every record",
  "With EMBEDDB_USE_BINARY_SEARCH, embedDBGet returns the inserted data for every retained key and -1 for other keys, with defined behaviour.",
  "every sorted table and every key",
  "The exit path depends on how the interval narrows, which depends on the number of pages and the key.",
  f"{E}:binarySearch",f"{E}:embedDBGet")
p("C17","Reopening a flushed table restores it",
  "After any history followed by a successful embedDBFlush and close, reopening the same file without EMBEDDB_RESET_DATA succeeds and exposes exactly the same records (minus at most the one erase block that the next write would reclaim).",
  "every history of puts and flushes ending in a flush, including ones that wrapped the file any number of times",
  "The recovery scan infers the log's position from page ids alone; all wrap positions must work.",
  f"{E}:embedDBInitDataFromFile",f"{E}:embedDBInitSplineFromFile")
p("C18","Crash recovery of the data file at any storage operation",
  "If power fails at any point between two storage operations, reopening the file exposes exactly the records of the pages that had been written (minus the erase block being reclaimed, at most one block): nothing torn, duplicated, reordered or invented.",
  "every history and every crash point (every prefix of the sequence of page writes and block erases), every effect the erase has on the erased pages' content",
  "The number of crash points is unbounded and the failing ones are specific positions in the erase cycle.",
  f"{E}:embedDBInitDataFromFile",f"{E}:writePage")
p("C19","A recovered table is fully usable",
  "After recovery, lookups and scans answer exactly according to the recovered records, and inserts continue the same log (same invariants as before the crash).",
  "every recovered state and every continuation",
  "Needs the recovered in-memory state (spline, counters) to satisfy the same invariant as the running system, for every crash point.",
  f"{E}:embedDBInitDataFromFile",f"{E}:embedDBInitSplineFromFile",f"{E}:embedDBGet")
p("C20","Record-level consistency: an acknowledged insert survives a crash",
  "With EMBEDDB_RECORD_LEVEL_CONSISTENCY, once embedDBPut has returned 0 the record is found after a crash at any later storage operation and recovery (as long as it is within the retention window).",
  "every history of inserts and every later crash point",
  "Temporary pages rotate through two blocks that themselves move; every alignment of the two cycles must be safe.",
  f"{E}:writeTemporaryPage",f"{E}:shiftRecordLevelConsistencyBlocks",f"{E}:embedDBInitDataFromFileWithRecordLevelConsistency")
p("C21","Record-level consistency temporary pages never overwrite permanent data",
  "With EMBEDDB_RECORD_LEVEL_CONSISTENCY, under any mix of inserts and flushes, no temporary page is ever written over, and no temporary-area erase ever covers, a permanent page that holds retained records.",
  "every history of puts and flushes",
  "Only particular alignments of flushes with block boundaries collide.",
  f"{E}:embedDBPut",f"{E}:embedDBFlush",f"{E}:writeTemporaryPage",f"{E}:shiftRecordLevelConsistencyBlocks")
p("C22","Page header and records never overlap",
  "For every combination of feature flags, the header fields the library maintains (count, bitmap, min/max) lie inside the header, so that storing and maintaining them never alters a stored record.",
  "every combination of EMBEDDB_USE_INDEX / USE_BMAP / USE_MAX_MIN and every key, data and bitmap size accepted by embedDBInit",
  "A combinatorial configuration space of which tests exercise one or two points.",
  f"{E}:embedDBInit",f"{E}:initBufferPage",f"{E}:embedDBPut",f"{H}:EMBEDDB_MIN_OFFSET")
p("C23","The bitmap index never hides a matching record",
  "A data-filtered scan with the bitmap index enabled returns exactly the same records as the same scan without the index.",
  "every history of puts and flushes, every filter, every sound bitmap function",
  "A false negative in one page for one query is invisible unless exactly that query is tested.",
  f"{E}:embedDBNext",f"{E}:embedDBPut",f"{E}:embedDBFlush",f"{E}:writeIndexPage")
p("C24","Supplied 8-bit and 16-bit bitmap functions are sound",
  "For the supplied 8- and 16-bucket bitmap functions, whenever a value lies within a query's [min, max] (either side possibly absent), a page bitmap that value was added to overlaps the query's bitmap, and inBitmap agrees with the bucket set by updateBitmap.",
  "all values, all bounds, all bitmaps",
  "Bucket boundaries; all integer values.",
  f"{U}:updateBitmapInt8",f"{U}:buildBitmapInt8FromRange",f"{U}:inBitmapInt8",f"{U}:updateBitmapInt16",f"{U}:buildBitmapInt16FromRange",f"{E}:bitmapOverlap")
p("C25","Supplied 64-bit bitmap functions are sound",
  "Same claim as C24 for the supplied 64-bucket functions.",
  "all values, all bounds, all bitmaps",
  "A false negative only appears for values and bounds in certain different buckets.",
  f"{U}:updateBitmapInt64",f"{U}:buildBitmapInt64FromRange",f"{U}:inBitmapInt64")
p("C26","Variable-length data round-trips",
  "In a table with variable-length data whose variable data file has not wrapped, embedDBPutVar followed by any number of further inserts, flushes and reads lets embedDBGetVar(key) produce a stream that returns exactly the stored bytes; a record stored without variable data produces no stream.",
  "every page geometry, every length and content, every history without wrap-around",
  "Spanning any number of pages from any starting offset; header skipping at every alignment.",
  f"{E}:embedDBPutVar",f"{E}:embedDBGetVar",f"{E}:embedDBSetupVarDataStream",f"{E}:embedDBVarDataStreamRead",f"{E}:writeVariablePage")
p("C27","Chunked stream reads reassemble the data",
  "Reading a variable-data stream in chunks of any sizes yields the same bytes as reading it at once.",
  "every split of the total length into read sizes, every alignment",
  "Only chunks ending exactly at a page boundary misbehave; depends on alignment.",
  f"{E}:embedDBVarDataStreamRead")
p("C28","Overwritten variable data is reported, not returned as garbage",
  "After the variable data file wraps, embedDBGetVar for a record whose variable data was reclaimed says so (result 1 / no stream), and for every record whose variable data is still stored returns exactly the stored bytes.",
  "every history with any number of wraps",
  "Depends on which variable page is cached and which page was last in the erased block.",
  f"{E}:writeVariablePage",f"{E}:readVariablePage",f"{E}:embedDBSetupVarDataStream")
p("C29","Iterating variable data returns each record's own data",
  "embedDBNextVar pairs each record returned by the iterator with that record's own variable data, wherever the record currently is (storage or write buffer).",
  "every state and every iterator position",
  "Depends on the combination of stored pages and buffered records.",
  f"{E}:embedDBNextVar")
p("C30","Variable data reaches storage before the record that refers to it",
  "When records are inserted with embedDBPutVar, at every crash point every record on a stored data page has all of its variable data on stored variable pages.",
  "every history of embedDBPutVar and embedDBFlush and every crash point",
  "Ordering of writes to two files at every possible crash point.",
  f"{E}:embedDBPutVar",f"{E}:embedDBFlush",f"{E}:writeVariablePage")
p("C31","Supplied key comparators order keys numerically",
  "int32Comparator and int64Comparator return a negative number, zero or a positive number according to the numeric order of the two keys, for all keys.",
  "all pairs of 32-bit / 64-bit values",
  "2^64 / 2^128 pairs.",
  f"{U}:int32Comparator",f"{U}:int64Comparator")
p("C32","Query column comparison is numeric",
  "The query layer's comparison of two column values is the numeric comparison of the unsigned (or two's complement signed) little-endian integers they encode, for every column width, and each of the six selection operators agrees with it.",
  "all byte strings of every length, both signednesses, six operators",
  "All byte strings of all widths.",
  f"{Q}:compareUnsignedNumbers",f"{Q}:compareSignedNumbers",f"{Q}:compare")
p("C33","Selection returns exactly the qualifying rows",
  "A selection operator yields, in order, exactly those input rows whose column satisfies the comparison with the constant, whatever the input operator produces.",
  "every finite input stream, every schema, column, operator and constant",
  "All streams.",
  f"{Q}:next for selection operator (nextSelection)",f"{Q}:createSelectionOperator")
p("C34","Projection returns exactly the chosen columns",
  "A projection operator yields one row per input row containing exactly the chosen columns' bytes in order, and its output schema describes that layout.",
  "every schema, every list of column numbers, every input stream",
  "All schemas.",
  f"{Q}:nextProjection",f"{Q}:initProjection",f"{SC}:getColOffsetFromSchema")
p("C35","Aggregation groups exactly the consecutive runs",
  "The aggregate operator produces one row per maximal run of consecutive input rows in the same group, each aggregate being fed exactly the rows of that run once and in order; no row is lost or counted twice at group boundaries or at the end.",
  "every input stream and every group predicate and aggregate function list",
  "Boundary rows (first of next group, last group, single-row groups) for all streams.",
  f"{Q}:nextAggregate")
p("C36","COUNT, SUM, MIN and MAX compute the mathematical value",
  "The supplied count, sum, min and max aggregates return the number, sum (mod 2^64), minimum and maximum of the column over the group for every supported column width and signedness.",
  "every non-empty group, every column width 1..8, both signednesses",
  "All values and widths; sign extension per width.",
  f"{Q}:sumAdd",f"{Q}:counterAdd",f"{Q}:minAdd",f"{Q}:maxAdd",f"{Q}:sumCompute")
p("C37","Key join returns exactly the matching pairs",
  "The key equijoin of two streams with strictly ascending unsigned keys yields exactly the pairs with equal keys, in key order, each once.",
  "every pair of streams sorted by key",
  "All interleavings of the two inputs.",
  f"{Q}:nextKeyJoin")
p("C38","Schema offsets address disjoint columns that fill the record",
  "For every schema, column offsets computed by the library are the prefix sums of the column widths, columns do not overlap, and the record size is exactly their total.",
  "every list of column sizes and signednesses",
  "All schemas.",
  f"{SC}:getColOffsetFromSchema",f"{SC}:getRecordSizeFromSchema",f"{SC}:embedDBCreateSchema")
p("C39","Query pipelines compose",
  "For every pipeline built from table scan, selection, projection, aggregation and join operators, the rows produced are those of the corresponding relational expression over the retained records.",
  "every finite composition of operators over every table",
  "Unbounded compositions.",
  f"{Q}:exec",f"{Q}:createTableScanOperator",f"{Q}:nextTableScan")
p("C40","A lookup or put in the write buffer works for every page capacity",
  "A record that is still in the write buffer is found by embedDBGet for every slot it may occupy, for every page size embedDBInit accepts.",
  "every page size, record size and fill level",
  "Only slots past 127/255 in large pages misbehave.",
  f"{E}:searchBuffer",f"{E}:embedDBGet",f"{E}:embedDBGetVar")
p("C41","Recovery recognises every page the library wrote",
  "Every page written to the data file is recognised as a valid page when the table is reopened, for every number of records it holds.",
  "every page size and fill level",
  "Only counts above 127 misbehave.",
  f"{E}:embedDBInitDataFromFile")
p("C42","A failed page write is reported",
  "If the storage device fails to write a page during embedDBPut or embedDBFlush, the call returns a non-zero code and the records in the write buffer are not lost.",
  "every state and every failing storage operation",
  "Fault injection at every storage operation of every history.",
  f"{E}:embedDBPut",f"{E}:embedDBFlush",f"{E}:writePage")
p("C43","Pages are erased before they are rewritten",
  "On a device with erase blocks, every page write after the first to the same physical page is preceded by an erase of its block since the last write to it.",
  "every history, every N and B",
  "Unbounded histories; depends on block alignment.",
  f"{E}:writePage",f"{E}:embedDBInitDataFromFile")
p("C44","Binary-search mode scans and wraps safely",
  "With EMBEDDB_USE_BINARY_SEARCH, opening an iterator and writing past the end of the data file have defined behaviour.",
  "every state in binary-search mode",
  "Uninitialised pointers often appear to work in tests.",
  f"{E}:embedDBInitIterator",f"{E}:writePage",f"{E}:cleanSpline")
p("C45","Sorted-order invariant of storage",
  "At all times, if the client inserts ascending keys, the records on the retained pages followed by the write buffer are sorted strictly by key, every stored page is non-empty and is stored at (page id mod N) with its page id in its header.",
  "every history",
  "An invariant over unbounded histories.",
  f"{E}:embedDBPut",f"{E}:writePage",f"{E}:embedDBFlush")
p("C46","Lookups in the write buffer need no storage access",
  "embedDBGet of a key not smaller than the smallest buffered key performs no page read, and any lookup performs at most (bracket size + 1) page reads.",
  "every state and key",
  "Worst case over all states.",
  f"{E}:embedDBGet",f"{E}:searchBuffer",f"{E}:linearSearch")

p("C47","Sizes computed at initialisation are exact",
  "For every configuration embedDBInit accepts, the stored record size and header size are the true sizes, and maxRecordsPerPage is positive and is the number of records that fit behind the header.",
  "every configuration accepted by embedDBInit",
  "The stored sizes are 8-bit signed integers; only particular sums overflow.",
  f"{E}:embedDBInit",f"{H}:embedDBState")
p("C48","Page header statistics are correct",
  "With EMBEDDB_USE_MAX_MIN the header of every page holds the smallest and largest key and the smallest and largest data value of the records on the page; with EMBEDDB_USE_BMAP the header bitmap is the result of applying updateBitmap to every record of the page.",
  "every sequence of records appended to a page, every supported combination of features",
  "Fields overlap for some feature and size combinations; the claim is for all record sequences.",
  f"{E}:embedDBPut",f"{E}:initBufferPage",f"{H}:EMBEDDB_GET_MIN_KEY")
p("C49","Variable data survives power failures",
  "After a power failure at any storage operation and embedDBInit on the existing files, a table with variable data opens, every record of a data page that was written is found with exactly the variable data inserted with it, and this stays true during further use and further power failures.",
  "every history of operations, power failures and reopenings",
  "Two files written at different times; the page headers are the only link; few crash points occur in tests.",
  f"{E}:embedDBInitVarDataFromFile",f"{E}:embedDBInitVarData",f"{E}:embedDBInit")
p("C50","AVG divides the exact sum by the exact count",
  "The supplied avg aggregate returns the floating-point quotient of the sum of the column over the group and the number of rows, in the requested width (4 or 8 bytes), for every supported column width and signedness, as long as the sum fits 64 and the count 32 bits.",
  "every non-empty group, every column width 1..8, both signednesses",
  "All values and widths; sign extension per width.",
  f"{Q}:avgAdd",f"{Q}:avgCompute",f"{Q}:createAvgAggregate")
DI="lib/Desktop-File-Interface/desktopFileInterface.c"; SI="lib/SD-File-Interface/SDFileInterface.c"; FI="lib/Dataflash-File-Interface/dataflashFileInterface.c"
p("C51","The desktop file interface is a page store",
  "FILE_READ returns the bytes last written to that page with FILE_WRITE and fails, leaving the buffer alone, for pages never written; FILE_WRITE changes no other page. Consequently a data file kept in an operating system file behaves as the abstract device at every moment of its life.",
  "every file content, page number and page size; every life of a table",
  "32-bit offset arithmetic fails only for large files; gaps and incomplete pages do not occur in simple tests.",
  f"{DI}:FILE_READ",f"{DI}:FILE_WRITE",f"{DI}:MOCK_FILE_ERASE")
p("C52","The SD card file interface is a page store that reports failures",
  "FILE_READ returns the bytes last written to that page and fails for pages never written, wherever the file position was before; FILE_WRITE changes no other page and reports a write that the card did not accept.",
  "every file content, file position, page number, page size and failing card write",
  "Card failures and reads behind the end of the file are not exercised by tests.",
  f"{SI}:FILE_READ",f"{SI}:FILE_WRITE")
p("C53","Dataflash files are separate page stores",
  "A file on the dataflash chip returns the bytes last written to a page, refuses pages outside its window, does not disturb files with other windows, and is empty after being opened for writing anew.",
  "every chip content, every pair of disjoint windows, every page number",
  "All page numbers and windows; the chip keeps old content across resets.",
  f"{FI}:DF_READ",f"{FI}:DF_WRITE",f"{FI}:DF_OPEN")

p("C54","The index file survives power failures",
  "After a power failure at any storage operation of the data file or the index file, reopening succeeds, knows exactly the index pages written by then, and filtered scans and all later operations behave as if no index existed.",
  "every life of a table with an index file: inserts, flushes, lookups, scans, power failures at every storage operation, reopenings",
  "The index file and the data file are cut at independent points; the bitmaps in memory are lost, so alignment of index entries and data pages matters.",
  f"{E}:embedDBInitIndexFromFile",f"{E}:embedDBInitIndex",f"{E}:embedDBNext")

p("C55","Iterators stay correct while the table grows",
  "An iterator that is open while records are inserted and pages are flushed delivers the records within its bounds that were present when it was opened, followed by those inserted since, each exactly once and in order; it reports the end exactly when no such record is left.",
  "every interleaving of inserts, flushes, lookups, scans, openings and advances of any number of iterators, with and without a bitmap index, for every number of wrap-arounds",
  "Put and flush know nothing of open iterators: they move records from the write buffer to pages, overwrite pages and share the read buffers with them.",
  f"{E}:embedDBNext",f"{E}:embedDBInitIterator",f"{E}:embedDBPut",f"{E}:embedDBFlush")

p("C56","Query operators release their memory",
  "Creating a tree of operators, initialising it, executing it, closing it and freeing it as documented never uses or frees a block that is not allocated, and afterwards exactly the blocks allocated before are still allocated.",
  "every tree of scans, selections, projections, aggregations and joins, every number of init and exec calls, every heap",
  "Five init and five close functions share ownership of operators, states, schemas and buffers; which of them have run decides what may be freed.",
  f"{Q}:embedDBFreeOperatorRecursive",f"{Q}:closeAggregate",f"{Q}:initKeyJoin",f"{Q}:closeKeyJoin",f"{SC}:embedDBFreeSchema")
p("C57","A database and its iterators release their memory",
  "Opening a database, opening and closing iterators in any order and closing the database leaves no block behind and frees none twice; a failed open leaves no block behind either.",
  "every sequence of iterator calls, with and without bitmaps, with spline or binary search",
  "The allocations are spread over embedDBInit, splineInit and embedDBInitIterator, their release over three other functions.",
  f"{E}:embedDBInit",f"{E}:embedDBClose",f"{E}:embedDBCloseIterator",f"{S}:splineClose")

p("C58","Failed reads do no harm",
  "A lookup or an iterator step during which storage pages cannot be read gives the exact result or says not found / no more rows; it never gives a wrong record, changes nothing, and once the pages can be read again all results are exact and the iterator goes on with the record it missed.",
  "every interleaving of inserts, flushes, lookups, scans and iterators, every set of unreadable pages of the data and index file in each lookup and iterator step",
  "The read buffer and its page number are updated separately, searches stop in the middle of their loops, and an iterator has already moved over pages when a read fails.",
  f"{E}:readPage",f"{E}:readIndexPage",f"{E}:linearSearch",f"{E}:embedDBGet",f"{E}:embedDBNext")
p("C59","Cost of lookups, scans and inserts",
  "As long as the ring of spline points has room for the points of the retained pages, a lookup reads at most 2*splineMaxError+1 data pages whatever the size of the table; a complete scan reads no page twice and at most 2*splineMaxError+2 pages more than there are retained pages with a key within its key bounds; an insert reads at most one page, writes at most one page and erases at most one block.",
  "every history of puts, flushes, lookups and scans of any length, every key, every combination of bounds",
  "How many pages are read depends on where the spline points happen to lie after points were added and removed, on the read cache and on where the scan stops; a test only measures some tables.",
  f"{E}:embedDBGet",f"{E}:splineSearch",f"{E}:linearSearch",f"{E}:embedDBInitIterator",f"{E}:embedDBNext",f"{E}:embedDBPut",f"{E}:cleanSpline",f"{S}:splineAdd",f"{S}:splineFind")
p("C60","Storage pages wear evenly",
  "The pages of the data file are written evenly (no page more than once more than another) and erased evenly, and no page is erased more often than it was written; writing stays even across power failures and reopening.",
  "every history of operations with any keys and data, every life of a data file with power failures at any storage operation",
  "Wear is a property of the whole history of the device; a test would have to run for many times the capacity of the file with every pattern of flushes, wraps and crashes.",
  f"{E}:writePage",f"{E}:embedDBInitDataFromFile")

p("C61","Floating point estimates are converted only when the integer type can hold them",
  "Lookups, inserts and reopening compute estimates in float arithmetic and convert them to int16_t and int32_t; every conversion is defined (the value fits), in every rounding mode, so that the estimates only affect the cost of an operation.",
  "every history of operations with any keys, every IEEE rounding mode, every file opened",
  "An out-of-range conversion is undefined behaviour that looks harmless on the machine running the test; it depends on key values across the whole 64-bit range and on rounding.",
  f"{E}:embedDBEstimateKeyLocation",f"{E}:embedDBCalculateSlope",f"{E}:getMaxError")

p("C62","Rounding in the spline interpolation loses no record",
  "splineFind divides in long double; whatever its precision on the target and the rounding mode, a lookup computed with rounding answers exactly from the retained records.",
  "every history of operations with any keys, every floating point precision and rounding mode",
  "The error appears only for keys whose exact quotient lies within a rounding error of an integer, and only on targets with a short long double; tests run on the desktop, where long double is longest.",
  f"{S}:splineFind",f"{E}:splineSearch")

p("C63","Nothing but what was inserted",
  "Whatever went wrong before, a lookup that reports success delivers data that was inserted under this very key, and a scan or iterator delivers only records that were inserted and lie within its bounds.",
  "every history with keys in any order, writes and erases refused at any time, reads failing during lookups and iterators, pages overwritten while cached, any number of power failures at any storage operation with recoveries of any outcome; spline or binary search, with or without index file, variable data and record-level consistency",
  "The space of failure combinations is far too large to test, and a wrong record is only seen if a test happens to look it up in the right state.",
  f"{E}:embedDBGet",f"{E}:embedDBNext",f"{E}:embedDBPut",f"{E}:embedDBFlush",f"{E}:readPage",f"{E}:writePage",f"{E}:writeTemporaryPage",f"{E}:embedDBInitDataFromFile",f"{E}:embedDBInitDataFromFileWithRecordLevelConsistency",f"{E}:embedDBGetVar",f"{E}:embedDBNextVar",f"{E}:embedDBPutVar")

p("C64","Variable data survives power failures with record-level consistency",
  "With record-level consistency, after any number of power failures and recoveries every record whose insert was acknowledged is found with its data and exactly the variable data it was inserted with, unless its data page had to be dropped because of the size of the ring.",
  "every life of the two files: ascending inserts with and without variable data of any length over any number of pages, flushes, lookups, streams, scans, power failures at every storage operation of inserts, flushes, lookups and recoveries of either file",
  "Record and variable data are made durable by separate writes to separate files, temporary pages carry the location of data not yet written, and recovery computes the next position and the smallest key with data from both files.",
  f"{E}:embedDBPutVar",f"{E}:embedDBFlushVar",f"{E}:writeTemporaryPage",f"{E}:embedDBInitVarDataFromFile",f"{E}:embedDBInitDataFromFileWithRecordLevelConsistency",f"{E}:embedDBGetVar")

p("C65","Recovery on storage whose blank pages can be read",
  "On a device whose pages can be read before they are written, as a dataflash chip, reopening a table after a power failure finds exactly the pages written, whatever blank pages follow them, and the table then behaves as its records say.",
  "every life of a data file on a device with any initial content that does not look like a page of the table, power failures at every storage operation",
  "Recovery recognises the end of the table by the content of pages that were never written; tests run on desktop files, where these pages do not exist.",
  f"{E}:embedDBInitDataFromFile",f"{E}:readPage",f"{E}:embedDBInitSplineFromFile")

p("C66","Running out of memory",
  "Whichever requests for memory fail, a client that looks at every pointer it is given and gives up when one is NULL causes no access through a NULL or freed pointer, and can release every block.",
  "every query tree, every set of failing requests, every number of exec calls",
  "The failures occur in the middle of init of nested operators, whose result is not reported; a test would need a failing allocator.",
  f"{Q}:createTableScanOperator",f"{Q}:initProjection",f"{Q}:initSelection",f"{Q}:initAggregate",f"{Q}:initKeyJoin",f"{SC}:copySchema")

p("C67","The files are rings of erase blocks",
  "Each of the three files of a table is used as flash memory wants it: all accesses lie inside the file, whole blocks are erased, a page is erased before it is written again, the pages wear evenly, and the most recently written pages, all but at most one block, can be read.",
  "every sequence of interface calls with any keys, data, iterators and streams, any configuration with whole blocks; for the variable data file also with requests refused by the device at any time",
  "Three functions repeat the same accounting with small differences; the effects show only after a file has wrapped, and wear is invisible to tests.",
  f"{E}:writePage",f"{E}:writeIndexPage",f"{E}:writeVariablePage",f"{E}:embedDBPut",f"{E}:embedDBPutVar",f"{E}:embedDBFlush")

p("C68","The variable data file is taken up again where it stopped",
  "When a table is opened after a power failure the variable data file is continued where it stopped, however often it has wrapped: the next page gets the next number and position, every page not counted as available is still in the file, erasing goes on at a block boundary, and at most one block is given up for it.",
  "every sequence of interface calls and power failures, each after any of the operations on the variable data file, any number of them; any content of the data file; requests refused by the device at any time",
  "embedDBInitVarDataFromFile guesses from page numbers where the newest and the oldest page are; a wrong guess overwrites data or stops erasing, and shows only after the file has wrapped.",
  f"{E}:embedDBInitVarDataFromFile",f"{E}:embedDBInitVarData",f"{E}:writeVariablePage",f"{E}:readVariablePage")

p("C69","Variable data after a power failure, the variable data file having wrapped",
  "When the power fails after the variable data file has wrapped, every record the data file keeps is found again; its variable data is returned exactly as it was inserted, or, exactly if it starts on the oldest page kept or before, reported as no longer available; never other data.",
  "every table built by inserts, flushes and lookups; power failing between two operations or at any storage operation inside one; any lookups afterwards; any number of wraps of the variable data file",
  "The limit is taken from the key on the oldest page of the file; a limit that is too low hands out bytes of other records as data of this one.",
  f"{E}:embedDBInitVarDataFromFile",f"{E}:embedDBInitDataFromFile",f"{E}:embedDBGetVar",f"{E}:embedDBSetupVarDataStream",f"{E}:embedDBVarDataStreamRead")

p("C70","Lives of tables whose variable data file wraps",
  "Whatever the history of a table with variable data - inserts, flushes, lookups, any number of power failures inside them and reopenings, any number of wraps of the variable data file - every operation is carried out and has the right result: every record on a data page kept is found, and its variable data is returned exactly as it was inserted, or reported as no longer available exactly if it starts before the pages kept now, or before the first page delivered when the table was last opened.",
  "all histories of operations, power failures at any storage operation and reopenings, without bound; every operation after them",
  "Counters, limits and page numbers taken from the files at each reopening must agree with what later inserts, wraps and further power failures make of them; an error shows only after several failures and wraps.",
  f"{E}:embedDBInitVarDataFromFile",f"{E}:embedDBPutVar",f"{E}:writeVariablePage",f"{E}:embedDBGetVar",f"{E}:embedDBSetupVarDataStream",f"{E}:embedDBVarDataStreamRead")

p("C71","The single-file distribution behaves like the library",
  "The two files in lib/Distribution behave like the sources they are a copy of: opening a file, inserting and looking up do the same and read only inside the buffers, whatever file the library has written.",
  "every file content, every history of operations, every rounding mode, keys of up to 8 bytes",
  "The copy lacks one line of embedDBCalculateSlope, the only difference in code; whether the line matters depends on when the function is called with an empty page.",
  "lib/Distribution/embedDB.c:embedDBCalculateSlope","lib/Distribution/embedDB.c:getMaxError","lib/Distribution/embedDB.c:embedDBInitDataFromFile",f"{E}:embedDBCalculateSlope")

p("C72","Variable data beyond 4 GiB",
  "However many bytes of variable data have been written in total, every lookup of a retained record returns exactly the bytes stored with it or reports them as reclaimed.",
  "every history of inserts, flushes and lookups of any length, every file size; the position in the variable data file is a 32-bit counter that is never reset",
  "currentVarLoc counts all bytes ever written; the location stored with a record is this counter modulo the file size, which jumps when the counter wraps unless the file size divides 2^32.",
  f"{E}:embedDBPutVar",f"{E}:embedDBPut",f"{E}:embedDBFlushVar",f"{E}:embedDBSetupVarDataStream")

p("C73","Open variable-data streams and other operations do not disturb each other",
  "A client that keeps the streams it got from embedDBGetVar and reads them later in pieces gets from each of them the bytes of the data it was opened for, in order, whatever inserts, flushes, lookups and reads of other streams happen in between; and those operations answer as if the streams were not there.",
  "every interleaving of any number of streams with inserts, flushes and lookups, every piece size",
  "All streams share one variable read buffer and one cached page number; only particular interleavings make one stream read from a page that another operation cached or replaced.",
  f"{E}:embedDBVarDataStreamRead, {E}:embedDBSetupVarDataStream, {E}:embedDBGetVar, {E}:readVariablePage")
p("C74","The files of a table are opened and closed properly",
  "embedDBInit opens exactly the files the table uses; without EMBEDDB_RESET_DATA it keeps what they hold, with it it empties exactly those; a missing data file is refused and nothing is created. After embedDBClose, or after a refused embedDBInit and tearing the files down, no stream is open, none was closed that was not open, and the files can be used again.",
  "every sequence of sessions, every configuration, every outcome of opening each file in each mode, everything recovery may find in them",
  "Which files are open after a refused embedDBInit depends on which check or file failed; tests open and close tables that are accepted.",
  f"{E}:embedDBInit",f"{E}:embedDBInitData",f"{E}:embedDBInitIndex",f"{E}:embedDBInitVarData",f"{E}:embedDBClose","lib/Desktop-File-Interface/desktopFileInterface.c:FILE_OPEN","lib/SD-File-Interface/SDFileInterface.c:FILE_CLOSE")
p("C75","The statistics count the accesses to storage",
  "After embedDBInit or embedDBResetStats the counters are zero, and from then on numReads, numIdxReads, numWrites, numIdxWrites are the page reads and writes the device answered with success, and bufferHits the requests for pages answered without it. A request is answered without the device exactly when that page is the last one read from that file.",
  "every sequence of page reads, page writes and resets, every answer of the device, every content of memory before opening",
  "The counters are what the project's benchmarks report; tests never compare them with what the device saw.",
  f"{E}:embedDBResetStats",f"{E}:readPage",f"{E}:readIndexPage",f"{E}:readVariablePage",f"{E}:writePage",f"{E}:writeTemporaryPage",f"{E}:embedDBInit")
p("C76","The bitmap index saves reading pages that cannot match",
  "A scan with a bound on the data of a table with a bitmap index returns the right records and does not read a data page whose bitmap is on file and has no bucket in common with the query. The bitmap on file is exactly that of the page's records, and at most one index page of bitmaps is not yet on file.",
  "every history of inserts, flushes, lookups and scans, every life with power failures, every query, every sound pair of bitmap functions",
  "An index that never skips is sound too (C23); this says it does its work. Tests compare results, not pages read.",
  f"{E}:embedDBNext",f"{E}:embedDBInitIterator",f"{E}:writeIndexPage",f"{E}:embedDBPut")
p("C77","AVG is close to the mean",
  "The number AVG stores differs from the arithmetic mean of the column by at most the fraction 2^(3-b) of it, where b is 24 for float and 53 for double. It lies between the smallest and the largest value of the column, and is the mean itself when that is a whole number the format can represent.",
  "every group of records, every signed or unsigned column for which the sum is defined, every rounding mode",
  "The sum, the count and the quotient are each rounded; tests average small numbers of small values, where nothing is lost.",
  "src/query-interface/advancedQueries.c:avgCompute","src/query-interface/advancedQueries.c:avgAdd","src/query-interface/advancedQueries.c:createAvgAggregate")
p("C78","What embedDBFlush acknowledges is on the medium",
  "When embedDBFlush returns 0, every page written so far to the data file, the index file and the variable data file was written before the last successful flush of that file, so nothing acknowledged is left in the buffers of the file interface, and the records accepted before are found after any later power failure.",
  "every history of inserts with and without variable data, flushes, lookups, iterators and streams, every configuration, every outcome of writes and erases; every later power failure",
  "Tests reopen files in the same process or after closing them, where buffered pages are not lost.",
  f"{E}:embedDBFlush",f"{E}:embedDBFlushVar",f"{E}:embedDBPutVar",f"{E}:writeTemporaryPage","lib/Desktop-File-Interface/desktopFileInterface.c:FILE_FLUSH")
out=os.path.join(os.path.dirname(os.path.abspath(__file__)),"..","properties.jsonl")
with open(out,"w") as f:
    for x in P: f.write(json.dumps(x)+"\n")
print(len(P))
