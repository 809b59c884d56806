{"id": "C01", "title": "Byte strings are compared by one total order", "statement": "Comparing two byte strings answers Less, Equal or Greater exactly as the lexicographic order on bytes says (a proper prefix is smaller). Hence the answer is Equal only for identical strings, swapping the arguments flips the answer, and Less is transitive.", "quantifier": "all pairs (and triples) of byte strings of any length", "why_tests_cant": "The order is over an infinite set; a handful of pairs cannot establish totality, antisymmetry or transitivity, which every range, sort and tree operation assumes.", "anchors": ["utils/order.go:OrderBytes", "utils/order.go:OrderTimestamp"]}
{"id": "C02", "title": "Paths are compared by one total order that respects prefixes", "statement": "Comparing two paths answers exactly as the lexicographic order on their components says. A path is never greater than a path it prefixes, and everything between a path and one of its extensions in the order that is not larger than all extensions of the prefix is itself an extension (extensions form an interval).", "quantifier": "all paths with any number of components of any length", "why_tests_cant": "Two nested unbounded lexicographic orders; tests only ever compare a few short paths.", "anchors": ["utils/order.go:OrderPath", "utils/paths.go:IsPathPrefixed"]}
{"id": "C03", "title": "The two subspace comparisons used by the store agree", "statement": "The subspace order given to range checks (which compares hexadecimal renderings) and the subspace order used to lay out and prune the in-memory tree (which compares raw bytes) give the same answer on every pair of subspace ids.", "quantifier": "all pairs of subspace ids", "why_tests_cant": "A disagreement would need a particular pair of ids and a particular tree shape to be visible; agreement needs an argument about hex digits preserving order for every byte pair.", "anchors": ["utils/order.go:OrderSubspace", "utils/order.go:OrderBytes", "pkg/data_model/kdnode/wrapper.go:Query", "pkg/data_model/kdnode/willowkdtreenode.go:Key.Order"]}
{"id": "C04", "title": "Range membership means start <= x and (open or x < end)", "statement": "A value is reported as included in a range exactly when it is at least the start and, unless the range is open-ended, strictly below the end.", "quantifier": "all ranges (including empty and inverted ones) over timestamps, paths and subspaces, and all values", "why_tests_cant": "Boundary behaviour over three unbounded ordered sets.", "anchors": ["utils/ranges.go:IsIncludedRange", "utils/ranges.go:IsIncluded3d", "utils/ranges.go:IsValidRange"]}
{"id": "C05", "title": "Range intersection is exact", "statement": "Intersecting two valid ranges succeeds exactly when some value could lie in both in the sense of the order, and then a value is in the result exactly when it is in both arguments; when it fails no value is in both. The argument order does not matter.", "quantifier": "all pairs of valid ranges over any of the three ordered sets, and all values", "why_tests_cant": "Sixteen combinations of open/closed ends and relative positions times an infinite value set.", "anchors": ["utils/ranges.go:IntersectRange", "utils/ranges.go:OrderRangePair", "utils/ranges.go:IntersectRange3d"]}
{"id": "C06", "title": "Range inclusion test is sound and complete", "statement": "The inclusion test on two ranges answers true for a non-empty child exactly when every value of the child is a value of the parent.", "quantifier": "all parent and child ranges with a non-empty child over timestamps; soundness over all three ordered sets", "why_tests_cant": "Quantifies over all members of both ranges.", "anchors": ["utils/ranges.go:RangeIsIncluded"]}
{"id": "C07", "title": "Comparing range endpoints", "statement": "Asking whether a chosen endpoint of one range equals a chosen endpoint of another answers true exactly when the two chosen endpoint values are the same (an open end equals only an open end).", "quantifier": "all pairs of ranges and all four choices of endpoints", "why_tests_cant": "The wrong answers appear only for particular combinations of open flags and endpoint choices.", "anchors": ["utils/ranges.go:IsEqualRangeValue"]}
{"id": "C08", "title": "Area membership", "statement": "A position is reported inside an area exactly when the subspace matches (or the area covers any subspace), the area's path prefixes the position's path, and the timestamp is in the area's time range.", "quantifier": "all areas and positions", "why_tests_cant": "Three unbounded dimensions with independent edge cases.", "anchors": ["utils/areas.go:IsIncludedArea", "utils/areas.go:IsSubspaceIncludedInArea", "utils/paths.go:IsPathPrefixed"]}
{"id": "C09", "title": "Area inclusion is sound and complete", "statement": "The area inclusion test answers true, for an inner area that contains at least one position, exactly when every position of the inner area is a position of the outer area.", "quantifier": "all pairs of areas with a non-empty inner area", "why_tests_cant": "Universally quantified over positions; subspace, path and time rules interact.", "anchors": ["utils/areas.go:AreaIsIncluded"]}
{"id": "C10", "title": "Area intersection is exact", "statement": "Intersecting two areas returns nothing exactly when no position is in both, and otherwise returns an area whose positions are exactly the positions in both. Swapping the arguments does not change which positions are covered.", "quantifier": "all pairs of areas with valid time ranges, and all positions", "why_tests_cant": "Wildcard subspaces, prefix-related paths and open ranges multiply; the code treats its two arguments differently.", "anchors": ["utils/areas.go:IntersectArea"]}
{"id": "C11", "title": "An area and its three-dimensional range contain the same entries", "statement": "Converting an area to a three-dimensional range preserves membership: a valid position is in the area exactly when it is in the range.", "quantifier": "all areas, all positions with valid paths, all path limits", "why_tests_cant": "Depends on the prefix-successor being the tight upper bound for every path, including paths at the limits.", "anchors": ["utils/areas.go:AreaTo3dRange", "utils/successor.go:SuccessorPrefix", "pkg/data_model/datamodeltypes/entryDriverTypes.go:KDTreeStorage.GetInterestRange"]}
{"id": "C12", "title": "The path successor is the immediate next path", "statement": "For a valid path that is not the largest valid path, the successor is valid, greater than the path, and no valid path lies strictly between; for the largest valid path there is no successor. It never crashes.", "quantifier": "all valid paths under all path limits and integer widths", "why_tests_cant": "'No path in between' quantifies over all paths; the interesting cases are at the limits.", "anchors": ["utils/successor.go:SuccessorPath", "utils/successor.go:PathAppend", "utils/successor.go:TryAppendZeroByte", "utils/successor.go:SuccessorBytesFixedWidth"]}
{"id": "C13", "title": "The prefix successor is the least path beyond all extensions", "statement": "For a valid path, the prefix successor is valid, greater than the path and all of its extensions, and every valid path that is at least the given path and below the prefix successor is an extension; if none is returned every valid path at least the given one is an extension. It never crashes.", "quantifier": "all valid paths under all path limits and integer widths", "why_tests_cant": "Quantifies over all extensions and all in-between paths.", "anchors": ["utils/successor.go:SuccessorPrefix", "utils/successor.go:PrefixSuccessor"]}
{"id": "C14", "title": "The subspace successor is the immediate next subspace", "statement": "The successor of a subspace id is greater than it and no subspace id lies strictly between, so a half-open range from an id to its successor contains exactly that id.", "quantifier": "all subspace ids", "why_tests_cant": "Density argument over all byte strings.", "anchors": ["utils/successor.go:SuccessorSubspaceId"]}
{"id": "C15", "title": "Successor computations do not modify their argument", "statement": "Computing the prefix successor of a path (or the range of an area) leaves the bytes of the caller's path unchanged.", "quantifier": "all paths, all path limits, all slice capacities", "why_tests_cant": "Aliasing through a shallow copy is only visible when a component has maximal length and the caller inspects its own path afterwards.", "anchors": ["utils/successor.go:PrefixSuccessor", "utils/successor.go:SuccessorPrefix", "utils/areas.go:AreaTo3dRange"]}
{"id": "C16", "title": "Compact 64-bit integers round-trip and are minimal", "statement": "Encoding any 64-bit number in compact form and decoding it gives the number back; the encoding has 1, 2, 4 or 8 bytes, the smallest of these in which the number fits, and equals the announced width.", "quantifier": "all 64-bit unsigned integers", "why_tests_cant": "2^64 values; width boundaries.", "anchors": ["utils/encoding.go:EncodeIntMax64", "utils/encoding.go:DecodeIntMax64", "utils/encoding.go:GetWidthMax64Int"]}
{"id": "C17", "title": "Bounded integers round-trip under their maximum", "statement": "Encoding a number not exceeding a maximum (below 2^32), using the width derived from that maximum, and decoding with the same maximum gives the number back, for every maximum including three-byte widths.", "quantifier": "all maxima and all numbers up to them, for every unsigned Go type", "why_tests_cant": "The three-byte case and width changes are easily missed; the space is 2^64 pairs.", "anchors": ["utils/encoding.go:EncodeIntMax32", "utils/encoding.go:DecodeIntMax32", "utils/encoding.go:GetWidthMax32Int", "utils/encoding.go:BigIntToBytes"]}
{"id": "C18", "title": "Path encoding round-trips and is self-delimiting", "statement": "Decoding the encoding of a valid path followed by arbitrary bytes returns that path and the number of bytes the path occupied; the precomputed length equals the number of bytes written; hence no path's encoding is a prefix of another path's encoding.", "quantifier": "all valid paths, all path limits, all trailing bytes", "why_tests_cant": "Recursion over unbounded components and arbitrary trailing data.", "anchors": ["utils/paths.go:EncodePath", "utils/paths.go:DecodePath", "utils/paths.go:EncodePathLength"]}
{"id": "C19", "title": "Relative path encoding round-trips", "statement": "Encoding a path relative to a reference path and decoding it relative to the same reference returns the path, for every pair of valid paths.", "quantifier": "all pairs of valid paths, all path limits", "why_tests_cant": "Failure depends on the relation between two arbitrary paths (no shared first component).", "anchors": ["utils/paths.go:EncodeRelativePath", "utils/paths.go:DecodeRelativePath", "utils/paths.go:CommonPrefix"]}
{"id": "C20", "title": "Precomputed relative path length is right", "statement": "The precomputed length of a relative path encoding equals the number of bytes the encoder writes.", "quantifier": "all pairs of valid paths with a common prefix, all path limits", "why_tests_cant": "Agrees on the trivial case (empty suffix excluded) only by accident; needs all suffixes.", "anchors": ["utils/paths.go:EncodePathRelativeLength", "utils/paths.go:EncodeRelativePath"]}
{"id": "C21", "title": "Stream decoding of a path does not depend on how the bytes arrive", "statement": "Decoding an encoded path from a byte stream yields the same path however the bytes are split into chunks and however many chunks have already arrived at each step, and leaves exactly the bytes after the path.", "quantifier": "all valid paths, all splits of the byte stream into chunks, all arrival schedules", "why_tests_cant": "Exponentially many chunkings and schedules; the failing ones are short reads in the middle of a component.", "anchors": ["utils/paths.go:DecodePathStream", "utils/growing_bytes.go:NextAbsolute", "utils/growing_bytes.go:Prune"]}
{"id": "C22", "title": "Relative decoding does not modify the reference", "statement": "Decoding a path relative to a reference leaves the reference path unchanged.", "quantifier": "all references, encodings and slice capacities", "why_tests_cant": "The overwritten component is only visible if the caller keeps using the reference.", "anchors": ["utils/paths.go:DecodeRelativePath", "utils/paths.go:DecodeRelPathStream"]}
{"id": "C23", "title": "Storage keys identify positions and sort by time", "statement": "The storage key of an entry position can be decoded to exactly that position, distinct positions have distinct keys, and keys sort in the database first by timestamp.", "quantifier": "all positions with valid paths, all path limits", "why_tests_cant": "Injectivity over all pairs and order preservation for all 64-bit timestamps.", "anchors": ["pkg/data_model/kv_driver/key_utilities.go:EncodeKey", "pkg/data_model/kv_driver/key_utilities.go:DecodeKey"]}
{"id": "C24", "title": "Stored entry values round-trip", "statement": "The stored value of an entry (payload length, payload digest, token digest) decodes to exactly what was stored.", "quantifier": "all lengths and all digest strings", "why_tests_cant": "Length-prefixed strings of unbounded size.", "anchors": ["pkg/data_model/kv_driver/key_utilities.go:EncodeValues", "pkg/data_model/kv_driver/key_utilities.go:DecodeValues"]}
{"id": "C25", "title": "Entry encoding round-trips", "statement": "Decoding the encoding of an entry gives the entry back, whatever order the byte-at-a-time feeding of the path is scheduled in.", "quantifier": "all entries with valid paths, all path limits, all id schemes that can decode their own encodings, all schedules", "why_tests_cant": "Entry decoding feeds the path through a concurrent byte stream, so the outcome depends on scheduling.", "anchors": ["utils/entries.go:EncodeEntry", "utils/entries.go:DecodeEntry"]}
{"id": "C26", "title": "Entry-relative entry encoding round-trips", "statement": "Decoding an entry encoded relative to a reference entry, with the same reference, gives the entry back.", "quantifier": "all pairs of entries with valid paths, all timestamps and lengths, all path limits", "why_tests_cant": "All 64-bit time differences in both directions and all path pairs.", "anchors": ["utils/entries.go:EncodeEntryRelativeEntry", "utils/entries.go:DecodeStreamEntryRelativeEntry"]}
{"id": "C27", "title": "Range-relative entry encoding round-trips", "statement": "Decoding an entry encoded relative to a three-dimensional range that contains it, with the same range, gives the entry back (same namespace).", "quantifier": "all entries and ranges", "why_tests_cant": "Many flag combinations times unbounded values.", "anchors": ["utils/entries.go:EncodeEntryRelativeRange3d", "utils/entries.go:DecodeStreamEntryRelativeRange3d"]}
{"id": "C28", "title": "Area-in-area encoding round-trips", "statement": "Decoding an area encoded relative to an outer area that includes it gives back an area with the same positions.", "quantifier": "all pairs of an inner area included in an outer area", "why_tests_cant": "Start and end offsets may be measured from either end of the outer range; wrong cases need particular arithmetic.", "anchors": ["utils/areas.go:EncodeAreaInArea", "utils/areas.go:DecodeAreaInArea"]}
{"id": "C29", "title": "Precomputed area-in-area length is right", "statement": "The precomputed length of an area-in-area encoding equals the number of bytes the encoder writes.", "quantifier": "all pairs of an inner area included in an outer area", "why_tests_cant": "Two formulas must agree for all inputs.", "anchors": ["utils/areas.go:EncodeAreaInAreaLength", "utils/areas.go:EncodeAreaInArea"]}
{"id": "C30", "title": "Entry-in-area encoding round-trips", "statement": "Decoding an entry encoded relative to an area that contains it gives the entry back.", "quantifier": "all areas and all entries in them", "why_tests_cant": "Flag and width bytes over unbounded values.", "anchors": ["utils/areas.go:EncodeEntryInNamespaceArea", "utils/areas.go:DecodeStreamEntryInNamespaceArea"]}
{"id": "C31", "title": "Relative range encoding round-trips", "statement": "Decoding a three-dimensional range encoded relative to a reference range gives the range back.", "quantifier": "all pairs of three-dimensional ranges", "why_tests_cant": "Two flag bytes describing about 2^10 shapes times unbounded values.", "anchors": ["utils/ranges.go:EncodeRange3dRelative", "utils/ranges.go:DecodeRange3dRelative"]}
{"id": "C32", "title": "Tree search never prunes a match", "statement": "The per-dimension answers handed to the k-d tree while searching are consistent with its layout: for every tree laid out by the key order, a search that skips subtrees according to those answers returns exactly the keys that lie in the range.", "quantifier": "all trees laid out by the key order, all ranges", "why_tests_cant": "The three orders used for layout, pruning and membership must agree for all keys; a wrong prune loses entries only for particular tree shapes.", "anchors": ["pkg/data_model/kdnode/wrapper.go:Query", "pkg/data_model/kdnode/willowkdtreenode.go:Key.Order"]}
{"id": "C33", "title": "Finding the entries above a path", "statement": "Looking up the entries at prefixes of a path returns exactly the stored entries of the same subspace whose path is a proper prefix of the given path.", "quantifier": "all stored entry sets, subspaces and valid paths, all path limits", "why_tests_cant": "Exactness over all stored sets; relies on successor tightness at every length.", "anchors": ["pkg/data_model/kv_driver/prefix_driver.go:DriverPrefixesOf", "utils/paths.go:PrefixesOf"]}
{"id": "C34", "title": "Finding the entries below a path", "statement": "Looking up the entries prefixed by a path returns exactly the stored entries of the same subspace whose path properly extends the given path.", "quantifier": "all stored entry sets, subspaces and valid paths, all path limits", "why_tests_cant": "Exactness over all stored sets, including paths whose prefix successor does not exist.", "anchors": ["pkg/data_model/kv_driver/prefix_driver.go:PrefixedBy"]}
{"id": "C35", "title": "Point lookup finds exactly the entry at a path", "statement": "Looking up a subspace and path returns the stored position with that subspace and path if there is one and nothing otherwise.", "quantifier": "all stored sets with at most one entry per subspace and path, all valid paths", "why_tests_cant": "The lookup is a range query; exactness needs the successor to be tight.", "anchors": ["pkg/data_model/datamodeltypes/entryDriverTypes.go:KDTreeStorage.Get", "pkg/data_model/entry_driver/entry_driver.go:EntryDriver.Get"]}
{"id": "C36", "title": "Range summaries count and combine exactly the entries in the range", "statement": "The summary of a range reports as size the number of stored entries in the range, its fingerprint does not depend on the order in which the tree returns them, and splitting a range adds the sizes and xors the fingerprints of the parts.", "quantifier": "all stored sets and ranges, all enumeration orders", "why_tests_cant": "Permutation invariance and additivity over unbounded sets.", "anchors": ["pkg/data_model/datamodeltypes/entryDriverTypes.go:KDTreeStorage.Summarise", "pkg/data_model/datamodeltypes/entryDriverTypes.go:xorStrings"]}
{"id": "C37", "title": "Splitting a range partitions it", "statement": "Splitting a range that contains stored entries yields two ranges such that every position in the range is in exactly one of them and no position outside is in either.", "quantifier": "all stored sets, all ranges, all positions", "why_tests_cant": "Partition over all positions, not only stored ones.", "anchors": ["pkg/data_model/datamodeltypes/entryDriverTypes.go:KDTreeStorage.SplitRange"]}
{"id": "C38", "title": "Splitting makes progress", "statement": "Splitting a range holding at least two entries yields two parts each holding strictly fewer entries, so repeated splitting terminates.", "quantifier": "all stored sets and ranges with at least two entries", "why_tests_cant": "Depends on the distribution of timestamps; non-progress shows only with many equal timestamps.", "anchors": ["pkg/data_model/datamodeltypes/entryDriverTypes.go:KDTreeStorage.SplitRange"]}
{"id": "C39", "title": "Range queries return exactly the stored entries in the range", "statement": "Querying the entry store by range returns one full entry per stored position in the range, with its stored digest, length and token, and nothing else.", "quantifier": "all stored sets and ranges", "why_tests_cant": "Exact list content for every number of matches.", "anchors": ["pkg/data_model/entry_driver/entry_driver.go:EntryDriver.Query"]}
{"id": "C40", "title": "Listing an area of interest", "statement": "Listing an area of interest returns only stored entries that are inside the area, newest first, at most the maximum count if one is set and with total payload size at most the maximum size if one is set; without limits it returns all stored entries of the area.", "quantifier": "all stored sets and all areas of interest", "why_tests_cant": "Interaction of limits, order and area membership over unbounded stores.", "anchors": ["pkg/data_model/kv_driver/kv_driver_pebble.go:ListValues", "pkg/data_model/store/store.go:Store.ListWithAOI"]}
{"id": "C41", "title": "Reference counts count", "statement": "After any sequence of increments and decrements (never decrementing a digest below zero) the stored count of every digest equals increments minus decrements; counts of different digests do not interfere; asking for the count of an unknown digest or decrementing it is an error that changes nothing.", "quantifier": "all finite sequences of operations on all digests", "why_tests_cant": "Unbounded histories.", "anchors": ["pkg/data_model/payload_kv_driver/payload_ref_counter.go:Increment", "pkg/data_model/payload_kv_driver/payload_ref_counter.go:Decrement", "pkg/data_model/payload_kv_driver/payload_ref_counter.go:Count"]}
{"id": "C42", "title": "Payload files return what was stored", "statement": "After storing bytes, getting the returned digest yields those bytes, reading from an offset inside the payload yields the rest of the bytes, the length is right, and other payloads are untouched; after erasing a digest it cannot be read.", "quantifier": "all payloads and directory states, for a collision-free digest", "why_tests_cant": "Quantifies over all directory contents.", "anchors": ["pkg/data_model/payload_kv_driver/filesystem.go:Set", "pkg/data_model/payload_kv_driver/filesystem.go:Get", "pkg/data_model/payload_kv_driver/filesystem.go:Erase", "pkg/data_model/payload_kv_driver/filesystem.go:GetPayload"]}
{"id": "C43", "title": "Resumed payload transfer reassembles the payload", "statement": "Receiving a payload in two parts, the second at the offset where the first ended and both committed, yields the concatenation of the parts.", "quantifier": "all payload contents and split points", "why_tests_cant": "File truncation flags lose data only on the resume path.", "anchors": ["pkg/data_model/payload_kv_driver/filesystem.go:Receive"]}
{"id": "C44", "title": "At most one entry per subspace and path", "statement": "Starting from an empty store, after any sequence of writes and ingests there is never more than one stored entry with the same subspace and path.", "quantifier": "all finite sequences of set and ingest operations with arbitrary entries", "why_tests_cant": "Unbounded histories; the invariant must survive every interleaving of overwrites and prunes.", "anchors": ["pkg/data_model/store/store.go:Store.IngestEntry", "pkg/data_model/store/store.go:Store.InsertEntry"]}
{"id": "C45", "title": "No entry survives below a newer entry", "statement": "Starting from an empty store, after any sequence of writes and ingests no stored entry lies strictly below (its path properly extends) a stored entry of the same subspace with a strictly newer timestamp, so prefix pruning is always complete.", "quantifier": "all finite sequences of set and ingest operations", "why_tests_cant": "Violations need a particular order of parent and child writes with particular timestamps.", "anchors": ["pkg/data_model/store/store.go:Store.IngestEntry", "pkg/data_model/store/store.go:Store.PrunableEntries", "pkg/data_model/store/store.go:Store.InsertEntry"]}
{"id": "C46", "title": "Unauthorised or foreign entries are rejected without effect", "statement": "Ingesting an entry of another namespace, or one whose token does not authorise it, is reported as a failure and leaves every stored entry, payload and reference count unchanged; consequently every stored entry was authorised when it was ingested.", "quantifier": "all stores, entries and tokens, and all histories", "why_tests_cant": "Absence of effect on the whole state, and an invariant over histories.", "anchors": ["pkg/data_model/store/store.go:Store.IngestEntry"]}
{"id": "C47", "title": "A successful ingest does exactly what was asked", "statement": "When an entry is accepted it is stored with its digest, length and token; exactly the entries of the same subspace that it replaces (same path) or prunes (strictly below, strictly older) disappear; every other entry is unchanged.", "quantifier": "all reachable stores and all accepted entries", "why_tests_cant": "Frame condition over the entire store.", "anchors": ["pkg/data_model/store/store.go:Store.IngestEntry", "pkg/data_model/store/store.go:Store.InsertEntry", "pkg/data_model/store/store.go:Store.PrunableEntries"]}
{"id": "C48", "title": "An older write never replaces a newer one", "statement": "An entry is not accepted when the store holds an entry of the same subspace at the same path or at a proper prefix with an equal or newer timestamp; then nothing changes.", "quantifier": "all reachable stores and all entries", "why_tests_cant": "Quantifies over all prefixes and all stored sets.", "anchors": ["pkg/data_model/store/store.go:Store.IngestEntry"]}
{"id": "C49", "title": "Replicas that ingest the same entries agree", "statement": "Two stores that start empty and ingest the same set of authorised entries in different orders end up with the same entries.", "quantifier": "all finite sets of entries and all permutations of them", "why_tests_cant": "Factorially many orders; disagreement needs equal timestamps or particular prefix relations.", "anchors": ["pkg/data_model/store/store.go:Store.IngestEntry"]}
{"id": "C50", "title": "The database and the in-memory tree hold the same entries", "statement": "After any sequence of operations the positions in the in-memory tree are exactly the keys in the database.", "quantifier": "all finite sequences of set and ingest operations", "why_tests_cant": "Two data structures updated separately; error paths could let them diverge.", "anchors": ["pkg/data_model/entry_driver/entry_driver.go:Insert", "pkg/data_model/entry_driver/entry_driver.go:Delete", "pkg/data_model/datamodeltypes/entryDriverTypes.go:KDTreeStorage.Insert", "pkg/data_model/datamodeltypes/entryDriverTypes.go:KDTreeStorage.Remove"]}
{"id": "C51", "title": "Payload reference counts equal the number of referring entries", "statement": "After any sequence of operations the reference count of every payload digest equals the number of stored entries with that payload digest (and no entry refers to a digest with no count).", "quantifier": "all finite sequences of set and ingest operations", "why_tests_cant": "Leaks or premature drops appear only after particular overwrite and prune histories.", "anchors": ["pkg/data_model/store/store.go:Store.IngestEntry", "pkg/data_model/store/store.go:Store.InsertEntry", "pkg/data_model/payload_kv_driver/payload_ref_counter.go"]}
{"id": "C52", "title": "Payloads and tokens of live entries stay retrievable", "statement": "After any sequence of writes, the payload and the authorisation token of every stored entry can still be read back from the payload store.", "quantifier": "all finite sequences of set operations, also with received entries and restarts among them", "why_tests_cant": "A premature erase needs two entries that share content and one of them to be pruned or replaced.", "anchors": ["pkg/data_model/store/store.go:Store.Set", "pkg/data_model/store/store.go:Store.IngestEntry", "pkg/data_model/store/store.go:Store.GetPayload"]}
{"id": "C53", "title": "A payload can be ingested for a stored entry", "statement": "Supplying the right payload bytes for a stored entry whose payload is missing stores the payload.", "quantifier": "all stores holding an entry, all payloads", "why_tests_cant": "An inverted test makes success unreachable, for every state: a universal negative.", "anchors": ["pkg/data_model/store/store.go:Store.IngestPayload"]}
{"id": "C54", "title": "The store lock is always released", "statement": "Every call that takes the store's lock releases it before returning, so a later call cannot wait forever.", "quantifier": "all stores, inputs and failure outcomes of the underlying drivers", "why_tests_cant": "The failing paths need an injected driver error in the middle of an ingest.", "anchors": ["pkg/data_model/store/store.go:Store.IngestEntry", "pkg/data_model/store/store.go:Store.InsertEntry"]}
{"id": "C55", "title": "Reading back a write", "statement": "After a write at a subspace and path is accepted, looking up that subspace and path returns that entry, with the payload digest and length of the written bytes, until it is overwritten or pruned.", "quantifier": "all reachable stores, subspaces, valid paths and payloads, all later accepted writes elsewhere", "why_tests_cant": "Quantifies over the state in which the write happens and all unrelated later writes.", "anchors": ["pkg/data_model/store/store.go:Store.Set", "pkg/data_model/entry_driver/entry_driver.go:EntryDriver.Get"]}
{"id": "C56", "title": "Restarting rebuilds the same index", "statement": "Opening an existing database rebuilds the in-memory tree so that it holds exactly the positions of the database.", "quantifier": "all databases written through the store", "why_tests_cant": "Decoding and re-inserting an unbounded database.", "anchors": ["PinaGoladaStore/StoreDriver.go:InitStorage", "PinaGoladaStore/StoreDriver.go:InitKDTree"]}
{"id": "C57", "title": "Restarting does not change range fingerprints", "statement": "The fingerprint of every range after reopening the database equals the fingerprint before.", "quantifier": "all databases and ranges", "why_tests_cant": "Needs comparing two ways of computing the stored fingerprint for arbitrary content.", "anchors": ["PinaGoladaStore/StoreDriver.go:InitKDTree", "pkg/data_model/datamodeltypes/entryDriverTypes.go:KDTreeStorage.Insert"]}
{"id": "C58", "title": "Handles are fresh and stay valid while in use", "statement": "Binding a value returns a handle never handed out before by that store and getting it yields the value; a bound handle keeps its value until it has been asked to be freed and no unprocessed message refers to it; after that it is gone and is never reused.", "quantifier": "all finite sequences of bind, update, free, increment and decrement operations", "why_tests_cant": "Unbounded histories with interleaved reference counting.", "anchors": ["pkg/wgps/handlestore/handle_store.go"]}
{"id": "C59", "title": "Control messages round-trip", "statement": "Decoding an encoded control message (issue guarantee, absolve, plead, announce dropping, apologise, free) yields the same message and consumes exactly its bytes, however the bytes are chunked.", "quantifier": "all channels, handle types, amounts and handles up to 64 bits; all chunkings", "why_tests_cant": "2^64 amounts times 7 channels times chunkings.", "anchors": ["pkg/wgps/encoding/control.go", "pkg/wgps/decoding/control.go"]}
{"id": "C60", "title": "Messages are routed to their own decoder", "statement": "The first byte of every encoded message makes the receiver choose the decoder of that kind of message.", "quantifier": "all messages of all kinds with all field values", "why_tests_cant": "First bytes depend on data; the overlap between masks shows only for particular widths and flags.", "anchors": ["pkg/wgps/decoding/decode_messages.go:DecodeMessages", "pkg/wgps/encoding/message_encoder.go"]}
{"id": "C61", "title": "The guarantee queue sends only what is guaranteed, in order, and all of it eventually", "statement": "Bytes pushed into the guarantee queue come out once, in order, never exceeding the guarantees received, and are all sent once enough guarantees have arrived; adding guarantees always returns.", "quantifier": "all finite sequences of push, add-guarantees and plead operations", "why_tests_cant": "Unbounded histories; one wrong loop condition makes the call never return.", "anchors": ["pkg/wgps/guaranteed_queue.go"]}
{"id": "C62", "title": "Reconcilers stay registered", "statement": "A reconciler registered for a pair of handles can be looked up by that pair, and registering another pair does not remove it.", "quantifier": "all finite sequences of registrations and lookups", "why_tests_cant": "Loss occurs only when two registrations share our handle.", "anchors": ["pkg/wgps/reconciliation/reconciler_map.go"]}
{"id": "C63", "title": "Every intersecting pair of interests is found once", "statement": "After all handles of both sides have been added, the reported pairs are exactly the pairs (ours, theirs) with equal namespaces whose areas share a position, each reported once.", "quantifier": "all finite sequences of handle additions with distinct handles", "why_tests_cant": "All interleavings of additions from the two sides.", "anchors": ["pkg/wgps/reconciliation/aoi_intersection_finder.go:AddAoiHandleToNamespace", "utils/areas.go:IntersectArea"]}
{"id": "C64", "title": "A capability bound by handle can be found again", "statement": "After adding a capability for a namespace, looking for a capability handle for an entry of that namespace inside its granted area finds a handle of a capability that covers the entry.", "quantifier": "all finite sequences of additions, all entries", "why_tests_cant": "The first addition for each namespace takes a different branch.", "anchors": ["pkg/wgps/cap_finder.go:AddCap", "pkg/wgps/cap_finder.go:FindCapHandle"]}
{"id": "C65", "title": "Reconciliation responses cover the whole received range", "statement": "When fingerprints differ, the response either announces exactly the received range or consists of fingerprints for two ranges that together cover exactly the received range without overlap; when they agree there is no response.", "quantifier": "all stores, ranges, fingerprints", "why_tests_cant": "Coverage of all positions of the range by the response.", "anchors": ["pkg/wgps/reconciliation/reconciler.go:Respond"]}
{"id": "C66", "title": "Range reconciliation terminates", "statement": "Repeatedly responding to fingerprints with splits always ends with announcements after finitely many steps.", "quantifier": "all stores and ranges", "why_tests_cant": "Non-termination needs more than eight entries that share one timestamp.", "anchors": ["pkg/wgps/reconciliation/reconciler.go:Respond", "pkg/data_model/datamodeltypes/entryDriverTypes.go:KDTreeStorage.SplitRange"]}
{"id": "C67", "title": "A waiting stream reader is woken when enough bytes arrive", "statement": "A reader waiting for n bytes of a growing byte stream is woken once at least n bytes have arrived, in every interleaving of reader and receiver.", "quantifier": "all interleavings of one reader and the receiving goroutine, all chunk sequences", "why_tests_cant": "Scheduling-dependent; a test run sees one interleaving.", "anchors": ["utils/growing_bytes.go"]}
{"id": "C68", "title": "Received payload bytes reach the store", "statement": "Payload bytes pushed for a targeted entry are handed to the store's payload ingestion.", "quantifier": "all sequences of target, push and terminate events", "why_tests_cant": "A universal negative: no event sequence has the intended effect.", "anchors": ["pkg/wgps/data/payload_ingester.go"]}
{"id": "C69", "title": "Queued payloads are sent completely and in order", "statement": "The payload messages produced for queued entries and payload requests concatenate to the payload bytes from the requested offset, each preceded by its own header message, in queue order.", "quantifier": "all queues, payloads and offsets", "why_tests_cant": "Concatenation property over unbounded payloads.", "anchors": ["pkg/wgps/data/data_sender.go:Messages"]}
{"id": "C70", "title": "Private-area-intersection fragments are exactly the prefixes", "statement": "The fragments made for a granted path are the namespace paired with every prefix of the path, from the empty path to the path itself, each exactly once; two fragment sets share a fragment exactly when the namespaces agree and one path prefixes the other.", "quantifier": "all namespaces and paths", "why_tests_cant": "Quantifies over all pairs of paths.", "anchors": ["pkg/wgps/pai/pai_finder.go:CreateFragmentSet", "utils/paths.go:PrefixesOf"]}
{"id": "C71", "title": "Data messages round-trip", "statement": "Decoding an encoded data-channel message (send payload, reply payload, set eagerness, bind payload request, send entry) yields the same message and consumes exactly its bytes, however the bytes are chunked.", "quantifier": "all field values up to 64 bits; all chunkings", "why_tests_cant": "2^64 values and exponentially many chunkings.", "anchors": ["pkg/wgps/encoding/data.go", "pkg/wgps/decoding/data.go"]}
{"id": "C72", "title": "Setup messages round-trip", "statement": "Decoding an encoded setup message (bind read capability, bind area of interest, bind static token) yields the same message.", "quantifier": "all handles, areas and limits", "why_tests_cant": "Limits of every width must survive.", "anchors": ["pkg/wgps/encoding/setup.go", "pkg/wgps/decoding/setup.go"]}
{"id": "C73", "title": "Private-area-intersection messages round-trip", "statement": "Decoding an encoded private-area-intersection message yields the same message and consumes exactly its bytes.", "quantifier": "all handles up to 64 bits, all group members", "why_tests_cant": "Handle values at every width.", "anchors": ["pkg/wgps/encoding/pai.go", "pkg/wgps/decoding/pai.go"]}
{"id": "C74", "title": "Reconciliation messages round-trip", "statement": "Decoding an encoded reconciliation message (send fingerprint, announce entries, send entry, send payload) relative to the same previous state yields the same message.", "quantifier": "all messages and all previous states; all chunkings", "why_tests_cant": "Handle widths, coverage counters and relative ranges interact.", "anchors": ["pkg/wgps/encoding/reconciliation.go", "pkg/wgps/decoding/reconciliation.go"]}
{"id": "C75", "title": "Command-line paths are split and joined faithfully", "statement": "A path typed on the command line as slash-separated text is stored as those components and displayed as the same text.", "quantifier": "all strings", "why_tests_cant": "Empty components and leading or trailing slashes.", "anchors": ["main.go:makePath", "PinaGoladaStore/StoreDriver.go:ConvertToByteSlices"]}
{"id": "C76", "title": "Valid paths obey the declared limits", "statement": "The path validity check accepts exactly the paths with at most the maximal number of components, each of at most the maximal length and with at most the maximal total length, for every integer type used for the limits.", "quantifier": "all paths and limits", "why_tests_cant": "Integer conversion to a narrow limit type wraps for long paths only.", "anchors": ["utils/paths.go:IsValidPath"]}
{"id": "C77", "title": "Path distance separates paths", "statement": "The reported distance between two paths is zero exactly when the paths are equal, and does not depend on argument order.", "quantifier": "all pairs of paths", "why_tests_cant": "Symmetry over all pairs.", "anchors": ["utils/paths.go:PathDistance"]}
{"id": "C78", "title": "Range fingerprints tell different contents apart", "statement": "Two stores whose entries in a range differ report different summaries (fingerprint and size) of that range, up to collisions of the digest function.", "quantifier": "all stores and ranges", "why_tests_cant": "Tests compare a few stores; equality of fingerprints must imply equality of contents for all of them, otherwise reconciliation silently skips entries.", "anchors": ["pkg/data_model/datamodeltypes/entryDriverTypes.go:Summarise", "pkg/data_model/entry_driver/entry_driver.go:Insert"]}
{"id": "C79", "title": "A refused write leaves nothing behind", "statement": "When a write is refused, the entries, the reference counts and the stored payloads are what they were before.", "quantifier": "all store states and all refused writes", "why_tests_cant": "Leftovers only show up as unreferenced files after many refused writes.", "anchors": ["pkg/data_model/store/store.go:Set", "pkg/data_model/payload_kv_driver/filesystem.go:Set"]}
{"id": "C80", "title": "Payloads without references are removed", "statement": "When the last entry with some payload is replaced or pruned, the payload is removed from the payload store.", "quantifier": "all sequences of calls", "why_tests_cant": "Depends on the whole history of a payload's references.", "anchors": ["pkg/data_model/store/store.go:IngestEntry", "pkg/data_model/store/store.go:InsertEntry", "pkg/data_model/payload_kv_driver/payload_ref_counter.go:Decrement"]}
{"id": "C81", "title": "Times typed on the command line are converted exactly", "statement": "A time typed as hours and minutes is converted to that many microseconds after midnight, and any other text is reported as invalid.", "quantifier": "all texts, all hours and minutes", "why_tests_cant": "Wrap-around needs numbers no test would type.", "anchors": ["main.go:parseTimeStampToMicroSeconds"]}
{"id": "C82", "title": "The get command prints what the set command stored", "statement": "After a set command with some path is accepted, the get command for that subspace and path prints the bytes stored, until a newer set at that path or at a prefix of it.", "quantifier": "all sequences of commands, all texts and payloads", "why_tests_cant": "Combines path splitting, the store, the reference counts and the payload files over arbitrary histories.", "anchors": ["main.go:NameSpaceInteraction", "pkg/data_model/store/store.go:Set", "pkg/data_model/entry_driver/entry_driver.go:Get", "pkg/data_model/payload_kv_driver/filesystem.go:Get"]}
{"id": "C83", "title": "Reconciliation notices differences", "statement": "If two stores hold different entries in a range, the reconciler that receives the other store's fingerprint of the range answers with entries or with fingerprints of parts, not with nothing.", "quantifier": "all pairs of stores and ranges", "why_tests_cant": "Quantifies over all pairs of store contents; equality of fingerprints of different contents must be excluded for all of them.", "anchors": ["pkg/wgps/reconciliation/reconciler.go:Initiate", "pkg/wgps/reconciliation/reconciler.go:Respond", "pkg/data_model/datamodeltypes/entryDriverTypes.go:KDTreeStorage.Summarise"]}
{"id": "C84", "title": "Sender and receiver agree on what 'same as previous' means", "statement": "After the same reconciliation messages, the previous handles, range, entry and token against which the receiving loop decodes a message equal those against which the sender encoded it.", "quantifier": "all sequences of reconciliation messages, all tracker states", "why_tests_cant": "Needs a stateful comparison of two trackers over message sequences.", "anchors": ["pkg/wgps/reconciliation/reconcile_msg_tracker.go", "pkg/wgps/decoding/decode_messages.go:DecodeMessages", "pkg/wgps/encoding/message_encoder.go:Encode"]}
{"id": "C85", "title": "The messages sent are the messages received", "statement": "For every sequence of messages that the message encoder encodes, the receiving loop emits exactly these messages, in order, and consumes exactly their bytes, however the bytes are cut into chunks.", "quantifier": "all sequences of messages of all kinds, all chunkings", "why_tests_cant": "Quantifies over message sequences and chunkings; a misrouted message desynchronises everything after it.", "anchors": ["pkg/wgps/decoding/decode_messages.go:DecodeMessages", "pkg/wgps/encoding/message_encoder.go:Encode"]}
{"id": "C86", "title": "What a stream reader is given is what was sent", "statement": "In every interleaving of reader and receiver, the bytes given to the reader of a growing byte stream are at least as many as it asked for and are the bytes that come next in the stream after those it has pruned.", "quantifier": "all sequences of waits and prunes in which the reader prunes no more than it has been shown, all chunk sequences, all interleavings of reader and receiving goroutine", "why_tests_cant": "Scheduling-dependent; a test run sees one interleaving of unsynchronised accesses.", "anchors": ["utils/growing_bytes.go"]}
{"id": "C87", "title": "Messages of one sort travel on one logical channel", "statement": "Every message the encoder encodes is assigned the channel its sort belongs to: a message binding a handle goes to the channel of that type of handle and to no other, reconciliation messages to the reconciliation channel, data messages to the data channel, and messages that manage guarantees and handles to the control channel.", "quantifier": "all messages of all kinds, all encoder states", "why_tests_cant": "Relates every kind of message to its channel and the channels to each other; a misrouted message only shows as lost order under load.", "anchors": ["pkg/wgps/channels/channels.go", "pkg/wgps/encoding/message_encoder.go:Encode"]}
{"id": "C88", "title": "Framing of messages on a stream", "statement": "If the peer writes messages with their lengths before them to a stream, Recv sends on exactly these messages, in order, however the bytes are cut into reads, and no bytes of the peer end the process.", "quantifier": "all message sequences, all chunkings, all partial last frames, all numbers of reads", "why_tests_cant": "Quantifies over chunkings and adversarial bytes; a test over the local network sees whole writes.", "anchors": ["pkg/wgps/transport/quic.go:Recv", "pkg/wgps/transport/quic.go:Initiate"]}
{"id": "C89", "title": "A message reaches the listener of its channel", "statement": "What is sent on a channel is given, whole and in order, to the listener for that channel and to no other, however the receiving goroutines are scheduled.", "quantifier": "all message sequences, all chunkings, all schedules of the receiving goroutines", "why_tests_cant": "Depends on the scheduling of goroutines that share a stream.", "anchors": ["pkg/wgps/wgps_messenger.go:NewWgpsMessenger", "pkg/wgps/transport/quic.go:Recv"]}
{"id": "C90", "title": "Sending on and closing a transport", "statement": "Sends write to the stream of their role and channel, in order, and to no other; a send succeeds exactly if that stream is open, and fails with an error otherwise; a transport can be closed in every state, after which every stream is closed and every send is refused.", "quantifier": "all sequences of sends, all transport states", "why_tests_cant": "Needs all states of a transport, among them those before the peer has opened its streams.", "anchors": ["pkg/wgps/transport/quic.go:Send", "pkg/wgps/transport/quic.go:Close"]}
{"id": "C91", "title": "AsyncReceive hands on every value and then ends", "statement": "AsyncReceive calls the callback with exactly the values sent to the channel, in order, and calls onEnd once the channel is closed.", "quantifier": "all value sequences, all callbacks, with and without onEnd, channel open or closed", "why_tests_cant": "The wrong behaviours are a goroutine that has stopped listening and one that never stops.", "anchors": ["pkg/wgps/syncutils/utils.go:AsyncReceive"]}
{"id": "C92", "title": "Reconciliation through the messenger", "statement": "When a peer is sent the summary of a range, it sends nothing if its own summary is equal; otherwise it sends all its entries of the range with their payloads if they are at most eight, and else two ranges that together make up the range; the summary sent tells the range and its fingerprint.", "quantifier": "all stores, ranges and fingerprints, all messages of the peer, all fingerprint schemes", "why_tests_cant": "Existing tests start the messenger but never compare what two peers hold; the claim is about all stores and ranges.", "anchors": ["pkg/wgps/wgps_messenger.go:HandleMsgReconciliationAcceptor", "pkg/wgps/wgps_messenger.go:HandleMsgReconciliationInitiator", "pkg/wgps/wgps_messenger.go:Respond", "pkg/wgps/wgps_messenger.go:EncodeSummary"]}
{"id": "C93", "title": "Received entries are stored as the peer has them", "statement": "An entry received in a data message, if it is of the namespace, authorised, goes with its payload and is newer than what is stored, is stored exactly as the peer has it; any other message changes nothing; no message ends the process.", "quantifier": "all store states reached by calls, all messages", "why_tests_cant": "Adversarial messages and arbitrary store states.", "anchors": ["pkg/wgps/wgps_messenger.go:HandleDataInitiator", "pkg/wgps/wgps_messenger.go:DecodeEntryPayload", "pkg/data_model/store/store.go:Set"]}
{"id": "C94", "title": "Submitting an authorisation to private area intersection", "statement": "Submitting a read authorisation binds one new handle for each of its fragments, in order, to the fragment's group member multiplied by the finder's scalar, queues the binds with their class (primary or secondary), and records for each what to do on an intersection: the most specific primary fragment is reported, the most specific secondary one asks for a subspace capability, the others wait for the other peer's capability; nothing else changes.", "quantifier": "all group schemes, finders and authorisations", "why_tests_cant": "There are no tests of the finder; the claim ranges over all schemes and paths of any length.", "anchors": ["pkg/wgps/pai/pai_finder.go:SubmitAuthorisation", "pkg/wgps/pai/pai_finder.go:CreateFragmentSet"]}
{"id": "C95", "title": "Private area intersection finds intersections", "statement": "Once two peers have exchanged their binds and replies, each reports exactly the authorisations that share a fragment with the other's; nothing is reported that was not shared or asked for, and no query of the finder ends the process.", "quantifier": "all group schemes and all sequences of calls", "why_tests_cant": "Two-party protocol over arbitrary sequences of messages, any order of map iteration.", "anchors": ["pkg/wgps/pai/pai_finder.go:ReceivedBind", "pkg/wgps/pai/pai_finder.go:ReceivedReply", "pkg/wgps/pai/pai_finder.go:CheckForIntersections", "pkg/wgps/pai/pai_finder.go:ReceivedVerifiedSubspaceCapReply", "pkg/wgps/pai/pai_finder.go:GetHandleOuterArea"]}
{"id": "C96", "title": "Namespaces of the application", "statement": "In any session of command lines each namespace holds what was stored in it; a line changes no other namespace; a namespace that was created can be entered again, in the same session or a later one, with the same contents; no line of the menu ends the process.", "quantifier": "all sessions (lists of lines), all contents of the disk and of the files named, all namespaces", "why_tests_cant": "The loops read standard input and are not tested; the claim is about all sequences of lines.", "anchors": ["main.go:main", "main.go:NameSpaceInteraction", "PinaGoladaStore/StoreDriver.go:InitStorage", "PinaGoladaStore/StoreDriver.go:InitKDTree"]}
{"id": "C97", "title": "Command lines do what they say", "statement": "A line `set subspace path file [time]` stores the contents of the file, `get subspace path` prints what is stored there, `list` shows every entry ordered by subspace; a line that is not understood changes nothing; no line typed in a namespace ends the process or the stay in the namespace, except `back` and `exit`.", "quantifier": "all stores, words, files and lines", "why_tests_cant": "Unbounded set of lines; spaces in names and repeated spaces are easily missed.", "anchors": ["main.go:NameSpaceInteraction", "main.go:parseTimeStampToMicroSeconds"]}
{"id": "C98", "title": "Starting a reconciliation", "statement": "A reconciler for two areas of interest starts, in the role of Alfie, with one message whose range holds exactly the positions in both areas (within the limits of the areas of interest) and whose fingerprint is that of the entries held there; in the role of Betty it starts with no message.", "quantifier": "all pairs of areas of interest, all stores, both roles, all path parameters", "why_tests_cant": "Unbounded set of areas and stores; the areas at the limits of the path parameters and those with nothing in common are easily missed.", "anchors": ["pkg/wgps/reconciliation/reconciler.go:NewReconciler", "pkg/wgps/reconciliation/reconciler.go:DetermineRange", "pkg/wgps/reconciliation/reconciler.go:Initiate"]}
{"id": "C99", "title": "Announcing entries", "statement": "In any sequence of announcements and operations on the shared handle store, each announced entry refers to its static token by the number that the peer has for it, the peer is told of each token once and not after its first use, each pack repeats what was asked, and its entries are the stored entries in the range.", "quantifier": "all sequences of announcements and handle operations, all token schemes with injective encoding", "why_tests_cant": "The claim is an invariant over histories; the file is commented out and cannot be run.", "anchors": ["pkg/wgps/reconciliation/announcer.go:GetStaticTokenHandle", "pkg/wgps/reconciliation/announcer.go:QueueAnnounce"]}
{"id": "C100", "title": "Payload files hold what their names say", "statement": "After any calls to a store, accepted or refused, and restarts, every payload file has the name of the digest of its contents and its contents were given to one of the calls; if the digests of the given bytes do not collide, reading by the digest of some of them gives exactly these bytes.", "quantifier": "all finite sequences of sets, ingests and restarts on a new store, all digest functions and file names that are injective on digests", "why_tests_cant": "Invariant over unbounded histories, including refused calls and files left over from them.", "anchors": ["pkg/data_model/payload_kv_driver/filesystem.go:Set", "pkg/data_model/store/store.go:Set", "pkg/data_model/store/store.go:InsertEntry"]}
{"id": "C101", "title": "Queued payloads are sent", "statement": "After any calls that queue entries and payload requests, the messages made are, for each in order, its header and the bytes of its payload from the offset on, each once; a request whose handle is not yet bound is answered when it is.", "quantifier": "all sequences of queueing calls, with the stores changing between them", "why_tests_cant": "Unbounded interleavings of queueing with changes to the stores.", "anchors": ["pkg/wgps/data/data_sender.go:QueueEntry", "pkg/wgps/data/data_sender.go:QueuePayloadRequest", "pkg/wgps/data/data_sender.go:Messages"]}
{"id": "C102", "title": "Database keys", "statement": "The prefix test of the database driver answers whether one key is a prefix of another, its comparison is the order of the database, reading several keys gives the value of each exactly when each has one, and after clearing no key has a value.", "quantifier": "all byte strings, all databases", "why_tests_cant": "Unbounded set of keys; the comparison differs from the order of the database only for keys of different lengths.", "anchors": ["pkg/data_model/kv_driver/kv_driver_pebble.go:IsFirstPrefixOfSecond", "pkg/data_model/kv_driver/kv_driver_pebble.go:CompareKeys", "pkg/data_model/kv_driver/kv_driver_pebble.go:GetMultipleValues", "pkg/data_model/kv_driver/kv_driver_pebble.go:Clear"]}
{"id": "C103", "title": "Distances of tree keys", "statement": "The distance of two keys is symmetric, not negative, zero for equal positions only, and not below the distance in any one dimension.", "quantifier": "all pairs of keys, all dimensions", "why_tests_cant": "2^128 pairs of times; the distance wraps for times 72 minutes apart.", "anchors": ["pkg/data_model/kdnode/willowkdtreenode.go:Dist", "pkg/data_model/kdnode/willowkdtreenode.go:DistDim"]}
{"id": "C104", "title": "Keys of namespaces", "statement": "The key under which the capability finder keeps a namespace is text of the base 64 alphabet and differs for different namespaces.", "quantifier": "all namespaces, all injective encodings", "why_tests_cant": "Unbounded set of pairs of namespaces.", "anchors": ["pkg/wgps/cap_finder.go:GetNamespaceKey"]}
{"id": "C105", "title": "Queues sent through channels", "statement": "A reader of a channel made from a queue (intersections, fragments, replies, capability requests, outgoing bytes, announcements) receives every element queued, in order and once, before the channel is closed.", "quantifier": "all interleavings of queueing, sending, receiving and cancelling", "why_tests_cant": "Depends on the interleaving of goroutines.", "anchors": ["pkg/wgps/reconciliation/aoi_intersection_finder.go:Intersections", "pkg/wgps/pai/pai_finder.go:FragmentBinds", "pkg/wgps/guaranteed_queue.go:FetchOutgoingBytes", "pkg/wgps/reconciliation/reconciler.go:announcements"]}
{"id": "C106", "title": "Categories of messages and their channels", "statement": "Every message type implements exactly one of the interfaces that categorise messages by logical channel, and the encoder puts a message on the channel of its category.", "quantifier": "all messages, all encoder states", "why_tests_cant": "Two tables that nothing compares: the interfaces are never used, so no run shows that they differ from the table of channels.", "anchors": ["pkg/wgps/wgpstypes/types.go:IsNoChannelMsg", "pkg/wgps/channels/channels.go:MsgLogicalChannels", "pkg/wgps/encoding/message_encoder.go:Encode"]}
{"id": "C107", "title": "Names of payload files", "statement": "The file of a payload is named by the standard base 32 text of its digest (52 characters of the alphabet and four '='), a plain file name on every system; any text that is not an even number of hexadecimal digits has the empty name.", "quantifier": "all payloads, all digest functions with 32-byte results, all texts", "why_tests_cant": "2^256 digests; the claim is about every character of the name.", "anchors": ["pkg/data_model/payload_kv_driver/filesystem.go:GetKey", "PinaGoladaStore/StoreSchemes.go:TestPayloadScheme"]}
{"id": "C108", "title": "Areas and ranges of a store after calls", "statement": "After any sequence of calls, listing an area of interest, querying a range and listing the tree give exactly the entries that the accepted writes left (newest per path, nothing below a newer entry) in that area or range.", "quantifier": "all sequences of sets, ingests and restarts, all areas of interest, all ranges", "why_tests_cant": "Combines three separate indexes (database order, tree, value encoding) over unbounded histories.", "anchors": ["pkg/data_model/store/store.go:Store.ListWithAOI", "pkg/data_model/store/store.go:Store.List", "pkg/data_model/entry_driver/entry_driver.go:EntryDriver.Query", "pkg/data_model/kv_driver/kv_driver_pebble.go:ListValues"]}
{"id": "C109", "title": "A session of two peers", "statement": "When two peers run a session for a range, then whatever the order of network and goroutine steps, what a peer holds it keeps, and when all messages have been handled both hold the newest entries of either in the range; no message ends a process.", "quantifier": "all pairs of stores, all ranges, all interleavings of sends, deliveries, reads and handlers", "why_tests_cant": "Unbounded interleavings of four goroutines, two processes and the network over unbounded stores.", "anchors": ["pkg/wgps/wgps_messenger.go:NewWgpsMessenger", "pkg/wgps/wgps_messenger.go:HandleMsgReconciliationAcceptor", "pkg/wgps/wgps_messenger.go:HandleMsgReconciliationInitiator", "pkg/wgps/wgps_messenger.go:HandleDataInitiator", "pkg/wgps/transport/testalfieserver/server.go:main", "pkg/wgps/transport/quic.go:Recv"]}
{"id": "C110", "title": "Calls at the same time act like calls one after another", "statement": "When several Set and IngestEntry calls are under way at the same time, then whatever the order of their steps, entries, payloads and results are those of the same calls made one after the other in some order, in which a call that begins after another has returned comes after it; every call returns; and readers see the store before or after each call.", "quantifier": "all sets of calls, all interleavings of their steps, all moments", "why_tests_cant": "The number of interleavings is unbounded and a test run shows one of them; the losing ones need another call between two particular lines.", "anchors": ["pkg/data_model/store/store.go:Store.Set", "pkg/data_model/store/store.go:Store.IngestEntry", "pkg/data_model/payload_kv_driver/filesystem.go:PayloadDriver.Set", "pkg/data_model/payload_kv_driver/filesystem.go:PayloadDriver.Erase"]}
{"id": "C111", "title": "A process that ends in the middle of a write", "statement": "If the process ends at any moment during a Set or IngestEntry (a panic in any goroutine ends it), then the store opened again holds the entries before the call or those after it, with their payloads, and goes on to work as a store with those entries.", "quantifier": "all histories, all calls, all moments within the call, all later calls", "why_tests_cant": "A test would have to kill the process between two particular writes; there are as many moments as writes, and pruning makes their number unbounded.", "anchors": ["pkg/data_model/store/store.go:Store.Set", "pkg/data_model/store/store.go:Store.IngestEntry", "pkg/data_model/store/store.go:Store.InsertEntry", "pkg/data_model/kv_driver/kv_driver_pebble.go:KvDriver.Set", "pkg/data_model/payload_kv_driver/filesystem.go:PayloadDriver.Set", "PinaGoladaStore/StoreDriver.go:InitKDTree"]}
{"id": "C112", "title": "Bytes that no encoder made", "statement": "Whatever bytes a peer sends, in whatever chunks, the loop that decodes messages neither panics nor reads past the bytes it has received.", "quantifier": "all byte streams, all chunkings and schedules, all states of the loop, all schemes", "why_tests_cant": "Unbounded byte streams and chunkings; whether a stream is fatal depends on the first byte, on the state of the tracker and on how much has arrived.", "anchors": ["pkg/wgps/decoding/decode_messages.go:DecodeMessages", "pkg/wgps/decoding/control.go", "pkg/wgps/decoding/data.go", "pkg/wgps/decoding/pai.go", "pkg/wgps/decoding/reconciliation.go", "pkg/wgps/decoding/setup.go", "utils/paths.go:DecodePathStream"]}
{"id": "C113", "title": "The tracker of reconciliation messages knows what came before", "statement": "After any history of reconciliation messages the tracker tells encoders and decoders the range and handles of the latest ranged message, the latest entry and token and the latest announcement; it expects an entry exactly while fewer entries have come since the latest announcement than it announced, and a payload exactly after an entry whose payload has not ended.", "quantifier": "all histories of messages, all schemes", "why_tests_cant": "Unbounded histories; the counter wraps only after an unannounced entry.", "anchors": ["pkg/wgps/reconciliation/reconcile_msg_tracker.go"]}
{"id": "C114", "title": "Writes in one subspace leave the others alone", "statement": "No sequence of writes and received entries of other subspaces changes the keys, database values or lookups of a subspace.", "quantifier": "all environments and kd-trees, all states, all sequences of calls, all subspaces", "why_tests_cant": "The collision of keys needs a path whose component count wraps; tests use a handful of short paths.", "anchors": ["pkg/data_model/store/store.go:Set", "pkg/data_model/store/store.go:IngestEntry", "pkg/data_model/kv_driver/key_utilities.go:EncodeKey"]}
{"id": "C115", "title": "Entries beyond the limits are refused", "statement": "A write or a received entry whose path exceeds the limits is refused with an error, the store is unchanged and the process goes on.", "quantifier": "all environments, all states, all entries with paths beyond the limits", "why_tests_cant": "The set of paths beyond the limits is unbounded and different kinds of them go wrong differently (process ended, stored, stored under another key).", "anchors": ["pkg/data_model/store/store.go:IngestEntry", "utils/successor.go", "utils/paths.go:IsValidPath"]}
{"id": "C116", "title": "The bytes of a session arrive once and in order", "statement": "At any time of a session, the bytes of a stream that the network has delivered to a peer are, from the first on and in order, those that the receiving goroutines have taken and then those that are waiting: none is lost, doubled or made up.", "quantifier": "all sessions of two peers, all stores, all bytes written so far, all deliveries and schedules", "why_tests_cant": "The ways in which the network cuts the bytes and in which two goroutines that read from one stream take turns are unbounded.", "anchors": ["pkg/wgps/transport/quic.go:Recv", "pkg/wgps/wgps_messenger.go:NewWgpsMessenger"]}
{"id": "C117", "title": "Each message is handled once and in order", "statement": "At any time of a session, the initiator's store is the one that results from receiving the first messages given to its data listener, once each and in order; the acceptor's store does not change; a handler always takes the next message that has been received and leaves those of other listeners alone.", "quantifier": "all sessions of two peers, all stores, all bytes written so far, all deliveries and schedules", "why_tests_cant": "All interleavings of network, reading and handling goroutines.", "anchors": ["pkg/wgps/wgps_messenger.go:NewWgpsMessenger", "pkg/wgps/wgps_messenger.go:HandleDataInitiator", "pkg/wgps/syncutils/utils.go:AsyncReceive"]}
{"id": "C118", "title": "A listing is not changed by the iteration that made it", "statement": "The entries that a listing of an area of interest returns are those it found, whatever the database's iterator does with its key buffer afterwards.", "quantifier": "all stored sets, all areas of interest, all contents of the iterator's buffer", "why_tests_cant": "Depends on when the database library reuses a buffer.", "anchors": ["pkg/data_model/kv_driver/kv_driver_pebble.go:ListValues", "pkg/data_model/kv_driver/key_utilities.go:DecodeKey"]}
{"id": "C119", "title": "Ids can be decoded from the front of longer input", "statement": "With the encoding schemes that come with the code, an encoded namespace, subspace or token is decoded from input that continues after it, both from bytes and from a stream; entries with different namespaces or subspaces have different encodings, and an encoded entry can be decoded.", "quantifier": "all ids, all continuations, all ways in which a stream arrives", "why_tests_cant": "The schemes are wrong only in combination with what follows; the tests only use them alone or as map keys.", "anchors": ["PinaGoladaStore/StoreSchemes.go:NameSpaceEncoding", "PinaGoladaStore/StoreSchemes.go:SubspaceEncoding", "pkg/data_model/store/test_schemes.go:NameSpaceEncoding", "utils/entries.go:EncodeEntry", "utils/entries.go:DecodeEntry"]}
{"id": "C120", "title": "Encoding an entry writes to no memory but its own", "statement": "EncodeEntry returns the encoding of the entry and leaves all memory that existed before the call unchanged.", "quantifier": "all entries, wherever their namespace id is stored", "why_tests_cant": "Only seen when the namespace id is a slice of a larger array.", "anchors": ["utils/entries.go:EncodeEntry", "PinaGoladaStore/StoreSchemes.go:NameSpaceEncoding"]}
{"id": "C121", "title": "Looking up a stored position or making a range of an area leaves its subspace alone", "statement": "Looking up the position of a key of the tree, also one whose path and subspace are slices of a stored key (as after a restart), changes no key of the tree and gives what the lookup of a copy gives; and the range made of an area whose path and subspace are slices of one buffer contains no position of another subspace.", "quantifier": "all parameters, all trees and databases, all positions and areas, wherever their parts lie in the buffer", "why_tests_cant": "Needs paths with the largest number of components in a reopened store, or areas decoded from a stream next to other data; the tests build paths and subspaces in memory of their own.", "anchors": ["utils/successor.go:SuccessorPath", "utils/successor.go:SuccessorPrefix", "utils/successor.go:TryAppendZeroByte", "utils/areas.go:AreaTo3dRange", "pkg/data_model/kv_driver/key_utilities.go:DecodeKey", "pkg/data_model/datamodeltypes/entryDriverTypes.go:Get", "pkg/data_model/store/store.go:PrunableEntries", "PinaGoladaStore/StoreDriver.go:InitKDTree"]}
{"id": "C122", "title": "Receiving a payload leaves nothing behind but the payload", "statement": "After each payload transfer has been committed or rejected, in whatever order and however many run at once, the staging directory is empty; a committed payload is in the file of its digest with exactly the bytes whose digest and length were reported, and no file of a part of it remains.", "quantifier": "all sequences of calls of Receive and of the functions it returns, all payloads, offsets and digests", "why_tests_cant": "Needs interleaved transfers with their commits and rejects, negative offsets and digests without a file name; the tests receive one payload after another and never look into the staging directory.", "anchors": ["pkg/data_model/payload_kv_driver/filesystem.go:Receive", "pkg/data_model/payload_kv_driver/filesystem.go:copyFile"]}
{"id": "C123", "title": "A message is delivered only if each of its parts was decoded", "statement": "If decoding a range or an entry inside a message gives an error, the message is not delivered; so a range or entry in a delivered message is one that its decoder returned without an error, and the bytes of the message have been consumed.", "quantifier": "all schemes that are lawful, all messages with ranges or relative entries, all previous messages, all chunkings of the stream", "why_tests_cant": "Needs a range whose subspaces end where those of the message before begin; the tests of the decoders use ranges without that coincidence, and the value delivered in place of the range looks like a range.", "anchors": ["pkg/wgps/decoding/reconciliation.go:DecodeReconciliationSendFingerprint", "pkg/wgps/decoding/reconciliation.go:DecodeReconciliationAnnounceEntries", "pkg/wgps/decoding/data.go:DecodeDataSendEntry", "utils/ranges.go:DecodeStreamRange3dRelative", "utils/areas.go:DecodeStreamEntryInNamespaceArea"]}
{"id": "C124", "title": "The parts of a send-entry message are read in the order in which they were written", "statement": "Decoding a send-entry message gives the message that was sent, and when it is delivered its bytes have been consumed, in whatever order the goroutines that read its token and its entry run.", "quantifier": "all schemes that are lawful, all messages, all orders of the goroutines, all chunkings", "why_tests_cant": "The order of goroutines is chosen by the scheduler; a test sees the usual one and passes.", "anchors": ["pkg/wgps/decoding/reconciliation.go:DecodeReconciliationSendEntry", "utils/entries.go:DecodeStreamEntryRelativeRange3d"]}
{"id": "C125", "title": "Both peers give a bound value the same handle", "statement": "The values bound in a handle store get the handles 0, 1, 2, … in the order in which they are bound, whatever is freed, updated or counted in between. So a peer that has bound the first of the values that the other bound gave each of them the handle that the other gave it, and a handle that was not updated stands for the same value at both as long as it stands for one. A call about one handle leaves all others alone.", "quantifier": "all histories of calls on the two stores in which the values bound by one are the first of those bound by the other, all handles", "why_tests_cant": "The two histories differ in length, in what was freed when and in how many messages are under way; a test compares a few histories.", "anchors": ["pkg/wgps/handlestore/handle_store.go:Bind", "pkg/wgps/handlestore/handle_store.go:Free", "pkg/wgps/handlestore/handle_store.go:Update", "pkg/wgps/handlestore/handle_store.go:DecrementMessageRefCount"]}
{"id": "C126", "title": "Different values have different encodings", "statement": "Two different entries never share an encoding, whether they are encoded by themselves or relative to the same entry, range or area; the same holds of areas relative to an area and of ranges relative to a range, up to fields that mean nothing. None of these encodings begins with that of another value.", "quantifier": "all pairs of entries, areas and ranges within the limits, all references, all id schemes whose encodings are decoded whatever follows", "why_tests_cant": "Two values among all must be found whose encodings are equal; tests encode single values.", "anchors": ["utils/entries.go:EncodeEntry", "utils/entries.go:EncodeEntryRelativeEntry", "utils/entries.go:EncodeEntryRelativeRange3d", "utils/areas.go:EncodeAreaInArea", "utils/areas.go:EncodeEntryInNamespaceArea", "utils/ranges.go:EncodeRange3dRelative"]}
{"id": "C127", "title": "The file entries.json shows what the namespace holds", "statement": "While one is in a namespace, entries.json lists exactly the entries stored in that namespace; two different sets of entries never give the same file; entering a namespace again, when nothing was stored or removed, gives the same file.", "quantifier": "all sessions of command lines, all contents of the disk and of the files named", "why_tests_cant": "Over all sessions and namespaces; that different contents give different files is a statement about pairs.", "anchors": ["main.go:writeEntriesToFile", "main.go:NameSpaceInteraction", "PinaGoladaStore/StoreDriver.go:InitKDTree", "pkg/data_model/datamodeltypes/entryDriverTypes.go:Insert"]}
{"id": "C128", "title": "Control messages have the layout of the protocol", "statement": "The encoding of a control message consists of the bits 100, the number of its kind, the code of the least width in which its number fits, a byte with the number of its channel or handle type and zeros, and the number in that width (or of the kind and the channel alone). So different control messages have different encodings, and none begins with the encoding of another.", "quantifier": "all six kinds of control messages, all logical channels, handle types, amounts and handles up to 64 bits, whatever follows", "why_tests_cant": "All amounts of 64 bits; that encodings are apart is a statement about pairs of messages.", "anchors": ["pkg/wgps/encoding/control.go:ChannelMaskStart", "pkg/wgps/encoding/control.go:ChannelMaskEnd", "pkg/wgps/encoding/control.go:HandleMask", "pkg/wgps/encoding/control.go:EncodeControlIssueGuarantee", "pkg/wgps/encoding/control.go:EncodeControlFree"]}
{"id": "C129", "title": "Paths, keys, entries, areas and ranges have their layout", "statement": "Numbers are written with the highest byte first, in as many bytes as the limit needs or in the least of the widths 1, 2, 4 and 8 that is named by a code in the first bytes. A path is the number of its components and each component after its length; a relative path is the number of shared components and the rest as a path; keys and values of the store, entries, entries relative to entries and ranges, areas in areas and ranges relative to ranges are their fields in the documented order, with flags in the first bytes that say which fields follow and what they are relative to.", "quantifier": "all valid paths under all limits below 2^32, all keys, values, entries, references, ranges and areas", "why_tests_cant": "A change made to encoder and decoder alike passes every round-trip test; the layout is a statement about the bytes for all values.", "anchors": ["utils/paths.go:EncodePath", "utils/paths.go:EncodeRelativePath", "pkg/data_model/kv_driver/key_utilities.go:EncodeKey", "pkg/data_model/kv_driver/key_utilities.go:EncodeValues", "utils/entries.go:EncodeEntry", "utils/entries.go:EncodeEntryRelativeEntry", "utils/entries.go:EncodeEntryRelativeRange3d", "utils/areas.go:EncodeAreaInArea", "utils/ranges.go:EncodeRange3dRelative"]}
{"id": "C130", "title": "Data, setup, intersection and reconciliation messages have their layout", "statement": "Each message that is not a control message consists of a first byte with its kind, flags and the code of the width of its first number, a second byte with further flags and widths where it has them, then its numbers, each with the highest byte first in the least of the widths 1, 2, 4 and 8, and its fields in the documented order, ending with the relative entry, range or area.", "quantifier": "all messages of the fourteen kinds, all handles, amounts, offsets and counts of 64 bits, all schemes", "why_tests_cant": "All numbers of 64 bits; edits made to encoder and decoder alike keep every round trip.", "anchors": ["pkg/wgps/encoding/data.go:EncodeDataSendEntry", "pkg/wgps/encoding/data.go:EncodeDataSetEagerness", "pkg/wgps/encoding/data.go:EncodeDataBindPayloadRequest", "pkg/wgps/encoding/setup.go:EncodeSetupBindAreaOfInterest", "pkg/wgps/encoding/pai.go:EncodePaiReplyFragment", "pkg/wgps/encoding/reconciliation.go:EncodeReconciliationSendFingerprint", "pkg/wgps/encoding/reconciliation.go:EncodeReconciliationAnnounceEntries", "pkg/wgps/encoding/reconciliation.go:EncodeReconciliationSendEntry"]}
{"id": "C131", "title": "The application is a book of notes", "statement": "The application behaves line by line as a book with one page of notes per namespace: `new` and `y` or `enter` turn to a page, `set` writes a note unless one at its path or above is as new, and strikes out older ones below, `get` shows the payload of the note at a path, `list` all notes of the page, and ending and starting the application changes nothing but which names `enter` knows.", "quantifier": "all sessions of lines from an empty disk, all tree libraries, all orders of listing, all files, all digest functions without collision among the bytes given", "why_tests_cant": "Sessions of any length with any names, paths, times and contents; encodings, keys, digests, reference counts, trees and files on disk must all agree.", "anchors": ["main.go:main", "main.go:NameSpaceInteraction", "pkg/data_model/store/store.go:Store.Set", "pkg/data_model/store/store.go:Store.IngestEntry", "pkg/data_model/store/store.go:Store.List"]}
{"id": "C132", "title": "Payloads that end at once are asked for", "statement": "Ending a payload gives back an entry to ask for exactly if the call before targeted that entry with the wish for it; and the goroutine of the ingester gets one event for each entry targeted and piece pushed and an end for each last piece and each termination, in order.", "quantifier": "all sequences of Target, Push and Terminate calls", "why_tests_cant": "Sequences of any length, in which the field kept between calls may be stale from any earlier call.", "anchors": ["pkg/wgps/data/payload_ingester.go:Target", "pkg/wgps/data/payload_ingester.go:Push", "pkg/wgps/data/payload_ingester.go:Terminate"]}
{"id": "C133", "title": "Copies of a handle store", "statement": "A handle store that is handed to several parts of a session by value behaves as one store: what one part does is seen by the others, and no handle is given out for two values.", "quantifier": "all stores, all numbers of copies, all sequences of calls on any of the copies", "why_tests_cant": "The tests use one store; that a copied struct shares its map but not its counter only shows when two parts bind values, in any of unboundedly many interleavings.", "anchors": ["pkg/wgps/handlestore/handle_store.go:HandleStore", "pkg/wgps/handlestore/handle_store.go:Bind", "pkg/wgps/reconciliation/announcer.go:StaticTokenHandleStoreOurs", "pkg/wgps/reconciliation/aoi_intersection_finder.go:HandlesOurs"]}
{"id": "C134", "title": "No payload request ends the process", "statement": "Making the messages for what is queued returns, with or without an error, whatever offsets were asked for.", "quantifier": "all stores, all queues of entries and payload requests, all 64-bit offsets", "why_tests_cant": "The tests ask for payloads from offsets near their beginning; offsets are 64-bit numbers chosen by the peer and are converted to signed ones.", "anchors": ["pkg/data_model/payload_kv_driver/filesystem.go:BytesWithOffset", "pkg/wgps/data/data_sender.go:Messages", "pkg/wgps/data/data_sender.go:QueuePayloadRequest"]}
{"id": "C135", "title": "Values read from the database stay as they were read", "statement": "Reading several keys gives the value of each, listing everything gives every pair, and incrementing the count of a digest uses that digest's count, whatever the library does with memory that was given back to it.", "quantifier": "all databases, all lists of keys, all states of the library's memory", "why_tests_cant": "Whether memory is used again depends on the block cache, on what else is read and on what is compacted; databases as small as those of the tests stay in memory.", "anchors": ["pkg/data_model/kv_driver/kv_driver_pebble.go:Get", "pkg/data_model/kv_driver/kv_driver_pebble.go:GetMultipleValues", "pkg/data_model/kv_driver/kv_driver_pebble.go:ListAllValues", "pkg/data_model/payload_kv_driver/payload_ref_counter.go:Increment"]}
{"id": "C136", "title": "Writes and reads that fail are reported and change nothing", "statement": "If a write to a database or to the payload directory, or a read of a database, fails while an entry is stored, the call returns an error, the entries, counts and payloads are what they were, and later calls work; if the call returns no error, everything it had to write is there.", "quantifier": "all stores reached by calls, all entries, all kinds of write and read that may fail", "why_tests_cant": "The tests write to a healthy disk; a full disk or a failing database has to be injected at every single write.", "anchors": ["pkg/data_model/store/store.go:Set", "pkg/data_model/store/store.go:IngestEntry", "pkg/data_model/store/store.go:InsertEntry", "pkg/data_model/payload_kv_driver/filesystem.go:Set", "pkg/data_model/payload_kv_driver/payload_ref_counter.go:Increment", "pkg/data_model/payload_kv_driver/payload_ref_counter.go:Decrement", "pkg/data_model/entry_driver/entry_driver.go:Insert", "pkg/data_model/entry_driver/entry_driver.go:Delete"]}
{"id": "C137", "title": "Every line typed is read", "statement": "The application does for a text on its standard input what it does for the lines of the text one after the other; no line is dropped, cut or merged with another.", "quantifier": "all texts, all lines, all states of the application", "why_tests_cant": "main has no tests; the limit of the scanner shows only with lines of 64 KiB, and what happens to the lines after them only in long sessions.", "anchors": ["main.go:main", "main.go:NameSpaceInteraction"]}
{"id": "C138", "title": "Each namespace has a directory of its own in willow", "statement": "The databases and payloads of a namespace lie in the directory willow, different names have different directories, and the namespaces known when the application starts are exactly those that were made.", "quantifier": "all names, all sessions with any number of restarts", "why_tests_cant": "main has no tests; names with slashes, dots or no bytes lead through the file system to places that only show when directories of several names are compared.", "anchors": ["PinaGoladaStore/StoreDriver.go:InitStorage", "main.go:main", "pkg/data_model/payload_kv_driver/filesystem.go:EnsureDir"]}
