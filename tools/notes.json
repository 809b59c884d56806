{
 "C01": {
  "note": "Orders on byte strings and timestamps decided exactly; total order laws derived."
 },
 "C02": {
  "note": "OrderPath decides the lexicographic order; prefix test and interval property proved."
 },
 "C03": {
  "note": "The hexadecimal comparison equals the byte comparison on all ids."
 },
 "C04": {
  "note": "Membership and validity checks for any comparison that decides an order, and for 3d ranges."
 },
 "C05": {
  "note": "Exact intersection for any total order and for 3d ranges, both outcomes; commutative."
 },
 "C06": {
  "note": "Sound for all ranges, complete for non-empty children, over any total order."
 },
 "C07": {
  "note": "Violated when a start of an open-ended range is compared; right when both are closed or both ends are asked for. Exact: the cases in which the answer is wrong are listed."
 },
 "C08": {
  "note": "Area membership, full area and subspace area."
 },
 "C09": {
  "note": "Sound and complete for non-empty inner areas."
 },
 "C10": {
  "note": "Emptiness is exact. Violated: the result loses the any-subspace case of the first area. Exact: what the result contains is described for all areas, and it is right exactly when the first area names a subspace or the second names the one that the first, covering any, has in its field."
 },
 "C11": {
  "note": "Violated (in-place effect empties the range; crash at maximal total length). Proved, with an exact description of the paths concerned: right exactly for paths that, largest components at the end left out, end in a component with room for one more byte in it and in the total, and for paths of largest components only."
 },
 "C12": {
  "note": "Violated (crash at the maximal component count). Sound whenever it returns; the paths for which it returns are described exactly, both for limits below the largest value of the type. At that value the number of components wraps around: for full paths whose last component has the full length and can be counted up, the answer has one component too many."
 },
 "C13": {
  "note": "Violated (crash at maximal total length). Sound whenever it returns; the paths for which it returns are described exactly, both for limits below the largest value of the type. At that value the total length wraps around: the answer for every path of the full total length with room in its last component is longer than the limit."
 },
 "C14": {
  "note": "Immediate successor; singleton ranges."
 },
 "C15": {
  "note": "Violated for exactly the paths whose last component, all-255 ones left out, has the greatest length; and for every path decoded from a buffer (its components are windows of the buffer; the byte after the path becomes 0). Proved otherwise."
 },
 "C76": {
  "note": "Violated for limits of 2^63 or more; exact for all limits: the accepted paths are described."
 },
 "C77": {
  "note": "Violated by trailing zero bytes; symmetric and not negative always; exactly the paths at distance zero are described (missing bytes count as zero); separates paths of the same shape."
 },
 "C16": {
  "note": "Round trip and minimal width for all 64-bit numbers."
 },
 "C17": {
  "note": "Round trip for all values up to the maximum, wrong lengths rejected."
 },
 "C18": {
  "note": "A path round-trips exactly if it has fewer than 2^32 components, each shorter than 2^32 bytes; violated for a component of 2^32 bytes. Prefix-free for such paths. The length function is always right."
 },
 "C19": {
  "note": "Violated: the encoder crashes exactly when no first component is shared; round trip otherwise."
 },
 "C20": {
  "note": "Violated for every encodable pair; exact deficit proved. For paths that do not share the first component there is no length: the process ends."
 },
 "C21": {
  "note": "Violated: the decoder waits for too few bytes of a component; it then panics, or, if the array behind the bytes received has room, as arrays grown by append often have, it returns zero bytes for those that have not arrived. It also waits for bytes beyond the path. Right whenever it returns if the arrays have no room; whatever room they have, it is right if it takes as many bytes as the path it returns has. Exact conditions: for decoding under every chunking and any room, and for decoding once the encoding has arrived."
 },
 "C22": {
  "note": "Exact: unchanged if and only if the result exceeds the capacity of the reference or agrees with the reference on the positions they share. Violated otherwise (a sibling overwrites the reference)."
 },
 "C23": {
  "note": "A key round-trips exactly if the path has fewer than 2^32 components, each shorter than 2^32 bytes; injective for such paths; keys sort by timestamp always. Violated: with a component of 2^32 bytes two positions share a key."
 },
 "C24": {
  "note": "Round trip for all values."
 },
 "C25": {
  "note": "Violated: schedules on which the decoder panics, or, if the arrays have room, returns a wrong entry. Right whenever it returns if they have none; exact condition for being decoded under every schedule and any room."
 },
 "C26": {
  "note": "Violated: the encoder crashes exactly when no first component is shared; with a component after the shared ones longer than its length field is wide, some chunking is not decoded (general, for entries in the reference's namespace and subspace). If the arrays have room it can also return a wrong entry (C26_violated_silent). Right whenever it returns if they have none; returns when the components after the shared ones are short, or have arrived."
 },
 "C27": {
  "note": "Violated: the encoder crashes (open range) or returns an error (closed range) exactly when the first component is not shared with the start, or with both ends. Right whenever it returns if the arrays have no room beyond their bytes; returns when the components after the shared ones are short, or have arrived."
 },
 "C28": {
  "note": "Violated in several cases (any subspace, position of the subspace id, start nearer the outer end, open outer end, outer area without path, one-byte start difference in the stream decoder); round trip proved for the remaining cases for both decoders (before everything has arrived: if the arrays have no room beyond their bytes). For all inputs: neither decoder ever returns an area for any subspace; an area for one subspace at the path of an outer area for any is decoded to be for another subspace, for all ids of a fixed length that are not all zero; the decoded end is wrong in an outer area without an end when the inner end is nearer to the number standing for none; the stream decoder never gets a start right that is 256 or more from both bounds. A subspace id that the scheme cannot decode is not noticed; the area returned is for the empty name."
 },
 "C29": {
  "note": "Violated for every open-ended inner area that starts with the outer one. For any two areas the exact difference: the path as in C20, times computed with open and closed ranges swapped, and the encoded instead of the plain subspace."
 },
 "C30": {
  "note": "Violated (decimal text header) for every area for any subspace or without a time end, and for every other area whose path has at most 47 components: the decoder never accepts what the encoder wrote. The decoder is right on the format it expects."
 },
 "C31": {
  "note": "Violated (stream decoder on every input; time range; open ends; bytes left in the stream). The other decoder returns the right subspace range, path start and open flags whenever it returns; the stream decoder returns the right path range, start of the time range and its open flag if the range starts at the subspace of the reference. For ranges without ends of paths and times that start at the path of the reference and up to 255 after its time, the decoded start is always a bound of the reference. The end of a closed path range is read from the bytes of the start (witnesses for both reference paths); if the range starts at the path of the reference and ends at a path that leads to neither path of the reference, a decoded end always has too few components. The encoder crashes exactly if one of the two paths of the range begins with the first component of neither path of the reference, as when it is empty. Not covered: the flag with which the decoder chooses the bound of the reference for the end of a closed time range (a wrong program that ignores it is not caught)."
 },
 "C32": {
  "note": "Search with the per-dimension answers of the code over any tree laid out by the key order returns exactly the keys in the range; the key order is a total order on keys. The tree library itself is not on the box, so its search is modelled from its documented contract."
 },
 "C33": {
  "note": "Exact for valid non-empty paths and non-empty prefixes. Violated: an entry stored at the empty path is never found, and asking about the empty path panics."
 },
 "C34": {
  "note": "Right exactly for paths that, largest components at the end (full length, all 255) left out, end in a component with room for one more byte in it and in the total, and for paths of the maximal number of largest components. Violated: a last component of maximal length (changed in place, or without a successor) makes the query miss entries, and a path of maximal total length panics."
 },
 "C35": {
  "note": "Right exactly for valid paths with room for one more component, the fine paths of C34 and the empty path (in the tree; for the full entry in one direction). Violated: a path without a successor is not found, and a path of 50 one-byte components under the application's limits panics."
 },
 "C36": {
  "note": "Independence of order is proved in full, size and splitting whenever the summary returns, and for the function that combines two fingerprints exactly what it does (C36_characters) and when it is the exclusive or (C36_xor). Violated: any non-empty fingerprint in the range ends the process, so a returned fingerprint is always empty; and the function that combines fingerprints ranges over a string, hence visits only the bytes with which characters begin: it is wrong for every fingerprint with a character of several bytes, and depends on the order."
 },
 "C37": {
  "note": "Proved for every range that contains a stored entry."
 },
 "C38": {
  "note": "Exact condition proved: the first part always shrinks, the second shrinks exactly when at most half of the entries share the smallest timestamp. Violated by all other ranges: the second part holds everything, the first nothing."
 },
 "C39": {
  "note": "Exact result proved: the wanted entries follow as many blank ones. Violated: the blank entries."
 },
 "C40": {
  "note": "Exact result proved for areas of one subspace with the time range read as closed, with limits and order (a maximum count of 2^63 or more lists nothing). Violated: end of the time range included, open ranges, any-subspace areas, wrap-around of the size total. For listings without limits it is said exactly which entries they are wrong about."
 },
 "C41": {
  "note": "Proved; counts are modulo 2^64."
 },
 "C42": {
  "note": "Proved for file names that tell digests apart and are not empty; proved that the application's names are such for every digest function with 32-byte results."
 },
 "C43": {
  "note": "Exact result proved: zeros in place of the first part, with the digest and length of that reported. Violated by the parts [5] and [6]; the concatenation is stored exactly when the first part is all zeros. A payload received in one part is stored as it is. Violated as well by an empty file name, under which nothing is stored though success is reported."
 },
 "C44": {
  "note": "Fine calls: valid paths that, largest components at the end (full length, all 255) left out, end in a component with room for one more byte in it and in the total. Proved for all sequences of fine calls. Violated for every path whose last component has the greatest length (all-255 ones left out, room for another component) on every store made by fine calls without an entry of the subspace at a prefix: two writes leave two entries at the path in the database. For every other valid path some calls go wrong (C47)."
 },
 "C45": {
  "note": "Fine calls: valid paths that, largest components at the end (full length, all 255) left out, end in a component with room for one more byte in it and in the total. Proved for all sequences of fine calls. Violated for every path whose last component has the greatest length (all-255 ones left out, room for another component) on every store made by fine calls without an entry of the subspace at a prefix: nothing below it is pruned. For every other valid path some calls go wrong (C47)."
 },
 "C46": {
  "note": "Refusal without effect proved for every state in which the lock is free (otherwise the call waits, see C54); that everything in the database was authorised is proved for all sequences of calls that return. For the application: refused unless the namespace agrees and the token is the entry's subspace, and everything in the database was brought that way."
 },
 "C47": {
  "note": "Fine calls: valid paths that, largest components at the end (full length, all 255) left out, end in a component with room for one more byte in it and in the total. Proved for fine entries on stores reached by fine calls, including the returned list. Violated for every other valid path: one or two calls at it (or at it followed by an empty component) panic, leave a wrong content or an entry that is not found."
 },
 "C48": {
  "note": "Fine calls: valid paths that, largest components at the end (full length, all 255) left out, end in a component with room for one more byte in it and in the total. Proved for fine entries on stores reached by fine calls. Violated for every path whose last component has the greatest length (all-255 ones left out, room for another component) on every store made by fine calls without an entry of the subspace at a prefix: after a write there an older one is accepted. For every other valid path some calls go wrong (C47)."
 },
 "C49": {
  "note": "Fine calls: valid paths that, largest components at the end (full length, all 255) left out, end in a component with room for one more byte in it and in the total. Proved for the same authorised fine entries in any order and number, if comparable entries with equal timestamps are equal. Violated by every two different entries with equal timestamps at one path or one above the other: what is kept in both orders is proved. For every other valid path some calls go wrong (C47)."
 },
 "C50": {
  "note": "Fine calls: valid paths that, largest components at the end (full length, all 255) left out, end in a component with room for one more byte in it and in the total. Proved for all sequences of fine calls. Violated for every path whose last component has the greatest length (all-255 ones left out, room for another component) on every store made by fine calls without an entry of the subspace at a prefix: the key of the new entry is in the database and not in the tree. For every other valid path some calls go wrong (C47)."
 },
 "C51": {
  "note": "Fine calls: valid paths that, largest components at the end (full length, all 255) left out, end in a component with room for one more byte in it and in the total. After fine calls the count is, modulo 2^64, the number of stored entries with the digest plus the number of replacements by the same payload. Violated: that surplus (for every payload with one, below 2^64). For every other valid path some calls go wrong (C47)."
 },
 "C52": {
  "note": "Fine calls: valid paths that, largest components at the end (full length, all 255) left out, end in a component with room for one more byte in it and in the total. For fewer than 2^64 fine writes and restarts, 'can be read' meaning bytes with the recorded digest: payloads and tokens if no token has the digest of a payload and a token used at two paths is used for all entries there; payloads alone if all entries of a subspace have the same token; if no digests collide, the payload is the one set, byte for byte. Violated: whenever the last entry with a payload whose file is that of a token is pruned or replaced, the token is gone; whenever an entry is replaced by one with another token, the old token is gone for all other entries that have it. With received entries among the calls (which bring no payload): the payload of an accepted write can be read, byte for byte if no digests collide, as long as its entry is stored, if authorised entries of a subspace have the same token and no received digest has the file of another digest; in the application this is so if received digests have no capitals. Violated: a received digest in capitals shares the file of the digest in small letters but is counted apart, so pruning its entry erases the payload of the other. The same whenever the last entry with a digest goes and another stored digest has its file (C52_violated_shared)."
 },
 "C53": {
  "note": "Violated for every store and every stored entry: the call always fails. Partial: it changes nothing."
 },
 "C54": {
  "note": "Fine calls: valid paths that, largest components at the end (full length, all 255) left out, end in a component with room for one more byte in it and in the total. Proved for all sequences of fine calls. Violated for every path whose last component has the greatest length (all-255 ones left out, room for another component) on every store made by fine calls without an entry of the subspace at a prefix: after a write there, any write to a certain greater path returns an error with the lock held and later ingests wait forever. For every other valid path some calls go wrong (C47)."
 },
 "C55": {
  "note": "Fine calls: valid paths that, largest components at the end (full length, all 255) left out, end in a component with room for one more byte in it and in the total. Proved for all sequences of fine calls, later ones having no newer entry at the path or a prefix. Violated for every path whose last component has the greatest length (all-255 ones left out, room for another component) on every store made by fine calls without an entry of the subspace at a prefix: `Set` succeeds and the entry is not found. For every other valid path some calls go wrong (C47)."
 },
 "C56": {
  "note": "Fine calls: valid paths that, largest components at the end (full length, all 255) left out, end in a component with room for one more byte in it and in the total. Proved after fine calls if listed keys keep their contents. Violated by every store with two entries or more if the iterator reuses its key buffer; that pebble does so is an assumption, its source is not on the box."
 },
 "C57": {
  "note": "Fine calls: valid paths that, largest components at the end (full length, all 255) left out, end in a component with room for one more byte in it and in the total. After fine calls, with a digest function that never returns an empty digest and keys keeping their contents: same summary for ranges without entries, a crash for all others. Violated for every range with entries of every store that was not restarted before: its summary could be computed before restarting."
 },
 "C75": {
  "note": "Joining after splitting proved for all texts, splitting after joining for all non-empty paths without slashes in components. List lines proved to show typed texts after fine commands. Violated: every text of 50 bytes (also after slashes), not all 255, that is the first of its subspace is listed as another text. For every other valid path some calls go wrong (C47)."
 },
 "C78": {
  "note": "Violated: two summaries that return are equal exactly when the numbers of entries are (modulo 2^64), whatever the entries. Partial: different numbers give different summaries."
 },
 "C79": {
  "note": "Fine calls: valid paths that, largest components at the end (full length, all 255) left out, end in a component with room for one more byte in it and in the total. For fine writes after fine calls: database, tree, counts, partial files, lock and all other payload files proved unchanged; a refused received entry changes nothing at all. Violated: the payload file stays, after every refused write."
 },
 "C80": {
  "note": "Fine calls: valid paths that, largest components at the end (full length, all 255) left out, end in a component with room for one more byte in it and in the total. Proved for fewer than 2^64 fine calls if no entry was replaced by one with the same payload, the file name is not empty and, if the entry is replaced, is not the file name of the new entry's token. Violated after every replacement by the same payload: the file stays as it is (if it is no other stored payload's, nor that of the token of the new or the replaced entry)."
 },
 "C81": {
  "note": "Exact value for every text (C81_exact): two numbers around a colon give the microseconds modulo 2^64, every other text 0. Violated: wrap-around; minutes above 59 and hours above 23 are accepted; 00:00 is rejected."
 },
 "C82": {
  "note": "For fewer than 2^64 fine commands and restarts, what is printed has the digest of the stored bytes, and is the stored bytes if the digests of payloads and subspace names do not collide. The same with received entries (IngestEntry) among the calls, if none of them is newer at the path or above it and their digests have no capitals. Stated for the store call made by set, with a digest function with 32-byte results. Violated: after every set with a text of 50 bytes (also after slashes), not all 255, that is the first of its subspace, get prints an empty line; a received digest in capitals whose entry is pruned takes the payload with it, and get ends the process (C82_violated_shared: whenever the last entry with a digest goes and another stored digest has its file). For every other valid path some calls go wrong (C47)."
 },
 "C58": {
  "note": "Freshness proved while fewer than 2^64 values have been bound (violated after that: handle 0 is handed out again). Life of a handle proved for histories in which messages are only reported as processed after they were registered (otherwise violated: every handle with no unprocessed message, once a message is reported as processed that was not registered, is never removed, however often it is freed, unless other messages are registered for it)."
 },
 "C61": {
  "note": "Violated: the first push on a new queue ends the process (messages below 2^62 bytes); after any calls that return, part of what was pushed has not been sent, whatever guarantees were issued; every plea above the guarantees, in any state, creates guarantees, as many as it says. Proved for calls that return: bytes come out once and in order, after two zero bytes that nobody pushed; no more than guaranteed is sent when no plea exceeds the guarantees (below 2^61 bytes and 2^64 guarantees). The queue channel is modelled with no receiver, as in the code."
 },
 "C62": {
  "note": "Exact result proved: a lookup finds the last registration with our handle only. Violated by (1,1) then (1,2)."
 },
 "C63": {
  "note": "Proved for bound handles with valid time ranges, added once per side, for every order of additions and map iteration; handles are taken as bound before they are added. The namespace of a handle is the one last added. Violated by an empty time range of theirs (reported exactly if subspaces and paths meet and our times contain its start), and by a handle that is not bound: it is taken for the zero area, and pairs with it are reported (exact condition for open-ended areas)."
 },
 "C64": {
  "note": "Violated: the first AddCap on a new finder ends the process. The search is proved correct for a finder that has a set for the namespace, which AddCap never produces. For a namespace without a set nothing (0) is found."
 },
 "C65": {
  "note": "Proved when no entry in the range has a fingerprint and there are fewer than 2^64 entries; violated otherwise (the process ends). The reconciler's own fingerprint is then always that of no bytes."
 },
 "C66": {
  "note": "Proved when, in no part of the range's times with more than eight entries, more than half of them share the least timestamp (in particular when no timestamp is shared by more than four), in either store: at most as many splits as entries in the range. Violated by every store with more than eight entries in the range, more than half of them at its least timestamp, against a peer that holds the same, given a fingerprint that is not the store's own (their own are always equal, see C83); also by a concrete one of nine entries, five at one time."
 },
 "C68": {
  "note": "Violated for every sequence of calls from the initial state: the store is never called, nothing counts as received, nothing is queued. In every state, targeting and pushing bytes that are not the last change nothing. Were an ingestion under way, its end is queued behind the pieces while there is room, and blocks for ever after 32 of them."
 },
 "C69": {
  "note": "Proved when every offset lies inside its payload (payloads below 2^63 bytes); the amounts are right always; the exact condition for an error is proved. Violated by an empty payload, after which the rest of the queue is not sent. A negative offset is modelled as an error (the slice is taken to be allocatable)."
 },
 "C70": {
  "note": "The fragments are proved to be exactly the prefixes, each once. The second half is violated: two grants of a namespace always share the fragment of the empty path; proved instead for the fragment of a whole path."
 },
 "C83": {
  "note": "Violated for all pairs of stores whose summaries return: there is never an answer, and in particular none to the first message of a reconciler (C83_violated_start). Proved only that there is an answer, about the whole range, to a fingerprint that is not that of the reconciler's own entries."
 },
 "C59": {
  "note": "Absolve, plead, announce dropping and apologise round-trip for every chunking, amount and channel other than ControlChannel (which comes back as the reconciliation channel: violated). Violated for issue guarantee (always comes back with the kind of an absolve message) and for free messages about the receiver's handle (come back as about the sender's)."
 },
 "C71": {
  "note": "Reply-payload and set-eagerness messages round-trip for every value and chunking. Send payload: round-trips when exactly its bytes have arrived; violated otherwise (as many following bytes as the message has are lost; when the payload arrives after the header: a panic, or zero bytes in its place if the array has room for it). Bind payload request: round-trips for offset 0, or when everything has arrived, under the conditions of C26 on its entry; violated (crash) for every other offset when a part of it comes late and the array has no room for it. Send entry: round-trips for handles below 256 other than 2, 4, 8 and offsets 0 or the payload length, under the conditions of C26; violated for every other handle and for every other offset: the first byte of the entry comes back for it, and the entry is decoded from the bytes after. With the entry encoded in an area (a form the encoders never write), both decoders are right on the specified bytes once everything has arrived."
 },
 "C72": {
  "note": "Bind static token round-trips. Bind read capability round-trips exactly when the handle fits the integers of the path scheme (otherwise it comes back cut). Bind area of interest: proved without limits, for equal subspaces, under the stream conditions of C28; violated: no limit ever comes back, and with different subspaces the decoder never returns. With a first byte that has the flag for limits, which the encoder never writes, a message with limits comes back too (C72_limits_partial)."
 },
 "C73": {
  "note": "Bind fragment round-trips. Reply fragment, request subspace capability and reply subspace capability round-trip for handle 1 when everything has arrived; violated for every other handle (for codecs of fixed length, if the arrays have no room beyond their bytes), for a message cut after its first byte (a panic, or handle 0 if the array has room), and for every commitment reveal."
 },
 "C74": {
  "note": "Send-payload messages whose amount is the number of bytes and fits the integers of the path scheme round-trip under every chunking. Send-entry messages do when the static token handle is the previous one or above 63 (and the integers fit, under the conditions of C26 on the entry). Violated: a send-entry handle below 63 other than the previous one makes the decoder consume one byte too many; handle 63 is written without its byte; send-payload amounts that do not fit the path scheme's integers are cut; send-fingerprint writes the width of each handle in the other's place; `Covers` = 1 (the encoder's COVERS_NONE) comes back as 0; long `Covers` of announce-entries are read with a width unrelated to the one written; no valid range ever comes back in a send-fingerprint or announce-entries message (C31). Partial for these two: whenever the decoder returns, the other fields are right under the stated conditions and the range decoder was run on the range's encoding, its error, if any, being ignored in favour of the zero range (C123)."
 },
 "C60": {
  "note": "Control, bind-payload-request, reply-payload, private-area-intersection and fingerprint messages are routed to their own decoder; announcements, entries and payloads of a reconciliation only when the loop expects them. Violated by the data messages send-entry, send-payload and set-metadata (routed to the fingerprint decoder), by the termination of a payload, by static tokens (decoder call commented out), by read capabilities and areas of interest (encoded to no bytes) and by everything that no first byte leads to; after one received entry no entry or announcement is routed right again."
 },
 "C84": {
  "note": "Partial: the trackers of sender and receiver, equal at first, stay equal; what both remember is what the last message carrying it said (C84_remembered_partial), and both expect as many entries as were announced and not yet sent (C84_expected_partial). Violated because the loop decodes against a fresh zero tracker: a repeated sender handle is decoded as 0, and fingerprints on the same subspaces (if there are any) and handles, and entries with the same static token handle or one above 63, are never delivered. At the start an encoder remembers empty paths, so it crashes at the first fingerprint, announcement or entry (C84_violated_first)."
 },
 "C85": {
  "note": "Partial: sequences of absolve, plead, announce-dropping, apologise (channel other than control), free (own handle), reply-payload, bind-fragment and expected send-payload messages are delivered in order with exact consumption under every chunking, each followed by a nil. Violated by that nil, by bytes on which the loop makes no progress (static tokens among them), by announcements (always crash) and by payload requests (never delivered)."
 },
 "C67": {
  "note": "Two threads, one step per lock, unlock, channel operation and shared access (Model/GrowingBytes.lean). Violated in five ways, after each of which no thread can move although the bytes have arrived: the receiver looks for a request between the reader's check and its storing of the request (possible at every request made while the receiver waits, whatever came before, so for every program that begins with a request); and with a concrete interleaving each: the receiver sends a token to itself into a full channel; reader (holding the lock, waiting for its token to be taken) and receiver (waiting for the lock) block each other; the receiver forgets a newer request; the reader waits, lock held, for an answer already given. Partial: every interleaving ends after at most 9 steps per call and chunk, and one in which none of the four kinds of race in Spec/GrowingBytes.lean occurs ends with all calls made or with too few bytes arrived."
 },
 "C86": {
  "note": "Holds in every interleaving, races included. C86_sequential also shows that whatever the two threads do, the reader sees what the sequential view of Model/Stream.lean gives for some schedule; the decoder theorems quantify over all schedules. Simplifications: memory is sequentially consistent; Incoming is never closed. Bytes that fit stay in the array (C86_room)."
 },
 "C87": {
  "note": "For every message that is encoded: the channel returned is determined, in both directions, by the type of handle bound (PAI reply-fragment shares the intersection channel), by belonging to reconciliation, or by carrying data; control messages go over the control channel; the five binding channels differ."
 },
 "C88": {
  "note": "Partial: for every chunking of the frames of some messages and a proper part of another frame, a goroutine that has the stream for itself sends on a prefix of the messages, and all of them after enough reads. Violated: the number of the channel, written by Initiate, is received as a first message nobody sent; a length of 2^64-1 crashes the process (also any length above what the machine can allocate). QUIC is a contract: bytes in order, reads return some that have arrived."
 },
 "C89": {
  "note": "Partial: if only the goroutine for data reads, its listener is given exactly the messages on the data channel. Violated: all four Recv calls name the data channel, so streams of other channels are never read under any schedule; data messages go to the reconciliation listener if its goroutine runs; with both running, both can be given bytes that are no message: whatever the first message, the data listener is given instead of it what arrives eight bytes later, or the process ends."
 },
 "C90": {
  "note": "Partial: what is sent is what is written to the stream of its role and channel and to no other; streams carry the numbers of their channels; a send succeeds iff the stream is open and the transport not closed; closing with streams in both directions closes all and refuses further sends. Violated: closing with streams in one direction only crashes; so does sending before the stream was opened. Opened streams can be written to and carry nothing yet."
 },
 "C91": {
  "note": "Partial: open channel, no onEnd, callback that does not fail. Violated: with onEnd only the first value is received; after an error the rest is never received; a closed channel gives zero values for ever."
 },
 "C92": {
  "note": "Partial: to an equal fingerprint nothing is sent; the answer worked out by Respond before sending is the due one. Violated: with any entry in the range and a differing fingerprint the process ends when the length is written into a nil slice; in no case is anything sent; the initiator's summary message is the same for every store and range (no exported fields, gob contract); every message to the accepting side is decoded to the zero range, so nothing is done. Asked about a range with a fingerprinted entry in it, the initiator ends the process; otherwise it sends at most one message, on the reconciliation stream."
 },
 "C93": {
  "note": "Partial: an entry of the namespace with nonzero time, matching digest and length, newer than those at and above its path, is found afterwards as the peer has it (paths within the limits); receiving is the same as calls of Set, so C47-C57 apply. Violated, for all such entries after any fine calls: what is found has the own namespace, the digest and length of the payload, and the clock's time in place of zero, so it is as the peer has it exactly if that changes nothing. Violated: no authorisation is required of the peer; a message with the empty path, or with nothing, ends the process. gob is a contract."
 },
 "C94": {
  "note": "Partial: grants of a whole namespace are submitted exactly as planned; grants of one subspace with all fragments primary and without asking for a subspace capability. Violated: no grant of one subspace is submitted as planned (secondary fragments are sent as primary); the most specific secondary fragment is treated as if the subspace was shared."
 },
 "C95": {
  "note": "Partial: one check of a complete handle of ours against given handles of theirs, or the other way round, reports and requests exactly what it should and notes the requests. Outer areas with a subspace, read capability, subspace capability requests and replies are handled as described. Violated: asked about an intersection that does not exist, the finder answers with an empty name and area instead of an error; no sequence of submissions, binds, replies and requests ever reports anything (theirs stay empty); replies name a handle of the replying peer: if that peer submitted at least as many fragments as we did, for instance those of the same authorisation, none of our fragments ever becomes complete, whatever is bound and in whatever order replies arrive (C95_violated_incomplete); if it submitted fewer, the reply to our first bind completes another of our fragments, with the wrong group member (C95_violated_reply); a reply about a secondary fragment makes it count as primary, so that two secondary fragments are reported (C95_violated_secondary); replies use a new scalar; unrequested subspace capabilities are taken for intersections; the outer area of fragments without subspace panics."
 },
 "C96": {
  "note": "Partial: after any session from an empty disk each namespace holds a store made by calls of Set and by opening (so C47-C57, C75, C82 apply), by calls with exactly handled paths if all words typed have fewer than 50 bytes; a line changes only the namespace one is in; after a new start a namespace made by fine calls is entered with the same database, files and positions. Violated: a namespace just created cannot be entered again in the same session; `new` without a name ends the process; after a time that is not understood the databases stay open and entering the namespace again ends the process (contract: pebble refuses to open an open database)."
 },
 "C97": {
  "note": "Partial: lines of words separated by single spaces do what they say (set without and with a time, get when the payload is found, list when no path is empty); wrong numbers of words and unknown commands change nothing; white space of ASCII or Unicode before and after a command makes no difference. Violated: a blank before or after exit is not understood, so the program does not leave; get in a namespace with nothing stored ends the process; two spaces shift the words and may put one out of the namespace; files with a space in the name cannot be stored; a note at a path that ends with white space outside ASCII can be stored, but get looks for the path without it."
 },
 "C98": {
  "note": "Partial: for areas that can be converted and overlap, Alfie's range holds exactly the common positions and the fingerprint is that of the summary, provided no common entry has a fingerprint; Betty sends nothing. Violated: disjoint areas block Alfie for ever; a common entry with a fingerprint ends the process; the limits of areas of interest play no part; areas whose path is as long as allowed and ends with a component that is not end the process; if the last smaller component of a path is full, no position is in Alfie's range."
 },
 "C99": {
  "note": "The file is commented out in the repository and is modelled as if it were not; the call of Get without arguments is read as returning all entries. Partial: without frees, handles are the peer's numbers, no token is told twice, packs carry what was asked. Violated: the announcer's copy of the handle store gives its first token the handle that the session's gave its own; after a free entries refer to handle zero; digest, length and namespace are never filled in; all entries of the store are announced whatever the range."
 },
 "C100": {
  "note": "For stores that begin empty. Reading exactly the bytes given needs the hypothesis that the digests of the bytes given to the calls do not collide."
 },
 "C101": {
  "note": "Partial: the messages are right when the payloads of all queued entries can still be read, are shorter than 2^63 bytes and the offset lies inside; entries stored by fine writes give exactly the bytes set. Violated: making the messages twice sends everything twice; whenever a queued payload is gone or empty when the messages are made, they end with its header and nothing queued after it is sent; a request before its handle is bound is never answered."
 },
 "C102": {
  "note": "Prefix test, multiple reads and clearing are proved in full (the iterator visits the keys as they were when it was made, a contract of the database). Comparison: exactly the order by length, then by bytes; a total order, equal to the database order for keys of one length. Violated: shorter keys come first, so a key that does not begin with 0 is put below every longer one that does."
 },
 "C103": {
  "note": "Symmetry in full. For times whose squared difference is below 2^63 - 2, the value is computed exactly and is zero for equal positions only. Violated: times 2^32 apart have distance zero, times 4*10^9 apart a negative distance; the distance in subspace and path is 1 even from a key to itself."
 },
 "C104": {
  "note": "For every injective encoding of namespaces; that the keys are base 64 is proved from the bits (C104_standard), and that they are so of nothing else (C104_unique)."
 },
 "C105": {
  "note": "Partial: order, nothing invented, everything queued before the goroutine ranges is delivered before the channel is closed without cancellation, and once ranging it is never stuck while a reader reads. Violated: elements queued later are not delivered; a second call delivers all again; nothing puts announcements, so their reader waits for ever."
 },
 "C106": {
  "note": "Exactly one category: proved for all. Channel: proved for every message except the reply to a fragment, which is categorised as belonging to no channel but is sent over the intersection channel, whatever its contents."
 },
 "C107": {
  "note": "Two texts of which one has a name have the same name exactly if they are equal but for capitals. base32 and hex of the Go library are written out after RFC 4648 and are part of the trusted contract; the theorems relate them to the number that the digest is."
 },
 "C108": {
  "note": "Over any fine calls (as in C47): what listing by area, listing by range and List give, with the restrictions of C40 (areas of one subspace, closed time ranges, no entry at the end time) and C39 (blank entries before the result). Outside these restrictions the property is violated after any such calls: an open time range with end field 0 leaves out every entry with a time other than 0, an area of any subspace leaves out every named subspace, the end time of a range counts as inside, and a range with something in it gives blank entries."
 },
 "C109": {
  "note": "Violated for all runs: neither store ever changes and Alfie never receives anything. Violated: the summary is sent without its length, which can end Betty's process. What a peer holds it keeps. Handlers are taken as one step."
 },
 "C110": {
  "note": "Entries and results proved to be those of an order consistent with real time, for any store, calls and schedule; fine calls all return; payloads proved to stay when no two writes share one. Violated: the payload is written before the lock is taken and counted after it is released, so an entry can lose its payload in two ways (shown for all calls of Set of which one replaces the only entry with the payload of the other, and for all three of which one displaces the entry of another whose payload the third stores again); readers see no entry in the middle of every replacement. Entries, results and that calls never get stuck also for calls that take turns after every single change on disk, within the writing of a file and within an ingest (alone such a call does what the call does, files included); there a reader finds a stored payload empty while it is written anew. Payloads are proved to be there, at that grain too, whenever nobody is within an ingest, if no two writes share one."
 },
 "C111": {
  "note": "Proved for fine calls: the store always opens again, with a state between those before and after (exact conditions in PartWay), other entries and their payloads untouched, and it works on as specified unless the process ended right after the entry was written. Before the first and after the last change it is the state before and after. Violated: during every replacement there is a moment at which neither entry is on disk; during every write of a new payload at a new path one after which the entry can never be replaced and the lock stays held; during every Set with the payload of a stored entry, even a refused one, one at which that payload is empty; during every write with older entries below, to a new path or in place of an entry, one at which all of them are held with the new one. A file is truncated and then written; ending after any number of bytes is covered (crashWithin; C111_violated_partly: a stored entry's payload is cut), database writes are durable and in order (pebble.Sync)."
 },
 "C112": {
  "note": "Proved: the decoders of control messages, payload replies, metadata, commitments, bound fragments, tokens and read capabilities never panic, and the loop panics only where a harmful first byte comes next. Violated for every harmful byte, in every state and for all schemes whose fingerprint and dynamic token decoders decode something: some continuation ends the process. So the set of harmful bytes is exact. The panics of the violation are for arrays without room beyond their bytes."
 },
 "C113": {
  "note": "Proved for every history: what the tracker tells is what the latest messages said, and payloads are expected exactly when an entry is later than the latest end of a payload. Entries are expected as they should be while no more have come than were announced. Violated afterwards: the unsigned counter wraps, so that one unannounced entry makes it expect 2^64 - 1 more. The source file of the tracker is commented out; the model is of the commented text, which the decoding code still refers to."
 },
 "C114": {
  "note": "Proved for calls at valid paths, in every state with valid keys and whatever the calls return. Violated with the limits of the application: a path of 257 components, which is stored, has the same database key as an entry of another subspace and overwrites its value."
 },
 "C115": {
  "note": "Proved: entries with too many components or bytes that do not end with the largest component are never stored. Violated: the authorised ones that are newer than their subspace's entries end the process, a path of 257 components is stored and moves to another subspace when the store is reopened, and over-long components are stored when the whole path fits."
 },
 "C116": {
  "note": "Proved for every session that begins with nothing delivered, as long as no process ends. Both goroutines of a peer take from the stream for data, so what is proved is that what they take interleaves to the bytes delivered; that this mixes messages up is C89. The network is a contract: it delivers bytes of a stream in order."
 },
 "C117": {
  "note": "Proved for every session that begins with nothing delivered, as long as no process ends. Simplification: a handler does its work in one step."
 },
 "C118": {
  "note": "Partial: number, times, digests and lengths are right. Violated if the iterator reuses its buffer (as pebble may): all listed entries show the path of the last key visited, for every database whose paths have components of the same lengths."
 },
 "C119": {
  "note": "Partial: an id alone is decoded, and lengths are right. Violated: what follows is taken for part of the id; stream decoding takes nothing from the stream; decoding an encoded entry blocks for ever; entries of different namespaces have equal encodings. With the application's schemes, whose stream decoders are not set, any entry in a message that says it comes with its namespace or subspace ends the program (C119_violated_unset)."
 },
 "C120": {
  "note": "Partial: the encoding is right, the namespace id is kept, and nothing is written if its array has no room. Violated: with room behind the namespace id the subspace id is written over what is stored there."
 },
 "C121": {
  "note": "Proved: below the largest number of components, looking up and finding entries to prune in a tree of slices is the same as in a tree of copies and leaves the keys alone (this also justifies the model by values used elsewhere); the range of an area whose subspace lies elsewhere is that of a copy. Violated: with the largest number of components, a last component shorter than its limit and a subspace not beginning with 0, the lookup overwrites the first byte of the subspace in the tree and then fails or ends the program, and so does the pruning; the range of an area whose subspace follows its path begins at a smaller subspace and contains positions of other subspaces. Lookups of stored keys are exactly as in a tree of copies also at the largest number of components when the last component is at its limit or the subspace is empty or begins with 0 (C121_stored_partial), and so is finding entries to prune (C121_pruneStored_partial); which byte is written is given by C121_violated_written."
 },
 "C122": {
  "note": "Proved: for every sequence of calls without a panic, the staging files are exactly those of the unfinished transfers with the bytes received after zeros up to the offset, so none is left when all are ended (digests with file names); what a commit stores and what it leaves alone. Violated: the file of a first part stays after the whole has been stored; a whole payload whose digest has no file name stays in staging; with a negative offset the reported digest and length are not those of the stored bytes, or the call panics and its staging file stays."
 },
 "C123": {
  "note": "Proved why a range cannot be decoded (C123_reasons): an error comes only if its subspaces end where those of the reference begin, or a part is given by an end that the reference does not have, and then no range is ever returned; relative to a range with ends the first is the exact condition. Otherwise the range in a delivered fingerprint or announcement (under the conditions of C74) was returned by its decoder without an error. Violated: in all those cases the message is delivered with the zero range, as for all ranges of paths without an end after another such range; in the first case the bytes of the range stay in the stream, and in the message loop they are then taken for a message that replies with a subspace capability; the entry of a data message relative to an area for any subspace, with a header that says the subspace is not encoded, is delivered as the zero entry and the rest of it stays in the stream."
 },
 "C124": {
  "note": "Partial: the message is decoded as sent (under the conditions of C74) if each goroutine reads as soon as it is started, and in every order if tokens have no bytes. Violated: if the token's goroutine reads when the token is received, the entry is decoded from where the token begins, so a sender chooses the namespace of the delivered entry by the token; an entry in the announced range is not waited for, so the loop takes it for a control message. The model has each goroutine read all at once or not yet; reading by turns is not modelled."
 },
 "C125": {
  "note": "Proved: numbering and agreement for all histories, same values as long as no more than 2^64 values have been bound (so that numbers are not used again, see C58), other handles unchanged by every call in every state."
 },
 "C126": {
  "note": "Violated: in an area, every entry shares its encoding with one of another payload length, and, in an area of all subspaces, with those of all other subspaces; ranges relative to a range lose the start of the subspaces if neither has an end of them, and the encoding of one can begin with that of another (relative to every range of one instant). Right, also when something follows, for entries by themselves, relative to an entry and relative to a range, and for areas; right for whole encodings of ranges in all other cases (for paths with fewer than 2^32 components, each shorter than 2^32 bytes)."
 },
 "C127": {
  "note": "In sessions whose words have fewer than 50 bytes the file is the text for the keys in the tree in the order of the tree library, whose positions are those of the database, and for no other keys, so whoever reads it finds exactly the positions in the database (C127_listed_partial); different stores made by any commands have different files, each of which is a JSON text (stated by a grammar of its own) that tells of every key its timestamp, subspace, path and fingerprint; whoever reads it by that grammar, in any way, finds those keys and no others. Violated: after every set with a component of 50 bytes, not all 255, that is the first of its subspace, the file shows another path than the one stored; entering again never gives the same file after an entry was stored, because the fingerprints appear only when a namespace is opened. Contract: json.Marshal on these types; fingerprints that are hexadecimal."
 },
 "C128": {
  "note": "All six encoders. The decoders lose two things that the encodings tell (see C59)."
 },
 "C129": {
  "note": "Values: for all. Paths, relative paths, keys, entries, relative entries, entries in ranges: for all limits below 2^32. Areas: if the times of the inner lie in those of the outer. Ranges: exactly those have their layout whose times have an end that is not nearer to the end of the reference than to its start (or the reference has none), whose subspaces do not end where those of the reference start, and whose subspaces start where those of the reference start if both have no end; all others are violations."
 },
 "C130": {
  "note": "For all: send payload, set eagerness, bind payload request, reply payload, bind static token, bind fragment. For numbers that fit the integers of the path scheme: bind read capability, bind area of interest without limits, announce entries, send payload and send entry (other than handle 63) of the reconciliation, send fingerprint with handles of one width. The messages about a fragment have their layout for the handle 1 only. The entry, range or area at the end is given by its encoder (C129)."
 },
 "C131": {
  "note": "For lines whose words have no blanks, paths under 50 bytes, times after midnight, fewer than 2^64 lines; `set` at an equal time at the same path or above is refused whatever its payload. No promise for files that cannot be read and for `get` on an empty page; both are violations, as are midnight and paths of 50 bytes. With plain names of namespaces the same is proved for the namespaces in their directories (C138). Also proved for the bytes of such lines, without exit, as the standard input (C131_text_partial)."
 },
 "C132": {
  "note": "The events are proved in full, and that no caller waits for good at the channel with room for 32, whatever the order of steps, calls coming one after another. Right after a target with the wish its entry is given, right after a push nothing; the exact condition is proved. Violated after any calls: a later target without the wish leaves the earlier entry to be asked for, and a second termination gives it again."
 },
 "C133": {
  "note": "Proved if values are bound through one copy only: then that copy is as if all calls had been made on it, and the others answer as it does. The handles a copy gives out are determined exactly: the numbers from its counter on for the values bound through it. Violated: after equally many bindings through two copies the next value bound through each gets the same handle, and the first value is lost."
 },
 "C134": {
  "note": "Proved if no queued offset, read as a signed number, lies more than the greatest length of a slice before the end of a payload that is there; then the messages are those of C69 and C101. The queues for which the process ends are determined exactly: an element asks from so far back, and everything before it can be sent. Violated by every such request of a peer. Payloads are taken to be no longer than the greatest length of a slice."
 },
 "C135": {
  "note": "Get closes a value before it returns it, after which the library may use its memory again. Proved if it never does, and for a value until something else is read. Violated if the memory last given back is used next: several values of one length all are the last, a listing of pairs of one length is the last pair repeated, and an increment during which another count is read gives the successor of that count. The library's memory is a contract model: a stack of buffers, each large enough."
 },
 "C136": {
  "note": "Proved that an entry that cannot be written makes the call fail and adds nothing, that failures of files change neither result nor databases, and that without failures the calls are those of the rest of the model. Violated in general: Set succeeds though the payload was not written, or only a part of it, and then entries with the same payload lose theirs; a failed write of the entry leaves the lock held and the replaced entry lost; a count that was not written makes an ingest succeed with an entry that can never be replaced, and makes Set fail with the entry stored; entries that could not be deleted are reported as pruned; a replaced entry that could not be deleted stays beside the new one and ends the process when looked for (proved when nothing older is below). Reads: if the entry to be replaced cannot be read, or the count of its payload, the call fails with the lock held, and in the second case the entry is lost; if the entries to be pruned cannot be read, the call fails with the new entry stored and the lock held; if the count of a new entry cannot be read, it is stored uncounted, by IngestEntry with success and by Set with failure. While files cannot be removed, no payload is: one whose entry was replaced or pruned stays though nothing refers to it. Simplification: during a call all writes and reads of a kind fail or none, and a database write that fails changes nothing."
 },
 "C137": {
  "note": "Proved for texts whose lines have fewer than 2^16 bytes with their ends, line feed or carriage return and line feed, the last one with or without an end: the application prints and does what it does for the lines, and ends with the text. Violated by every longer line: everything after its first 2^16 bytes, all later lines included, makes no difference, and the application ends in the state in which the line found it; typed in a namespace, the first 2^16 bytes are taken for a line of the menu (so the state is claimed unless they begin with new or enter). bufio.Scanner is a contract model."
 },
 "C138": {
  "note": "Proved for plain names (not empty, not . or .., no slash, no byte 0, at most 255 bytes): the three directories are willow/name/..., different names have different ones, and a session in which new is given such names prints and holds what it does with a store for each name, with exactly these directories in willow. Violated in general: ./n, n/, n/., ../willow/n and x/../n are all the namespace n; .. and ../.. and so on lie outside of willow; a/b is not known after a restart, while an empty namespace a is; an empty name makes entries and payloadrefcounter namespaces. The file system is a contract without symbolic links and with directories that can be made."
 }
}