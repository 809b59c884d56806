# Design

Machine-checked properties of `willow-go` (source read as text in `/repo`).
The Go code is modelled by hand in Lean 4, function by function, and properties
are proved about the model.

## Trusted base

* The Lean 4.33.0 kernel.
* Axioms: `propext`, `Classical.choice`, `Quot.sound` only. No other axiom, no
  `sorry`, no `native_decide`, no `bv_decide`. `MANIFEST.json` lists the
  theorems; `#print axioms` on each shows a subset of these three.
* The hand translation from Go to Lean. Each definition in `Verif/Model`
  cites the file and lines it models and states its simplifications.
* Contracts for code that is not in the repository (listed below).
* The specifications in `Verif/Spec` (small, do not mention model helpers).

## How Go is represented

| Go | Lean | Remark |
|---|---|---|
| `[]byte`, `string` | `List UInt8` (`Bytes`) | value view; a separate slice model is used where aliasing matters |
| `for i := range s` over a string | the positions at which characters (or stray bytes) begin (`runeWidth`) | proved against `String.utf8EncodeChar` |
| `types.Path` | `List Bytes` | `nil` path = `[]`; where code distinguishes nil the model returns `Option` |
| `uint64` | `UInt64` | wrap-around arithmetic kept |
| `int` lengths | `Nat` | no slice reaches 2^63 elements |
| `T constraints.Unsigned` | `Nat` below `2^bits`, conversion `T(x) = x % 2^bits` | `bits` is a parameter of `PathParams` |
| returned `error` | `Res.err` | error texts are not modelled, except where the code branches on them |
| `log.Fatal`, panic, index out of range | `Res.crash` | a crash ends the run |
| `a[i:j]` with `j` between length and capacity | zero bytes, for arrays of a stream (`Mem`, arbitrary room left by `append`); a crash elsewhere | |
| waiting for bytes that never come | `Res.block` | |
| generic scheme functions | fields of a structure, arbitrary | hypotheses state what is needed of them |
| struct passed by value | its fields; a map in it stays shared (`HandleCopies`, C133) | |
| map | association list / function | iteration order is arbitrary: results are stated up to permutation |
| pebble database | finite map from keys to values, iterated in byte order | contract |
| `rishitc/go-kd-tree` | set of keys; `Query` = filter in any order; `Values` = all in any order; `Add` refuses an equal key; `Delete` removes the equal key | contract; C32 shows that the callbacks given to it make a pruning search equal to the filter |
| file system | map from names to contents | contract |
| QUIC stream | bytes in order; a read returns some of those that have arrived | contract |
| `json.Marshal` of keys | fields in their order, numbers in decimal, bytes in base64 | contract; no nil slices inside a key |
| sha256 | an arbitrary function; injectivity assumed only where a theorem says so | |

## Modelled code

* `utils`: `order.go`, `encoding.go`, `paths.go`, `successor.go`, `ranges.go`,
  `areas.go`, `entries.go`, `growing_bytes.go`.
* `pkg/data_model`: `kv_driver` (keys and their comparison, values, prefix driver, `ListValues` also with the memory of its iterator, values after they were closed, lookups of keys that are slices of stored keys, `Clear`),
  `kdnode`, `datamodeltypes` (`KDTreeStorage`), `payload_kv_driver`,
  `entry_driver`, `store` (also with several calls under way at the same time, with a process that ends in
  the middle of a call, and with writes and reads that fail).
* `pkg/wgps`: `handlestore`, `guaranteed_queue.go`, `cap_finder.go`,
  `reconciliation` (reconciler, map, intersection finder, and the announcer, which is commented out), `data`
  (ingester, sender), `pai` (read as ranging over the maps of handle stores; it does not compile), `encoding`/`decoding`,
  `transport` (over a contract for QUIC streams), `syncutils`, the live part of
  `wgps_messenger.go` (over a contract for gob; the file has generic functions whose type parameter
  cannot be inferred at their calls, lines 2870-2922, so it does not compile as it stands), the categories of
  messages in `wgpstypes`, and a session of two peers as the programs in `transport/testalfieserver` and
  `transport/testbettyserver` run it.
* `PinaGoladaStore` (`InitKDTree`, the encoding schemes), `main.go` (path splitting, time parsing, `set`, `get`, `list`, menu and
  command loops, the lines of the standard input, the directories of namespaces, `entries.json`).

Not modelled: QUIC, gob and pebble themselves, help texts
of `main.go`, logging, wall-clock time, tests.

## Layout of the Lean project

* `Verif/Model/*` model definitions with citations.
* `Verif/Spec/*` independent specifications.
* `Verif/Lemmas/*` helper lemmas.
* `Verif/Props/*` property theorems, each followed by a concrete `example`
  satisfying its hypotheses; violated properties have a theorem
  `Cnn_violated_…` proving the negation on a concrete witness and a
  `Cnn_…_partial` theorem with the part that holds.

## Per property

P = proof of the full statement expected; V = the code violates it, negation
with witness plus a partial theorem; N = not expressible.

| id | plan | what is modelled and how it is proved |
|---|---|---|
| C01 | P | `OrderBytes` loop as recursion; equals lexicographic `<` on lists; order laws by induction |
| C02 | P | `OrderPath` over `OrderBytes`; lexicographic on lists of lists; interval property of extensions by induction |
| C03 | P | hex rendering of bytes modelled as code; comparison of renderings by induction on the list with a case analysis on nibbles |
| C04 | P | unfold; generic in a total order |
| C05 | P | generic in a total order given as a `Rel`-valued comparison satisfying the order laws |
| C06 | V? | generic; completeness of closed/open cases needs a value above the end |
| C07 | V | both ranges open: answers true whatever endpoints were asked |
| C08 | P | unfold |
| C09 | P/V | soundness by unfolding; completeness by choosing witness positions |
| C10 | V | result always carries the first area's subspace id and drops the any-subspace flag |
| C11 | V | uses C13; exact description of the paths for which the conversion is right |
| C12 | V | at the component-count limit the code appends to the whole path and exits the process; exact description of the paths for which it returns |
| C13 | V | at the total-length limit the code exits the process; below it the property is proved by induction on the path |
| C14 | P | lexicographic argument |
| C15 | V | slice model: increments the caller's byte in place |
| C16 | P | big-endian digits by case analysis on width |
| C17 | P | same, with 3-byte width |
| C18 | P | induction on components |
| C19 | V | no common prefix: the encoder exits the process; otherwise round trip |
| C20 | V | the length function adds the number of suffix components |
| C21 | V | second wait is for the wrong number of bytes; partial: everything already arrived |
| C22 | V | slice model: append into the reference's backing array |
| C23 | P | C18 plus fixed-width timestamp |
| C24 | P | length-prefixed fields |
| C25 | V/P | byte-at-a-time feeding makes the C21 short read reachable |
| C26 | P/V | C19 restriction |
| C27 | V/P | as C26 |
| C28 | V | subspace position is computed with the wrong length of C20; any-subspace lost |
| C29 | V | open flag inverted |
| C30 | V | encoder writes decimal text |
| C31 | V | several flag bytes wrong |
| C32 | P | generic k-d tree laid out by `Key.Order`; induction on the tree |
| C33–C35 | V/P | filter over the stored keys; tightness from C12–C14 |
| C36 | P | a summary either meets a fingerprint and ends, or counts; the loop over a string visits the positions where characters begin, after the UTF-8 encoding of Lean's core library |
| C37 | P | case analysis on the time dimension |
| C38 | V | all timestamps equal: left part is empty and right part is the whole range |
| C39 | V | result list starts with as many blank entries as there are matches |
| C40 | V/P | descending iteration with early exits |
| C41 | P | induction on the operation sequence |
| C42 | P | finite map reasoning |
| C43 | V | resuming truncates the file: earlier bytes become zero |
| C44–C48 | P/V | invariants of the store state machine by induction on operations; C47: for every path outside the condition, calls that go wrong |
| C49 | V | equal timestamps: the first one ingested wins; partial for distinct timestamps |
| C50 | P | invariant |
| C51 | V | overwriting with the same payload leaks a reference; partial: count is at least the number of references |
| C52 | V | token shared with another entry is erased on overwrite; payload part from C51 |
| C53 | V | inverted check |
| C54 | V | error returns without unlocking |
| C55 | P | C35 + C47 |
| C56, C57 | P, V | decoding every key (C23); fingerprint computed differently |
| C58 | P | invariant over operation sequences |
| C59 | V/P | per message; kind/owner field bugs |
| C60 | V | decision table over all first bytes |
| C61 | V | loop never drains |
| C62 | V | inner map replaced |
| C63 | P/V | membership of reported pairs by induction on additions |
| C64 | V | write to nil map |
| C65 | P | C37 |
| C66 | V | C38 |
| C67 | V | small-step interleaving model of the reader and the receiver |
| C68 | V | state machine: no transition out of the initial state |
| C69 | P | concatenation by induction |
| C70 | P | C02 lemmas on prefixes |
| C71–C74 | V/P | per message |
| C75 | P/V | split/join on `/` |
| C76 | P | unfold |
| C77 | V | trailing zero bytes do not count |
| C78 | V | every in-memory entry has an empty fingerprint; witness of two stores with the same summary |
| C79 | V | payload is written before the checks; invariant for what a refused write leaves alone |
| C80 | V | follows C51 |
| C81 | V | decimal parsing, multiplication modulo 2^64; midnight is the error value |
| C82 | V | `set` then `get` through splitting, store and payload files; induction on later commands |
| C83 | V | both fingerprints are empty, so no answer; case analysis of `respond` |
| C84 | V | encoder's tracker against the decoder's zero tracker |
| C85 | V | iterations of the loop composed from the round trips of C59, C71, C73, C74 |
| C86 | P | invariant over all interleavings of the model of C67; simulation by the sequential view |
| C87 | P | case analysis over the kinds of message against a separate table |
| C88 | V | invariant of one reader over reads: bytes read so far are a prefix of the frames |
| C89 | V | C88 for one goroutine; invariant over schedules that other streams are not read |
| C90 | V | induction over sends; over the channels for closing |
| C91 | V | induction over the values |
| C92 | V | C36, C37 for the answer; every path that sends goes through the same panic |
| C93 | V | reduction to calls of `Set`; abstraction of C47 |
| C94 | V | induction over the fragments; plan stated separately from `CreateFragmentSet` |
| C95 | V | invariant: the store of their handles stays empty; characterisation of one check |
| C96 | V | invariant over sessions: every store is made by calls of `Set` and by opening |
| C97 | V | splitting joined words; reduction of lines to the commands of C82 |
| C98 | V | area to range (C12) and intersection of ranges (C05) composed; summaries of no bytes |
| C99 | V | invariant over histories: bound handles are the numbers of the tokens told |
| C100 | P | invariant over histories: each file name is the digest of its contents |
| C101 | V | queueing composed with the message loop of C69 and, for stored entries, with C52 and C100 |
| C102 | V | recursion over both keys; comparison by length first |
| C103 | V | arithmetic modulo 2^64; squares without overflow for close times |
| C104 | P | base 64 as digits; injective block by block |
| C105 | V | transition system of reader, goroutine and queue; invariant by induction over the steps |
| C106 | V | the interfaces as a relation between types and categories; case analysis over the message types |
| C107 | P | base 32 as digits of one number, block by block; case analysis over all bytes for hexadecimal digits |
| C108 | P | the invariant of the store carried to the listing and query theorems |
| C109 | V/P | transition system of two peers; invariant: nothing comes back from Betty |
| C110 | V/P | transition system of calls with steps write, ingest, count, erase; simulation by the sequential run in order of the ingests; invariant on payload files; a second system with a turn for every change on disk, followed by the first |
| C111 | V/P | list of the changes on disk made by a call, proved to make up the call; invariant between any two of them; opening again |
| C112 | V/P | predicate transformers for "never panics" and "panics on these bytes" over the decoders; case analysis over all first bytes |
| C113 | V/P | induction over histories: each field of the tracker is a function of the latest message of a kind; the counter is the difference modulo 2^64 |
| C114 | V/P | invariant over calls: tree keys and database values of the subspace untouched (keys are injective on valid paths); collision of encoded keys for 257 components |
| C115 | V/P | symbolic run of the write up to the successor of the path; concrete runs for the paths that are stored |
| C116 | P | invariant of the transition system: the bytes taken by the two goroutines interleave to a prefix of the stream, the chunks waiting follow |
| C117 | P | invariant of the transition system: fold of the data handler over the messages handled so far |
| C118 | V/P | loop with windows of one buffer; invariant of the buffer |
| C119 | V/P | schemes as codecs; calculation |
| C120 | V/P | induction over the chain of appends |
| C121 | V/P | windows of one buffer: the layout of a stored key puts the subspace behind the last component; below the limit of components equality with the model by values |
| C122 | P V | invariant over the calls: staging files are those of the unfinished transfers |
| C123 | P V | decoders whose errors keep the stream; which ranges the decoder refuses, and what is delivered in their place |
| C124 | P V | send-entry decoding with the order of its goroutines as a parameter |
| C125 | P | two handle stores with different histories of calls |
| C126 | V | direct inversion of the encoders; round trips of C26 and C27 |
| C127 | V | invariant of sessions; C79 for refused writes; injectivity of the JSON text; fingerprints are hexadecimal |
| C128 | P | bit fields as numbers; first bytes of different kinds lie in different intervals |
| C129 | V/P | layout as lists of numbers; bit fields by cases; range encoder taken apart by encodeRange3dRelative_full |
| C130 | V/P | layouts as lists of numbers; flag bytes by cases over the width codes; lengths and first bytes for the violations |
| C131 | V/P | simulation: the book against the store of each namespace; one lemma per command, on top of C47–C57, C75, C82, C96, C97, C100 |
| C132 | V/P | induction on the calls from the end; the exact condition for the field |
| C133 | V/P | induction on the calls; the counter of a copy only counts its own bindings |
| C134 | V/P | cases on the sign of the offset and on the length of the slice; induction on the queue |
| C135 | V/P | memory as a list of buffers and a stack of those given back; induction on the keys with the invariant that one buffer is used for all |
| C136 | V/P | the calls with a set of writes that fail; equal to the calls without when none fails; the store invariant carried through each failure |
| C137 | V/P | the calls of the scanner on a text as a list; induction on the lines; the loops over the calls against the loops over the lines |
| C138 | V/P | paths resolved to places; the application with stores at places; simulation with the application with a store for each name, for plain names |

Disagreements between code and property found while proving are recorded in
the last section.

## Disagreements found

Each is proved: the theorem named exhibits inputs (or all inputs of a kind) on which the
model of the code does not do what the property says. The section is written by
`tools/disagreements.py` from the comments of the theorems.

**C07** (`utils/ranges.go:IsEqualRangeValue`)

* `C07_violated`: Two open-ended ranges are reported to have equal starts.
* `C07_violated_missed`: In the other direction too: equal starts are not recognised when one of the ranges is open-ended.

**C10** (`utils/areas.go:IntersectArea`)

* `C10_violated`: The full area intersected with a subspace area is an area that does not contain the positions of that subspace.
* `C10_violated_swap`: Swapping the arguments changes the positions covered.

**C11** (`utils/areas.go:AreaTo3dRange`, `utils/successor.go:SuccessorPrefix`, `pkg/data_model/datamodeltypes/entryDriverTypes.go:KDTreeStorage.GetInterestRange`)

* `C11_violated`: Because the start of the path range shares its bytes with the argument of `SuccessorPrefix`, the range of this area is empty.
* `C11_violated_crash`: The conversion can crash.

**C12** (`utils/successor.go:SuccessorPath`, `utils/successor.go:PathAppend`, `utils/successor.go:TryAppendZeroByte`, `utils/successor.go:SuccessorBytesFixedWidth`)

* `C12_violated_app`: With the application's limits: a path of 50 one-byte components.
* `C12_violated_crash`: A valid path that is not the largest one makes `SuccessorPath` crash (the incremented component is appended to the whole path instead of replacing its last).
* `C12_violated_wrap`: If the limit of the number of components is the largest value of its type, the count wraps around in `PathAppend` (`/repo/utils/successor.go:52-66`): every valid path of the full number of components whose last one has the full length and can be counted up gets a "successor" of one component too many, if the lengths allow it.

**C13** (`utils/successor.go:SuccessorPrefix`, `utils/successor.go:PrefixSuccessor`)

* `C13_violated_crash`: A valid path with the maximal total length makes `SuccessorPrefix` crash, although later paths exist.
* `C13_violated_wrap`: If the limit of the total length is the largest value of its type, the sum of the lengths wraps around in `PathAppend` (`/repo/utils/successor.go:52-66`): every valid path of the full total length with room in its last component gets a prefix successor that is longer than the limit.

**C15** (`utils/successor.go:PrefixSuccessor`, `utils/successor.go:SuccessorPrefix`, `utils/areas.go:AreaTo3dRange`)

* `C15_violated`: The prefix successor of a one-component path of full length changes the caller's bytes.
* `C15_violated_exactly`: C15, the code disagrees for exactly these paths: those whose last component other than the largest possible one has the greatest length. For all others the bytes of the caller's path are unchanged.
* `C15_violated_follows`: For every path decoded from a buffer whose last component is shorter than the limit: the byte that follows the path in the buffer, if there is one, becomes 0.
* `C15_violated_full`: For every path decoded from a buffer whose last component has the maximal length: its last byte other than 255 is incremented in the buffer.
* `C15_violated_shared`: For a path decoded from a buffer: the successor computation overwrites the byte that follows the path in the buffer (here 9), which is not part of the path.

**C18** (`utils/paths.go:EncodePath`, `utils/paths.go:DecodePath`, `utils/paths.go:EncodePathLength`)

* `C18_violated_huge`: For a component of 2^32 bytes: its length is cut to 32 bits, and decoding gives back the path with one empty component.

**C19** (`utils/paths.go:EncodeRelativePath`, `utils/paths.go:DecodeRelativePath`, `utils/paths.go:CommonPrefix`)

* `C19_violated`: The encoder crashes exactly when the paths do not share their first component, as when one of them is empty.

**C20** (`utils/paths.go:EncodePathRelativeLength`, `utils/paths.go:EncodeRelativePath`)

* `C20_violated`: For every pair of paths: whenever the encoder writes an encoding, the precomputed length is smaller than what is written (components are counted instead of bytes, and the count field is forgotten).
* `C20_violated_apart`: The length of a path relative to one with which it does not share the first component cannot be had: asking for it ends the process.

**C21** (`utils/paths.go:DecodePathStream`, `utils/growing_bytes.go:NextAbsolute`, `utils/growing_bytes.go:Prune`)

* `C21_violated_block`: The decoder waits for bytes that do not belong to the path.
* `C21_violated_crash`: The decoder waits for too few bytes of a component. It crashes if the array in which the bytes are gathered has no room for the component. The same bytes in another chunking are decoded.
* `C21_violated_silent`: If the array has room for the component, as Go's arrays of eight bytes have here, the decoder returns a path that was not encoded, with zero bytes for those that have not arrived, and takes these for what follows the path when they do.

**C22** (`utils/paths.go:DecodeRelativePath`, `utils/paths.go:DecodeRelPathStream`)

* `C22_violated`: Decoding a sibling of the reference overwrites the reference.

**C23** (`pkg/data_model/kv_driver/key_utilities.go:EncodeKey`, `pkg/data_model/kv_driver/key_utilities.go:DecodeKey`)

* `C23_violated_huge`: For components of 2^32 bytes: two positions (with valid paths) share a key, so that storing an entry at one overwrites the entry at the other.

**C25** (`utils/entries.go:EncodeEntry`, `utils/entries.go:DecodeEntry`)

* `C25_violated`: Fed byte by byte, the decoder of the path does not wait for the second byte of the component and crashes, if the arrays in which the bytes are gathered have no room for it.
* `C25_violated_silent`: With arrays of eight bytes, as Go makes them here, an entry is returned that was not encoded: the second byte of the last component is zero instead of 6.
* `C25_violated_slow`: Whatever room the arrays have: for all schemes and limits, if the bytes arrive one at a time and no sooner than asked for, an entry is not decoded if the first component longer than its length field is wide has a byte other than zero beyond that width.

**C26** (`utils/entries.go:EncodeEntryRelativeEntry`, `utils/entries.go:DecodeStreamEntryRelativeEntry`)

* `C26_violated`: The encoder crashes exactly when the two paths share no first component, for instance when one of them is empty.
* `C26_violated_chunks`: The decoder crashes under some chunkings, if the array in which the bytes are gathered has no room beyond them.
* `C26_violated_silent`: If the array has room, the decoder returns an entry that was not encoded under some chunkings, here one with another path, another time stamp, another payload length and another digest.
* `C26_violated_slow`: For all schemes, whenever a component after those shared with the reference is longer than its length field is wide, there is a chunking in which the entry is not decoded such that what follows is left, whatever follows and whatever room the arrays have. Stated for entries of the reference's namespace and subspace, whose ids are not encoded, and digests for which no more bytes are taken than they have.

**C27** (`utils/entries.go:EncodeEntryRelativeRange3d`, `utils/entries.go:DecodeStreamEntryRelativeRange3d`)

* `C27_violated`: With an open-ended path range the encoder crashes exactly when the path shares no first component with the start of the range, for instance when that is empty.
* `C27_violated_end`: With a closed path range the encoder returns an error exactly when the path does not share its first component with both ends of the range.

**C28** (`utils/areas.go:EncodeAreaInArea`, `utils/areas.go:DecodeAreaInArea`)

* `C28_violated_any`: Two areas for any subspace. The decoded area is for one subspace only.
* `C28_violated_crash`: Nothing can be encoded relative to an area with the empty path, for instance relative to a full area.
* `C28_violated_end`: For all areas in an outer area without an end, if their end is nearer to the number that stands for no end than to their start: the decoded end is wrong, unless that number is in the end field of the outer area.
* `C28_violated_never`: For all areas for any subspace: whatever the bytes, neither decoder ever returns such an area, so what is returned does not have the positions of the inner area (if it has any).
* `C28_violated_open`: An end measured from the number that stands for no end is taken from the meaningless end of the open outer range.
* `C28_violated_start`: For every area whose start is nearer to the end of the outer range: the decoded start is never right.
* `C28_violated_stream`: By the stream decoder: it always takes the start difference to be one byte wide.
* `C28_violated_subspace`: An area for one subspace in an area for any. The position of the subspace id is miscalculated (the path length is, see C20), so another subspace is decoded.
* `C28_violated_time`: A start measured from the end of the outer range is taken from its start.
* `C28_violated_undecodable`: A subspace id that cannot be decoded is not noticed; the area that is returned is for the subspace with the empty name.
* `C28_violated_wide`: By the stream decoder for all areas whose start differs by 256 or more from the bound it is measured from: if an area is returned, its start is wrong.
* `C28_violated_zeros`: For every area for one subspace at the path of an outer area for any, with any ids of a fixed number of bytes that are not all zero: the position of the id is taken to be before where it is, at the zeros that say that no component of the path follows, so that what is decoded is an area for another subspace.

**C29** (`utils/areas.go:EncodeAreaInAreaLength`, `utils/areas.go:EncodeAreaInArea`)

* `C29_violated`: For every open-ended inner area that starts where the outer one does: the announced length is too small.

**C30** (`utils/areas.go:EncodeEntryInNamespaceArea`, `utils/areas.go:DecodeStreamEntryInNamespaceArea`)

* `C30_violated_always`: For every area of one subspace whose path has at most 47 components: the second digit of the header is taken for the number of components that the path shares with that of the area. So the decoder never accepts what the encoder writes, whatever the area (its path having so few components).
* `C30_violated_any`: For every area for any subspace: the decoder never accepts what the encoder writes (the header is written as decimal text).
* `C30_violated_closed`: For a closed area of one subspace too: the decoder panics, whatever room the array has.
* `C30_violated_open`: For every area without a time end.

**C31** (`utils/ranges.go:EncodeRange3dRelative`, `utils/ranges.go:DecodeRange3dRelative`)

* `C31_violated_crash`: The encoder crashes exactly when the path where the range starts, or the one where it ends, begins with the first component of neither path of the reference; in particular whenever one of them is empty, as the end is when the range has none, and whenever both paths of the reference are empty.
* `C31_violated_end`: By every closed path range that starts where that of the reference starts and ends at a path that leads to neither path of the reference: if it is decoded at all, the decoded end has fewer components than the end that was encoded. The length of the start is taken to be shorter than it is, so that the number of components the end shares with the reference is read as the number of its components.
* `C31_violated_left`: By the stream decoder for every range that starts at the subspace where the reference starts, if both are closed or both are open: having returned a range, it leaves bytes of the encoding in the stream, where whatever is decoded next finds them.
* `C31_violated_open`: For an open time range too.
* `C31_violated_path`: By the end of a closed path range, whichever path it is encoded relative to: it is read from the bytes of the start, and so is the start of the time range.
* `C31_violated_start`: By every range without an end of its paths and of its times that starts at the path where the reference starts and less than 256 after the time where the reference starts: if it is decoded at all, its times start where those of the reference start or end. The length of the path is taken to be shorter than it is, and the bytes of the end of the paths, which are written but not read, come before those of the time.
* `C31_violated_stream`: By the stream decoder on every input: the end of the decoded subspace range is missing and the range is marked closed, so no position is in the decoded range.
* `C31_violated_time`: By the other decoder on every closed time range: the decoded end is 0.

**C33** (`pkg/data_model/kv_driver/prefix_driver.go:DriverPrefixesOf`, `utils/paths.go:PrefixesOf`)

* `C33_violated_crash`: Asking for the entries above the empty path panics.
* `C33_violated_root`: An entry stored at the empty path is never found.

**C34** (`pkg/data_model/kv_driver/prefix_driver.go:PrefixedBy`)

* `C34_violated_crash`: A path that uses the whole allowed length ends the process (with the limits of the application).
* `C34_violated_missed`: When the last component has the maximal length the search is for the extensions of a changed path, and the entry below the path is missed.
* `C34_violated_nil`: With a last component of 255s of maximal length there is no successor, the end of the range becomes the empty path, and nothing is found.

**C35** (`pkg/data_model/datamodeltypes/entryDriverTypes.go:KDTreeStorage.Get`, `pkg/data_model/entry_driver/entry_driver.go:EntryDriver.Get`)

* `C35_violated_crash`: Looking up a path of 50 one-byte components (the limits of the application) ends the process.
* `C35_violated_nil`: A stored position at a path that has no successor is not found.
* `C35_violated_several`: Whenever the tree holds several positions with the subspace and path (as after a process that ended in the middle of a write, `C111_violated`): the lookup ends the process.

**C36** (`pkg/data_model/datamodeltypes/entryDriverTypes.go:KDTreeStorage.Summarise`, `pkg/data_model/datamodeltypes/entryDriverTypes.go:xorStrings`)

* `C36_violated_characters`: By every fingerprint in which a character of more than one byte stands: `xorStrings` visits only the bytes with which characters begin (`/repo/pkg/data_model/datamodeltypes/entryDriverTypes.go:179`), so that with another fingerprint that differs in the second byte of the character the result is not the exclusive or.
* `C36_violated_crash`: As soon as an entry in the range has a fingerprint the process ends.
* `C36_violated_order`: Combining two fingerprints depends on their order.

**C38** (`pkg/data_model/datamodeltypes/entryDriverTypes.go:KDTreeStorage.SplitRange`)

* `C38_violated`: Two entries with the same timestamp are never separated; the second part again holds both.
* `C38_violated_always`: By every range in which more than half of the entries have the oldest timestamp: the second part holds as many entries as the range, the first part none.

**C39** (`pkg/data_model/entry_driver/entry_driver.go:EntryDriver.Query`)

* `C39_violated`: A query for a range with one stored entry returns two entries, the first of which is blank and was never stored.

**C40** (`pkg/data_model/kv_driver/kv_driver_pebble.go:ListValues`, `pkg/data_model/store/store.go:Store.ListWithAOI`)

* `C40_violated_any`: An area of any subspace lists nothing of a subspace.
* `C40_violated_end`: An entry at the end of the time range is listed though it is outside the area.
* `C40_violated_open`: With an open time range (end field zero, as `FullArea` makes it) nothing is listed.
* `C40_violated_size`: The running total wraps around, so that the size limit is exceeded.

**C43** (`pkg/data_model/payload_kv_driver/filesystem.go:Receive`)

* `C43_violated`: A payload received in two parts does not read back as the concatenation, and the reported digest is not its digest.
* `C43_violated_nameless`: A payload whose expected digest is empty, so that its file has no name, is reported as received, with its digest and length, but it is not stored: it reads back as no bytes.

**C44** (`pkg/data_model/store/store.go:Store.IngestEntry`, `pkg/data_model/store/store.go:Store.InsertEntry`)

* `C44_violated`: With the limits of the application: writing twice to a path with a component of 50 bytes leaves two entries at the path in the database.
* `C44_violated_full`: C44, the code disagrees for every path whose last component has the greatest length (and has a byte below 255): in every store made by fine calls without an entry of the subspace at a prefix of the path, writing twice there with different timestamps leaves two entries at the path in the database.

**C45** (`pkg/data_model/store/store.go:Store.IngestEntry`, `pkg/data_model/store/store.go:Store.PrunableEntries`, `pkg/data_model/store/store.go:Store.InsertEntry`)

* `C45_violated`: A newer entry at a path whose component has the maximal length does not prune the entry below it.
* `C45_violated_full`: C45, the code disagrees for every path whose last component has the greatest length (and has a byte below 255): in every store made by fine calls without an entry of the subspace at a prefix of the path, an entry written there prunes nothing: whatever was in the database, and so an older entry below the path, is still there.

**C47** (`pkg/data_model/store/store.go:Store.IngestEntry`, `pkg/data_model/store/store.go:Store.InsertEntry`, `pkg/data_model/store/store.go:Store.PrunableEntries`)

* `C47_violated_limits`: C47, the code disagrees: for every valid path that is not comfortable there are one or two calls of `IngestEntry`, of authorised entries at this path or at this path followed by an empty component, that do not do what they should (a call panics, or the store holds an item it should not hold or lacks one, or a lookup does not find one).

**C48** (`pkg/data_model/store/store.go:Store.IngestEntry`)

* `C48_violated`: With the limits of the application: an older write to a path with a component of 50 bytes is accepted.
* `C48_violated_full`: C48, the code disagrees for every path whose last component has the greatest length (and has a byte below 255): in every store made by fine calls without an entry of the subspace at a prefix of the path, after an entry is written there, an entry with an older or equal timestamp is accepted, and so is any other.

**C49** (`pkg/data_model/store/store.go:Store.IngestEntry`)

* `C49_violated`: For every two different authorised fine entries of one subspace with the same timestamp at one path, or one above the other: if the upper one comes first, it is all that is kept; if the lower one comes first, it is kept, with the upper one if the paths differ.

**C50** (`pkg/data_model/entry_driver/entry_driver.go:Insert`, `pkg/data_model/entry_driver/entry_driver.go:Delete`, `pkg/data_model/datamodeltypes/entryDriverTypes.go:KDTreeStorage.Insert`, `pkg/data_model/datamodeltypes/entryDriverTypes.go:KDTreeStorage.Remove`)

* `C50_violated`: With the limits of the application: after one write to a path with a component of 50 bytes the tree holds another path than the database.
* `C50_violated_full`: C50, the code disagrees for every path whose last component has the greatest length (and has a byte below 255): in every store made by fine calls without an entry of the subspace at a prefix of the path, an authorised entry with this path is accepted, and then its key is in the database while the tree has no such position.

**C51** (`pkg/data_model/store/store.go:Store.IngestEntry`, `pkg/data_model/store/store.go:Store.InsertEntry`, `pkg/data_model/payload_kv_driver/payload_ref_counter.go`)

* `C51_violated`: After an entry is overwritten with the same payload and then with another, no entry refers to the first payload but its count is one, and its file stays.
* `C51_violated_always`: By every payload with which an entry was replaced by one with the same payload: whatever fine calls are made, its count is not the number of items with it.

**C52** (`pkg/data_model/store/store.go:Store.Set`, `pkg/data_model/store/store.go:Store.IngestEntry`, `pkg/data_model/store/store.go:Store.GetPayload`)

* `C52_violated_always`: Whenever the last entry with some payload is pruned or replaced and the payload has the file of the token of a stored entry (in the application: the payload is the name of the subspace): the token is gone. (If the entry is replaced, that of another entry than the new one; and no entry was replaced by one with this payload before.)
* `C52_violated_capitals`: An entry is received whose digest is the digest of a stored payload in capitals. The two digests are counted apart but have the same file, so when the received entry is pruned, the payload goes, though the entry with it is still stored.
* `C52_violated_payload`: The payload of an entry equals the token (in the application: the name of the subspace); when the entry is pruned the file goes, and with it the token of every other entry of the subspace.
* `C52_violated_replaced`: Whenever an entry is replaced by one with another token: the file of the old token is erased, and so the token of every other stored entry that has it is gone.
* `C52_violated_shared`: Whenever the last entry with some payload digest is pruned or replaced and another entry, with another payload digest, has the same file (in the application: digests that differ in capitals only): the payload of the other is gone.
* `C52_violated_token`: Replacing an entry erases its token, which another entry still has.

**C53** (`pkg/data_model/store/store.go:Store.IngestPayload`)

* `C53_violated`: On every store: supplying a payload for a stored entry always fails.

**C54** (`pkg/data_model/store/store.go:Store.IngestEntry`, `pkg/data_model/store/store.go:Store.InsertEntry`)

* `C54_violated`: With the limits of the application: the second write returns an error with the lock held, and the third waits forever.
* `C54_violated_full`: C54, the code disagrees for every path whose last component has the greatest length (and has a byte below 255): in every store made by fine calls without an entry of the subspace at a prefix of the path, after an entry is written there, every write of the subspace to a certain greater path (if nothing is at a prefix of it either) returns an error with the lock held, and every later write waits forever.

**C55** (`pkg/data_model/store/store.go:Store.Set`, `pkg/data_model/entry_driver/entry_driver.go:EntryDriver.Get`)

* `C55_violated`: With the limits of the application: an entry just written to a path with a component of 50 bytes is not found.
* `C55_violated_full`: C55, the code disagrees for every path whose last component has the greatest length (and has a byte below 255): in every store made by fine calls without an entry of the subspace at a prefix of the path, a call of `Set` for this path succeeds, and the entry is not found afterwards.

**C56** (`PinaGoladaStore/StoreDriver.go:InitStorage`, `PinaGoladaStore/StoreDriver.go:InitKDTree`)

* `C56_violated`: If the iterator reuses its buffer for the key, as pebble is allowed to: then every listed key is the last one.
* `C56_violated_always`: By all stores with two entries or more, if the iterator reuses its buffer for the key: restarting succeeds, but all positions in the new tree are the last one of the database.

**C57** (`PinaGoladaStore/StoreDriver.go:InitKDTree`, `pkg/data_model/datamodeltypes/entryDriverTypes.go:KDTreeStorage.Insert`)

* `C57_violated`: A range summary that worked before restarting ends the process after it.
* `C57_violated_always`: For every range with entries, of every store that has not been restarted yet: its summary, which could be computed before, ends the process after restarting (if digests are never empty).

**C58** (`pkg/wgps/handlestore/handle_store.go`)

* `C58_violated_always`: By every handle with no unprocessed message: once a message is reported as processed that was not registered, the handle is never removed, however often it is freed, unless other messages are registered.
* `C58_violated_reuse`: After 2^64 values the first handle is handed out again, and getting it no longer yields the first value.
* `C58_violated_stuck`: After a message is reported as processed that was not registered, a freed handle is never removed.

**C59** (`pkg/wgps/encoding/control.go`, `pkg/wgps/decoding/control.go`)

* `C59_violated_control`: For `ControlChannel`: it comes back as the reconciliation channel.
* `C59_violated_free`: No free message about a handle of the receiver comes back.
* `C59_violated_issueGuarantee`: No issue-guarantee message comes back with its own kind.

**C60** (`pkg/wgps/decoding/decode_messages.go:DecodeMessages`, `pkg/wgps/encoding/message_encoder.go`)

* `C60_violated_data`: Send-entry, send-payload and set-metadata messages of the data channel are passed to the decoder of fingerprint messages, whatever the loop expects.
* `C60_violated_secondEntry`: Once the loop has received one entry of a reconciliation, whatever it receives afterwards, no first byte makes it decode an entry or an announcement of entries again.
* `C60_violated_setup`: A static token is passed to no decoder, and read capabilities and areas of interest are encoded to no bytes at all.
* `C60_violated_terminate`: The byte that is sent to terminate a payload is never taken for that; while a payload is expected it is decoded as more payload, otherwise as an entry or an announcement.
* `C60_violated_unreachable`: No first byte leads to the decoder of commitment-reveal messages, nor to those of the three setup messages, of a payload's termination and of three data messages.

**C61** (`pkg/wgps/guaranteed_queue.go`)

* `C61_violated`: The first message pushed into a new queue ends the process.
* `C61_violated_created`: By every plea for more than the guarantees that are there, in any state: afterwards there are as many guarantees as the plea says, though none were issued, and the number that is to be given up wraps around.
* `C61_violated_neverAll`: For every sequence of calls: as long as they return, part of what was pushed has not been sent, whatever guarantees were issued. The first unsent byte is above 127.
* `C61_violated_plead`: A plea for a size above the guarantees that are there creates guarantees; here none is ever issued, and a pushed byte is sent.

**C62** (`pkg/wgps/reconciliation/reconciler_map.go`)

* `C62_violated`: Registering another pair with the same handle of ours removes the first.

**C63** (`pkg/wgps/reconciliation/aoi_intersection_finder.go:AddAoiHandleToNamespace`, `utils/areas.go:IntersectArea`)

* `C63_violated`: A pair is reported although one area contains no position at all.
* `C63_violated_empty`: By every area of theirs with an empty time range, in which there is no position: the pair with an area of ours is reported exactly if subspaces and paths meet and our times contain the start of theirs.
* `C63_violated_unbound`: A handle of theirs that is not bound is taken for the zero area. With a handle of ours whose area has no end, the pair is reported exactly if that area begins at time zero and is for any subspace or for the one with the empty name.

**C64** (`pkg/wgps/cap_finder.go:AddCap`, `pkg/wgps/cap_finder.go:FindCapHandle`)

* `C64_violated`: Adding any capability to a new finder ends the process.

**C65** (`pkg/wgps/reconciliation/reconciler.go:Respond`)

* `C65_violated`: An entry with a fingerprint in the range (every entry after a restart) ends the process.

**C66** (`pkg/wgps/reconciliation/reconciler.go:Respond`, `pkg/data_model/datamodeltypes/entryDriverTypes.go:KDTreeStorage.SplitRange`)

* `C66_violated`: Two stores with the same nine entries, five of them at the same time, can go on splitting the same range for ever, if they are given fingerprints that are not their own.
* `C66_violated_always`: By every store in which more than half of the entries in a range, and more than eight in all, have the same least timestamp and no entry of the range has a fingerprint: against a peer that holds the same and any fingerprint that is not its own, it can go on splitting for ever.

**C67** (`utils/growing_bytes.go`)

* `C67_violated_always`: At every request: whenever, in any interleaving, the reader has found too few bytes and has not yet taken the lock, and the receiver waits, it can come to pass that the bytes arrive and the reader waits forever.
* `C67_violated_bothBlocked`: When reader and receiver wait for each other: the reader, holding the lock, for the receiver to take a token, the receiver for the lock.
* `C67_violated_first`: By every sequence of calls that begins with a request for at least one byte, whatever the chunks in which enough bytes arrive: there is an interleaving in which the first call never returns.
* `C67_violated_forgotten`: When the receiver forgets the wrong request: the reader, having its answer, asks for two bytes before the receiver forgets the request for one.
* `C67_violated_missed`: By a request that is never answered: the reader finds no byte; the byte arrives and the receiver finds no request; the reader stores its request.
* `C67_violated_sameLength`: When the reader takes the lock and waits for the answer to a request that has been answered: it asks for as many bytes as before, before the receiver forgets that request.
* `C67_violated_selfBlocked`: When the receiver blocks itself: the token of the first request is still in the channel when the receiver, having answered, sends another. The second request is never answered.

**C68** (`pkg/wgps/data/payload_ingester.go`)

* `C68_violated`: Always: whatever is targeted, pushed and terminated, the store's payload ingestion is never called, no byte counts as received, nothing is queued, and no entry is current.
* `C68_violated_blocks`: Were an ingestion under way: after 32 further pieces, none of which anything takes from the queue, the next end of a payload blocks the ingester forever.
* `C68_violated_ignored`: In every state of the ingester, not only from the initial one: targeting an entry and pushing bytes that are not the last change nothing.

**C69** (`pkg/wgps/data/data_sender.go:Messages`)

* `C69_violated`: After an entry with an empty payload nothing of the rest of the queue is sent.

**C70** (`pkg/wgps/pai/pai_finder.go:CreateFragmentSet`, `utils/paths.go:PrefixesOf`)

* `C70_violated_share`: Two grants of the same namespace always share a fragment, that of the empty path, even if neither path is a prefix of the other.

**C71** (`pkg/wgps/encoding/data.go`, `pkg/wgps/decoding/data.go`)

* `C71_violated_bindPayloadRequest`: For every offset but 0: when no more than a part of the offset has come after the capability, the decoder crashes, unless the array has room for the rest.
* `C71_violated_sendEntry_handle`: A send-entry message with one of the other handles never comes back.
* `C71_violated_sendEntry_offset`: The offset of a send-entry message, unless it is 0 or the length of the payload, is not encoded; one of 256 or more never comes back.
* `C71_violated_sendEntry_small`: For small offsets too: whatever the offset, unless it is 0 or the length of the payload, the first byte of the entry comes back for it, and the entry is decoded from the bytes after that one.
* `C71_violated_sendPayload_chunks`: When the payload arrives after the header, the decoder crashes, or, if the array has room for the payload, it returns zero bytes in its place and takes the payload for the next message when it arrives.
* `C71_violated_sendPayload_pruned`: When bytes of the next messages have arrived too, as many of them as the encoding has bytes are lost.

**C72** (`pkg/wgps/encoding/setup.go`, `pkg/wgps/decoding/setup.go`)

* `C72_violated_limits`: No limit of an area of interest comes back.
* `C72_violated_readCapability`: For other handles: a different one comes back.
* `C72_violated_subspace`: When the area and its outer area are not for the same subspace, the decoder never returns.

**C73** (`pkg/wgps/encoding/pai.go`, `pkg/wgps/decoding/pai.go`)

* `C73_violated_chunks`: A message with handle 1 crashes the decoder when only its first byte has arrived, or, if the array has room, is taken for one with handle 0, and its second byte for the next message.
* `C73_violated_commitmentReveal`: No commitment-reveal message round-trips, as the encoder writes no header byte.
* `C73_violated_replyFragment`: With group members of a fixed length, no reply-fragment message with a handle other than 1 round-trips, if the arrays have no room beyond their bytes.
* `C73_violated_replySubspaceCapability`: With capabilities and signatures of fixed lengths, no reply-subspace-capability message with a handle other than 1 round-trips, if the arrays have no room beyond their bytes.
* `C73_violated_requestSubspaceCapability`: No request-subspace-capability message with a handle other than 1 round-trips, if the arrays have no room beyond their bytes. (If they have, a handle such as 512 happens to come back.)

**C74** (`pkg/wgps/encoding/reconciliation.go`, `pkg/wgps/decoding/reconciliation.go`)

* `C74_violated_announceEntries_covers`: By announce-entries messages whose `Covers` is one of those values: it does not come back if the arrays have no room beyond their bytes.
* `C74_violated_range`: By every send-fingerprint and announce-entries message: a valid range never comes back.
* `C74_violated_sendEntry_63`: By send-entry messages with the handle 63: the first byte of the number of available bytes is taken for the handle.
* `C74_violated_sendEntry_small`: By send-entry messages with a handle below 63 that is not the previous one: one byte too many is consumed, so the first byte of the token is taken for the number of available bytes.
* `C74_violated_sendFingerprint_coversNone`: By send-fingerprint messages that cover no entries: the 1 that stands for this in the encoder comes back as 0.
* `C74_violated_sendFingerprint_handles`: By send-fingerprint messages whose handles have different widths: a handle other than 0 that is not the previous one does not come back.
* `C74_violated_sendPayload_large`: For amounts that do not fit the integers of the path scheme.

**C75** (`main.go:makePath`, `PinaGoladaStore/StoreDriver.go:ConvertToByteSlices`)

* `C75_violated`: After `set` with a text of 50 bytes without slashes (or such a text after fewer than 49 slashes), not all of them 255, in a store made by fine calls that has no entries of the subspace, `list` shows another text.

**C76** (`utils/paths.go:IsValidPath`)

* `C76_violated`: With limits of 2^63 or more ("unlimited" in a 64-bit type) even the empty path is rejected.

**C77** (`utils/paths.go:PathDistance`)

* `C77_violated`: Distinct paths at distance zero.

**C78** (`pkg/data_model/datamodeltypes/entryDriverTypes.go:Summarise`, `pkg/data_model/entry_driver/entry_driver.go:Insert`)

* `C78_violated`: Stores with different entries in a range report the same fingerprint and size, even in the whole of the store.
* `C78_violated_always`: By all stores with as many entries in the range: two summaries that return are equal exactly when the numbers of entries are (modulo 2^64), whatever the entries.

**C79** (`pkg/data_model/store/store.go:Set`, `pkg/data_model/payload_kv_driver/filesystem.go:Set`)

* `C79_violated`: A write that is not authorised leaves its payload in the payload files.
* `C79_violated_always`: By every refused fine write with a payload that has a file name: the payload is in the payload files afterwards.
* `C79_violated_older`: So does one that is refused because a newer entry is stored.

**C80** (`pkg/data_model/store/store.go:IngestEntry`, `pkg/data_model/store/store.go:InsertEntry`, `pkg/data_model/payload_kv_driver/payload_ref_counter.go:Decrement`)

* `C80_violated`: See `C51_violated`; the payload [9] has no entry and can still be read.
* `C80_violated_always`: Whenever an entry was once replaced by one with the same payload: after any such fine calls, an accepted entry that displaces entries with this payload leaves the payload file as it is, though no entry with the payload may be left (if the file is no other stored payload's and not that of the token of the new or of the replaced entry).

**C81** (`main.go:parseTimeStampToMicroSeconds`)

* `C81_violated_midnight`: Midnight is taken for an invalid time, and the application leaves the namespace.
* `C81_violated_minutes`: More than 59 minutes and more than 23 hours are not reported as invalid.
* `C81_violated_wraps`: The number of microseconds is computed modulo 2^64; here 5124095577 hours become less than an hour.

**C82** (`main.go:NameSpaceInteraction`, `pkg/data_model/store/store.go:Set`, `pkg/data_model/entry_driver/entry_driver.go:Get`, `pkg/data_model/payload_kv_driver/filesystem.go:Get`)

* `C82_violated`: `get` after the `set` commands of `C75_violated` prints an empty line, whatever was stored.
* `C82_violated_capitals`: After the calls of `C52_violated_capitals` the command `get` ends the process.
* `C82_violated_shared`: In the same way, after every call as in `C52_violated_shared`: `get` of the other entry ends the process.

**C83** (`pkg/wgps/reconciliation/reconciler.go:Initiate`, `pkg/wgps/reconciliation/reconciler.go:Respond`, `pkg/data_model/datamodeltypes/entryDriverTypes.go:KDTreeStorage.Summarise`)

* `C83_violated`: Always: whatever the two stores hold, a reconciler that is sent the fingerprint of the other store (and does not end the process) gives no answer.
* `C83_violated_start`: From the start: whatever the two stores hold and whatever the areas are, the first message of Alfie is never answered by Betty.

**C84** (`pkg/wgps/reconciliation/reconcile_msg_tracker.go`, `pkg/wgps/decoding/decode_messages.go:DecodeMessages`, `pkg/wgps/encoding/message_encoder.go:Encode`)

* `C84_violated_first`: At the start: what a new encoder remembers is a range and an entry at the empty path, to which no path can be encoded relative. So it crashes at the first fingerprint, the first announcement of entries and the first entry, whatever they say and whatever other messages come before.
* `C84_violated_sameSubspaces`: A fingerprint on the same subspaces and handles as the message before, if there is any subspace between the bounds, is never delivered. The receiver looks for the shared components of the path in the zero range, which has none.
* `C84_violated_sendEntry`: No entry whose static token handle is that of the entry before, or above 63, is ever delivered. The receiver looks for the shared components of its path in the zero entry, whose path has none.
* `C84_violated_senderHandle`: A handle that is the same as the previous one is decoded as 0. Whatever the receiver remembers, it decodes a fingerprint whose sender handle is that of the message before as one of handle 0.

**C85** (`pkg/wgps/decoding/decode_messages.go:DecodeMessages`, `pkg/wgps/encoding/message_encoder.go:Encode`)

* `C85_violated_announceEntries`: Every announcement of entries crashes the receiver.
* `C85_violated_bindPayloadRequest`: No request for a payload is ever delivered; the loop gives its decoder no function to decode the payload digest with.
* `C85_violated_nil`: A nil that was not sent comes out in every iteration.
* `C85_violated_stuck`: After a static token, and at every byte from 0 to 3, 0x20 to 0x3f, the loop emits nil after nil and never moves on.

**C88** (`pkg/wgps/transport/quic.go:Recv`, `pkg/wgps/transport/quic.go:Initiate`)

* `C88_violated_crash`: Eight bytes of the peer end the process, by asking for more memory than there can be.
* `C88_violated_first`: The first message that is received on a stream opened by the peer is one that nobody sent, the number of the channel.

**C89** (`pkg/wgps/wgps_messenger.go:NewWgpsMessenger`, `pkg/wgps/transport/quic.go:Recv`)

* `C89_violated_further`: When both goroutines run, what is given to the listener for data instead of the first message is what arrives eight bytes later, since the other goroutine takes eight bytes for a length. If these are a larger number than there is memory, the process ends.
* `C89_violated_misdelivered`: The messages sent on the data channel are all given to the listener for reconciliation, if its goroutine is the one that runs.
* `C89_violated_mixed`: When both goroutines run, each may be given bytes that are no message at all: one reads the length of a message, the other takes the message itself for a length.
* `C89_violated_unread`: Nothing that is sent on a channel other than that for data is ever read, in whatever order the goroutines run.

**C90** (`pkg/wgps/transport/quic.go:Send`, `pkg/wgps/transport/quic.go:Close`)

* `C90_violated_close`: Closing a transport that has streams in one direction only, as it has after one peer has called the other, ends the process.
* `C90_violated_send`: Sending before the stream has been opened ends the process.

**C91** (`pkg/wgps/syncutils/utils.go:AsyncReceive`)

* `C91_violated_closed`: When the channel is closed, the callback is called again and again with a value that nobody sent.
* `C91_violated_error`: After the first value for which the callback fails, the others are never received.
* `C91_violated_onEnd`: If a function `onEnd` is given, it is called after the first value, and the other values are never received.

**C92** (`pkg/wgps/wgps_messenger.go:HandleMsgReconciliationAcceptor`, `pkg/wgps/wgps_messenger.go:HandleMsgReconciliationInitiator`, `pkg/wgps/wgps_messenger.go:Respond`, `pkg/wgps/wgps_messenger.go:EncodeSummary`)

* `C92_violated_asked`: If the initiator holds an entry with a fingerprint in the range that the other peer asks about, it ends the process.
* `C92_violated_crash`: To a fingerprint that differs, a peer that holds entries of the range never gives an answer: it ends the process when it writes the length of the answer into a nil slice.
* `C92_violated_ignored`: Whatever message arrives and whatever the accepting peer holds, it does nothing.
* `C92_violated_lost`: On a closed transport, or if the stream for reconciliation is closed, the summary is lost and nobody is told: the result is the same as if it had been sent.
* `C92_violated_silent`: In no case does the accepting peer send anything.
* `C92_violated_summary`: The message in which the initiator should send its summary of a range is the same for every store and every range.

**C93** (`pkg/wgps/wgps_messenger.go:HandleDataInitiator`, `pkg/wgps/wgps_messenger.go:DecodeEntryPayload`, `pkg/data_model/store/store.go:Set`)

* `C93_violated_authorised`: In the store of the application every entry that a peer sends is taken to be authorised, whatever its subspace and whoever the peer is; no authorisation is sent.
* `C93_violated_crash`: A message of a peer that carries an entry with the empty path ends the process; so does a message that carries nothing, as it is decoded to the zero entry.
* `C93_violated_exactly`: Whenever the entry in a message is of another namespace, or has a time of zero, or does not have the digest and the length of the payload that comes with it: after any fine calls, what is found at its path is an entry of the own namespace, with the digest and the length of the payload, and with the time of the receiver's clock in place of zero. So it is found as the peer has it exactly if that changes nothing.
* `C93_violated_namespace`: An entry of another namespace is stored as one of the own namespace.
* `C93_violated_payload`: A payload that is not the one of the entry is not noticed; the entry is stored with another digest and length, under the same path and time.
* `C93_violated_time`: An entry with time zero is stored with the time of the receiver's clock, so that the two peers never agree.

**C94** (`pkg/wgps/pai/pai_finder.go:SubmitAuthorisation`, `pkg/wgps/pai/pai_finder.go:CreateFragmentSet`)

* `C94_violated`: No grant of one subspace is submitted as planned, for its fragments without the subspace are sent to the other peer as primary ones.
* `C94_violated_request`: When the other peer shares only the most specific fragment without the subspace, the authorisation is reported as if the fragment with the subspace was shared, and the subspace capability is not asked for.

**C95** (`pkg/wgps/pai/pai_finder.go:ReceivedBind`, `pkg/wgps/pai/pai_finder.go:ReceivedReply`, `pkg/wgps/pai/pai_finder.go:CheckForIntersections`, `pkg/wgps/pai/pai_finder.go:ReceivedVerifiedSubspaceCapReply`, `pkg/wgps/pai/pai_finder.go:GetHandleOuterArea`)

* `C95_violated_exchange`: Two peers with the same authorisation exchange everything, and neither finds an intersection. The replies carry handles of the replying peer: none of the fragments that a peer submitted becomes complete, and the fragments received from the other peer are overwritten.
* `C95_violated_incomplete`: Whenever the peer that answers submitted at least as many fragments as we did: whatever is bound on either side, and in whatever order its replies arrive, none of our fragments ever becomes complete. All of its replies name handles that come after those of our fragments.
* `C95_violated_never`: Whatever authorisations are submitted and whatever the other peer binds, replies and requests, no intersection is ever reported and no subspace capability is ever asked for: what the other peer binds is entered into the store of our own handles, and each search goes through the store of theirs.
* `C95_violated_outer`: The outer area of a fragment without a subspace, such as all those of a grant of a whole namespace, cannot be had: asking for it is a panic.
* `C95_violated_privy`: Without an intersection, what is said of it is a namespace with an empty name and an area in which there is nothing; no error is returned.
* `C95_violated_reply`: Whenever the peer that answers submitted fewer fragments: its reply to our first bind names a handle of its own store. With us that is the handle of another fragment, which thereby counts as complete, with the group member of the first fragment; the first one never does.
* `C95_violated_scalar`: A bind is answered with a newly chosen scalar instead of the finder's own, so that two peers need not reach the same group member for the same fragment.
* `C95_violated_secondary`: By every reply about a secondary fragment: it then no longer counts as secondary, so that its authorisation is reported if a secondary fragment of the other peer has the same group member, though both are secondary.
* `C95_violated_unrequested`: A verified subspace capability is taken for an intersection of the namespace that the other peer names, though it was never asked for and nothing was submitted.

**C96** (`main.go:main`, `main.go:NameSpaceInteraction`, `PinaGoladaStore/StoreDriver.go:InitStorage`, `PinaGoladaStore/StoreDriver.go:InitKDTree`)

* `C96_violated_enter`: A namespace that was just created cannot be entered again after leaving it, only after the application is started again; it is said not to exist.
* `C96_violated_fatal`: A time that is not understood puts one out of the namespace without closing its databases, and entering the namespace again ends the process.
* `C96_violated_new`: `new` without a name ends the process.

**C97** (`main.go:NameSpaceInteraction`, `main.go:parseTimeStampToMicroSeconds`)

* `C97_violated_exit`: A blank before or after `exit` and it is not understood.
* `C97_violated_file`: A file with a space in its name cannot be stored: the part before the space is looked for, and the part after it is read as a time.
* `C97_violated_get`: `get` in a namespace in which nothing was ever stored ends the process.
* `C97_violated_spaces`: Two spaces instead of one after `set` make the empty subspace the subspace, and the remaining words are moved; with a file whose name is the path, one is put out of the namespace.
* `C97_violated_wide`: A note can be stored at a path that ends with white space outside ASCII, but `get` with this path looks for the path without it: the note cannot be read.

**C98** (`pkg/wgps/reconciliation/reconciler.go:NewReconciler`, `pkg/wgps/reconciliation/reconciler.go:DetermineRange`, `pkg/wgps/reconciliation/reconciler.go:Initiate`)

* `C98_violated_count`: An area of interest limited to one entry is started on with a range that holds two.
* `C98_violated_crash`: For either role, an area whose path has the maximal total length ends the process.
* `C98_violated_disjoint`: If the areas have nothing in common, Alfie waits for ever.
* `C98_violated_fingerprint`: A common entry with a fingerprint (every entry after a restart) ends the process.
* `C98_violated_limits`: The limits of the areas of interest play no part, whatever the areas.
* `C98_violated_missed`: An entry that is in both areas need not be in the range that Alfie starts with, if the path of one area has a last component of the maximal length.
* `C98_violated_nothing`: By all areas whose path ends with a full component (but for components that are the largest possible): no position is in the range that Alfie starts with, whatever the areas have in common.
* `C98_violated_room`: By all areas whose path is as long as allowed and ends with a component that is not: in either role, the process ends.

**C99** (`pkg/wgps/reconciliation/announcer.go:GetStaticTokenHandle`, `pkg/wgps/reconciliation/announcer.go:QueueAnnounce`)

* `C99_violated_all`: Whatever the range of the request, all entries of the store are announced: those that are not in the range too.
* `C99_violated_copies`: The announcer's handle store is a copy. Whatever token the session binds first through its own, the announcer gives the same handle to the token of the first entry it announces, and from then on the session has that token under the handle.
* `C99_violated_freed`: After any announcements, whichever static token that the peer was told of, other than the first, is then freed, the next entry with it is announced with handle zero, which the peer has for the first token, and the peer is told of the token again, so that its numbers no longer are ours.
* `C99_violated_payload`: No announced entry has the payload digest, the payload length and the namespace of the entry that it stands for; it says that one byte of the payload is available.
* `C99_violated_range`: What is announced does not depend on the range: entries outside of it are announced with those in it.

**C101** (`pkg/wgps/data/data_sender.go:QueueEntry`, `pkg/wgps/data/data_sender.go:QueuePayloadRequest`, `pkg/wgps/data/data_sender.go:Messages`)

* `C101_violated_early`: A payload request that arrives before its handle is bound is not waited for (the code says that it should be): it is never answered.
* `C101_violated_erased`: If the payload of a queued entry is replaced before the messages are made, its header is sent without a payload, and nothing of what was queued after it.
* `C101_violated_gone`: Whenever the payload of something queued is gone (or empty) when the messages are made: they end with its header, and nothing that was queued after it is sent.
* `C101_violated_twice`: Making the messages a second time makes all of them again, since the queue is never emptied.

**C102** (`pkg/data_model/kv_driver/kv_driver_pebble.go:IsFirstPrefixOfSecond`, `pkg/data_model/kv_driver/kv_driver_pebble.go:CompareKeys`, `pkg/data_model/kv_driver/kv_driver_pebble.go:GetMultipleValues`, `pkg/data_model/kv_driver/kv_driver_pebble.go:Clear`)

* `C102_violated_order`: The comparison puts shorter keys first, the database does not (`/repo/pkg/data_model/kv_driver/kv_driver_pebble.go:44-47`). Below every key that does not begin with the byte 0 there are, in the order of the database, keys that the comparison puts above it; `[2]` is below `[1, 1]` for `CompareKeys`, and above it in the database.

**C103** (`pkg/data_model/kdnode/willowkdtreenode.go:Dist`, `pkg/data_model/kdnode/willowkdtreenode.go:DistDim`)

* `C103_violated_dimension`: The distance in one dimension is no lower bound of the distance: it is 1 in subspace and path even from a key to itself (`/repo/pkg/data_model/kdnode/willowkdtreenode.go:58-70`). A search for nearest neighbours that skips subtrees by it would skip keys.
* `C103_violated_wrap`: Times 2³² microseconds (72 minutes) apart have distance zero, and times a little closer have a negative distance: the square is taken modulo 2⁶⁴ (`/repo/pkg/data_model/kdnode/willowkdtreenode.go:75,89`).

**C105** (`pkg/wgps/reconciliation/aoi_intersection_finder.go:Intersections`, `pkg/wgps/pai/pai_finder.go:FragmentBinds`, `pkg/wgps/guaranteed_queue.go:FetchOutgoingBytes`, `pkg/wgps/reconciliation/reconciler.go:announcements`)

* `C105_violated_again`: Nothing is removed from the queue, so a second call delivers the elements of the first again (`/repo/pkg/wgps/reconciliation/aoi_intersection_finder.go:161-164`): after a first call that delivered everything, a second one that ends has delivered all of it too.
* `C105_violated_announcements`: No line of the repository writes to `AnnounceQueue` or closes it (it is named only at `/repo/pkg/wgps/reconciliation/reconciler.go:41,63,226`). Without either, `announcements` delivers nothing and its channel is never closed: a reader waits for ever.
* `C105_violated_late`: What is queued after the goroutine has begun to range is not received, whatever happens afterwards, though it is queued before the channel is closed. The loops range over a slice, which Go evaluates once, where the comments suppose a channel (`/repo/pkg/wgps/pai/pai_finder.go:460`, `/repo/pkg/wgps/reconciliation/aoi_intersection_finder.go:161`). So intersections found after `Intersections` was called are never delivered.

**C106** (`pkg/wgps/wgpstypes/types.go:IsNoChannelMsg`, `pkg/wgps/channels/channels.go:MsgLogicalChannels`, `pkg/wgps/encoding/message_encoder.go:Encode`)

* `C106_violated`: The reply to a fragment is among the messages that belong to no logical channel, but is sent over the intersection channel. This is so for every reply.

**C108** (`pkg/data_model/store/store.go:Store.ListWithAOI`, `pkg/data_model/store/store.go:Store.List`, `pkg/data_model/entry_driver/entry_driver.go:EntryDriver.Query`, `pkg/data_model/kv_driver/kv_driver_pebble.go:ListValues`)

* `C108_violated_any`: After any fine calls, `ListWithAOI` of an area of any subspace (whose subspace field is empty, as `FullArea` makes it) leaves out every entry of a subspace with a name.
* `C108_violated_end`: After any fine calls, `ListWithAOI` of an area whose time range ends at the time of an entry gives that entry, though it is outside the area.
* `C108_violated_open`: After any fine calls, `ListWithAOI` of a whole subspace with an open time range (whose end field is 0, as `FullArea` makes it) leaves out every entry with a time other than 0.
* `C108_violated_range`: After any fine calls, a query of a range that has an entry gives a blank entry as well.

**C109** (`pkg/wgps/wgps_messenger.go:NewWgpsMessenger`, `pkg/wgps/wgps_messenger.go:HandleMsgReconciliationAcceptor`, `pkg/wgps/wgps_messenger.go:HandleMsgReconciliationInitiator`, `pkg/wgps/wgps_messenger.go:HandleDataInitiator`, `pkg/wgps/transport/testalfieserver/server.go:main`, `pkg/wgps/transport/quic.go:Recv`)

* `C109_violated_crash`: The summary that Alfie sends can end Betty's process, since it is sent without a length, and its first bytes are read as one.
* `C109_violated_exchange`: Whatever the stores of two peers hold at the start, whatever summaries Alfie sends, and however the network and the goroutines go on, neither store ever changes, and nothing that Betty might send ever reaches Alfie.

**C110** (`pkg/data_model/store/store.go:Store.Set`, `pkg/data_model/store/store.go:Store.IngestEntry`, `pkg/data_model/payload_kv_driver/filesystem.go:PayloadDriver.Set`, `pkg/data_model/payload_kv_driver/filesystem.go:PayloadDriver.Erase`)

* `C110_violated_always`: By every two calls of `Set` of which one replaces the only entry with a payload and the other stores the same payload elsewhere: under a schedule of theirs, after any fine calls, both succeed, the entry of the other is stored, and its payload is gone.
* `C110_violated_counted`: By every three calls of `Set` of which one stores a payload that no entry has, another displaces its entry by one with another payload, and the third stores the first payload again: under a schedule of theirs, after any fine calls, the first finds the payload unused, the third succeeds, and then the first erases the payload: all three succeed, the entry of the third is stored, and its payload is gone.
* `C110_violated_erase`: `Set` counts the references after it has let go of the lock. If its own entry has been replaced by then, it finds none, and if another call stores an entry with the same payload before the erasure, the payload of that entry is erased.
* `C110_violated_overwritten`: By every call of `Set`, even one that will be refused, with the payload of a stored entry: the file is emptied before it is written anew, so that a reader in between finds the entry with an empty payload, though before and after the call it has the whole.
* `C110_violated_payload`: `Set` writes the payload before it takes the lock. If another call removes the last entry with this payload before the ingest, the payload is erased; all calls succeed, the entry is stored, and its payload is gone. In no order of the calls, one after the other, is it missing.
* `C110_violated_reader`: By every replacement: readers take no lock, and the old entry is removed (line 130 of `store.go`) before the new one is inserted (line 151). In between, when `replaceOther` is done, a reader finds no entry at the path, though there is one before and after.

**C111** (`pkg/data_model/store/store.go:Store.Set`, `pkg/data_model/store/store.go:Store.IngestEntry`, `pkg/data_model/store/store.go:Store.InsertEntry`, `pkg/data_model/kv_driver/kv_driver_pebble.go:KvDriver.Set`, `pkg/data_model/payload_kv_driver/filesystem.go:PayloadDriver.Set`, `PinaGoladaStore/StoreDriver.go:InitKDTree`)

* `C111_violated_lost`: When an entry is replaced, the old one is deleted before the new one is written. If the process ends in between, the store opened again holds neither.
* `C111_violated_partly`: By every call of `Set`, even one that is refused, with the payload of a stored entry: the file is written anew. If the process ends when `k` bytes are written, the store opened again holds the entry, and its payload has the first `k` bytes only.
* `C111_violated_payload`: `Set` truncates the file of the payload before it writes it. If another entry has the same payload and the process ends in between, the payload of that entry is empty.
* `C111_violated_pruning`: By every write to a new path that has older entries below: there is a moment such that if the process ends then, the store opened again holds the new entry, all older entries below it that it should have pruned, and all others.
* `C111_violated_replaced`: By every write that replaces an entry and has older entries below: there is a moment such that if the process ends then, the store opened again holds the new entry, all older entries below it that it should have pruned, and all others but the replaced one.
* `C111_violated_replacing`: By every replacement: after any fine calls, during any fine call that stores an entry at the path of another, there is a moment such that if the process ends then, the store opened again holds neither the old entry nor the new one, and all the others.
* `C111_violated_truncated`: By every call of `Set`, even one that is refused, with the payload of a stored entry: the file is emptied first. If the process ends then, the store opened again holds the entry with an empty payload.
* `C111_violated_uncounted`: If the process ends after the new entry is written and before the reference to its payload is counted, the store opened again holds the entry; but the write that would replace it fails, the entry is lost without the new one being stored, and the lock stays held, so that every further call waits for ever.
* `C111_violated_uncounted_always`: By every write of a new payload to a new path: after any fine calls, there is a moment such that if the process ends then, the store opened again holds the new entry, but no entry with another payload can replace it: every fine, authorised and newer entry at its path is refused, the entry is removed, and the lock stays held.
* `C111_violated_unpruned`: If the process ends after the new entry is written and before an entry below it is pruned, the store opened again holds both, the older one below the newer one.

**C112** (`pkg/wgps/decoding/decode_messages.go:DecodeMessages`, `pkg/wgps/decoding/control.go`, `pkg/wgps/decoding/data.go`, `pkg/wgps/decoding/pai.go`, `pkg/wgps/decoding/reconciliation.go`, `pkg/wgps/decoding/setup.go`, `utils/paths.go:DecodePathStream`)

* `C112_violated`: After every harmful byte, whatever the state of the loop, there are bytes which end the process if the array has no room after them (and if the decoders of fingerprints and of dynamic tokens decode anything at all). With `C112_partial`, the harmful bytes are exactly 0x08 to 0x1f and 0x40 to 0x6f, of which 0x50 to 0x5f except 0x53 and 0x57 are harmless while a payload is expected.

**C113** (`pkg/wgps/reconciliation/reconcile_msg_tracker.go`)

* `C113_violated`: After each entry more than announced the tracker expects further entries, since its unsigned counter wraps around below zero (`/repo/pkg/wgps/reconciliation/reconcile_msg_tracker.go:65`). One entry without an announcement is enough, and it takes 2^64 - 1 more, or an announcement, until none is expected.

**C114** (`pkg/data_model/store/store.go:Set`, `pkg/data_model/store/store.go:IngestEntry`, `pkg/data_model/kv_driver/key_utilities.go:EncodeKey`)

* `C114_violated`: With the limits of the application: in every subspace and at every time an entry can be received, authorised for its subspace, which replaces the value of an entry of another subspace in the database. Its path has 257 components, which the store accepts; the number is written in one byte, so that the rest of the path counts as part of the subspace.

**C115** (`pkg/data_model/store/store.go:IngestEntry`, `utils/successor.go`, `utils/paths.go:IsValidPath`)

* `C115_violated_component`: Every authorised entry that is the first of its subspace is stored though one of its components is beyond the limit, if the path has few enough bytes and components and its last component does not have just as many bytes as a component may have.
* `C115_violated_ends`: Every authorised write, or received entry, at such a path that is newer than the entries of its subspace ends the process. The check `IsValidPath` is called by tests only; it is the successor of the path, needed for the lookup, that calls `log.Fatal` (`/repo/utils/successor.go:54, 61`).
* `C115_violated_stored`: With the limits of the application: an entry whose path has 257 components is stored. When the store is opened again the entry is that of another subspace, at another path.

**C118** (`pkg/data_model/kv_driver/kv_driver_pebble.go:ListValues`, `pkg/data_model/kv_driver/key_utilities.go:DecodeKey`)

* `C118_violated`: If the iterator reuses its buffer for the key, as pebble is allowed to, then all entries that are listed have the path of the last one visited, when the paths have components of the same lengths.

**C119** (`PinaGoladaStore/StoreSchemes.go:NameSpaceEncoding`, `PinaGoladaStore/StoreSchemes.go:SubspaceEncoding`, `pkg/data_model/store/test_schemes.go:NameSpaceEncoding`, `utils/entries.go:EncodeEntry`, `utils/entries.go:DecodeEntry`)

* `C119_violated`: Whatever follows an encoded id is taken for part of it.
* `C119_violated_entry`: Decoding an encoded entry waits for ever.
* `C119_violated_same`: Entries of different namespaces and subspaces have the same encoding.
* `C119_violated_stream`: Decoding an id from a stream takes nothing from the stream, and returns what happens to have arrived of it and of what follows.
* `C119_violated_unset`: With the schemes of the application, whose stream decoders are not set, the first entry in a message that says it comes with its namespace or its subspace ends the program, whatever follows.

**C120** (`utils/entries.go:EncodeEntry`, `PinaGoladaStore/StoreSchemes.go:NameSpaceEncoding`)

* `C120_violated`: If there is room behind the namespace id for the encoded subspace id, this is written over what is stored there.

**C121** (`utils/successor.go:SuccessorPath`, `utils/successor.go:SuccessorPrefix`, `utils/successor.go:TryAppendZeroByte`, `utils/areas.go:AreaTo3dRange`, `pkg/data_model/kv_driver/key_utilities.go:DecodeKey`, `pkg/data_model/datamodeltypes/entryDriverTypes.go:Get`, `pkg/data_model/store/store.go:PrunableEntries`, `PinaGoladaStore/StoreDriver.go:InitKDTree`)

* `C121_violated_area`: When the subspace of an area follows its path in the buffer, as in an encoded area that was decoded with slices, the path's last component is shorter than its limit, and the subspace does not begin with 0, then the range made of the area begins at a smaller subspace: it contains the positions below the area's path in all subspaces between, which are not in the area.
* `C121_violated_crash`: Such a lookup ends the program when another entry has the same path in a subspace between the changed one and the one looked up.
* `C121_violated_lookup`: After a restart the keys of the tree are slices of the stored keys, in which the subspace follows the last component of the path. Whatever else the store holds, looking up a key with the largest number of components, a last component shorter than its limit, and a subspace that does not begin with 0, changes the subspace in the tree, and then either fails (the changed key is not in the database) or ends the program (`log.Fatalln`); the entry is not found.
* `C121_violated_prune`: An entry written over such a key (one that would prune it) is refused with an error or ends the program, when the key is the first candidate.
* `C121_violated_written`: Whatever follows a component is overwritten, when the component is shorter than its limit, there are as many components as can be, and the ones after it have no successor of their length.

**C122** (`pkg/data_model/payload_kv_driver/filesystem.go:Receive`, `pkg/data_model/payload_kv_driver/filesystem.go:copyFile`)

* `C122_violated_nameless`: A whole payload whose digest has no file name stays in the staging directory when it is committed, and is not stored.
* `C122_violated_negative`: With an offset below zero the digest and the length that are reported are those of the bytes without the last ones, but the whole is stored when it is committed.
* `C122_violated_panic`: With an offset so far below zero that the length would be negative the call panics and leaves a staging file, which no commit or reject can remove.
* `C122_violated_part`: After a payload has been received in two parts and stored, the file of the first part is still there.

**C123** (`pkg/wgps/decoding/reconciliation.go:DecodeReconciliationSendFingerprint`, `pkg/wgps/decoding/reconciliation.go:DecodeReconciliationAnnounceEntries`, `pkg/wgps/decoding/data.go:DecodeDataSendEntry`, `utils/ranges.go:DecodeStreamRange3dRelative`, `utils/areas.go:DecodeStreamEntryInNamespaceArea`)

* `C123_violated`: By every send-fingerprint and announce-entries message on subspaces that end where those of the message before begin: the decoder of the range returns an error, which is not looked at, so the message is delivered with the zero range, and the bytes of the range remain in the stream.
* `C123_violated_entry`: By the entry of a data message that is sent relative to an area for any subspace with a header that says that the subspace is not encoded: the error is not looked at, the message is delivered with the zero entry, and what follows the header remains in the stream.
* `C123_violated_loop`: In the message loop: after such a fingerprint the loop takes the bytes of the range for a message that replies with a subspace capability, whatever either side remembers.
* `C123_violated_open`: By every send-fingerprint and announce-entries message of whose range a part is given by an end that the range before does not have: the decoder of the range never returns one. If it returns an error, that is not looked at, and the message is delivered with the zero range. So it is with every range of paths without an end that comes after another one: the flag of the missing end is looked for at a bit that no byte has.

**C124** (`pkg/wgps/decoding/reconciliation.go:DecodeReconciliationSendEntry`, `utils/entries.go:DecodeStreamEntryRelativeRange3d`)

* `C124_violated_namespace`: In that order by every token whose encoding begins with a byte from 128 on and the encoding of a namespace: if the message is delivered, its entry is in that namespace, whatever the namespace of the entry that was sent.
* `C124_violated_range`: By every entry in the announced range whose subspace is not the one the range starts with, if the message loop goes on before the goroutine of the entry reads: the message is delivered, without its entry, and the loop takes the entry for a control message.
* `C124_violated_start`: If the goroutine of the token reads only when the token is received: the entry is decoded from the stream where the token begins.

**C126** (`utils/entries.go:EncodeEntry`, `utils/entries.go:EncodeEntryRelativeEntry`, `utils/entries.go:EncodeEntryRelativeRange3d`, `utils/areas.go:EncodeAreaInArea`, `utils/areas.go:EncodeEntryInNamespaceArea`, `utils/ranges.go:EncodeRange3dRelative`)

* `C126_violated_begins`: The encoding of a range can begin with that of another.
* `C126_violated_instant`: Whatever the range of one instant that they are encoded relative to, the encoding of every range that ends with it is the beginning of that of the range that ends 255 later, though the latter contains the end of the instant and the former does not.
* `C126_violated_length`: Whatever the entry and the area it is encoded in, there is an entry of another payload length, and else the same, that has the same encoding.
* `C126_violated_open`: Of ranges without an end of the subspaces, encoded relative to one without such an end, the bytes do not tell in which subspace they start.
* `C126_violated_subspace`: Of entries encoded in an area of all subspaces, the bytes do not tell the subspace.

**C127** (`main.go:writeEntriesToFile`, `main.go:NameSpaceInteraction`, `PinaGoladaStore/StoreDriver.go:InitKDTree`, `pkg/data_model/datamodeltypes/entryDriverTypes.go:Insert`)

* `C127_violated_again`: On entering a namespace again, with the same entries, the file is never the same if some entry was stored in between: an entry has no fingerprint until its namespace is opened again.
* `C127_violated_limit`: A line `set` with a text of 50 bytes without slashes (or such a text after fewer than 49 slashes), not all of them 255, when the namespace was made by fine commands and has no entries of the subspace, stores the entry, but the file then shows another path: it is the text for no keys among which is that of the entry.

**C129** (`utils/paths.go:EncodePath`, `utils/paths.go:EncodeRelativePath`, `pkg/data_model/kv_driver/key_utilities.go:EncodeKey`, `pkg/data_model/kv_driver/key_utilities.go:EncodeValues`, `utils/entries.go:EncodeEntry`, `utils/entries.go:EncodeEntryRelativeEntry`, `utils/entries.go:EncodeEntryRelativeRange3d`, `utils/areas.go:EncodeAreaInArea`, `utils/ranges.go:EncodeRange3dRelative`)

* `C129_violated_distance`: By all ranges whose times end nearer to the end of those of the other range than to their start: the distance to the start is written, though the second byte speaks of the end and of the width of the other distance.
* `C129_violated_end`: By all ranges whose subspaces end where those of the other range start: instead of adding the code of the end, the encoder overwrites the code of the start.
* `C129_violated_open`: By all ranges whose times have no end: a distance is written for an end that the range does not have.

**C130** (`pkg/wgps/encoding/data.go:EncodeDataSendEntry`, `pkg/wgps/encoding/data.go:EncodeDataSetEagerness`, `pkg/wgps/encoding/data.go:EncodeDataBindPayloadRequest`, `pkg/wgps/encoding/setup.go:EncodeSetupBindAreaOfInterest`, `pkg/wgps/encoding/pai.go:EncodePaiReplyFragment`, `pkg/wgps/encoding/reconciliation.go:EncodeReconciliationSendFingerprint`, `pkg/wgps/encoding/reconciliation.go:EncodeReconciliationAnnounceEntries`, `pkg/wgps/encoding/reconciliation.go:EncodeReconciliationSendEntry`)

* `C130_violated_63`: By send-entry messages of the reconciliation with the handle 63: the byte that says that the handle follows is there, but the handle is not.
* `C130_violated_cut`: By bind-read-capability messages with a handle that does not fit the integers of the path scheme: it is cut.
* `C130_violated_fragment`: By the messages about a fragment: they have their layout for the handle 1 only, because the number of bytes of the handle stands where the handle should.
* `C130_violated_handle`: By send-entry messages: the width of a handle that is 2, 4, 8 or at least 256 is wrong in the first byte.
* `C130_violated_limits`: By bind-area-of-interest messages for areas with limits: the flag for limits is never set.
* `C130_violated_offset`: By send-entry messages: an offset that is neither 0 nor the length of the payload is missing.
* `C130_violated_widths`: By send-fingerprint messages with handles of different widths, unless both are the previous ones: each width stands where the other should.

**C131** (`main.go:main`, `main.go:NameSpaceInteraction`, `pkg/data_model/store/store.go:Store.Set`, `pkg/data_model/store/store.go:Store.IngestEntry`, `pkg/data_model/store/store.go:Store.List`)

* `C131_violated_file`: The name of a file that cannot be read has the same effect.
* `C131_violated_get`: `get` on an empty page, where no bytes should be shown as they are for a path without a note on any other page, ends the application.
* `C131_violated_midnight`: A note for midnight is not taken, and the namespace cannot be entered any more until the application is started again: trying it ends the application.
* `C131_violated_path`: A note at a path of 50 bytes without slashes, not all of them 255, is listed with another path and is not got back.

**C132** (`pkg/wgps/data/payload_ingester.go:Target`, `pkg/wgps/data/payload_ingester.go:Push`, `pkg/wgps/data/payload_ingester.go:Terminate`)

* `C132_violated_again`: Whatever was called before: a second `Terminate` gives the entry again, so its payload is asked for twice.
* `C132_violated_other`: Whatever was called before: when an entry is targeted without the wish after one with it, `Terminate` gives the earlier one, whose payload has not been ended (`/repo/pkg/wgps/data/payload_ingester.go:134-136` leaves the field as it is).

**C133** (`pkg/wgps/handlestore/handle_store.go:HandleStore`, `pkg/wgps/handlestore/handle_store.go:Bind`, `pkg/wgps/reconciliation/announcer.go:StaticTokenHandleStoreOurs`, `pkg/wgps/reconciliation/aoi_intersection_finder.go:HandlesOurs`)

* `C133_violated_twice`: If after copying as many values have been bound through one copy as through another, whatever else has been done, then the next value bound through the one and the next one bound through the other get the same handle, and the handle then has the second value, through every copy: the first is lost.

**C134** (`pkg/data_model/payload_kv_driver/filesystem.go:BytesWithOffset`, `pkg/wgps/data/data_sender.go:Messages`, `pkg/wgps/data/data_sender.go:QueuePayloadRequest`)

* `C134_violated_request`: C134 violated: a peer that binds a payload request for an entry whose payload is there, with an offset that is far below zero as a signed number, ends the process: the request is queued, and making the messages panics, for whatever was queued before it and can be sent. (`int(msg.Offset)` is negative, so it is less than the size of the file, and the slice for "size minus offset" bytes cannot be made.)

**C135** (`pkg/data_model/kv_driver/kv_driver_pebble.go:Get`, `pkg/data_model/kv_driver/kv_driver_pebble.go:GetMultipleValues`, `pkg/data_model/kv_driver/kv_driver_pebble.go:ListAllValues`, `pkg/data_model/payload_kv_driver/payload_ref_counter.go:Increment`)

* `C135_violated_all`: If the library uses memory again, then listing a database whose keys have one length, and whose values have one length, gives the last pair as often as there are pairs.
* `C135_violated_count`: If the library uses memory again and the count of one digest is read while that of another is incremented, after its count was read, then the other gets the successor of the wrong count.
* `C135_violated_multiple`: If the library uses memory again once it was given back, then reading several keys whose values have the same length gives the value of the last for each.

**C136** (`pkg/data_model/store/store.go:Set`, `pkg/data_model/store/store.go:IngestEntry`, `pkg/data_model/store/store.go:InsertEntry`, `pkg/data_model/payload_kv_driver/filesystem.go:Set`, `pkg/data_model/payload_kv_driver/payload_ref_counter.go:Increment`, `pkg/data_model/payload_kv_driver/payload_ref_counter.go:Decrement`, `pkg/data_model/entry_driver/entry_driver.go:Insert`, `pkg/data_model/entry_driver/entry_driver.go:Delete`)

* `C136_violated_count`: By every entry from elsewhere at a new path with a payload not counted so far: if the count cannot be written, the call succeeds and stores the entry, but no entry with another payload can replace it: every fine, authorised and newer entry at its path is refused, the entry is removed, and the lock stays held.
* `C136_violated_erase`: By every entry that replaces or prunes another, while files cannot be removed: after any fine calls the call succeeds and stores the entry, the other entry is gone, and the file of its payload is still there, even if no entry has that payload any more; nothing is reported.
* `C136_violated_failed`: By `Set` of a payload not counted so far at any new path: if the count cannot be written, the call fails, but the entry is stored.
* `C136_violated_file`: By every payload: after any fine calls, if the file of a payload that is not there cannot be opened for writing, then `Set` succeeds and stores the entry, and reading its payload finds none.
* `C136_violated_lock`: By every acceptable entry: after any fine calls, if it cannot be written to its database, then the call fails with the lock held, so that every later call that stores waits for ever; and an entry that it would have replaced is lost.
* `C136_violated_partly`: By every payload: after any fine calls, if only a part of it can be written, then `Set` succeeds and stores the entry, and reading its payload does not give the payload; nor does it for any other stored entry with that payload, for which it may have done so before.
* `C136_violated_prune`: By every entry that prunes: after any fine calls, if entries cannot be deleted from their database, an acceptable entry at a new path succeeds and reports the older entries below as pruned, and the store holds them still.
* `C136_violated_read`: By every replacement: after any fine calls, if the entry to be replaced cannot be read from its database, the call fails with the lock held, so that every later call that stores waits for ever. The same if the count of its payload cannot be read and the new payload is another; then the entry is lost as well.
* `C136_violated_readPrune`: By every entry that prunes: after any fine calls, if entries cannot be read from their database, an acceptable entry at a new path is stored and the call fails, the older entries below are kept, and the lock stays held.
* `C136_violated_replace`: By every replacement: after any fine calls, if the entry to be replaced cannot be deleted from its database, an acceptable entry with nothing older below succeeds, the store holds both, and looking for either ends the process.
* `C136_violated_uncounted`: By every entry at a new path with no older entries below it, while counts cannot be read: after any fine calls, `IngestEntry` succeeds and stores the entry, and the counts are as before, so that it is not counted; nothing is reported.
* `C136_violated_uncountedSet`: By every `Set` at a new path with no older entries below it, while counts cannot be read: after any fine calls, the call fails, and the entry is stored.

**C137** (`main.go:main`, `main.go:NameSpaceInteraction`)

* `C137_violated_long`: By every line of 2^16 bytes or more: whatever comes after its first 2^16 bytes, this line and all others, makes no difference; and the application ends in the state in which the line found it, without having said anything about it, unless the line is typed in a namespace and begins with `new ` or `enter `.

**C138** (`PinaGoladaStore/StoreDriver.go:InitStorage`, `main.go:main`, `pkg/data_model/payload_kv_driver/filesystem.go:EnsureDir`)

* `C138_violated_empty`: `new` with an empty name makes the directories of its databases namespaces of the next run, `entries` and `payloadrefcounter`, in which nothing was stored.
* `C138_violated_lost`: A namespace whose name has a slash is not found again. After `new a/b` and the end of the application, the next one knows `a`, which holds nothing, but not `a/b`.
* `C138_violated_same`: One namespace has many names. `./n`, `n/`, `n/.`, `../willow/n` and `x/../n` for every `x` lead to the directory of `n`, so that with each of them one is in the store of `n` (or ends the process, if `n` is open).
* `C138_violated_up`: A namespace can lie outside of `willow`, in the working directory and in every directory above it.
