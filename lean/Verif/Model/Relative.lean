import Verif.Model.Stream
import Verif.Model.Areas

/-! Model of the entry, area and range encodings: `/repo/utils/entries.go`, the second half of
`/repo/utils/areas.go` and of `/repo/utils/ranges.go`. Go `int` flags are natural numbers.
The effect of `DecodeRelativePath` on the memory of the reference path is not part of this view
(see `Verif/Model/Slices.lean`). -/

namespace Willow

/-- `EncodingScheme` (`/repo/utils/encoding_types.go:13-18`) for one kind of id. The channel
returned by `DecodeStream` delivers one value, so it is a plain result. -/
structure Codec where
  enc : Bytes → Bytes
  dec : Bytes → Res Bytes
  len : Bytes → Nat
  decStream : Dec Bytes

/-- `CompactWidthEndMasks`, `/repo/utils/entries.go:202-207` and the identical
`compactWidthEndMasks`, `/repo/utils/areas.go:428-433`. -/
def compactWidthEndMask (w : Nat) : Nat :=
  if w = 2 then 1 else if w = 4 then 2 else if w = 8 then 3 else 0

/-- `binary.BigEndian.Uint64(b)`: panics on fewer than 8 bytes, ignores what follows. -/
def beUint64 (b : Bytes) : Res Nat := if 8 ≤ b.length then .ok (getBE (b.take 8)) else .crash

/-- `EncodeEntry`, `/repo/utils/entries.go:26-49`. -/
def encodeEntry (ns ss pd : Codec) (p : PathParams) (e : Entry) : Bytes :=
  ns.enc e.namespaceId ++ ss.enc e.subspaceId ++ encodePath p e.path ++
    bigIntToBytes e.timestamp ++ bigIntToBytes e.payloadLength ++ pd.enc e.payloadDigest

/-- `DecodeEntry`, `/repo/utils/entries.go:55-115`. The bytes from the path on are fed to the
stream one at a time (lines 83-87); `sched` is how many arrive before each request, and `room` the capacities of
the arrays in which they are gathered (see `Mem`). -/
def decodeEntry (ns ss pd : Codec) (p : PathParams) (sched room : List Nat) (enc : Bytes) : Res Entry := do
  let namespaceId ← ns.dec enc
  let subspacePos := ns.len namespaceId
  let rest ← sliceFrom enc subspacePos
  let subspaceId ← ss.dec rest
  let pathPos := subspacePos + ss.len subspaceId
  let encPath ← sliceFrom enc pathPos
  let (path, _) ← decodePathStream p ⟨[], encPath.map fun b => [b], sched, ⟨0, room⟩⟩
  let timestampPos := pathPos + encodePathLength p path
  let timestamp ← (← sliceFrom enc timestampPos) |> beUint64
  let payloadLengthPos := timestampPos + 8
  let payloadLength ← (← sliceFrom enc payloadLengthPos) |> beUint64
  let payloadDigest ← pd.dec (← sliceFrom enc (payloadLengthPos + 8))
  .ok { namespaceId := namespaceId, subspaceId := subspaceId, path := path,
        payloadDigest := payloadDigest, payloadLength := UInt64.ofNat payloadLength,
        timestamp := UInt64.ofNat timestamp }

/-- Reading a compact integer of `w` bytes from a stream and pruning it, the idiom of
`/repo/utils/entries.go:264-271`: an error of `DecodeIntMax64` is returned. -/
def readCompact (w : Nat) : Dec Nat := do
  let acc ← nextAbsolute w
  let bs ← sliceArray acc 0 w
  let v ← Dec.lift (decodeIntMax64 bs)
  prune w
  return v

/-- The first byte of what `NextAbsolute(1)` returns. -/
def peekByte : Dec UInt8 := do
  let acc ← nextAbsolute 1
  match acc with
  | b :: _ => pure b
  | [] => Dec.lift .crash

/-- `EncodeEntryRelativeEntry`, `/repo/utils/entries.go:119-200`. -/
def encodeEntryRelativeEntry (ns ss pd : Codec) (eqNs : Bytes → Bytes → Bool) (ordS : Bytes → Bytes → Ordering)
    (p : PathParams) (e ref : Entry) : Res Bytes := do
  let timeDiff := absDiffUint64 e.timestamp ref.timestamp
  let nsFlag := if !eqNs e.namespaceId ref.namespaceId then 0x80 else 0x00
  let ssFlag := if ordS e.subspaceId ref.subspaceId != .eq then 0x40 else 0x00
  let addFlag := if e.timestamp > ref.timestamp then 0x20 else 0x0
  let tdFlag := compactWidthEndMask (getWidthMax64Int timeDiff.toNat) <<< 2
  let plFlag := compactWidthEndMask (getWidthMax64Int e.payloadLength.toNat)
  let encNs := if nsFlag = 0 then [] else ns.enc e.namespaceId
  let encSs := if ssFlag = 0 then [] else ss.enc e.subspaceId
  let encPath ← encodeRelativePath p e.path ref.path
  let header := nsFlag ||| ssFlag ||| addFlag ||| plFlag ||| tdFlag
  .ok ([byteOf header] ++ encNs ++ encSs ++ encPath ++ encodeIntMax64 timeDiff.toNat ++
    encodeIntMax64 e.payloadLength.toNat ++ pd.enc e.payloadDigest)

/-- `DecodeStreamEntryRelativeEntry`, `/repo/utils/entries.go:216-305`. -/
def decodeStreamEntryRelativeEntry (ns ss pd : Codec) (p : PathParams) (ref : Entry) : Dec Entry := do
  let header ← peekByte
  let isNsEncoded := (header &&& 0x80) == 0x80
  let isSsEncoded := (header &&& 0x40) == 0x40
  let addTimeDiff := (header &&& 0x20) == 0x20
  let wTime := 2 ^ ((header &&& 0xc) >>> 2).toNat
  let wLen := 2 ^ (header &&& 0x3).toNat
  prune 1
  let namespaceId ← (if isNsEncoded then ns.decStream else pure ref.namespaceId)
  let subspaceId ← (if isSsEncoded then ss.decStream else pure ref.subspaceId)
  let path ← decodeRelPathStream p ref.path
  let timeDiff ← readCompact wTime
  let payloadLength ← readCompact wLen
  let payloadDigest ← pd.decStream
  let timestamp := if addTimeDiff then ref.timestamp + UInt64.ofNat timeDiff
    else ref.timestamp - UInt64.ofNat timeDiff
  return { namespaceId := namespaceId, subspaceId := subspaceId, path := path,
           payloadDigest := payloadDigest, payloadLength := UInt64.ofNat payloadLength,
           timestamp := timestamp }

/-- `min` on `uint64`. -/
def minU64 (a b : UInt64) : UInt64 := if a < b then a else b

/-- `EncodeEntryRelativeRange3d`, `/repo/utils/entries.go:307-410`. -/
def encodeEntryRelativeRange3d (ss pd : Codec) (ordS : Bytes → Bytes → Ordering) (p : PathParams)
    (e : Entry) (outer : Range3d) : Res Bytes := do
  let dStart := absDiffUint64 e.timestamp outer.time.start
  let timeDiff := if !outer.time.openEnd then minU64 dStart (absDiffUint64 e.timestamp outer.time.stop)
    else dStart
  let diff := ordS e.subspaceId outer.subspace.start != .eq
  let ssFlag := if diff then 0x80 else 0x00
  let encSs := if diff then ss.enc e.subspaceId else []
  let (pathFlag, encPath) ←
    (if !outer.path.openEnd then do
       let cs ← commonPrefix e.path outer.path.start
       let ce ← commonPrefix e.path outer.path.stop
       if cs.length ≥ ce.length then do
         let b ← encodeRelativePath p e.path outer.path.start
         Res.ok (0x40, b)
       else do
         let b ← encodeRelativePath p e.path outer.path.stop
         Res.ok (0x0, b)
     else do
       let b ← encodeRelativePath p e.path outer.path.start
       Res.ok (0x40, b))
  let startFlag := if timeDiff = dStart then 0x20 else 0x0
  let addFlag :=
    if !outer.time.openEnd then
      if (startFlag = 0x20 ∧ e.timestamp ≥ outer.time.start) ∨ (startFlag = 0x0 ∧ e.timestamp ≥ outer.time.stop)
      then 0x10 else 0x0
    else if startFlag = 0x20 ∧ e.timestamp ≥ outer.time.start then 0x10 else 0x0
  let tdFlag := compactWidthEndMask (getWidthMax64Int timeDiff.toNat) <<< 2
  let plFlag := compactWidthEndMask (getWidthMax64Int e.payloadLength.toNat)
  let header := ssFlag ||| pathFlag ||| startFlag ||| addFlag ||| tdFlag ||| plFlag
  .ok ([byteOf header] ++ encSs ++ encPath ++ encodeIntMax64 timeDiff.toNat ++
    encodeIntMax64 e.payloadLength.toNat ++ pd.enc e.payloadDigest)

/-- `DecodeStreamEntryRelativeRange3d`, `/repo/utils/entries.go:412-513`. -/
def decodeStreamEntryRelativeRange3d (ss pd : Codec) (p : PathParams) (outer : Range3d) (namespaceId : Bytes) :
    Dec Entry := do
  let header ← peekByte
  let isSsEncoded := (header &&& 0x80) == 0x80
  let relStart := (header &&& 0x40) == 0x40
  let combStart := (header &&& 0x20) == 0x20
  let add := (header &&& 0x10) == 0x10
  let wTime := 2 ^ ((header &&& 0xc) >>> 2).toNat
  let wLen := 2 ^ (header &&& 0x3).toNat
  prune 1
  let subspaceId ← (if isSsEncoded then ss.decStream else pure outer.subspace.start)
  let path ←
    (if !relStart then
       if outer.path.openEnd then Dec.lift .crash
       else decodeRelPathStream p outer.path.stop
     else decodeRelPathStream p outer.path.start)
  let timeDiff ← readCompact wTime
  let d := UInt64.ofNat timeDiff
  let timestamp ←
    (if combStart && add then pure (outer.time.start + d)
     else if combStart && !add then pure (outer.time.start - d)
     else if !combStart && add then
       if outer.time.openEnd then Dec.lift .err else pure (outer.time.stop + d)
     else if outer.time.openEnd then Dec.lift .err else pure (outer.time.stop - d))
  let payloadLength ← readCompact wLen
  let payloadDigest ← pd.decStream
  return { namespaceId := namespaceId, subspaceId := subspaceId, path := path,
           payloadDigest := payloadDigest, payloadLength := UInt64.ofNat payloadLength,
           timestamp := timestamp }

/-! ### Areas -/

/-- `REALLY_BIG_INT`, `/repo/utils/areas.go:201`. -/
def reallyBigInt : UInt64 := 18446744073709551601

/-- `bigIntMin`, `/repo/utils/areas.go:205-210`. -/
def bigIntMin (a b : UInt64) : UInt64 := if a > b then b else a

/-- The test `isSubspaceSame`, `/repo/utils/areas.go:247` and `311`. -/
def isSubspaceSame (ordS : Bytes → Bytes → Ordering) (inner outer : Area) : Bool :=
  (inner.anySubspace && outer.anySubspace) ||
    (!inner.anySubspace && !outer.anySubspace && ordS inner.subspace outer.subspace == .eq)

/-- `EncodeAreaInArea`, `/repo/utils/areas.go:216-307`. The inclusion test at 217-219 only
prints a message. -/
def encodeAreaInArea (ss : Codec) (ordS : Bytes → Bytes → Ordering) (p : PathParams) (inner outer : Area) :
    Res Bytes := do
  let innerEnd := if inner.times.openEnd then reallyBigInt else inner.times.stop
  let outerEnd := if outer.times.openEnd then reallyBigInt else outer.times.stop
  let startDiff := bigIntMin (inner.times.start - outer.times.start) (outerEnd - inner.times.start)
  let endDiff := bigIntMin (innerEnd - inner.times.start) (outerEnd - innerEnd)
  let same := isSubspaceSame ordS inner outer
  let ws := getWidthMax64Int startDiff.toNat
  let we := getWidthMax64Int endDiff.toNat
  let flags := (if !same then 0x80 else 0) ||| (if inner.times.openEnd then 0x40 else 0) |||
    (if startDiff = inner.times.start - outer.times.start then 0x20 else 0) |||
    (if endDiff = innerEnd - inner.times.start then 0x10 else 0) |||
    (if ws = 4 ∨ ws = 8 then 0x8 else 0) ||| (if ws = 2 ∨ ws = 8 then 0x4 else 0) |||
    (if we = 4 ∨ we = 8 then 0x2 else 0) ||| (if we = 2 ∨ we = 8 then 0x1 else 0)
  let endBytes := if inner.times.openEnd then [] else encodeIntMax64 endDiff.toNat
  let rel ← encodeRelativePath p inner.path outer.path
  let ssBytes := if same then [] else ss.enc inner.subspace
  .ok ([byteOf flags] ++ encodeIntMax64 startDiff.toNat ++ endBytes ++ rel ++ ssBytes)

/-- `EncodeAreaInAreaLength`, `/repo/utils/areas.go:310-357`. -/
def encodeAreaInAreaLength (ordS : Bytes → Bytes → Ordering) (p : PathParams) (inner outer : Area) : Res Nat := do
  let subspaceLen := if isSubspaceSame ordS inner outer then 0 else inner.subspace.length
  let pathLen ← encodePathRelativeLength p inner.path outer.path
  let innerEnd := if !inner.times.openEnd then reallyBigInt else inner.times.stop
  let outerEnd := if !outer.times.openEnd then reallyBigInt else outer.times.stop
  let startDiff := bigIntMin (inner.times.start - outer.times.start) (outerEnd - inner.times.start)
  let endDiff := bigIntMin (innerEnd - inner.times.start) (outerEnd - innerEnd)
  let endDiffLen := if inner.times.openEnd then 0 else getWidthMax64Int endDiff.toNat
  .ok (1 + subspaceLen + pathLen + getWidthMax64Int startDiff.toNat + endDiffLen)

/-- `subspaceId, _ = DecodeSubspaceId(...)` in `/repo/utils/areas.go:381` and `408`: on error
the zero value. -/
def decodeOrNil (r : Res Bytes) : Res Bytes :=
  match r with
  | .err => .ok []
  | r => r

/-- `DecodeAreaInArea`, `/repo/utils/areas.go:359-426`. -/
def decodeAreaInArea (ss : Codec) (p : PathParams) (enc : Bytes) (outer : Area) : Res Area := do
  let flags : UInt8 ←
    (match enc with
     | b :: _ => Res.ok b
     | [] => Res.crash)
  let includeSs := (flags &&& 0x80) == 0x80
  let hasOpenEnd := (flags &&& 0x40) == 0x40
  let addStart := (flags &&& 0x20) == 0x20
  let addEnd := (flags &&& 0x10) == 0x10
  let ws := 2 ^ ((0x3 : UInt8) &&& (flags >>> 2)).toNat
  let we := 2 ^ ((0x3 : UInt8) &&& flags).toNat
  if hasOpenEnd then do
    let pathPos := 1 + ws
    let startDiff ← decodeIntMax64 (← slice enc 1 pathPos)
    let path ← decodeRelativePath p (← sliceFrom enc pathPos) outer.path
    let subspacePos := pathPos + (← encodePathRelativeLength p path outer.path)
    let subspace ← (if includeSs then do decodeOrNil (ss.dec (← sliceFrom enc subspacePos))
      else Res.ok outer.subspace)
    let start := if addStart then outer.times.start + UInt64.ofNat startDiff
      else outer.times.start - UInt64.ofNat startDiff
    .ok { path := path, subspace := subspace, anySubspace := false, times := ⟨start, reallyBigInt, true⟩ }
  else do
    let endPos := 1 + ws
    let pathPos := endPos + we
    let startDiff ← decodeIntMax64 (← slice enc 1 endPos)
    let endDiff ← decodeIntMax64 (← slice enc endPos pathPos)
    let path ← decodeRelativePath p (← sliceFrom enc pathPos) outer.path
    let subspacePos := pathPos + (← encodePathRelativeLength p path outer.path)
    let subspace ← (if includeSs then do decodeOrNil (ss.dec (← sliceFrom enc subspacePos))
      else Res.ok outer.subspace)
    let start := if addStart then outer.times.start + UInt64.ofNat startDiff
      else outer.times.start - UInt64.ofNat startDiff
    let stop := if addEnd then start + UInt64.ofNat endDiff else outer.times.stop - UInt64.ofNat endDiff
    .ok { path := path, subspace := subspace, anySubspace := false, times := ⟨start, stop, false⟩ }

/-- `DecodeStreamAreaInArea`, `/repo/utils/areas.go:435-533`. At line 447 `0x3 & flags >> 2`
is `(0x3 & flags) >> 2` in Go. A nil subspace from the stream decoder (an error in the code)
does not arise from the codecs considered. -/
def decodeStreamAreaInArea (ss : Codec) (p : PathParams) (outer : Area) : Dec Area := do
  let flags ← peekByte
  let includeSs := (flags &&& 0x80) == 0x80
  let hasOpenEnd := (flags &&& 0x40) == 0x40
  let addStart := (flags &&& 0x20) == 0x20
  let addEnd := (flags &&& 0x10) == 0x10
  let ws := 2 ^ (((0x3 : UInt8) &&& flags) >>> 2).toNat
  let we := 2 ^ ((0x3 : UInt8) &&& flags).toNat
  prune 1
  if hasOpenEnd then do
    let startDiff ← readCompact ws
    let path ← decodeRelPathStream p outer.path
    let subspace ← (if includeSs then ss.decStream else pure outer.subspace)
    let start := if addStart then outer.times.start + UInt64.ofNat startDiff
      else outer.times.start - UInt64.ofNat startDiff
    return { path := path, subspace := subspace, anySubspace := false, times := ⟨start, 0, true⟩ }
  else do
    let startDiff ← readCompact ws
    let endDiff ← readCompact we
    let path ← decodeRelPathStream p outer.path
    let subspace ← (if includeSs then ss.decStream else pure outer.subspace)
    let start := if addStart then outer.times.start + UInt64.ofNat startDiff
      else outer.times.start - UInt64.ofNat startDiff
    let stop := if addEnd then start + UInt64.ofNat endDiff else outer.times.stop - UInt64.ofNat endDiff
    return { path := path, subspace := subspace, anySubspace := false, times := ⟨start, stop, false⟩ }

/-- `[]byte(strconv.Itoa(n))` for a non-negative `n`. -/
def itoa (n : Nat) : Bytes := (Nat.toDigits 10 n).map fun c => UInt8.ofNat c.toNat

/-- `EncodeEntryInNamespaceArea`, `/repo/utils/areas.go:537-604`. The header and the two
numbers are written as decimal text, and the numbers are the widths instead of the values. -/
def encodeEntryInNamespaceArea (ss pd : Codec) (p : PathParams) (e : Entry) (outer : Area) : Res Bytes := do
  let timeDiff := if outer.times.openEnd then e.timestamp - outer.times.start
    else bigIntMin (e.timestamp - outer.times.start) (outer.times.stop - e.timestamp)
  let anyFlag := if outer.anySubspace then 0x80 else 0x0
  let addFlag := if outer.times.openEnd then 0x40
    else if e.timestamp - outer.times.start ≤ outer.times.stop then 0x40 else 0x0
  let tdFlag := compactWidthEndMask (getWidthMax64Int timeDiff.toNat) <<< 4
  let plFlag := compactWidthEndMask (getWidthMax64Int e.payloadLength.toNat) <<< 2
  let header := anyFlag ||| addFlag ||| tdFlag ||| plFlag
  let encSs := if outer.anySubspace then [] else ss.enc e.subspaceId
  let rel ← encodeRelativePath p e.path outer.path
  .ok (itoa header ++ encSs ++ rel ++ itoa (getWidthMax64Int timeDiff.toNat) ++
    itoa (getWidthMax64Int e.payloadLength.toNat) ++ pd.enc e.payloadDigest)

/-- The two numbers of `DecodeStreamEntryInNamespaceArea`, `/repo/utils/areas.go:628-639`: only
the bytes of the first are waited for. -/
def readTimeAndLength (wTime wLen : Nat) : Dec (Nat × Nat) := do
  let acc ← nextAbsolute wTime
  let timeDiff ← Dec.lift (decodeIntMax64 (← sliceArray acc 0 wTime))
  let acc ← nextAbsolute wTime
  let payloadLength ← Dec.lift (decodeIntMax64 (← sliceArray acc wTime (wTime + wLen)))
  prune (wTime + wLen)
  return (timeDiff, payloadLength)

/-- `DecodeStreamEntryInNamespaceArea`, `/repo/utils/areas.go:607-659`. Simplification: the
decoder of the digest is called at line 640 and its value received at 655, after the check of
the time flag (644-650); here both happen at 640, so with a bad time flag and a digest that
never arrives the model waits where the code returns the error. -/
def decodeStreamEntryInNamespaceArea (ss pd : Codec) (p : PathParams) (outer : Area) (namespaceId : Bytes) :
    Dec Entry := do
  let header ← peekByte
  let isSsEncoded := (header &&& 0x80) == 0x80
  let addToStart := (header &&& 0x40) == 0x40
  let wTime := 2 ^ ((header &&& 0x30) >>> 4).toNat
  let wLen := 2 ^ ((header &&& 0xc) >>> 2).toNat
  prune 1
  let subspaceId ←
    (if isSsEncoded then ss.decStream
     else if !outer.anySubspace then pure outer.subspace
     else Dec.lift .err)
  let path ← decodeRelPathStream p outer.path
  let (timeDiff, payloadLength) ← readTimeAndLength wTime wLen
  let payloadDigest ← pd.decStream
  let timestamp ←
    (if addToStart then pure (outer.times.start + UInt64.ofNat timeDiff)
     else if !outer.times.openEnd then pure (outer.times.stop - UInt64.ofNat timeDiff)
     else Dec.lift .err)
  return { namespaceId := namespaceId, subspaceId := subspaceId, path := path,
           payloadDigest := payloadDigest, payloadLength := UInt64.ofNat payloadLength,
           timestamp := timestamp }

/-! ### Ranges -/

/-- `len(prefix)` of `prefix, _ := CommonPrefix(a, b)` (`/repo/utils/ranges.go:266-283`). -/
def commonPrefixLen (a b : Path) : Nat := commonPrefixIndex a b

/-- The two bits of a compact width, `/repo/utils/ranges.go:320-327` and `345-352`. -/
def widthBits (w : Nat) (b2 b4 b8 : UInt8) : UInt8 :=
  if w = 2 then b2 else if w = 4 then b4 else if w = 8 then b8 else 0

/-- The second byte of `EncodeRange3dRelative`, `/repo/utils/ranges.go:301-352`. -/
def rangeSecondByte (rStart refStart refEnd rEnd : UInt64) : UInt8 :=
  let startToStart := absDiffUint64 rStart refStart
  let startToEnd := absDiffUint64 rStart refEnd
  let endToStart := absDiffUint64 rEnd refStart
  let endToEnd := absDiffUint64 rEnd refEnd
  let startDiff := minU64 startToStart startToEnd
  let endDiff := minU64 endToStart endToEnd
  let e2 : UInt8 := if startToStart ≤ startToEnd then 0x80 else 0
  let e2 := if (e2 &&& 0x80) == 0x80 then (if rStart ≥ refStart then e2 ||| 0x40 else e2)
    else (if rStart ≥ refEnd then e2 ||| 0x40 else e2)
  let e2 := e2 ||| widthBits (getWidthMax64Int startDiff.toNat) 0x10 0x20 0x30
  let e2 := if endToStart ≤ endToEnd then e2 ||| 0x08 else e2
  let e2 := if (e2 &&& 0x08) == 0x08 then (if rEnd ≥ refStart then e2 ||| 0x04 else e2)
    else (if rEnd ≥ refEnd then e2 ||| 0x04 else e2)
  e2 ||| widthBits (getWidthMax64Int endDiff.toNat) 0x01 0x02 0x03

/-- `EncodeRange3dRelative`, `/repo/utils/ranges.go:209-373`. -/
def encodeRange3dRelative (ss : Codec) (ordS : Bytes → Bytes → Ordering) (p : PathParams) (r ref : Range3d) :
    Res Bytes := do
  let startToStart := absDiffUint64 r.time.start ref.time.start
  let refEnd := if ref.time.openEnd then UInt64.ofNat (2 ^ 64 - 1) else ref.time.stop
  let rEnd := if ref.time.openEnd && r.time.openEnd then UInt64.ofNat (2 ^ 64 - 1) else r.time.stop
  let startToEnd := absDiffUint64 r.time.start refEnd
  let endToStart := absDiffUint64 rEnd ref.time.start
  let endToEnd := absDiffUint64 rEnd refEnd
  let startDiff := minU64 startToStart startToEnd
  let endDiff := minU64 endToStart endToEnd
  let (e1, encStart) : UInt8 × Bytes :=
    if isEqualRangeValue ordS r.subspace true ref.subspace true then (0x40, [])
    else if isEqualRangeValue ordS r.subspace true ref.subspace false then (0x80, [])
    else (0xC0, ss.enc r.subspace.start)
  let (e1, encEnd) : UInt8 × Bytes :=
    if r.subspace.openEnd then (e1, [])
    else if isEqualRangeValue ordS r.subspace false ref.subspace true then (0x10, [])
    else if isEqualRangeValue ordS r.subspace false ref.subspace false then (e1 ||| 0x20, [])
    else (e1 ||| 0x30, ss.enc r.subspace.stop)
  let startRel := decide (commonPrefixLen r.path.start ref.path.start ≥ commonPrefixLen r.path.start ref.path.stop)
  let e1 := if startRel then e1 ||| 0x08 else e1
  let pathStart ← encodeRelativePath p r.path.start (if startRel then ref.path.start else ref.path.stop)
  let e1 := if r.path.openEnd then e1 ||| 0x04 else e1
  let endRel := decide (commonPrefixLen r.path.stop ref.path.start ≥ commonPrefixLen r.path.stop ref.path.stop)
  let e1 := if endRel then e1 ||| 0x02 else e1
  let pathEnd ← encodeRelativePath p r.path.stop (if endRel then ref.path.start else ref.path.stop)
  let e1 := if r.path.openEnd then e1 &&& 0xFD else e1
  let e1 := if r.time.openEnd then e1 ||| 0x01 else e1
  let e2 := rangeSecondByte r.time.start ref.time.start refEnd rEnd
  let endEnc := if !r.time.openEnd && ref.time.openEnd then encodeIntMax64 endDiff.toNat
    else encodeIntMax64 endToStart.toNat
  .ok ([e1, e2] ++ encStart ++ encEnd ++ pathStart ++ pathEnd ++ encodeIntMax64 startDiff.toNat ++ endEnc)

/-- How a subspace bound is given in the first byte, `/repo/utils/ranges.go:384-411` and
`583-614`. -/
inductive Bound where
  | yes | refEnd | refStart | none
deriving Repr, DecidableEq

/-- The first switch (`/repo/utils/ranges.go:386-395`); `none` is "invalid". -/
def startBound (b : UInt8) : Bound :=
  if (b &&& 0xc0) == 0xc0 then .yes else if (b &&& 0x80) == 0x80 then .refEnd
  else if (b &&& 0x40) == 0x40 then .refStart else .none

/-- The second switch (`/repo/utils/ranges.go:402-411`); `none` is "open". -/
def endBound (b : UInt8) : Bound :=
  if (b &&& 0x30) == 0x30 then .yes else if (b &&& 0x20) == 0x20 then .refEnd
  else if (b &&& 0x10) == 0x10 then .refStart else .none

/-- The first two bytes of what `NextAbsolute(2)` returns. -/
def peekTwo : Dec (UInt8 × UInt8) := do
  let acc ← nextAbsolute 2
  match acc with
  | a :: b :: _ => pure (a, b)
  | _ => Dec.lift .crash

/-- `DecodeStreamRange3dRelative`, `/repo/utils/ranges.go:375-569`. The second switch assigns
`isSubspaceStartEncoded` again and leaves `isSubspaceEndEncoded` empty, so no case of the end
switch (453-466) applies and the start switch (437-448) sees the end code ("open" matches no
case). The test for an open path end compares with 0x40 and is never true. -/
def decodeStreamRange3dRelative (ss : Codec) (p : PathParams) (ref : Range3d) : Dec Range3d := do
  let (b1, b2) ← peekTwo
  if startBound b1 = .none then Dec.lift .err
  else do
  let relStart := (b1 &&& 0x8) == 0x8
  let pathOpen := (b1 &&& 0x4) == 0x40
  let relEnd := (b1 &&& 0x2) == 0x2
  let timeOpen := (b1 &&& 0x1) == 0x1
  let tsRelStart := (b2 &&& 0x80) == 0x80
  let addStart := (b2 &&& 0x40) == 0x40
  let wStart := 2 ^ ((b2 &&& 0x30) >>> 4).toNat
  let teRelStart := (b2 &&& 0x8) == 0x8
  let addEnd := (b2 &&& 0x4) == 0x4
  let wEnd := 2 ^ (b2 &&& 0x3).toNat
  prune 2
  let subspaceStart ←
    (match endBound b1 with
     | .refStart => pure ref.subspace.start
     | .refEnd => if !ref.subspace.openEnd then pure ref.subspace.stop else Dec.lift .err
     | .yes => ss.decStream
     | .none => pure [])
  let pathStart ←
    (if relStart then decodeRelPathStream p ref.path.start
     else if ref.path.openEnd then Dec.lift .err
     else decodeRelPathStream p ref.path.stop)
  let pathEnd ←
    (if pathOpen then pure []
     else if relEnd then decodeRelPathStream p ref.path.start
     else if ref.path.openEnd then Dec.lift .err
     else decodeRelPathStream p ref.path.stop)
  let startDiff ← readCompact wStart
  let d := UInt64.ofNat startDiff
  let timeStart ←
    (if tsRelStart then pure (if addStart then ref.time.start + d else ref.time.start - d)
     else if ref.time.openEnd then Dec.lift .err
     else pure (if addStart then ref.time.stop + d else ref.time.stop - d))
  if timeOpen then
    return { subspace := ⟨subspaceStart, [], false⟩, path := ⟨pathStart, pathEnd, pathOpen⟩,
             time := ⟨timeStart, timeStart, true⟩ }
  else do
    let acc ← nextAbsolute wEnd
    let endDiff ← Dec.lift (decodeIntMax64 (← sliceArray acc 0 wEnd))
    let d := UInt64.ofNat endDiff
    let timeEnd ←
      (if teRelStart then pure (if addEnd then ref.time.stop + d else ref.time.stop - d)
       else if ref.time.openEnd then Dec.lift .err
       else pure (if addEnd then ref.time.stop + d else ref.time.stop - d))
    return { subspace := ⟨subspaceStart, [], false⟩, path := ⟨pathStart, pathEnd, pathOpen⟩,
             time := ⟨timeStart, timeEnd, false⟩ }

/-- `DecodeRange3dRelative`, `/repo/utils/ranges.go:572-823`. `decodeSubspaceId` has no error
result; the position arithmetic in the type `T` is `PathParams.conv`. The decoded end of the
time range is assigned to `timeStart` (788-803). -/
def decodeRange3dRelative (ss : Codec) (p : PathParams) (enc : Bytes) (ref : Range3d) : Res Range3d := do
  let (b1, b2) ←
    (match enc with
     | a :: b :: _ => Res.ok (a, b)
     | _ => .crash)
  if startBound b1 = .none then .err
  else do
  let relStart := (b1 &&& 0x8) == 0x8
  let pathOpen := (b1 &&& 0x4) == 0x4
  let relEnd := (b1 &&& 0x2) == 0x2
  let timeOpen := (b1 &&& 0x1) == 0x1
  let tsRelStart := (b2 &&& 0x80) == 0x80
  let addStart := (b2 &&& 0x40) == 0x40
  let wStart := 2 ^ ((b2 &&& 0x30) >>> 4).toNat
  let teRelStart := (b2 &&& 0x8) == 0x8
  let addEnd := (b2 &&& 0x4) == 0x4
  let wEnd := 2 ^ (b2 &&& 0x3).toNat
  let pos := 2
  let (subspaceStart, pos) ←
    (match startBound b1 with
     | .refStart => Res.ok (ref.subspace.start, pos)
     | .refEnd => if !ref.subspace.openEnd then Res.ok (ref.subspace.stop, pos) else .err
     | _ => do
       let s ← ss.dec (← sliceFrom enc pos)
       Res.ok (s, p.conv (pos + ss.len s)))
  let (subspaceEnd, subspaceOpen, pos) ←
    (match endBound b1 with
     | .none => Res.ok (([] : Bytes), true, pos)
     | .refStart => Res.ok (ref.subspace.start, false, pos)
     | .refEnd => Res.ok (ref.subspace.stop, false, pos)
     | .yes => do
       let s ← ss.dec (← sliceFrom enc pos)
       Res.ok (s, false, p.conv (pos + ss.len s)))
  let (pathStart, pos) ←
    (if relStart then do
       let x ← decodeRelativePath p (← sliceFrom enc pos) ref.path.start
       Res.ok (x, p.conv (pos + (← encodePathRelativeLength p x ref.path.start)))
     else if ref.path.openEnd then .err
     else do
       let x ← decodeRelativePath p (← sliceFrom enc pos) ref.path.stop
       Res.ok (x, p.conv (pos + (← encodePathRelativeLength p x ref.path.stop))))
  let (pathEnd, pos) ←
    (if pathOpen then Res.ok (([] : Path), pos)
     else if relEnd then do
       let x ← decodeRelativePath p (← sliceFrom enc pos) ref.path.start
       Res.ok (x, p.conv (pos + (← encodePathRelativeLength p x ref.path.start)))
     else if ref.path.openEnd then .err
     else do
       let x ← decodeRelativePath p (← sliceFrom enc pos) ref.path.stop
       Res.ok (x, p.conv (pos + (← encodePathRelativeLength p x ref.path.stop))))
  let startDiff ← decodeIntMax64 (← slice enc pos (p.conv (pos + wStart)))
  let pos := p.conv (pos + wStart)
  let d := UInt64.ofNat startDiff
  let timeStart ←
    (if tsRelStart then Res.ok (if addStart then ref.time.start + d else ref.time.start - d)
     else if ref.time.openEnd then .err
     else Res.ok (if addStart then ref.time.stop + d else ref.time.stop - d))
  let timeStart ←
    (if timeOpen then Res.ok timeStart
     else do
       let endDiff ← decodeIntMax64 (← slice enc pos (p.conv (pos + wEnd)))
       let d := UInt64.ofNat endDiff
       if teRelStart then Res.ok (if addEnd then ref.time.start + d else ref.time.start - d)
       else if ref.time.openEnd then .err
       else Res.ok (if addEnd then ref.time.stop + d else ref.time.stop - d))
  .ok { subspace := ⟨subspaceStart, subspaceEnd, subspaceOpen⟩, path := ⟨pathStart, pathEnd, pathOpen⟩,
        time := ⟨timeStart, 0, timeOpen⟩ }

end Willow
