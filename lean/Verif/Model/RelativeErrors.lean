import Verif.Model.Relative

/-!
# Decoders whose errors are not looked at

The stream decoders of relative ranges and entries return an error beside the value. In `Relative.lean` a returned error
ends the decoding. The message decoders ignore these errors and go on with the zero value, reading the stream from where
the decoder left it, so here an error is a result like any other and comes with the stream as it then is.
-/

namespace Willow

/-- A decoder that may return an error; the stream goes on from where it then is. -/
abbrev DecE (α : Type) := OptionT Dec α

/-- The caller stops at an error, as `if err != nil { return …, err }` does. -/
def DecE.strict {α : Type} (d : DecE α) : Dec α := do
  match ← d.run with
  | some a => pure a
  | none => Dec.lift .err

/-- The caller ignores an error and uses the zero value: `x, _ := f()`. -/
def DecE.ignoring {α : Type} (zero : α) (d : DecE α) : Dec α := do
  match ← d.run with
  | some a => pure a
  | none => pure zero

/-- The zero value of `types.Range3d`. -/
def zeroRange3d : Range3d := ⟨⟨[], [], false⟩, ⟨[], [], false⟩, ⟨0, 0, false⟩⟩

/-- The zero value of `types.Entry`. -/
def zeroEntry : Entry := ⟨[], [], [], [], 0, 0⟩

/-- `DecodeStreamRange3dRelative`, `/repo/utils/ranges.go:375-569`, as in `Relative.lean`, with the stream after an error.
Nothing is pruned before the check of the first byte (396-398). The errors of `DecodeIntMax64` (497, 531) do not
happen: the widths are 1, 2, 4 and 8. -/
def decodeStreamRange3dRelativeE (ss : Codec) (p : PathParams) (ref : Range3d) : DecE Range3d := do
  let (b1, b2) ← peekTwo
  if startBound b1 = .none then failure
  else do
  let relStart := (b1 &&& 0x8) == 0x8
  let pathOpen := (b1 &&& 0x4) == 0x40
  let relEnd := (b1 &&& 0x2) == 0x2
  let timeOpen := (b1 &&& 0x1) == 0x1
  let tsRelStart := (b2 &&& 0x80) == 0x80
  let addStart := (b2 &&& 0x40) == 0x40
  let wStart := 2 ^ ((b2 &&& 0x30) >>> 4).toNat
  let teRelStart := (b2 &&& 0x8) == 0x8
  let addEnd := (b2 &&& 0x4) == 0x4
  let wEnd := 2 ^ (b2 &&& 0x3).toNat
  prune 2
  let subspaceStart ←
    (match endBound b1 with
     | .refStart => pure ref.subspace.start
     | .refEnd => if !ref.subspace.openEnd then pure ref.subspace.stop else failure
     | .yes => OptionT.lift ss.decStream
     | .none => pure [])
  let pathStart ←
    (if relStart then OptionT.lift (decodeRelPathStream p ref.path.start)
     else if ref.path.openEnd then failure
     else OptionT.lift (decodeRelPathStream p ref.path.stop))
  let pathEnd ←
    (if pathOpen then pure []
     else if relEnd then OptionT.lift (decodeRelPathStream p ref.path.start)
     else if ref.path.openEnd then failure
     else OptionT.lift (decodeRelPathStream p ref.path.stop))
  let startDiff ← readCompact wStart
  let d := UInt64.ofNat startDiff
  let timeStart ←
    (if tsRelStart then pure (if addStart then ref.time.start + d else ref.time.start - d)
     else if ref.time.openEnd then failure
     else pure (if addStart then ref.time.stop + d else ref.time.stop - d))
  if timeOpen then
    return { subspace := ⟨subspaceStart, [], false⟩, path := ⟨pathStart, pathEnd, pathOpen⟩,
             time := ⟨timeStart, timeStart, true⟩ }
  else do
    let acc ← nextAbsolute wEnd
    let bs ← sliceArray acc 0 wEnd
    let endDiff ← OptionT.lift (Dec.lift (decodeIntMax64 bs))
    let d := UInt64.ofNat endDiff
    let timeEnd ←
      (if teRelStart then pure (if addEnd then ref.time.stop + d else ref.time.stop - d)
       else if ref.time.openEnd then failure
       else pure (if addEnd then ref.time.stop + d else ref.time.stop - d))
    return { subspace := ⟨subspaceStart, [], false⟩, path := ⟨pathStart, pathEnd, pathOpen⟩,
             time := ⟨timeStart, timeEnd, false⟩ }

/-- `DecodeStreamEntryInNamespaceArea`, `/repo/utils/areas.go:607-659`, as in `Relative.lean`, with the stream after an
error. Simplification: the decoder of the digest is done when the error of line 649 is returned. -/
def decodeStreamEntryInNamespaceAreaE (ss pd : Codec) (p : PathParams) (outer : Area) (namespaceId : Bytes) :
    DecE Entry := do
  let header ← peekByte
  let isSsEncoded := (header &&& 0x80) == 0x80
  let addToStart := (header &&& 0x40) == 0x40
  let wTime := 2 ^ ((header &&& 0x30) >>> 4).toNat
  let wLen := 2 ^ ((header &&& 0xc) >>> 2).toNat
  prune 1
  let subspaceId ←
    (if isSsEncoded then OptionT.lift ss.decStream
     else if !outer.anySubspace then pure outer.subspace
     else failure)
  let path ← OptionT.lift (decodeRelPathStream p outer.path)
  let (timeDiff, payloadLength) ← readTimeAndLength wTime wLen
  let payloadDigest ← pd.decStream
  let timestamp ←
    (if addToStart then pure (outer.times.start + UInt64.ofNat timeDiff)
     else if !outer.times.openEnd then pure (outer.times.stop - UInt64.ofNat timeDiff)
     else failure)
  return { namespaceId := namespaceId, subspaceId := subspaceId, path := path,
           payloadDigest := payloadDigest, payloadLength := UInt64.ofNat payloadLength,
           timestamp := timestamp }

/-- `DecodeStreamEntryRelativeRange3d`, `/repo/utils/entries.go:412-513`, as in `Relative.lean`, with the stream after an
error: the length and the digest of the payload have not been read (474-484). -/
def decodeStreamEntryRelativeRange3dE (ss pd : Codec) (p : PathParams) (outer : Range3d) (namespaceId : Bytes) :
    DecE Entry := do
  let header ← peekByte
  let isSsEncoded := (header &&& 0x80) == 0x80
  let relStart := (header &&& 0x40) == 0x40
  let combStart := (header &&& 0x20) == 0x20
  let add := (header &&& 0x10) == 0x10
  let wTime := 2 ^ ((header &&& 0xc) >>> 2).toNat
  let wLen := 2 ^ (header &&& 0x3).toNat
  prune 1
  let subspaceId ← (if isSsEncoded then OptionT.lift ss.decStream else pure outer.subspace.start)
  let path ←
    (if !relStart then
       if outer.path.openEnd then OptionT.lift (Dec.lift .crash)
       else OptionT.lift (decodeRelPathStream p outer.path.stop)
     else OptionT.lift (decodeRelPathStream p outer.path.start))
  let timeDiff ← readCompact wTime
  let d := UInt64.ofNat timeDiff
  let timestamp ←
    (if combStart && add then pure (outer.time.start + d)
     else if combStart && !add then pure (outer.time.start - d)
     else if !combStart && add then
       if outer.time.openEnd then failure else pure (outer.time.stop + d)
     else if outer.time.openEnd then failure else pure (outer.time.stop - d))
  let payloadLength ← readCompact wLen
  let payloadDigest ← pd.decStream
  return { namespaceId := namespaceId, subspaceId := subspaceId, path := path,
           payloadDigest := payloadDigest, payloadLength := UInt64.ofNat payloadLength,
           timestamp := timestamp }

end Willow
