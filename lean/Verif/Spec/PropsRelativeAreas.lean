import Verif.Lemmas.PropsRelative
import Verif.Props.Encoding

/-! Definitions used in the statements of `Verif/Props/RelativeAreas.lean`. -/

namespace Willow.Props

open Willow Spec

/-- The two areas contain the same positions. -/
def SamePositions (a b : Area) : Prop := ∀ x, InArea a x ↔ InArea b x

/-- The end of a time range, or the number that stands for no end. -/
def endOf (t : GRange UInt64) : UInt64 := if t.openEnd then reallyBigInt else t.stop

/-- What the length function takes for the end of a time range. -/
def swappedEnd (t : GRange UInt64) : UInt64 := if t.openEnd then t.stop else 18446744073709551601

/-- The bytes for a number, 1, 2, 4 or 8. -/
def bytesFor (n : UInt64) : Nat := if n.toNat < 256 then 1 else if n.toNat < 65536 then 2 else if n.toNat < 4294967296 then 4 else 8

/-- The bytes for the times of an area relative to those of another, of which the ends are given:
the smaller of the distances of the start from start and end of the outer area, and, if the inner
area has an end, the smaller of the distances of the end from its start and from the outer end. -/
def timeBytes (inner outer : GRange UInt64) (innerEnd outerEnd : UInt64) : Nat :=
  bytesFor (min (inner.start - outer.start) (outerEnd - inner.start)) +
    if inner.openEnd then 0 else bytesFor (min (innerEnd - inner.start) (outerEnd - innerEnd))

/-- The wire format the decoder expects: a header byte with flags and widths, the subspace id
if flagged, the relative path, the time difference and the payload length in their compact
widths, the digest. -/
def wireEntryInArea (ss pd : Codec) (e : Entry) (rel : Bytes) (withSubspace fromStart : Bool) (timeDiff : Nat) : Bytes :=
  let wt := getWidthMax64Int timeDiff
  let wl := getWidthMax64Int e.payloadLength.toNat
  byteOf ((if withSubspace then 0x80 else 0x0) ||| (if fromStart then 0x40 else 0x0) |||
    compactWidthEndMask wt <<< 4 ||| compactWidthEndMask wl <<< 2) ::
  ((if withSubspace then ss.enc e.subspaceId else []) ++ (rel ++
    ((encodeIntMax64 timeDiff ++ encodeIntMax64 e.payloadLength.toNat) ++ pd.enc e.payloadDigest)))

end Willow.Props
