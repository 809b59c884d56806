import Verif.Model.Paths

/-! Model of `/repo/pkg/data_model/kv_driver/key_utilities.go`. -/

namespace Willow

/-- `EncodeKey`, `/repo/pkg/data_model/kv_driver/key_utilities.go:21-33`. -/
def encodeKey (p : PathParams) (e : Position) : Bytes :=
  bigIntToBytes e.time ++ encodePath p e.path ++ e.subspace

/-- `DecodeKey`, `/repo/pkg/data_model/kv_driver/key_utilities.go:36-53`. -/
def decodeKey (p : PathParams) (encodedKey : Bytes) : Res Position := do
  let timestampBytes ← slice encodedKey 0 8
  let rest ← sliceFrom encodedKey 8
  let (pathEnd, path) ← decodePath p rest
  let subspace ← sliceFrom encodedKey (8 + pathEnd)
  .ok { subspace := subspace, path := path, time := UInt64.ofNat (getBE timestampBytes) }

/-- The value stored per entry (the anonymous struct in
`/repo/pkg/data_model/kv_driver/key_utilities.go:56-60`). -/
structure Values where
  payloadLength : UInt64
  payloadDigest : Bytes
  authDigest : Bytes
deriving Repr, DecidableEq

/-- `stringToBytes`, `/repo/pkg/data_model/kv_driver/key_utilities.go:106-110`. -/
def stringToBytes (s : Bytes) : Bytes := putU64 s.length ++ s

/-- `bytesToString`, `/repo/pkg/data_model/kv_driver/key_utilities.go:113-117`. The sum
`8+length` is not reduced modulo 2^64: a wrapped sum is below 8, so both ways the slice
expression panics. -/
def bytesToString (b : Bytes) : Res (Bytes × Bytes) := do
  let lengthBytes ← slice b 0 8
  let length := getBE lengthBytes
  let strBytes ← slice b 8 (8 + length)
  let rest ← sliceFrom b (8 + length)
  .ok (strBytes, rest)

/-- `EncodeValues`, `/repo/pkg/data_model/kv_driver/key_utilities.go:56-76`. -/
def encodeValues (v : Values) : Bytes :=
  bigIntToBytes v.payloadLength ++ stringToBytes v.payloadDigest ++ stringToBytes v.authDigest

/-- `DecodeValues`, `/repo/pkg/data_model/kv_driver/key_utilities.go:79-103`. -/
def decodeValues (encoded : Bytes) : Res Values := do
  let lengthBytes ← slice encoded 0 8
  let remaining ← sliceFrom encoded 8
  let (payloadDigest, remaining) ← bytesToString remaining
  let (authDigest, _) ← bytesToString remaining
  .ok { payloadLength := UInt64.ofNat (getBE lengthBytes), payloadDigest := payloadDigest, authDigest := authDigest }

end Willow
