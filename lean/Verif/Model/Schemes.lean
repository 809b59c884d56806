import Verif.Model.Relative
import Verif.Model.Slices

/-! Model of the encoding schemes that come with the code: `/repo/PinaGoladaStore/StoreSchemes.go` and
`/repo/pkg/data_model/store/test_schemes.go`, and of `EncodeEntry` with the memory of the namespace id. -/

namespace Willow

/-- `NameSpaceEncoding`, `SubspaceEncoding` and `TokenEncoding`,
`/repo/PinaGoladaStore/StoreSchemes.go:15-29`, 38-52 and 80-94. `DecodeStream` is not set; calling it
panics. -/
def appCodec : Codec where
  enc id := id
  dec bytes := .ok bytes
  len id := id.length
  decStream := Dec.lift .crash

/-- `NameSpaceEncoding`, `SubspaceEncoding` and `TokenEncoding`,
`/repo/pkg/data_model/store/test_schemes.go:15-34`, 43-62 and 90-109: `DecodeStream` waits for a byte and
returns whatever has accumulated. -/
def storeCodec : Codec where
  enc id := id
  dec bytes := .ok bytes
  len id := id.length
  decStream := nextAbsolute 1

/-- `append(s, x...)` for each `x` in turn, where `s` is the slice `arr[0:len]` with the capacity of
`arr`: the array at the end, and the value of the last call. While there is room the bytes are
written into the array, afterwards into a copy. -/
def appendAll (arr : Bytes) (len : Nat) : List Bytes → Bytes × Bytes
  | [] => (arr, arr.take len)
  | x :: rest =>
    if len + x.length ≤ arr.length then
      appendAll (arr.take len ++ x ++ arr.drop (len + x.length)) (len + x.length) rest
    else (arr, arr.take len ++ x ++ rest.flatten)

/-- `EncodeEntry`, `/repo/utils/entries.go:26-49`, for a namespace scheme that encodes ids as they are
without copying them (`[]byte(id)`, as in `/repo/PinaGoladaStore/StoreSchemes.go:16-18`), where the
namespace id is the slice `arr[0:len]`: the array afterwards, and the encoding. -/
def encodeEntryMem (arr : Bytes) (len : Nat) (ss pd : Codec) (p : PathParams) (e : Entry) : Bytes × Bytes :=
  appendAll arr len [ss.enc e.subspaceId, encodePath p e.path, bigIntToBytes e.timestamp, bigIntToBytes e.payloadLength,
    pd.enc e.payloadDigest]

end Willow
