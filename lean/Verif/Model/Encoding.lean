import Verif.Model.Basic

/-! Model of `/repo/utils/encoding.go`. Numbers of an unsigned Go type are natural
numbers; `uint8(x)`, `uint16(x)`, `uint32(x)` truncate. -/

namespace Willow

/-- `byte(x)` -/
def byteOf (x : Nat) : UInt8 := UInt8.ofNat x

/-- `binary.BigEndian.PutUint16` of `uint16(x)`. -/
def putU16 (x : Nat) : Bytes := [byteOf (x / 2 ^ 8), byteOf x]

/-- `binary.BigEndian.PutUint32` of `uint32(x)`. -/
def putU32 (x : Nat) : Bytes :=
  [byteOf (x / 2 ^ 24), byteOf (x / 2 ^ 16), byteOf (x / 2 ^ 8), byteOf x]

/-- `binary.BigEndian.PutUint64` of `uint64(x)`. -/
def putU64 (x : Nat) : Bytes :=
  [byteOf (x / 2 ^ 56), byteOf (x / 2 ^ 48), byteOf (x / 2 ^ 40), byteOf (x / 2 ^ 32),
   byteOf (x / 2 ^ 24), byteOf (x / 2 ^ 16), byteOf (x / 2 ^ 8), byteOf x]

/-- `BigIntToBytes`, `/repo/utils/encoding.go:11-15`. -/
def bigIntToBytes (x : UInt64) : Bytes := putU64 x.toNat

/-- `binary.BigEndian.UintNN` on a slice of exactly that many bytes (the callers check the
length): the big-endian value. -/
def getBE (bs : Bytes) : Nat := bs.foldl (fun acc b => acc * 256 + b.toNat) 0

/-- `GetWidthMax32Int`, `/repo/utils/encoding.go:21-32`. -/
def getWidthMax32Int (num : Nat) : Nat :=
  if num < 2 ^ 8 then 1 else if num < 2 ^ 16 then 2 else if num < 2 ^ 24 then 3 else 4

/-- `EncodeIntMax32`, `/repo/utils/encoding.go:39-57`. -/
def encodeIntMax32 (num max : Nat) : Bytes :=
  match getWidthMax32Int max with
  | 1 => [byteOf num]
  | 2 => putU16 num
  | 3 => byteOf (num / 2 ^ 16) :: putU16 num
  | _ => putU32 num

/-- `DecodeIntMax32`, `/repo/utils/encoding.go:63-89`. The result of type `uint32` is a
natural number. -/
def decodeIntMax32 (bytes : Bytes) (max : Nat) : Res Nat :=
  let w := getWidthMax32Int max
  if bytes.length ≠ w then .err
  else match w with
    | 1 => .ok (getBE bytes)
    | 2 => .ok (getBE bytes)
    | 4 => .ok (getBE bytes)
    | _ => .ok (getBE (bytes.take 2) * 2 ^ 8 + getBE (bytes.drop 2))

/-- `GetWidthMax64Int`, `/repo/utils/encoding.go:93-104`. -/
def getWidthMax64Int (num : Nat) : Nat :=
  if num < 2 ^ 8 then 1 else if num < 2 ^ 16 then 2 else if num < 2 ^ 32 then 4 else 8

/-- `EncodeIntMax64`, `/repo/utils/encoding.go:107-123`. -/
def encodeIntMax64 (num : Nat) : Bytes :=
  match getWidthMax64Int num with
  | 1 => [byteOf num]
  | 2 => putU16 num
  | 4 => putU32 num
  | _ => putU64 num

/-- `DecodeIntMax64`, `/repo/utils/encoding.go:127-143`. -/
def decodeIntMax64 (encoded : Bytes) : Res Nat :=
  if encoded.length = 1 ∨ encoded.length = 2 ∨ encoded.length = 4 ∨ encoded.length = 8 then
    .ok (getBE encoded)
  else .err

end Willow
