import Verif.Model.Kv

/-! Smaller helpers: comparison of database keys, reading several values and clearing
(`/repo/pkg/data_model/kv_driver/kv_driver_pebble.go`), distances of keys of the tree
(`/repo/pkg/data_model/kdnode/willowkdtreenode.go`), and keys of namespaces
(`/repo/pkg/wgps/cap_finder.go`). -/

namespace Willow

/-! ### Database keys -/

/-- `CompareTwoKeyParts`, `/repo/pkg/data_model/kv_driver/kv_driver_pebble.go:33-41`; the error is
always nil. -/
def compareKeyParts (a b : UInt8) : Ordering := if a > b then .gt else if a < b then .lt else .eq

/-- The loop of `IsFirstPrefixOfSecond`,
`/repo/pkg/data_model/kv_driver/kv_driver_pebble.go:21-29`; reading after the end of the second
slice panics. -/
def prefixLoop : Bytes → Bytes → Res Bool
  | [], _ => .ok true
  | _ :: _, [] => .crash
  | x :: a, y :: b => if compareKeyParts x y ≠ .eq then .ok false else prefixLoop a b

/-- `IsFirstPrefixOfSecond`, `/repo/pkg/data_model/kv_driver/kv_driver_pebble.go:17-31`. -/
def isFirstPrefixOfSecond (a b : Bytes) : Res Bool :=
  if a.length > b.length then .ok false else prefixLoop a b

/-- The loop of `CompareKeys`, `/repo/pkg/data_model/kv_driver/kv_driver_pebble.go:49-57`. -/
def compareKeysLoop : Bytes → Bytes → Res Ordering
  | [], _ => .ok .eq
  | _ :: _, [] => .crash
  | x :: a, y :: b => if compareKeyParts x y ≠ .eq then .ok (compareKeyParts x y) else compareKeysLoop a b

/-- `CompareKeys`, `/repo/pkg/data_model/kv_driver/kv_driver_pebble.go:43-60`. -/
def compareKeys (a b : Bytes) : Res Ordering :=
  if a.length > b.length then .ok .gt
  else if a.length < b.length then .ok .lt
  else compareKeysLoop a b

/-- `GetMultipleValues`, `/repo/pkg/data_model/kv_driver/kv_driver_pebble.go:151-161`; `none` is the
returned error. -/
def getMultipleValues (kv : KV) : List Bytes → Option (List Bytes)
  | [] => some []
  | key :: rest =>
    match kv.get key with
    | none => none
    | some value =>
      match getMultipleValues kv rest with
      | none => none
      | some values => some (value :: values)

/-- `Clear`, `/repo/pkg/data_model/kv_driver/kv_driver_pebble.go:95-110`. The iterator visits the keys
as they were when it was made (contract). -/
def KV.clear (kv : KV) : KV := kv.foldl (fun db e => db.delete e.1) kv

/-! ### Distances -/

/-- `DistDim`, `/repo/pkg/data_model/kdnode/willowkdtreenode.go:54-71`. -/
def KdKey.distDim (a b : KdKey) (dim : Nat) : Int :=
  match dim with
  | 0 => goInt ((a.pos.time - b.pos.time) * (a.pos.time - b.pos.time)).toNat
  | _ => 1

/-- `Dist`, `/repo/pkg/data_model/kdnode/willowkdtreenode.go:73-90`. -/
def KdKey.dist (a b : KdKey) : Int :=
  let timeDist := (a.pos.time - b.pos.time) * (a.pos.time - b.pos.time)
  let subspaceDist : UInt64 := if orderBytes a.pos.subspace b.pos.subspace ≠ .eq then 1 else 0
  let pathDist : UInt64 := if orderPath a.pos.path b.pos.path ≠ .eq then 1 else 0
  goInt (timeDist + (subspaceDist + pathDist)).toNat

/-! ### Keys of namespaces -/

/-- A character of the standard base 64 alphabet: `A` to `Z`, `a` to `z`, `0` to `9`, `+`, `/`. -/
def base64Char (n : Nat) : UInt8 :=
  UInt8.ofNat (if n < 26 then 65 + n else if n < 52 then 71 + n else if n < 62 then n - 4 else if n = 62 then 43 else 47)

/-- The four characters for three bytes. -/
def base64Block (a b c : UInt8) : Bytes :=
  [base64Char (a.toNat / 4), base64Char (a.toNat % 4 * 16 + b.toNat / 16), base64Char (b.toNat % 16 * 4 + c.toNat / 64),
   base64Char (c.toNat % 64)]

/-- `base64.StdEncoding.EncodeToString` (contract), `/repo/pkg/wgps/cap_finder.go:54`; the padding is
`=`. -/
def base64Encode : Bytes → Bytes
  | a :: b :: c :: rest => base64Block a b c ++ base64Encode rest
  | [a, b] => (base64Block a b 0).take 3 ++ [61]
  | [a] => (base64Block a 0 0).take 2 ++ [61, 61]
  | [] => []

/-- `GetNamespaceKey`, `/repo/pkg/wgps/cap_finder.go:52-55`, for an encoding of namespaces. -/
def namespaceKey (encode : Bytes → Bytes) (namespaceId : Bytes) : Bytes := base64Encode (encode namespaceId)

end Willow
