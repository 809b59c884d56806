import Verif.Model.StoreRun

/-! Model of the command line application: `/repo/main.go`,
`/repo/PinaGoladaStore/StoreSchemes.go` and `ConvertToByteSlices` of
`/repo/PinaGoladaStore/StoreDriver.go`. -/

namespace Willow

/-! ### Texts -/

/-- `strings.Split(s, "/")` followed by `ConvertToByteSlices`
(`/repo/PinaGoladaStore/StoreDriver.go:90-96`), as used at `/repo/main.go:225` and 260. -/
def splitSlash : Bytes → Path
  | [] => [[]]
  | c :: rest =>
    if c = 47 then [] :: splitSlash rest
    else
      match splitSlash rest with
      | [] => [[c]]
      | component :: more => (c :: component) :: more

/-- The loop of `makePath`, `/repo/main.go:333-335`. -/
def makePathLoop : Path → Bytes → Bytes
  | [], pathStr => pathStr
  | component :: rest, pathStr => makePathLoop rest (pathStr ++ 47 :: component)

/-- `makePath`, `/repo/main.go:331-337`: the first component is indexed, which panics for the
empty path. -/
def makePath : Path → Res Bytes
  | [] => .crash
  | first :: rest => .ok (makePathLoop rest first)

/-- `strings.Split(s, ":")`, `/repo/main.go:316`. -/
def splitColon : Bytes → List Bytes
  | [] => [[]]
  | c :: rest =>
    if c = 58 then [] :: splitColon rest
    else
      match splitColon rest with
      | [] => [[c]]
      | part :: more => (c :: part) :: more

/-- The digits of `strconv.ParseUint(s, 10, 64)` (contract): decimal digits only, the value has
to fit 64 bits. -/
def parseDigits : Bytes → Nat → Option Nat
  | [], acc => some acc
  | c :: rest, acc =>
    if 48 ≤ c ∧ c ≤ 57 then
      let acc := acc * 10 + (c.toNat - 48)
      if acc < 2 ^ 64 then parseDigits rest acc else none
    else none

/-- `strconv.ParseUint(s, 10, 64)` (contract): the empty text is an error. -/
def parseUint (s : Bytes) : Option UInt64 :=
  if s = [] then none else (parseDigits s 0).map UInt64.ofNat

/-- `parseTimeStampToMicroSeconds`, `/repo/main.go:315-329`. -/
def parseTimeStampToMicroSeconds (timestamp : Bytes) : UInt64 :=
  match splitColon timestamp with
  | [h, m] =>
    match parseUint h with
    | none => 0
    | some hours =>
      match parseUint m with
      | none => 0
      | some minutes => hours * 60 * 60 * 1000000 + minutes * 60 * 1000000
  | _ => 0

/-! ### Digests and file names -/

/-- The value of a hexadecimal digit for `hex.DecodeString`. -/
def hexValue (c : UInt8) : Option Nat :=
  if 48 ≤ c ∧ c ≤ 57 then some (c.toNat - 48)
  else if 97 ≤ c ∧ c ≤ 102 then some (c.toNat - 87)
  else if 65 ≤ c ∧ c ≤ 70 then some (c.toNat - 55)
  else none

/-- `hex.DecodeString` (contract), `/repo/PinaGoladaStore/StoreSchemes.go:107`. -/
def hexDecode : Bytes → Option Bytes
  | [] => some []
  | [_] => none
  | a :: b :: rest => do
    let x ← hexValue a
    let y ← hexValue b
    let more ← hexDecode rest
    some (UInt8.ofNat (x * 16 + y) :: more)

/-- A character of the standard base 32 alphabet: `A` to `Z`, `2` to `7`. -/
def base32Char (n : Nat) : UInt8 := UInt8.ofNat (if n < 26 then 65 + n else 24 + n)

/-- The eight characters for five bytes. -/
def base32Block (a b c d e : UInt8) : Bytes :=
  let a := a.toNat
  let b := b.toNat
  let c := c.toNat
  let d := d.toNat
  let e := e.toNat
  [base32Char (a / 8), base32Char (a % 8 * 4 + b / 64), base32Char (b / 2 % 32), base32Char (b % 2 * 16 + c / 16),
   base32Char (c % 16 * 2 + d / 128), base32Char (d / 4 % 32), base32Char (d % 4 * 8 + e / 32), base32Char (e % 32)]

/-- `base32.StdEncoding.EncodeToString` (contract),
`/repo/pkg/data_model/payload_kv_driver/filesystem.go:25`; the padding is `=`. -/
def base32Encode : Bytes → Bytes
  | a :: b :: c :: d :: e :: rest => base32Block a b c d e ++ base32Encode rest
  | [a, b, c, d] => (base32Block a b c d 0).take 7 ++ List.replicate 1 61
  | [a, b, c] => (base32Block a b c 0 0).take 5 ++ List.replicate 3 61
  | [a, b] => (base32Block a b 0 0 0).take 4 ++ List.replicate 4 61
  | [a] => (base32Block a 0 0 0 0).take 2 ++ List.replicate 6 61
  | [] => []

/-- `GetKey` with the payload scheme of the application,
`/repo/pkg/data_model/payload_kv_driver/filesystem.go:23-26` and
`/repo/PinaGoladaStore/StoreSchemes.go:106-112`. -/
def appFileKey (digest : Bytes) : Bytes :=
  base32Encode ((hexDecode digest).getD [])

/-- The store of the application: `StoreSchemes`, `/repo/PinaGoladaStore/StoreSchemes.go:30-130`,
and `InitStorage`, `/repo/PinaGoladaStore/StoreDriver.go:18-67`. SHA-256 is a parameter. -/
def appStore (lib : KdLib) (sha : Bytes → Bytes) (namespaceId : Bytes) : StoreEnv :=
  { p := { bits := 64, cc := 50, cl := 50, pl := 50 }
    lib := lib
    hash := fun b => hexEncode (sha b)
    fileKey := appFileKey
    nsEqual := fun a b => decide (orderBytes a b = .eq)
    authorise := fun e opts => if e.subspaceId = opts then some e.subspaceId else none
    isAuthorised := fun e token => decide (orderBytes e.subspaceId token = .eq)
    tokenEncode := fun t => t
    namespaceId := namespaceId }

/-! ### Commands -/

/-- The `set` command, `/repo/main.go:186-250`, after the file has been read: the texts of
subspace and path, the contents of the file and, if given, the text of the time. The outer
`none` is the return at line 222 (the application leaves the namespace), the inner one the
error shown at line 237. -/
def setCommand (env : StoreEnv) (st : StoreState) (now : UInt64) (subspace path payload : Bytes) (time : Option Bytes) :
    Option (Res (Option (List Entry) × StoreState)) :=
  match time with
  | none => some (storeSet env st now ⟨subspace, splitSlash path, 0, payload⟩ subspace)
  | some text =>
    let timestamp := parseTimeStampToMicroSeconds text
    if timestamp = 0 then none
    else some (storeSet env st now ⟨subspace, splitSlash path, timestamp, payload⟩ subspace)

/-- The `get` command, `/repo/main.go:252-279`: the bytes printed. After an error of
`EntryDriver.Get` the digest of the zero entry is used; after an error of `PayloadDriver.Get`
the function `Bytes` of the zero payload is nil, and calling it panics. Simplification: the
directory for payloads exists, as it does after the first `set` (without it see `getLine`). -/
def getCommand (env : StoreEnv) (st : StoreState) (subspace path : Bytes) : Res Bytes := do
  let r ← entryGet env st subspace (splitSlash path)
  let digest := match r with
    | .found e _ => e.payloadDigest
    | _ => []
  match payloadGet env st.files digest with
  | some b => .ok b
  | none => .crash

/-- One line of the `list` command, `/repo/main.go:295-297`: the texts shown for a key. -/
def listLine (k : KdKey) : Res (Bytes × UInt64 × Bytes) := do
  let path ← makePath k.pos.path
  .ok (k.pos.subspace, k.pos.time, path)

end Willow
