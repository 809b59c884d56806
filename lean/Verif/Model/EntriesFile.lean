import Verif.Model.Commands
import Verif.Model.Helpers

/-!
# The file `entries.json`

`writeEntriesToFile` of `/repo/main.go` and the places where it is called. The file lies in the directory in which the
application was started; all namespaces share it. Not modelled: failures of `json.Marshal` and of `ioutil.WriteFile`,
which are only reported.
-/

namespace Willow

/-- A number in decimal digits, as `json.Marshal` writes a `uint64`. -/
def decimal (n : Nat) : Bytes :=
  if n < 10 then [UInt8.ofNat (48 + n)] else decimal (n / 10) ++ [UInt8.ofNat (48 + n % 10)]

/-- The rest of an array after an element: commas, elements, the bracket. -/
def jsonRest {α : Type} (item : α → Bytes) : List α → Bytes
  | [] => [93]
  | x :: xs => 44 :: (item x ++ jsonRest item xs)

/-- An array, as `json.Marshal` writes a slice that is not nil. -/
def jsonArray {α : Type} (item : α → Bytes) : List α → Bytes
  | [] => [91, 93]
  | x :: xs => 91 :: (item x ++ jsonRest item xs)

/-- A `[]byte`, which `json.Marshal` writes in base64 between quotes. Simplification: not nil. -/
def jsonBytes (b : Bytes) : Bytes := 34 :: (base64Encode b ++ [34])

/-- `{"Timestamp":`. -/
def JsonName.timestamp : Bytes := [123, 34, 84, 105, 109, 101, 115, 116, 97, 109, 112, 34, 58]
/-- `,"Subspace":`. -/
def JsonName.subspace : Bytes := [44, 34, 83, 117, 98, 115, 112, 97, 99, 101, 34, 58]
/-- `,"Path":`. -/
def JsonName.path : Bytes := [44, 34, 80, 97, 116, 104, 34, 58]
/-- `,"Fingerprint":"`. -/
def JsonName.fingerprint : Bytes := [44, 34, 70, 105, 110, 103, 101, 114, 112, 114, 105, 110, 116, 34, 58, 34]

/-- A `kdnode.Key` (`/repo/pkg/data_model/kdnode/willowkdtreenode.go:11-16`) as an object with its fields in their order.
Simplification: the bytes of the fingerprint are written as they are; right for the hexadecimal digits of the application,
while quotes, backslashes, control characters, `<`, `>`, `&` and bytes outside ASCII would be escaped. -/
def jsonKey (k : KdKey) : Bytes :=
  JsonName.timestamp ++ (decimal k.pos.time.toNat ++ (JsonName.subspace ++ (jsonBytes k.pos.subspace ++
    (JsonName.path ++ (jsonArray jsonBytes k.pos.path ++ (JsonName.fingerprint ++ (k.fingerprint ++ [34, 125])))))))

/-- What `writeEntriesToFile` writes, `/repo/main.go:141-152`. `isNil` is whether the tree library gives a nil slice for a
tree without values, which `json.Marshal` writes as `null`. -/
def entriesJson (isNil : Bool) (keys : List KdKey) : Bytes :=
  if keys = [] ∧ isNil then [110, 117, 108, 108] else jsonArray jsonKey keys

/-- The file after a line: it is written on entering a namespace (`/repo/main.go:158-159`) and after a `set` without an
error (241-242; the only command that prints pruned entries). -/
def entriesAfter (env : Bytes → StoreEnv) (isNil : Bool) (mode : AppMode) (step : AppStep) (file : Option Bytes) : Option Bytes :=
  match mode, step with
  | .inside .., .next (.inside name st _) (.pruned _) _ => some (entriesJson isNil (storeList (env name) st))
  | .inside .., _ => file
  | _, .next (.inside name st _) _ _ => some (entriesJson isNil (storeList (env name) st))
  | _, _ => file

/-- A session (see `appRun`) with the file. -/
def appRunFile (env : Bytes → StoreEnv) (lib : SortLib) (readFile : Bytes → FileRead) (isNil : Bool) :
    List (UInt64 × Bytes) → AppMode → AppState → Option Bytes → Res (Option AppMode × AppState × Option Bytes)
  | [], mode, app, file => .ok (some mode, app, file)
  | (now, line) :: rest, mode, app, file => do
    let step ← appLine env lib readFile now mode app line
    match step with
    | .next next _ app => appRunFile env lib readFile isNil rest next app (entriesAfter env isNil mode step file)
    | .exit app => .ok (none, app, file)
    | .fatal => .ok (none, app, file)

end Willow
