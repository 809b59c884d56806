import Verif.Model.Store

/-! The staging directory of `/repo/pkg/data_model/payload_kv_driver/filesystem.go`: `Receive` with any offset, and
the `commit` and `reject` that it returns, called at any time. -/

namespace Willow

/-- The directory of a payload driver: the payload files, the files in `partial` and those in `staging`. -/
structure RecvFiles where
  files : KV
  partials : KV
  staging : KV
deriving Repr, DecidableEq

/-- `Receive`, `/repo/pkg/data_model/payload_kv_driver/filesystem.go:158-226`, up to what it returns: the files,
and the digest and the length, or a panic. `temp` is the random name of the staging file (168-174). A partial
file is copied to the staging file before that file is emptied by opening it (177-191); an offset below zero
is not used for the file but for the length, and a negative length panics in `make` (219). Simplifications: with
a positive offset the file name of the digest is not empty; reading back reads the whole file. -/
def receiveStaged (env : StoreEnv) (fs : RecvFiles) (temp payload : Bytes) (offset : Int) (expectedDigest : Bytes) :
    RecvFiles × Res (Bytes × UInt64) :=
  if offset > 0 ∧ (fs.partials.get (env.fileKey expectedDigest)).isNone then (fs, .crash)
  else
    let content := List.replicate offset.toNat 0 ++ payload
    let fs := { fs with staging := fs.staging.set temp content }
    let receivedLen := offset + payload.length
    if receivedLen < 0 then (fs, .crash)
    else
      let readData := content.take receivedLen.toNat
      (fs, .ok (env.hash readData, UInt64.ofNat receivedLen.toNat))

/-- The returned `commit`, `/repo/pkg/data_model/payload_kv_driver/filesystem.go:229-253`. Renaming or copying to an
empty name is renaming or copying to a directory and fails; the staging file of a partial payload is removed
nevertheless. Failures are only printed. -/
def commitStaged (env : StoreEnv) (fs : RecvFiles) (temp expectedDigest : Bytes) (isCompletePayload : Bool) : RecvFiles :=
  let name := env.fileKey expectedDigest
  match fs.staging.get temp with
  | none => fs
  | some content =>
    if isCompletePayload then
      if name = [] then fs else { fs with files := fs.files.set name content, staging := fs.staging.delete temp }
    else
      let partials := if name = [] then fs.partials else fs.partials.set name content
      { fs with partials := partials, staging := fs.staging.delete temp }

/-- The returned `reject`, `/repo/pkg/data_model/payload_kv_driver/filesystem.go:256-266`. -/
def rejectStaged (fs : RecvFiles) (temp : Bytes) : RecvFiles := { fs with staging := fs.staging.delete temp }

/-- A call of `Receive`, or of one of the functions returned by the call with this temporary name and digest. -/
inductive RecvOp where
  | receive (temp payload : Bytes) (offset : Int) (expectedDigest : Bytes)
  | commit (temp expectedDigest : Bytes) (isCompletePayload : Bool)
  | reject (temp : Bytes)
deriving Repr, DecidableEq

/-- One call; false if it panics. -/
def RecvOp.step (env : StoreEnv) (fs : RecvFiles) : RecvOp → RecvFiles × Bool
  | .receive temp payload offset expectedDigest =>
    match receiveStaged env fs temp payload offset expectedDigest with
    | (fs, .ok _) => (fs, true)
    | (fs, _) => (fs, false)
  | .commit temp expectedDigest isCompletePayload => (commitStaged env fs temp expectedDigest isCompletePayload, true)
  | .reject temp => (rejectStaged fs temp, true)

/-- Calls one after another, up to the first that panics; false if one did. -/
def recvRun (env : StoreEnv) (fs : RecvFiles) : List RecvOp → RecvFiles × Bool
  | [] => (fs, true)
  | op :: rest =>
    match op.step env fs with
    | (fs, true) => recvRun env fs rest
    | (fs, false) => (fs, false)

end Willow
