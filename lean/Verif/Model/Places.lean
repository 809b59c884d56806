import Verif.Model.Commands

/-!
# The directories of namespaces

`Commands.lean` takes every name for a directory of its own. Here the names are made into paths as in
`/repo/PinaGoladaStore/StoreDriver.go:20-37`, and the application is modelled with what these paths lead to.
Simplifications: directories can be made (a component has at most 255 bytes, no byte 0, and is no file), and there are
no symbolic links.
-/

namespace Willow

/-- A directory: steps up from the working directory, then names down. -/
abbrev Place := Nat × List Bytes

/-- One component of a path, as the file system takes it (contract). -/
def walk (p : Place) (part : Bytes) : Place :=
  if part = [] ∨ part = [46] then p
  else if part = [46, 46] then (if p.2 = [] then (p.1 + 1, []) else (p.1, p.2.dropLast))
  else (p.1, p.2 ++ [part])

/-- The directory to which a path leads. -/
def resolve (path : Bytes) : Place := (splitSlash path).foldl walk (0, [])

/-- The directories on a way. -/
def walkAll (p : Place) : List Bytes → List Place
  | [] => []
  | part :: rest => walk p part :: walkAll (walk p part) rest

/-- `willow`, `/repo/main.go:46`. -/
def willowDir : Bytes := [119, 105, 108, 108, 111, 119]

/-- `entries`. -/
def entriesDir : Bytes := [101, 110, 116, 114, 105, 101, 115]

/-- `payloadrefcounter`. -/
def refsDir : Bytes := [112, 97, 121, 108, 111, 97, 100, 114, 101, 102, 99, 111, 117, 110, 116, 101, 114]

/-- `payload`. -/
def payloadDir : Bytes := [112, 97, 121, 108, 111, 97, 100]

/-- The paths of the databases and of the payloads of a namespace, `/repo/PinaGoladaStore/StoreDriver.go:20`, 30 and 37. -/
def storePath (name which : Bytes) : Bytes := willowDir ++ 47 :: (name ++ 47 :: which)

/-- The directory in which these three are: no two of them have the same last component, so two namespaces share one of
them exactly if they share this directory. -/
def storePlace (name : Bytes) : Place := resolve (willowDir ++ 47 :: name)

/-- The names of the directories in `willow` that are made or passed on the way to one of the three: `pebble.Open` and
`EnsureDir` (`/repo/pkg/data_model/payload_kv_driver/filesystem.go:116-125`) make all that are missing. -/
def madeInWillow (name which : Bytes) : List Bytes :=
  (walkAll (0, []) (splitSlash (storePath name which))).filterMap fun p =>
    match p with
    | (0, [w, n]) => if w = willowDir then some n else none
    | _ => none

/-- The application (see `AppState`), with the directories in `willow`. -/
structure PlacedState where
  disk : GoMap Place (StoreState × Bool)
  dirs : List Bytes
  known : List Bytes
  held : List Place

/-- What a line does. -/
inductive PlacedStep where
  | next (mode : AppMode) (out : Printed) (app : PlacedState)
  | exit (app : PlacedState)
  | fatal

/-- `NameSpaceInteraction` up to its loop (see `enterNamespace`), `/repo/main.go:154-160`. -/
def placedEnter (env : Bytes → StoreEnv) (app : PlacedState) (name : Bytes) : Res PlacedStep :=
  if storePlace name ∈ app.held then .ok .fatal
  else do
    let (old, dir) := (app.disk.get (storePlace name)).getD (.empty, false)
    let st ← restart (env name) (fun kv => kv) old
    .ok (.next (.inside name st dir) .message { app with
      disk := app.disk.set (storePlace name) (st, dir)
      dirs := madeInWillow name refsDir ++ (madeInWillow name entriesDir ++ app.dirs) })

/-- One line (see `appLine`), `/repo/main.go:69-139` and 161-310. -/
def placedLine (env : Bytes → StoreEnv) (lib : SortLib) (readFile : Bytes → FileRead) (now : UInt64) (mode : AppMode) (app : PlacedState)
    (line : Bytes) : Res PlacedStep :=
  match mode with
  | .menu =>
    let objects := splitSpace line
    let command := objects.getD 0 []
    if command = Word.new then
      if line ∈ app.known then placedEnter env app line
      else
        match objects[1]? with
        | none => .crash
        | some name => .ok (.next (.confirm name) .message app)
    else if command = Word.exit then .ok (.exit app)
    else if command = Word.enter then
      match objects with
      | [_, name] => if name ∈ app.known then placedEnter env app name else .ok (.next .menu .message app)
      | _ => .ok (.next .menu .message app)
    else .ok (.next .menu .message app)
  | .confirm name => if line = Word.yes then placedEnter env app name else .ok (.next .menu .message app)
  | .inside name st dir => do
    match ← nsLine (env name) lib readFile now st dir line with
    | .stay out st dir => .ok (.next (.inside name st dir) out { app with
        disk := app.disk.set (storePlace name) (st, dir)
        dirs := (if dir then madeInWillow name payloadDir else []) ++ app.dirs })
    | .leave => .ok (.next .menu .message app)
    | .abandon => .ok (.next .menu .message { app with held := storePlace name :: app.held })

/-- The start, `/repo/main.go:45-64`: the directories in `willow` are the namespaces known. -/
def PlacedState.start (app : PlacedState) : PlacedState := ⟨app.disk, app.dirs, app.dirs, []⟩

/-- Lines one after the other, through several runs of the application (see `appShown`). -/
def placedShown (env : Bytes → StoreEnv) (lib : SortLib) (readFile : Bytes → FileRead) :
    List (UInt64 × Bytes) → AppMode → PlacedState → Res (List Printed × AppMode × PlacedState)
  | [], mode, app => .ok ([], mode, app)
  | (now, line) :: rest, mode, app => do
    match ← placedLine env lib readFile now mode app line with
    | .next mode out app => do
      let (outs, mode, app) ← placedShown env lib readFile rest mode app
      .ok (out :: outs, mode, app)
    | .exit app => do
      let (outs, mode, app) ← placedShown env lib readFile rest .menu app.start
      .ok (.message :: outs, mode, app)
    | .fatal => .crash

/-- Nothing on disk. -/
def PlacedState.none : PlacedState := ⟨[], [], [], []⟩

end Willow
