import Verif.Model.App
import Verif.Model.GoMap

/-!
# The command loops

`main` and `NameSpaceInteraction` of `/repo/main.go`. Lines are bytes. The file `entries.json` is in `EntriesFile.lean`, the scanner in
`Scanner.lean`. Not modelled: help texts, failures of pebble other than its refusal to open a
database that is open already.
-/

namespace Willow

/-- `strings.Split(s, " ")`, `/repo/main.go:77` and 173. -/
def splitSpace : Bytes → List Bytes
  | [] => [[]]
  | c :: rest =>
    if c = 32 then [] :: splitSpace rest
    else
      match splitSpace rest with
      | [] => [[c]]
      | word :: more => (c :: word) :: more

/-- `strings.ToLower`, `/repo/main.go:168`. Simplification: of the letters outside ASCII only those are changed that become letters of
ASCII, U+0130 and U+212A; the result is only compared with a word in ASCII. -/
def toLower : Bytes → Bytes
  | [] => []
  | 0xC4 :: 0xB0 :: rest => 105 :: toLower rest
  | 0xE2 :: 0x84 :: 0xAA :: rest => 107 :: toLower rest
  | c :: rest => (if 65 ≤ c ∧ c ≤ 90 then c + 32 else c) :: toLower rest

/-- White space for `strings.TrimSpace` in UTF-8: what `unicode.IsSpace` of the library holds for. -/
def spaceRunes : List Bytes :=
  [[32], [9], [10], [11], [12], [13], [0xC2, 0x85], [0xC2, 0xA0], [0xE1, 0x9A, 0x80], [0xE2, 0x80, 0x80], [0xE2, 0x80, 0x81],
    [0xE2, 0x80, 0x82], [0xE2, 0x80, 0x83], [0xE2, 0x80, 0x84], [0xE2, 0x80, 0x85], [0xE2, 0x80, 0x86], [0xE2, 0x80, 0x87],
    [0xE2, 0x80, 0x88], [0xE2, 0x80, 0x89], [0xE2, 0x80, 0x8A], [0xE2, 0x80, 0xA8], [0xE2, 0x80, 0xA9], [0xE2, 0x80, 0xAF],
    [0xE2, 0x81, 0x9F], [0xE3, 0x80, 0x80]]

/-- At most `n` of the given byte strings are cut off at the front. -/
def trimFront (runes : List Bytes) : Nat → Bytes → Bytes
  | 0, s => s
  | n + 1, s =>
    match runes.find? fun r => r.isPrefixOf s with
    | some r => trimFront runes n (s.drop r.length)
    | none => s

/-- White space cut off at the front. -/
def trimLeft (s : Bytes) : Bytes := trimFront spaceRunes s.length s

/-- White space cut off at the end. The last rune of a string is white space exactly if the string ends with its bytes, whatever is before. -/
def trimRight (s : Bytes) : Bytes := (trimFront (spaceRunes.map List.reverse) s.length s.reverse).reverse

/-- `strings.TrimSpace`, `/repo/main.go:172`. -/
def trimSpace (s : Bytes) : Bytes := trimRight (trimLeft s)

/-- The names of the commands, as bytes. -/
def Word.exit : Bytes := [101, 120, 105, 116]
/-- `back`. -/
def Word.back : Bytes := [98, 97, 99, 107]
/-- `set`. -/
def Word.set : Bytes := [115, 101, 116]
/-- `get`. -/
def Word.get : Bytes := [103, 101, 116]
/-- `list`. -/
def Word.list : Bytes := [108, 105, 115, 116]
/-- `new`. -/
def Word.new : Bytes := [110, 101, 119]
/-- `enter`. -/
def Word.enter : Bytes := [101, 110, 116, 101, 114]
/-- `y`. -/
def Word.yes : Bytes := [121]

/-- What opening and reading a file gives, `/repo/main.go:195-215`: it cannot be opened, it can be
opened but not read (a directory), or it has contents. -/
inductive FileRead where
  | missing
  | unreadable
  | contents (b : Bytes)
deriving Repr, DecidableEq

/-- What is printed. -/
inductive Printed where
  | message
  | pruned (lines : List (Bytes × Bytes × UInt64))
  | payload (b : Bytes)
  | listing (lines : List (Bytes × UInt64 × Bytes))
deriving Repr, DecidableEq

/-- What a line does in a namespace: the loop goes on; it ends and the databases are closed
(lines 311-312); the function returns without closing them (lines 214 and 222). `dir` is whether
the directory for payloads exists: the first call of `Set` makes it
(`/repo/pkg/data_model/payload_kv_driver/filesystem.go:107`). -/
inductive NsStep where
  | stay (out : Printed) (st : StoreState) (dir : Bool)
  | leave
  | abandon
deriving Repr, DecidableEq

/-- The loops that print lines, `/repo/main.go:248-250` and 295-297. -/
def printAll {α β : Type} (f : α → Res β) : List α → Res (List β)
  | [] => .ok []
  | a :: rest => do
    let b ← f a
    let more ← printAll f rest
    .ok (b :: more)

/-- The command `set`, `/repo/main.go:186-250`. -/
def setLine (env : StoreEnv) (readFile : Bytes → FileRead) (now : UInt64) (st : StoreState) (dir : Bool) (objects : List Bytes) :
    Res NsStep :=
  if objects.length < 4 ∨ objects.length > 5 then .ok (.stay .message st dir)
  else
    match readFile (objects.getD 3 []) with
    | .missing => .ok (.stay .message st dir)
    | .unreadable => .ok .abandon
    | .contents payload =>
      match setCommand env st now (objects.getD 1 []) (objects.getD 2 []) payload objects[4]? with
      | none => .ok .abandon
      | some r => do
        let (pruned, st) ← r
        match pruned with
        | none => .ok (.stay .message st true)
        | some pruned =>
          let lines ← printAll (fun (e : Entry) => (makePath e.path).bind fun path => .ok (e.subspaceId, path, e.timestamp)) pruned
          .ok (.stay (.pruned lines) st true)

/-- The command `get`, `/repo/main.go:252-279`: without the directory for payloads every file is
missing (see `getCommand`). -/
def getLine (env : StoreEnv) (st : StoreState) (dir : Bool) (subspace path : Bytes) : Res Bytes :=
  if dir then getCommand env st subspace path
  else (entryGet env st subspace (splitSlash path)).bind fun _ => .crash

/-- Sorting by subspace, `/repo/main.go:286-288` (`sort.Slice`, contract): some order of the same
keys with ascending subspaces; `sorted` is the one that is chosen. -/
structure SortLib where
  sorted : List KdKey → List KdKey
  perm : ∀ l, (sorted l).Perm l
  ordered : ∀ l, (sorted l).Pairwise fun a b => orderBytes b.pos.subspace a.pos.subspace ≠ .lt

/-- One line typed in a namespace, `/repo/main.go:167-309`. -/
def nsLine (env : StoreEnv) (lib : SortLib) (readFile : Bytes → FileRead) (now : UInt64) (st : StoreState) (dir : Bool) (line : Bytes) :
    Res NsStep :=
  if toLower line = Word.exit then .ok .leave
  else
    let objects := splitSpace (trimSpace line)
    let command := objects.getD 0 []
    if command = Word.back then .ok .leave
    else if command = Word.set then setLine env readFile now st dir objects
    else if command = Word.get then
      if objects.length ≠ 3 then .ok (.stay .message st dir)
      else (getLine env st dir (objects.getD 1 []) (objects.getD 2 [])).bind fun b => .ok (.stay (.payload b) st dir)
    else if command = Word.list then
      (printAll listLine (lib.sorted (storeList env st))).bind fun lines => .ok (.stay (.listing lines) st dir)
    else .ok (.stay .message st dir)

/-- The whole application: the namespaces in the directory `willow` with what they hold and whether
they have a directory for payloads (simplification: each name has a directory of its own; `Places.lean` is without it), the map `nameSpaces` made when it starts, and the namespaces
whose databases are open though nobody is in them. -/
structure AppState where
  disk : GoMap Bytes (StoreState × Bool)
  known : List Bytes
  held : List Bytes

/-- Where the next line is read: in the menu, at the question whether to create a namespace
(`/repo/main.go:90`), or in a namespace. -/
inductive AppMode where
  | menu
  | confirm (name : Bytes)
  | inside (name : Bytes) (st : StoreState) (dir : Bool)

/-- What a line does. -/
inductive AppStep where
  | next (mode : AppMode) (out : Printed) (app : AppState)
  | exit (app : AppState)
  | fatal

/-- `NameSpaceInteraction` up to its loop, `/repo/main.go:154-160`. `pebble.Open` fails for a
database that is open, and then `log.Fatal` ends the process
(`/repo/PinaGoladaStore/StoreDriver.go:20-33`). -/
def enterNamespace (env : Bytes → StoreEnv) (app : AppState) (name : Bytes) : Res AppStep :=
  if name ∈ app.held then .ok .fatal
  else do
    let (old, dir) := (app.disk.get name).getD (.empty, false)
    let st ← restart (env name) (fun kv => kv) old
    .ok (.next (.inside name st dir) .message { app with disk := app.disk.set name (st, dir) })

/-- One line, `/repo/main.go:69-139` and 161-310. -/
def appLine (env : Bytes → StoreEnv) (lib : SortLib) (readFile : Bytes → FileRead) (now : UInt64) (mode : AppMode) (app : AppState)
    (line : Bytes) : Res AppStep :=
  match mode with
  | .menu =>
    let objects := splitSpace line
    let command := objects.getD 0 []
    if command = Word.new then
      if line ∈ app.known then enterNamespace env app line
      else
        match objects[1]? with
        | none => .crash
        | some name => .ok (.next (.confirm name) .message app)
    else if command = Word.exit then .ok (.exit app)
    else if command = Word.enter then
      match objects with
      | [_, name] => if name ∈ app.known then enterNamespace env app name else .ok (.next .menu .message app)
      | _ => .ok (.next .menu .message app)
    else .ok (.next .menu .message app)
  | .confirm name => if line = Word.yes then enterNamespace env app name else .ok (.next .menu .message app)
  | .inside name st dir => do
    match ← nsLine (env name) lib readFile now st dir line with
    | .stay out st dir => .ok (.next (.inside name st dir) out { app with disk := app.disk.set name (st, dir) })
    | .leave => .ok (.next .menu .message app)
    | .abandon => .ok (.next .menu .message { app with held := name :: app.held })

/-- Lines one after the other, each with the time shown by the clock; `none` is the end of the
process, by `exit` or by `log.Fatal`. -/
def appRun (env : Bytes → StoreEnv) (lib : SortLib) (readFile : Bytes → FileRead) :
    List (UInt64 × Bytes) → AppMode → AppState → Res (Option AppMode × AppState)
  | [], mode, app => .ok (some mode, app)
  | (now, line) :: rest, mode, app => do
    match ← appLine env lib readFile now mode app line with
    | .next mode _ app => appRun env lib readFile rest mode app
    | .exit app => .ok (none, app)
    | .fatal => .ok (none, app)

/-- The start, `/repo/main.go:45-64`: the directories in `willow`. Simplification: they are the names of the namespaces;
`Places.lean` is without it. -/
def appStart (disk : GoMap Bytes (StoreState × Bool)) : AppState := ⟨disk, disk.map Prod.fst, []⟩

/-- Lines one after the other, through several runs of the application: after `exit` in the menu the next line is typed to an
application that was started again. Also what is printed for each line; `log.Fatal` counts as a crash. -/
def appShown (env : Bytes → StoreEnv) (lib : SortLib) (readFile : Bytes → FileRead) :
    List (UInt64 × Bytes) → AppMode → AppState → Res (List Printed × AppMode × AppState)
  | [], mode, app => .ok ([], mode, app)
  | (now, line) :: rest, mode, app => do
    match ← appLine env lib readFile now mode app line with
    | .next mode out app => do
      let (outs, mode, app) ← appShown env lib readFile rest mode app
      .ok (out :: outs, mode, app)
    | .exit app => do
      let (outs, mode, app) ← appShown env lib readFile rest .menu (appStart app.disk)
      .ok (.message :: outs, mode, app)
    | .fatal => .crash

end Willow
