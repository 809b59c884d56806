import Verif.Model.Commands

/-!
# The text that is typed

`Commands.lean` takes the lines as given. Here they are read from the standard input with a `bufio.Scanner`
(`/repo/main.go:42`), a contract of the library: lines end with a line feed, of which a carriage return just before is
dropped, and the buffer has room for `maxLine` bytes.
-/

namespace Willow

/-- `bufio.MaxScanTokenSize`: the size of the buffer. -/
def maxLine : Nat := 65536

/-- A carriage return at the end of a line is dropped (`dropCR` of the library). -/
def dropCR (line : Bytes) : Bytes := if line.getLast? = some 13 then line.dropLast else line

/-- What the calls of `scanner.Scan` give, one after the other, up to the point from which on all give `false`: `some` line
if `true`, and `none` if `false`. `held` is what the buffer has of the line. If the buffer is full without the end of a
line, `Scan` gives `false` once and then, since the scanner has an error now, takes the buffer for the last line; the input
after it is not read. -/
def scanLoop (held : Bytes) : Bytes → List (Option Bytes)
  | [] => if held = [] then [none, none] else [some (dropCR held), none, none]
  | c :: rest =>
    if c = 10 then some (dropCR held) :: scanLoop [] rest
    else if held.length + 1 = maxLine then [none, some (dropCR (held ++ [c])), none, none]
    else scanLoop (held ++ [c]) rest

/-- The calls of `scanner.Scan` on a text. -/
def scans (text : Bytes) : List (Option Bytes) := scanLoop [] text

/-- The loops, `/repo/main.go:69-139` and 161-312, over what the calls of `Scan` give; also the calls of `Scan` in the menu and
at the question end the application when they give `false` (lines 73 and 90), that in a namespace leaves it (164). The
`n`-th line is read at the time `clock n`. The result is what is printed for each line and the application at the end. -/
def appScans (env : Bytes → StoreEnv) (lib : SortLib) (readFile : Bytes → FileRead) (clock : Nat → UInt64) :
    Nat → List (Option Bytes) → AppMode → AppState → Res (List Printed × AppState)
  | _, [], _, app => .ok ([], app)
  | n, none :: rest, mode, app =>
    match mode with
    | .inside _ _ _ => appScans env lib readFile clock n rest .menu app
    | _ => .ok ([], app)
  | n, some line :: rest, mode, app => do
    match ← appLine env lib readFile (clock n) mode app line with
    | .next mode out app => do
      let (outs, app) ← appScans env lib readFile clock (n + 1) rest mode app
      .ok (out :: outs, app)
    | .exit app => .ok ([.message], app)
    | .fatal => .ok ([], app)

/-- The application with a text on its standard input, `/repo/main.go:44-140`. -/
def appText (env : Bytes → StoreEnv) (lib : SortLib) (readFile : Bytes → FileRead) (clock : Nat → UInt64) (text : Bytes)
    (app : AppState) : Res (List Printed × AppState) :=
  appScans env lib readFile clock 0 (scans text) .menu app

end Willow
