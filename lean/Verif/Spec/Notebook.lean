import Verif.Spec.Commands
import Verif.Spec.PropsApp
import Verif.Spec.Order

/-!
What a user of the application may expect: a book with a page for each namespace, on which notes are written. No encodings,
keys, trees, digests or files.
-/

namespace Willow.Spec

open Willow.Props (digitText)

/-- What is noted: who wrote it (the subspace), where (the text of the path), when and what. -/
structure Note where
  subspace : Bytes
  path : Bytes
  time : UInt64
  payload : Bytes
deriving Repr, DecidableEq

/-- The path with the text `q` is the one with the text `p` or lies below it. -/
def Under (p q : Bytes) : Prop := p = q ∨ p ++ [47] <+: q

instance (p q : Bytes) : Decidable (Under p q) := by unfold Under; infer_instance

/-- The lines that are typed. A time is hours and minutes. -/
inductive Typed where
  | new (name : Bytes)
  | yes
  | enter (name : Bytes)
  | back
  | exit
  | set (subspace path file : Bytes) (time : Option (Nat × Nat))
  | get (subspace path : Bytes)
  | list
  | other (word : Bytes) (words : List Bytes)
deriving Repr, DecidableEq

/-- A time as it is typed, like `09:30`. -/
def clockText (h m : Nat) : Bytes := digitText [h / 10, h % 10] ++ 58 :: digitText [m / 10, m % 10]

/-- The text of a line: `new name`, `y`, `enter name`, `back`, `exit`, `set subspace path file` with or without a time,
`get subspace path`, `list`. -/
def Typed.text : Typed → Bytes
  | .new name => spaced [[110, 101, 119], name]
  | .yes => [121]
  | .enter name => spaced [[101, 110, 116, 101, 114], name]
  | .back => [98, 97, 99, 107]
  | .exit => [101, 120, 105, 116]
  | .set s p f none => spaced [[115, 101, 116], s, p, f]
  | .set s p f (some (h, m)) => spaced [[115, 101, 116], s, p, f, clockText h m]
  | .get s p => spaced [[103, 101, 116], s, p]
  | .list => [108, 105, 115, 116]
  | .other w ws => spaced (w :: ws)

/-- The words that mean something: `new`, `y`, `enter`, `back`, `exit`, `set`, `get`, `list`. -/
def commandWords : List Bytes :=
  [[110, 101, 119], [121], [101, 110, 116, 101, 114], [98, 97, 99, 107], [101, 120, 105, 116], [115, 101, 116], [103, 101, 116], [108, 105, 115, 116]]

/-- Lines in order: words without blanks, paths of fewer than 50 bytes, times of the day after midnight; other lines begin
with a word without capitals, of ASCII or an I with a dot, that is no command. -/
def Typed.InOrder : Typed → Prop
  | .new name => IsWord name
  | .enter name => IsWord name
  | .set s p f time => IsWord s ∧ IsWord p ∧ IsWord f ∧ p.length < 50 ∧
      ∀ h m, time = some (h, m) → h < 24 ∧ m < 60 ∧ ¬ (h = 0 ∧ m = 0)
  | .get s p => IsWord s ∧ IsWord p ∧ p.length < 50
  | .other w ws => (∀ x ∈ w :: ws, IsWord x) ∧ w ∉ commandWords ∧ (∀ c ∈ w, ¬ (65 ≤ c ∧ c ≤ 90)) ∧ ¬ utf8 0x130 <:+: w
  | _ => True

/-- What the user is shown. -/
inductive Shown where
  | message
  | pruned (lines : List (Bytes × Bytes × UInt64))
  | payload (b : Bytes)
  | listing (lines : List (Bytes × UInt64 × Bytes))

/-- Where the user is: in the menu, asked whether to make a namespace, or in a namespace. -/
inductive Place where
  | menu
  | asked (name : Bytes)
  | inside (name : Bytes)

/-- The book: the pages there are, those that there were when the application was started, and where the user is. -/
structure Book where
  pages : Bytes → Option (List Note)
  known : Bytes → Bool
  place : Place

/-- The book at first. -/
def Book.first : Book := ⟨fun _ => none, fun _ => false, .menu⟩

/-- A page is turned to, and made if there is none. -/
def Book.turnTo (book : Book) (name : Bytes) : Book :=
  { book with
    pages := fun n => if n = name then some ((book.pages name).getD []) else book.pages n
    place := .inside name }

/-- A page is replaced. -/
def Book.write (book : Book) (name : Bytes) (page : List Note) : Book :=
  { book with pages := fun n => if n = name then some page else book.pages n }

/-- An older or equally old note is not accepted beside a note at its path or above. -/
def Superseded (page : List Note) (note : Note) : Prop :=
  ∃ x ∈ page, x.subspace = note.subspace ∧ Under x.path note.path ∧ note.time ≤ x.time

instance (page : List Note) (note : Note) : Decidable (Superseded page note) := by unfold Superseded; infer_instance

/-- A note goes when a newer one is written at its path or above. -/
def Gone (note x : Note) : Prop := x.subspace = note.subspace ∧ Under note.path x.path ∧ x.time < note.time

instance (note x : Note) : Decidable (Gone note x) := by unfold Gone; infer_instance

/-- The time in microseconds. -/
def timeMeant (now : UInt64) : Option (Nat × Nat) → UInt64
  | none => now
  | some (h, m) => UInt64.ofNat ((h * 60 + m) * 60000000)

/-- A line typed in a namespace whose page is given: what is shown and the page afterwards. No promise (`none`) is made for
files that cannot be read and for `get` on an empty page. -/
def onPage (readFile : Bytes → FileRead) (now : UInt64) (page : List Note) : Typed → Option (Shown × List Note)
  | .set s p f time =>
    match readFile f with
    | .missing => some (.message, page)
    | .unreadable => none
    | .contents b =>
      let note : Note := ⟨s, p, timeMeant now time, b⟩
      if Superseded page note then some (.message, page)
      else some (.pruned ((page.filter fun x => Gone note x ∧ x.path ≠ p).map fun x => (x.subspace, x.path, x.time)),
        note :: page.filter fun x => ¬ Gone note x)
  | .get s p =>
    if page = [] then none
    else
      match page.find? fun x => x.subspace = s ∧ x.path = p with
      | some x => some (.payload x.payload, page)
      | none => some (.payload [], page)
  | .list => some (.listing (page.map fun x => (x.subspace, x.time, x.path)), page)
  | _ => some (.message, page)

/-- A line: what is shown and the book afterwards. -/
def Book.line (readFile : Bytes → FileRead) (now : UInt64) (book : Book) (t : Typed) : Option (Shown × Book) :=
  match book.place with
  | .menu =>
    match t with
    | .new name => some (.message, { book with place := .asked name })
    | .enter name => some (.message, if book.known name then book.turnTo name else book)
    | .exit => some (.message, { book with known := fun n => (book.pages n).isSome })
    | _ => some (.message, book)
  | .asked name =>
    match t with
    | .yes => some (.message, book.turnTo name)
    | _ => some (.message, { book with place := .menu })
  | .inside name =>
    match t with
    | .back => some (.message, { book with place := .menu })
    | .exit => some (.message, { book with place := .menu })
    | _ => (onPage readFile now ((book.pages name).getD []) t).map fun x => (x.1, book.write name x.2)

/-- Lines one after the other. -/
def Book.lines (readFile : Bytes → FileRead) (book : Book) : List (UInt64 × Typed) → Option (List Shown × Book)
  | [] => some ([], book)
  | (now, t) :: rest =>
    match book.line readFile now t with
    | none => none
    | some (out, book) => (book.lines readFile rest).map fun x => (out :: x.1, x.2)

/-- What is printed is what should be shown: the same message, the same bytes, the same lines in some order, in a listing with
ascending subspaces. -/
def Shows : Shown → Printed → Prop
  | .message, .message => True
  | .pruned l, .pruned l' => l'.Perm l
  | .payload b, .payload b' => b' = b
  | .listing l, .listing l' => l'.Perm l ∧ l'.Pairwise fun a b => ¬BytesLt b.1 a.1
  | _, _ => False

/-- The same for line after line. -/
def ShowsAll : List Shown → List Printed → Prop
  | [], [] => True
  | out :: outs, pr :: prs => Shows out pr ∧ ShowsAll outs prs
  | _, _ => False

/-- The bytes that a line may give to the store. -/
def bytesTyped (readFile : Bytes → FileRead) : Typed → List Bytes
  | .set s _ f _ =>
    match readFile f with
    | .contents b => [b, s]
    | _ => []
  | _ => []

end Willow.Spec
