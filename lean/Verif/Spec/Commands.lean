import Verif.Model.Commands

/-! What the stores of a session are. -/

namespace Willow.Spec

/-- The calls that commands can make: writes signed for their own subspace at a path with at least
one component, and opening the store. -/
def CommandOp (op : StoreOp) : Prop :=
  op = .restart ∨ ∃ now sub path t payload, op = .set now ⟨sub, path, t, payload⟩ sub ∧ path ≠ []

/-- A store that such calls lead to. -/
def ByCommands (env : StoreEnv) (st : StoreState) : Prop :=
  ∃ ops, (∀ op ∈ ops, CommandOp op) ∧ runOps env .empty ops = .ok st

/-- White space in ASCII: tab, line feed, vertical tab, form feed, carriage return, space. -/
def blanks : Bytes := [9, 10, 11, 12, 13, 32]

/-- The white space of Unicode outside ASCII: next line, no-break space, the spaces between U+1680 and U+3000. -/
def wideBlanks : List Nat :=
  [0x85, 0xA0, 0x1680, 0x2000, 0x2001, 0x2002, 0x2003, 0x2004, 0x2005, 0x2006, 0x2007, 0x2008, 0x2009, 0x200A, 0x2028, 0x2029,
    0x202F, 0x205F, 0x3000]

/-- All white space. -/
def allBlanks : List Nat := blanks.map UInt8.toNat ++ wideBlanks

/-- A code point below U+10000 in UTF-8. -/
def utf8 (c : Nat) : Bytes :=
  if c < 0x80 then [UInt8.ofNat c]
  else if c < 0x800 then [UInt8.ofNat (0xC0 + c / 64), UInt8.ofNat (0x80 + c % 64)]
  else [UInt8.ofNat (0xE0 + c / 4096), UInt8.ofNat (0x80 + c / 64 % 64), UInt8.ofNat (0x80 + c % 64)]

/-- A word of a command: not empty, without white space of ASCII, and without other white space at its ends. -/
structure IsWord (w : Bytes) : Prop where
  some : w ≠ []
  narrow : ∀ c ∈ w, c ∉ blanks
  wide : ∀ c ∈ wideBlanks, ¬ utf8 c <+: w ∧ ¬ utf8 c <:+ w

instance (w : Bytes) : Decidable (IsWord w) :=
  decidable_of_iff (w ≠ [] ∧ (∀ c ∈ w, c ∉ blanks) ∧ ∀ c ∈ wideBlanks, ¬ utf8 c <+: w ∧ ¬ utf8 c <:+ w)
    ⟨fun h => ⟨h.1, h.2.1, h.2.2⟩, fun h => ⟨h.some, h.narrow, h.wide⟩⟩

/-- Words with a space between them. -/
def spaced : List Bytes → Bytes
  | [] => []
  | [w] => w
  | w :: rest => w ++ 32 :: spaced rest

end Willow.Spec
