import Verif.Model.Basic

/-! Characters in a string of bytes, after RFC 3629: `String.utf8EncodeChar` of Lean's core library gives the
encoding of a character. -/

namespace Willow.Spec

/-- The bytes begin with the encoding of a character, of `w` bytes; or with none, and then one byte is taken. -/
def FirstChar (bs : Bytes) (w : Nat) : Prop :=
  (∃ c : Char, String.utf8EncodeChar c <+: bs ∧ w = (String.utf8EncodeChar c).length) ∨
  ((¬ ∃ c : Char, String.utf8EncodeChar c <+: bs) ∧ bs ≠ [] ∧ w = 1)

/-- A character (or a byte that belongs to none) begins at position `i`, when the bytes are read from the front. -/
inductive CharBegins : Bytes → Nat → Prop
  | first {bs : Bytes} : bs ≠ [] → CharBegins bs 0
  | later {bs : Bytes} {w i : Nat} : FirstChar bs w → CharBegins (bs.drop w) i → CharBegins bs (w + i)

/-- The exclusive or of two strings, byte by byte. -/
def IsXor (a b c : Bytes) : Prop :=
  c.length = a.length ∧ ∀ (i : Nat) (x y : UInt8), a[i]? = some x → b[i]? = some y → c[i]? = some (x ^^^ y)

end Willow.Spec
