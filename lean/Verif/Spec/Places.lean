import Verif.Spec.Commands

/-! Names of namespaces. -/

namespace Willow.Spec

/-- A name that is a name of a directory: not empty, not `.` or `..`, without a slash or a byte 0, not too long. -/
structure PlainName (name : Bytes) : Prop where
  some : name ≠ []
  here : name ≠ [46]
  up : name ≠ [46, 46]
  slash : (47 : UInt8) ∉ name
  zero : (0 : UInt8) ∉ name
  short : name.length ≤ 255

instance (name : Bytes) : Decidable (PlainName name) :=
  decidable_of_iff (name ≠ [] ∧ name ≠ [46] ∧ name ≠ [46, 46] ∧ (47 : UInt8) ∉ name ∧ (0 : UInt8) ∉ name ∧ name.length ≤ 255)
    ⟨fun ⟨a, b, c, d, e, f⟩ => ⟨a, b, c, d, e, f⟩, fun ⟨a, b, c, d, e, f⟩ => ⟨a, b, c, d, e, f⟩⟩

/-- A line that gives no other name to a new namespace: the word after `new`, if there is one, is a plain name. -/
def PlainLine (line : Bytes) : Prop :=
  ∀ name more, (32 : UInt8) ∉ name → line = spaced ([110, 101, 119] :: name :: more) → PlainName name

/-- `willow`, and in the directory of a namespace `entries`, `payloadrefcounter` and `payload`. -/
def homeName : Bytes := [119, 105, 108, 108, 111, 119]

@[inherit_doc homeName] def entriesName : Bytes := [101, 110, 116, 114, 105, 101, 115]

@[inherit_doc homeName] def refsName : Bytes :=
  [112, 97, 121, 108, 111, 97, 100, 114, 101, 102, 99, 111, 117, 110, 116, 101, 114]

@[inherit_doc homeName] def payloadName : Bytes := [112, 97, 121, 108, 111, 97, 100]

end Willow.Spec
