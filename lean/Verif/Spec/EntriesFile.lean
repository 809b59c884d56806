import Verif.Spec.Commands
import Verif.Spec.StoreOps
import Verif.Spec.Json
import Verif.Model.EntriesFile

/-! Sessions whose words are short, and what `entries.json` should say. -/

namespace Willow.Spec

/-- Each part of the line without a space in it has fewer than `n` bytes. -/
def ShortWords (n : Nat) (line : Bytes) : Prop := ∀ a w b, line = a ++ w ++ b → (32 : UInt8) ∉ w → w.length < n

/-- A store that commands lead to whose paths the path arithmetic handles exactly. -/
def ByFineCommands (env : StoreEnv) (st : StoreState) : Prop :=
  ∃ ops, (∀ op ∈ ops, CommandOp op ∧ FineOp env op) ∧ runOps env .empty ops = .ok st

/-- A list of texts is a list of byte strings in base 64. -/
def Base64Texts (l texts : List Bytes) : Prop :=
  texts.length = l.length ∧ ∀ (i : Nat) (b t : Bytes), l[i]? = some b → texts[i]? = some t → Base64Text b t

/-- The object that tells of a key: its timestamp, subspace, path and fingerprint, under these names. -/
def TellsKey (k : KdKey) (v : Json) : Prop :=
  ∃ (subspace : Bytes) (path : List Bytes), Base64Text k.pos.subspace subspace ∧ Base64Texts k.pos.path path ∧
    v = .object [("Timestamp".toUTF8.toList, .number k.pos.time.toNat), ("Subspace".toUTF8.toList, .string subspace),
      ("Path".toUTF8.toList, .array (path.map .string)), ("Fingerprint".toUTF8.toList, .string k.fingerprint)]

end Willow.Spec
