import Verif.Lemmas.Messages
import Verif.Lemmas.PropsRelative

/-! Definitions used in the statements of `Verif/Props/MessagesData.lean`. -/

namespace Willow.Props

open Willow Spec

/-- Schemes used in examples: ids of 1 byte, digests and dynamic tokens of 2. -/
def exSchemes : Schemes where
  ns := fixedCodec 1
  ss := fixedCodec 1
  pd := fixedCodec 2
  eqNs := (· == ·)
  ordS := orderSubspace
  p := tinyParams
  dynamicToken := fixedCodec 2
  staticToken := fixedCodec 2
  groupMember := fixedCodec 2
  subspaceCap := fixedCodec 2
  subspaceSig := fixedCodec 2
  readCap := fixedCodec 2
  syncSig := fixedCodec 2
  fingerprint := fixedCodec 2
  neutral := [0, 0]

end Willow.Props
