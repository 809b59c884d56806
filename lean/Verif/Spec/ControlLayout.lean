import Verif.Model.Messages

/-! The layout of control messages: numbers of some bits one after the other, the first in the highest bits. -/

namespace Willow.Spec

/-- The number made of fields, each with its number of bits and its value. -/
def packed : List (Nat × Nat) → Nat
  | [] => 0
  | (_, v) :: rest => v * 2 ^ (rest.map Prod.fst).sum + packed rest

/-- `n` in `width` bytes, the highest first. -/
def inBytes (width n : Nat) : List Nat := (List.range width).map fun i => n / 256 ^ (width - 1 - i) % 256

/-- `w` is the code of the least of the widths 1, 2, 4 and 8 in which `n` fits. -/
def WidthCode (n w : Nat) : Prop := w ≤ 3 ∧ n < 256 ^ 2 ^ w ∧ ∀ v < w, 256 ^ 2 ^ v ≤ n

/-- The logical channels in their order. -/
def channelNumber : Channel → Option Nat
  | .reconciliation => some 0
  | .data => some 1
  | .intersection => some 2
  | .capability => some 3
  | .areaOfInterest => some 4
  | .payloadRequest => some 5
  | .staticToken => some 6
  | .control => none

/-- The handle types in their order. -/
def handleNumber : HandleType → Nat
  | .intersection => 0
  | .capability => 1
  | .areaOfInterest => 2
  | .payloadRequest => 3
  | .staticToken => 4

/-- A control message. -/
inductive Control where
  | issueGuarantee (amount : UInt64) (channel : Channel)
  | absolve (amount : UInt64) (channel : Channel)
  | plead (target : UInt64) (channel : Channel)
  | announceDropping (channel : Channel)
  | apologise (channel : Channel)
  | free (handle : UInt64) (mine : Bool) (handleType : HandleType)

/-- Its encoding. -/
def Control.bytes : Control → Bytes
  | .issueGuarantee amount channel => encodeControlIssueGuarantee amount channel
  | .absolve amount channel => encodeControlAbsolve amount channel
  | .plead target channel => encodeControlPlead target channel
  | .announceDropping channel => encodeControlAnnounceDropping channel
  | .apologise channel => encodeControlApologise channel
  | .free handle mine handleType => encodeControlFree handle mine handleType

/-- The layout: the bits 100, three bits for the kind, and either the code of a width, a second byte, and a number of that
width, or one bit for the kind and the channel. -/
def Control.HasLayout : Control → List Nat → Prop
  | .issueGuarantee n channel, bytes => ∃ c w, channelNumber channel = some c ∧ WidthCode n.toNat w ∧
      bytes = packed [(3, 4), (3, 0), (2, w)] :: packed [(3, c), (5, 0)] :: inBytes (2 ^ w) n.toNat
  | .absolve n channel, bytes => ∃ c w, channelNumber channel = some c ∧ WidthCode n.toNat w ∧
      bytes = packed [(3, 4), (3, 1), (2, w)] :: packed [(3, c), (5, 0)] :: inBytes (2 ^ w) n.toNat
  | .plead n channel, bytes => ∃ c w, channelNumber channel = some c ∧ WidthCode n.toNat w ∧
      bytes = packed [(3, 4), (3, 2), (2, w)] :: packed [(3, c), (5, 0)] :: inBytes (2 ^ w) n.toNat
  | .announceDropping channel, bytes => ∃ c, channelNumber channel = some c ∧ bytes = [packed [(3, 4), (2, 2), (3, c)]]
  | .apologise channel, bytes => ∃ c, channelNumber channel = some c ∧ bytes = [packed [(3, 4), (2, 3), (3, c)]]
  | .free n mine handleType, bytes => ∃ w, WidthCode n.toNat w ∧
      bytes = packed [(3, 4), (3, 3), (2, w)] :: packed [(3, handleNumber handleType), (1, if mine then 1 else 0), (4, 0)] ::
        inBytes (2 ^ w) n.toNat

/-- The channel of the message, if any, is a logical one. -/
def Control.Logical : Control → Prop
  | .issueGuarantee _ channel | .absolve _ channel | .plead _ channel | .announceDropping channel | .apologise channel =>
    channel ≠ .control
  | .free .. => True

end Willow.Spec
