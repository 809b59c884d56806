import Verif.Spec.Categories
import Verif.Props.MessageLoop

/-! Property C106: the categories of messages and the channels they are sent over. -/

namespace Willow.Props

open Willow Spec

/-- C106: every message is in exactly one category. -/
theorem C106_one_category (body : Body) : ∃ c, implements body c = true ∧ ∀ c', implements body c' = true → c' = c := by
  cases body
  case reconciliationSendFingerprint => exact ⟨.reconciliation, rfl, fun c' h => by cases c' <;> simp_all [implements]⟩
  case reconciliationAnnounceEntries => exact ⟨.reconciliation, rfl, fun c' h => by cases c' <;> simp_all [implements]⟩
  case reconciliationSendEntry => exact ⟨.reconciliation, rfl, fun c' h => by cases c' <;> simp_all [implements]⟩
  case reconciliationSendPayload => exact ⟨.reconciliation, rfl, fun c' h => by cases c' <;> simp_all [implements]⟩
  case reconciliationTerminatePayload => exact ⟨.reconciliation, rfl, fun c' h => by cases c' <;> simp_all [implements]⟩
  case dataSendEntry => exact ⟨.data, rfl, fun c' h => by cases c' <;> simp_all [implements]⟩
  case dataReplyPayload => exact ⟨.data, rfl, fun c' h => by cases c' <;> simp_all [implements]⟩
  case dataSendPayload => exact ⟨.data, rfl, fun c' h => by cases c' <;> simp_all [implements]⟩
  case paiBindFragment => exact ⟨.intersection, rfl, fun c' h => by cases c' <;> simp_all [implements]⟩
  case setupBindReadCapability => exact ⟨.capability, rfl, fun c' h => by cases c' <;> simp_all [implements]⟩
  case setupBindAreaOfInterest => exact ⟨.areaOfInterest, rfl, fun c' h => by cases c' <;> simp_all [implements]⟩
  case dataBindPayloadRequest => exact ⟨.payloadRequest, rfl, fun c' h => by cases c' <;> simp_all [implements]⟩
  case setupBindStaticToken => exact ⟨.staticToken, rfl, fun c' h => by cases c' <;> simp_all [implements]⟩
  all_goals exact ⟨.noChannel, rfl, fun c' h => by cases c' <;> simp_all [implements]⟩

example : implements (.dataSetMetadata true 1 2) .noChannel = true ∧ implements (.dataSetMetadata true 1 2) .data = false := by
  decide

/-- C106, partial: every message except the reply to a fragment is sent over the channel of its
category, and over no channel of another. What is missing: the replies to fragments, see
`C106_violated`. -/
theorem C106_partial (s : Schemes) (h2n : UInt64 → Bytes) (current : Entry) (t t' : Tracker) (body : Body) (ch : Channel)
    (bs : Bytes) (h : encodeMessage s h2n current t (message body) = .ok ((ch, bs), t'))
    (hb : ∀ handle member, body ≠ .paiReplyFragment handle member) (c : Category) :
    implements body c = true ↔ ch = categoryChannel c := by
  obtain ⟨-, rfl⟩ := encodeMessage_ok.1 h
  cases body <;> cases c <;>
    first
    | exact absurd rfl (hb _ _)
    | simp [implements, categoryChannel, msgLogicalChannel, message, kindOf]

example : encodeMessage exSchemes (fun _ => []) exRef exTracker (message (.setupBindStaticToken [3, 4])) =
      .ok ((.staticToken, [48, 3, 4]), exTracker) ∧
    implements (.setupBindStaticToken [3, 4]) .staticToken = true := by decide +kernel

/-- C106 is violated: the reply to a fragment is among the messages that belong to no logical
channel, but is sent over the intersection channel. This is so for every reply. -/
theorem C106_violated (s : Schemes) (h2n : UInt64 → Bytes) (current : Entry) (t : Tracker) (handle : UInt64) (member : Bytes) :
    implements (.paiReplyFragment handle member) .noChannel = true ∧
    ∃ bs, encodeMessage s h2n current t (message (.paiReplyFragment handle member)) = .ok ((.intersection, bs), t) ∧
      Channel.intersection ≠ categoryChannel .noChannel :=
  ⟨rfl, _, rfl, by decide⟩

example : encodeMessage exSchemes (fun _ => []) exRef exTracker (message (.paiReplyFragment 5 [3, 4])) =
    .ok ((.intersection, [8, 1, 3, 4]), exTracker) := by decide +kernel

end Willow.Props
