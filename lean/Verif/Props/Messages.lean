import Verif.Lemmas.PropsMessages
import Verif.Lemmas.Messages

/-! C59: control messages round-trip. -/

namespace Willow.Props

open Willow Spec

/-- C59, partial: an issue-guarantee message comes back with its channel and amount, but with
the kind of an absolve message. -/
theorem C59_issueGuarantee_partial (amount : UInt64) (channel : Channel) (h : channel ≠ .control) :
    RoundTrips decodeControlIssueGuarantee (encodeControlIssueGuarantee amount channel)
      ⟨.controlAbsolve, .controlIssueGuarantee amount channel⟩ := by
  have := roundTrips_two (mk := fun v c => ⟨.controlAbsolve, .controlIssueGuarantee v (decodeChannelFromBeginningOfByte c)⟩)
    (c := channelMaskStart 0 channel) (x := amount)
    (width_widthHeader (n := amount.toNat) (h1 := 0x80) (h2 := 0x81) (h4 := 0x82) (h8 := 0x83) rfl rfl rfl rfl)
  rw [decode_channelMaskStart h] at this
  exact this

example : encodeControlIssueGuarantee 300 .capability = [0x81, 0x60, 1, 44] ∧ Channel.capability ≠ .control ∧
    (⟨[0x81], [[0x60, 1], [44, 9]], [], .exact⟩ : GB).content = [0x81, 0x60, 1, 44] ++ [9] := by decide

/-- C59 is violated: no issue-guarantee message comes back with its own kind. -/
theorem C59_violated_issueGuarantee (g g' : GB) (m : Msg) (h : decodeControlIssueGuarantee g = .ok (m, g')) :
    m.kind ≠ .controlIssueGuarantee := by
  unfold decodeControlIssueGuarantee at h
  obtain ⟨_, _, _, h⟩ := Dec.bind_ok.1 h
  obtain ⟨_, _, _, h⟩ := Dec.bind_ok.1 h
  obtain ⟨_, _, _, h⟩ := Dec.bind_ok.1 h
  obtain ⟨_, _, _, h⟩ := Dec.bind_ok.1 h
  obtain ⟨_, _, _, h⟩ := Dec.bind_ok.1 h
  obtain ⟨_, _, _, h⟩ := Dec.bind_ok.1 h
  obtain ⟨_, _, _, h⟩ := Dec.bind_ok.1 h
  simp only [Dec.pure_apply, Res.ok.injEq, Prod.mk.injEq] at h
  rw [← h.1]
  intro hk
  cases hk

example : (decodeControlIssueGuarantee ⟨encodeControlIssueGuarantee 300 .capability, [], [], .exact⟩) =
    .ok (⟨.controlAbsolve, .controlIssueGuarantee 300 .capability⟩, ⟨[], [], [], .exact⟩) := by decide

/-- C59 for absolve messages. (`ControlChannel` is not a logical channel: no message is sent on
it under guarantees, and it has no code of its own.) -/
theorem C59_absolve_partial (amount : UInt64) (channel : Channel) (h : channel ≠ .control) :
    RoundTrips decodeControlAbsolve (encodeControlAbsolve amount channel) (message (.controlAbsolve amount channel)) := by
  have := roundTrips_two (mk := fun v c => ⟨.controlAbsolve, .controlAbsolve v (decodeChannelFromBeginningOfByte c)⟩)
    (c := channelMaskStart 0 channel) (x := amount)
    (width_widthHeader (n := amount.toNat) (h1 := 0x84) (h2 := 0x85) (h4 := 0x86) (h8 := 0x87) rfl rfl rfl rfl)
  rw [decode_channelMaskStart h] at this
  exact this

example : encodeControlAbsolve 70000 .staticToken = [0x86, 0xc0, 0, 1, 17, 112] ∧ Channel.staticToken ≠ .control := by
  decide

/-- C59 for plead messages. -/
theorem C59_plead_partial (target : UInt64) (channel : Channel) (h : channel ≠ .control) :
    RoundTrips decodeControlPlead (encodeControlPlead target channel) (message (.controlPlead target channel)) := by
  have := roundTrips_two (mk := fun v c => ⟨.controlPlead, .controlPlead v (decodeChannelFromBeginningOfByte c)⟩)
    (c := channelMaskStart 0 channel) (x := target)
    (width_widthHeader (n := target.toNat) (h1 := 0x88) (h2 := 0x89) (h4 := 0x8a) (h8 := 0x8b) rfl rfl rfl rfl)
  rw [decode_channelMaskStart h] at this
  exact this

example : encodeControlPlead 5 .payloadRequest = [0x88, 0xa0, 5] ∧ Channel.payloadRequest ≠ .control := by decide

/-- C59 for announce-dropping messages. -/
theorem C59_announceDropping_partial (channel : Channel) (h : channel ≠ .control) :
    RoundTrips decodeControlAnnounceDropping (encodeControlAnnounceDropping channel)
      (message (.controlAnnounceDropping channel)) := by
  have := roundTrips_one (mk := fun b => ⟨.controlAnnounceDropping, .controlAnnounceDropping (decodeChannelFromEndOfByte b)⟩)
    (h := channelMaskEnd 0x90 channel)
  rw [(decode_channelMaskEnd h).1] at this
  exact this

example : encodeControlAnnounceDropping .data = [0x91] ∧ Channel.data ≠ .control := by decide

/-- C59 for apologise messages. -/
theorem C59_apologise_partial (channel : Channel) (h : channel ≠ .control) :
    RoundTrips decodeControlApologise (encodeControlApologise channel) (message (.controlApologise channel)) := by
  have := roundTrips_one (mk := fun b => ⟨.controlApologise, .controlApologise (decodeChannelFromEndOfByte b)⟩)
    (h := channelMaskEnd 0x98 channel)
  rw [(decode_channelMaskEnd h).2] at this
  exact this

example : encodeControlApologise .areaOfInterest = [0x9c] ∧ Channel.areaOfInterest ≠ .control := by decide

/-- C59, partial: a free message comes back with its handle and handle type, as a message about
the sender's own handle. -/
theorem C59_free_partial (handle : UInt64) (mine : Bool) (handleType : HandleType) :
    RoundTrips decodeControlFree (encodeControlFree handle mine handleType) (message (.controlFree handle true handleType)) := by
  have := roundTrips_two (mk := fun v c => ⟨.controlFree, .controlFree v true (decodeHandleTypeFromBeginningOfByte c)⟩)
    (c := if mine then handleMask 0 handleType ||| 0x10 else handleMask 0 handleType) (x := handle)
    (width_widthHeader (n := handle.toNat) (h1 := 0x8c) (h2 := 0x8d) (h4 := 0x8e) (h8 := 0x8f) rfl rfl rfl rfl)
  rw [decode_handleMask] at this
  exact this

example : encodeControlFree 300 false .staticToken = [0x8d, 0x80, 1, 44] ∧
    encodeControlFree 300 true .staticToken = [0x8d, 0x90, 1, 44] := by decide

/-- C59 is violated: no free message about a handle of the receiver comes back. -/
theorem C59_violated_free (handle : UInt64) (handleType : HandleType) (g : GB) (rest : Bytes)
    (hg : g.content = encodeControlFree handle false handleType ++ rest) :
    ¬ ∃ g', decodeControlFree g = .ok (message (.controlFree handle false handleType), g') := by
  obtain ⟨g1, h1, -⟩ := C59_free_partial handle false handleType g rest hg
  rintro ⟨g', h⟩
  rw [h1] at h
  simp [message] at h

example : (⟨[0x8d, 0x80], [[1, 44]], [], .exact⟩ : GB).content = encodeControlFree 300 false .staticToken ++ [] := by decide

/-- C59 is violated for `ControlChannel`: it comes back as the reconciliation channel. -/
theorem C59_violated_control (amount : UInt64) :
    RoundTrips decodeControlAbsolve (encodeControlAbsolve amount .control)
      (message (.controlAbsolve amount .reconciliation)) ∧
    ¬ RoundTrips decodeControlAbsolve (encodeControlAbsolve amount .control)
      (message (.controlAbsolve amount .control)) := by
  have h : RoundTrips decodeControlAbsolve (encodeControlAbsolve amount .control)
      (message (.controlAbsolve amount .reconciliation)) := C59_absolve_partial amount .reconciliation (by decide)
  refine ⟨h, fun h' => ?_⟩
  obtain ⟨_, h1, -⟩ := h ⟨encodeControlAbsolve amount .control, [], [], .exact⟩ [] (by simp [GB.content])
  obtain ⟨_, h2, -⟩ := h' ⟨encodeControlAbsolve amount .control, [], [], .exact⟩ [] (by simp [GB.content])
  rw [h1] at h2
  simp [message] at h2

example : encodeControlAbsolve 7 .control = encodeControlAbsolve 7 .reconciliation := rfl

end Willow.Props
