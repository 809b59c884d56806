import Verif.Lemmas.PropsTracker

/-! Property C113: what the tracker of reconciliation messages knows. -/

namespace Willow.Props

open Willow Spec

/-- C113, the parts that hold of every history: what is told to those who encode and decode relative
to earlier messages is what the latest fingerprint or announcement, the latest entry and the
latest announcement said, and a payload or its end is expected exactly if the latest entry is
later than the latest end of a payload. -/
theorem C113_privy (h2n : UInt64 → Bytes) (ns sub dig : Bytes) (history : List TrackerEvent) :
    let t := history.foldl (Tracker.told h2n) (newTracker ns sub dig)
    (t.getPrivy.prevRange, t.getPrivy.prevSenderHandle, t.getPrivy.prevReceiverHandle) =
      (latestOf TrackerEvent.ranged history).getD (⟨⟨sub, [], true⟩, ⟨[], [], true⟩, ⟨0, 0, true⟩⟩, 0, 0) ∧
    (t.getPrivy.prevEntry, t.getPrivy.prevStaticTokenHandle) =
      (latestOf TrackerEvent.sent history).getD (⟨ns, sub, [], dig, 0, 0⟩, 0) ∧
    (t.getPrivy.announcedRange, t.getPrivy.announcedNamespace) =
      (match latestOf TrackerEvent.announced history with
        | some (range, receiver, _) => (range, h2n receiver)
        | none => (⟨⟨sub, [], true⟩, ⟨[], [], true⟩, ⟨0, 0, true⟩⟩, ns)) ∧
    t.isExpectingPayloadOrTermination = (latestOf TrackerEvent.payload history = some true) := by
  intro t
  have ht := tracks_all h2n (newTracker ns sub dig) history
  refine ⟨ht.ranged, ht.sent, ?_, ?_⟩
  · refine ht.announced.trans ?_
    cases latestOf TrackerEvent.announced history <;> rfl
  · have h4 : t.isExpectingPayloadOrTermination = (latestOf TrackerEvent.payload history).getD false := ht.payload
    rw [h4]
    cases latestOf TrackerEvent.payload history with
    | none => simp
    | some b => cases b <;> simp

example :
    let e : Entry := ⟨[42], [7], [[1]], [9], 2, 5⟩
    let r : Range3d := ⟨⟨[7], [8], false⟩, ⟨[], [], true⟩, ⟨3, 9, false⟩⟩
    let r' : Range3d := ⟨⟨[6], [], true⟩, ⟨[[2]], [], true⟩, ⟨0, 9, false⟩⟩
    let t := [TrackerEvent.announcement r 3 4 2, .entry e 1, .payloadEnd, .fingerprint r' 5 6, .entry e 8].foldl
      (Tracker.told fun h => [h.toUInt8]) (newTracker [42] [0] [0])
    t.getPrivy.prevRange = r' ∧ t.getPrivy.prevSenderHandle = 5 ∧ t.getPrivy.announcedRange = r ∧
      t.getPrivy.announcedNamespace = [4] ∧ t.getPrivy.prevStaticTokenHandle = 8 ∧
      t.isExpectingPayloadOrTermination = true := by decide +kernel

/-- C113, partial: entries are expected exactly while fewer have come since the last announcement than
it announced. Missing: histories with more entries than announced (`C113_violated`). -/
theorem C113_partial (h2n : UInt64 → Bytes) (ns sub dig : Bytes) (history : List TrackerEvent)
    (h : entriesSince history ≤ entriesAnnounced history) :
    (history.foldl (Tracker.told h2n) (newTracker ns sub dig)).isExpectingReconciliationSendEntry =
      decide (entriesSince history < entriesAnnounced history) := by
  rw [tracker_expects]
  have hlt := entriesAnnounced_lt history
  rw [decide_eq_decide]
  omega

example :
    let e : Entry := ⟨[42], [7], [[1]], [9], 2, 5⟩
    let r : Range3d := ⟨⟨[7], [8], false⟩, ⟨[], [], true⟩, ⟨3, 9, false⟩⟩
    let history := [TrackerEvent.announcement r 3 4 7, .entry e 1, .payloadEnd, .announcement r 3 4 2, .entry e 8, .fingerprint r 1 1]
    entriesSince history = 1 ∧ entriesAnnounced history = 2 ∧
      (history.foldl (Tracker.told fun h => [h.toUInt8]) (newTracker [42] [0] [0])).isExpectingReconciliationSendEntry = true ∧
      ((history ++ [TrackerEvent.entry e 9]).foldl (Tracker.told fun h => [h.toUInt8])
        (newTracker [42] [0] [0])).isExpectingReconciliationSendEntry = false := by decide +kernel

/-- C113 is violated: after each entry more than announced the tracker expects further entries, since
its unsigned counter wraps around below zero
(`/repo/pkg/wgps/reconciliation/reconcile_msg_tracker.go:65`). One entry without an announcement
is enough, and it takes 2^64 - 1 more, or an announcement, until none is expected. -/
theorem C113_violated (h2n : UInt64 → Bytes) (ns sub dig : Bytes) (history : List TrackerEvent)
    (h : entriesAnnounced history < entriesSince history) (hfew : entriesSince history < entriesAnnounced history + 2 ^ 64) :
    (history.foldl (Tracker.told h2n) (newTracker ns sub dig)).isExpectingReconciliationSendEntry = true := by
  rw [tracker_expects]
  have hlt := entriesAnnounced_lt history
  rw [decide_eq_true_iff]
  omega

example :
    let e : Entry := ⟨[42], [7], [[1]], [9], 2, 5⟩
    entriesAnnounced [TrackerEvent.entry e 1] = 0 ∧ entriesSince [TrackerEvent.entry e 1] = 1 ∧
      ([TrackerEvent.entry e 1].foldl (Tracker.told fun h => [h.toUInt8]) (newTracker [42] [0] [0])).announcedEntriesRemaining =
        18446744073709551615 := by decide +kernel

end Willow.Props
