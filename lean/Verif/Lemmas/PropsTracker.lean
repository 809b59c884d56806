import Verif.Model.MessageLoop
import Verif.Spec.Tracker

/-! The tracker of reconciliation messages after a history. -/

namespace Willow
open Spec

/-- The method that is called for an event. -/
def Tracker.told (h2n : UInt64 → Bytes) (t : Tracker) : TrackerEvent → Tracker
  | .fingerprint r s c => t.onSendFingerprint r s c
  | .announcement r s c n => t.onAnnounceEntries h2n r s c n
  | .entry e tok => t.onSendEntry e tok
  | .payloadEnd => t.onTerminatePayload

theorem latest_snoc {α : Type} (f : TrackerEvent → Option α) (h : List TrackerEvent) (e : TrackerEvent) :
    latestOf f (h ++ [e]) = (f e).or (latestOf f h) := by
  unfold latestOf
  rw [List.filterMap_append, List.getLast?_append]
  cases hf : f e <;> simp [hf]

theorem entriesSince_snoc (h : List TrackerEvent) (e : TrackerEvent) :
    entriesSince (h ++ [e]) = if e.announced.isSome then 0 else if e.sent.isSome then entriesSince h + 1 else entriesSince h := by
  unfold entriesSince
  rw [List.reverse_append, List.reverse_singleton, List.singleton_append, List.takeWhile_cons]
  cases ha : e.announced
  · cases hs : e.sent <;> simp [hs]
  · simp

/-- What is known of a tracker that started as `t0`. -/
structure Tracks (h2n : UInt64 → Bytes) (t0 t : Tracker) (h : List TrackerEvent) : Prop where
  ranged : (t.prevRange, t.prevSenderHandle, t.prevReceiverHandle) =
    (latestOf TrackerEvent.ranged h).getD (t0.prevRange, t0.prevSenderHandle, t0.prevReceiverHandle)
  announced : (t.announcedRange, t.announcedNamespace) =
    ((latestOf TrackerEvent.announced h).map fun x => (x.1, h2n x.2.1)).getD (t0.announcedRange, t0.announcedNamespace)
  sent : (t.prevEntry, t.prevToken) = (latestOf TrackerEvent.sent h).getD (t0.prevEntry, t0.prevToken)
  payload : t.isAwaitingTermination = (latestOf TrackerEvent.payload h).getD t0.isAwaitingTermination
  remaining : t.announcedEntriesRemaining = ((latestOf TrackerEvent.announced h).map (·.2.2)).getD t0.announcedEntriesRemaining -
    UInt64.ofNat (entriesSince h)

theorem tracks_nil (h2n : UInt64 → Bytes) (t : Tracker) : Tracks h2n t t [] :=
  ⟨rfl, rfl, rfl, rfl, by simp [latestOf, entriesSince]⟩

theorem tracks_snoc {h2n : UInt64 → Bytes} {t0 t : Tracker} {h : List TrackerEvent} (ht : Tracks h2n t0 t h) (e : TrackerEvent) :
    Tracks h2n t0 (t.told h2n e) (h ++ [e]) := by
  obtain ⟨h1, h2, h3, h4, h5⟩ := ht
  constructor <;> simp only [latest_snoc, entriesSince_snoc]
  · cases e <;> simp [TrackerEvent.ranged, Tracker.told, Tracker.onSendFingerprint, Tracker.onAnnounceEntries, Tracker.onSendEntry,
      Tracker.onTerminatePayload] <;> exact h1
  · cases e <;> simp [TrackerEvent.announced, Tracker.told, Tracker.onSendFingerprint, Tracker.onAnnounceEntries, Tracker.onSendEntry,
      Tracker.onTerminatePayload] <;> exact h2
  · cases e <;> simp [TrackerEvent.sent, Tracker.told, Tracker.onSendFingerprint, Tracker.onAnnounceEntries, Tracker.onSendEntry,
      Tracker.onTerminatePayload] <;> exact h3
  · cases e <;> simp [TrackerEvent.payload, Tracker.told, Tracker.onSendFingerprint, Tracker.onAnnounceEntries, Tracker.onSendEntry,
      Tracker.onTerminatePayload] <;> exact h4
  · cases e with
    | entry e tok =>
      simp only [Tracker.told, Tracker.onSendEntry, TrackerEvent.announced, TrackerEvent.sent, h5, Option.none_or,
        Option.isSome_none, Option.isSome_some, Bool.false_eq_true, if_true, if_false]
      rw [UInt64.ofNat_add]
      generalize UInt64.ofNat (entriesSince h) = a
      generalize Option.getD _ _ = b
      grind
    | _ => simp [TrackerEvent.announced, TrackerEvent.sent, Tracker.told, Tracker.onSendFingerprint, Tracker.onAnnounceEntries,
        Tracker.onTerminatePayload, h5]

theorem tracks_run (h2n : UInt64 → Bytes) (t0 : Tracker) : ∀ (evs : List TrackerEvent) (t : Tracker) (h : List TrackerEvent),
    Tracks h2n t0 t h → Tracks h2n t0 (evs.foldl (Tracker.told h2n) t) (h ++ evs)
  | [], _, _, ht => by simpa using ht
  | e :: evs, t, h, ht => by
    have := tracks_run h2n t0 evs _ _ (tracks_snoc ht e)
    simpa using this

theorem tracks_all (h2n : UInt64 → Bytes) (t : Tracker) (evs : List TrackerEvent) :
    Tracks h2n t (evs.foldl (Tracker.told h2n) t) evs := by
  simpa using tracks_run h2n t evs t [] (tracks_nil h2n t)

theorem entriesAnnounced_lt (evs : List TrackerEvent) : entriesAnnounced evs < 2 ^ 64 := by
  unfold entriesAnnounced
  split
  · exact UInt64.toNat_lt _
  · decide

/-- Whether an entry is expected, for every history. -/
theorem tracker_expects (h2n : UInt64 → Bytes) (ns sub dig : Bytes) (evs : List TrackerEvent) :
    (evs.foldl (Tracker.told h2n) (newTracker ns sub dig)).isExpectingReconciliationSendEntry =
      decide (entriesSince evs % 2 ^ 64 ≠ entriesAnnounced evs) := by
  have h := (tracks_all h2n (newTracker ns sub dig) evs).remaining
  unfold Tracker.isExpectingReconciliationSendEntry
  rw [h, decide_eq_decide]
  have ha : (((latestOf TrackerEvent.announced evs).map (·.2.2)).getD (newTracker ns sub dig).announcedEntriesRemaining).toNat =
      entriesAnnounced evs := by
    unfold entriesAnnounced
    cases latestOf TrackerEvent.announced evs <;> rfl
  have hlt := entriesAnnounced_lt evs
  have hb : (UInt64.ofNat (entriesSince evs)).toNat = entriesSince evs % 2 ^ 64 := by simp
  generalize Option.getD _ _ = a at ha ⊢
  generalize UInt64.ofNat (entriesSince evs) = b at hb ⊢
  rw [GT.gt, UInt64.lt_iff_toNat_lt, UInt64.toNat_sub]
  have := a.toNat_lt
  have := b.toNat_lt
  have h0 : (0 : UInt64).toNat = 0 := rfl
  omega

end Willow
