import Verif.Spec.DataSender
import Verif.Props.Transfer

/-! Lemmas for the theorems of `Verif/Props/DataSender.lean`. -/

namespace Willow.Props

open Willow Spec

theorem payload_eq (w : SenderWorld) (e : Entry) : w.payload e = payloadOf w e := rfl

/-- The queue after calls that only queue: what they asked for, in order. -/
theorem senderRun_queue (transform : Bytes → Bytes) (calls : List (SenderWorld × SenderCall)) (hm : ∀ c ∈ calls, c.2 ≠ .messages) (q : List Queued) :
    ∃ q', senderRun transform calls q = ([], q ++ q') ∧
      ∀ w : SenderWorld, (∀ x ∈ calls.filterMap (fun c => asks c.1 c.2), Readable w x.2.1 x.2.2) →
        (∀ y ∈ q'.map w.read, SmallItem y ∧ Inside y) ∧
        (q'.map w.read).filterMap (wanted transform) =
          (calls.filterMap fun c => asks c.1 c.2).map fun x => (x.1, sentBytes transform w x.2.1 x.2.2) := by
  induction calls generalizing q with
  | nil => exact ⟨[], by simp [senderRun], fun w _ => ⟨by simp, rfl⟩⟩
  | cons c calls ih =>
    have ih := ih fun c hc => hm c (List.mem_cons_of_mem _ hc)
    obtain ⟨w0, call⟩ := c
    cases call with
    | messages => exact absurd rfl (hm _ List.mem_cons_self)
    | entry e handle token offset =>
      unfold senderRun queueEntry
      rw [payload_eq]
      cases hp : payloadOf w0 e with
      | none =>
        obtain ⟨q', h1, h2⟩ := ih q
        refine ⟨q', h1, fun w hw => ?_⟩
        have ha : asks w0 (.entry e handle token offset) = none := by simp [asks, hp]
        simp only [List.filterMap_cons, ha] at hw ⊢
        exact h2 w hw
      | some b =>
        obtain ⟨q', h1, h2⟩ := ih (q ++ [.entry e offset handle token])
        refine ⟨.entry e offset handle token :: q', by simpa using h1, fun w hw => ?_⟩
        have ha : asks w0 (.entry e handle token offset) = some (.sendEntry e handle token offset, e, offset) := by simp [asks, hp]
        simp only [List.filterMap_cons, ha, List.mem_cons, forall_eq_or_imp] at hw ⊢
        obtain ⟨⟨b', hb1, hb2, hb3⟩, hw⟩ := hw
        obtain ⟨h3, h4⟩ := h2 w hw
        refine ⟨?_, ?_⟩
        · simp only [List.map_cons, List.mem_cons, forall_eq_or_imp]
          refine ⟨?_, h3⟩
          simp only [SenderWorld.read, payload_eq, hb1, Option.getD_some]
          exact ⟨hb2, hb3⟩
        · simp only [List.map_cons, List.filterMap_cons, h4, SenderWorld.read, payload_eq, wanted, sentBytes]
    | request handle =>
      unfold senderRun queuePayloadRequest
      cases hr : w0.requests.get handle with
      | none =>
        obtain ⟨q', h1, h2⟩ := ih q
        refine ⟨q', h1, fun w hw => ?_⟩
        have ha : asks w0 (.request handle) = none := by simp [asks, hr]
        simp only [List.filterMap_cons, ha] at hw ⊢
        exact h2 w hw
      | some r =>
        dsimp only
        rw [payload_eq]
        cases hp : payloadOf w0 r.entry with
        | none =>
          obtain ⟨q', h1, h2⟩ := ih q
          refine ⟨q', by simpa [hp] using h1, fun w hw => ?_⟩
          have ha : asks w0 (.request handle) = none := by simp [asks, hr, hp]
          simp only [List.filterMap_cons, ha] at hw ⊢
          exact h2 w hw
        | some b =>
          obtain ⟨q', h1, h2⟩ := ih (q ++ [.request handle r.offset r.entry])
          refine ⟨.request handle r.offset r.entry :: q', by simpa [hp] using h1, fun w hw => ?_⟩
          have ha : asks w0 (.request handle) = some (.replyPayload handle, r.entry, r.offset) := by simp [asks, hr, hp]
          simp only [List.filterMap_cons, ha, List.mem_cons, forall_eq_or_imp] at hw ⊢
          obtain ⟨⟨b', hb1, hb2, hb3⟩, hw⟩ := hw
          obtain ⟨h3, h4⟩ := h2 w hw
          refine ⟨?_, ?_⟩
          · simp only [List.map_cons, List.mem_cons, forall_eq_or_imp]
            refine ⟨?_, h3⟩
            simp only [SenderWorld.read, payload_eq, hb1, Option.getD_some]
            exact ⟨hb2, hb3⟩
          · simp only [List.map_cons, List.filterMap_cons, h4, SenderWorld.read, payload_eq, wanted, sentBytes]

theorem senderRun_append (transform : Bytes → Bytes) (a b : List (SenderWorld × SenderCall)) (q : List Queued) :
    senderRun transform (a ++ b) q =
      ((senderRun transform a q).1 ++ (senderRun transform b (senderRun transform a q).2).1,
        (senderRun transform b (senderRun transform a q).2).2) := by
  induction a generalizing q with
  | nil => rfl
  | cons c a ih =>
    obtain ⟨w, call⟩ := c
    cases call with
    | entry e h t o => exact ih _
    | request h => exact ih _
    | messages =>
      simp only [List.cons_append, senderRun, ih]

/-- If nothing fails, the messages for more elements follow. -/
theorem dataMessages_append (transform : Bytes → Bytes) (b : List SendItem) : ∀ a : List SendItem, (dataMessages transform a).2 = false →
    dataMessages transform (a ++ b) = ((dataMessages transform a).1 ++ (dataMessages transform b).1, (dataMessages transform b).2)
  | [], _ => rfl
  | .nil :: a, h => dataMessages_append transform b a h
  | .entry e o s d p :: a, h => by
    simp only [dataMessages, List.cons_append] at h ⊢
    cases hb : bytesFrom p o with
    | none => rw [hb] at h; cases h
    | some bytes =>
      rw [hb] at h
      dsimp only at h ⊢
      rw [dataMessages_append transform b a h]
      simp
  | .request n o p :: a, h => by
    simp only [dataMessages, List.cons_append] at h ⊢
    cases hb : bytesFrom p o with
    | none => rw [hb] at h; cases h
    | some bytes =>
      rw [hb] at h
      dsimp only at h ⊢
      rw [dataMessages_append transform b a h]
      simp

theorem bytesFrom_nil (o : UInt64) : bytesFrom [] o = none := by
  unfold bytesFrom
  split
  · rfl
  · simp [payloadBytesWithOffset]

/-- What one call queues, and what is made of it if the payload is gone. -/
theorem senderRun_one (transform : Bytes → Bytes) (w0 : SenderWorld) (c : SenderCall) (header : DataMsg) (e : Entry) (offset : UInt64)
    (h : asks w0 c = some (header, e, offset)) (q : List Queued) :
    ∃ y, senderRun transform [(w0, c)] q = ([], q ++ [y]) ∧
      ∀ (w : SenderWorld) (rest : List SendItem), (payloadOf w e).getD [] = [] →
        dataMessages transform (w.read y :: rest) = ([header], true) := by
  cases c with
  | messages => cases h
  | entry e' handle token o =>
    simp only [asks] at h
    split at h
    · rename_i hp
      cases h
      refine ⟨.entry e offset handle token, ?_, fun w rest hw => ?_⟩
      · simp only [senderRun, queueEntry, payload_eq]
        obtain ⟨b, hb⟩ := Option.isSome_iff_exists.1 hp
        simp [hb]
      · simp only [SenderWorld.read, payload_eq, hw, dataMessages]
        rw [bytesFrom_nil]
    · cases h
  | request handle =>
    unfold asks at h
    cases hr : w0.requests.get handle with
    | none => simp [hr] at h
    | some r =>
      simp only [hr] at h
      split at h
      · rename_i hp
        cases h
        refine ⟨.request handle r.offset r.entry, ?_, fun w rest hw => ?_⟩
        · simp only [senderRun, queuePayloadRequest, payload_eq, hr]
          obtain ⟨b, hb⟩ := Option.isSome_iff_exists.1 hp
          simp [hb]
        · simp only [SenderWorld.read, payload_eq, hw, dataMessages]
          rw [bytesFrom_nil]
      · cases h

end Willow.Props
