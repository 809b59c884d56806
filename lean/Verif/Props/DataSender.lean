import Verif.Lemmas.PropsDataSender
import Verif.Props.Content

/-! C101: queueing payloads and sending them. -/

namespace Willow.Props

open Willow Spec

/-- C101, partial: after any calls that queue entries and payload requests, if the payloads of all
that could be queued can still be read, the messages made are, for each of them in order, its header
and the bytes of the payload from the offset on, and nothing else; calls that fail leave no trace.
Missing: payloads that have gone (see `C101_violated_erased`), empty payloads (see `C69_violated`),
making messages more than once (see `C101_violated_twice`). -/
theorem C101_sent_partial (transform : Bytes → Bytes) (calls : List (SenderWorld × SenderCall)) (hm : ∀ c ∈ calls, c.2 ≠ .messages)
    (w : SenderWorld) (hw : ∀ x ∈ calls.filterMap (fun c => asks c.1 c.2), Readable w x.2.1 x.2.2) :
    ∃ ms, (senderRun transform (calls ++ [(w, .messages)]) newDataSender).1 = [(ms, false)] ∧
      sections ms = (calls.filterMap fun c => asks c.1 c.2).map (fun x => (x.1, sentBytes transform w x.2.1 x.2.2)) ∧
      sections.following ms = [] := by
  obtain ⟨q, h1, h2⟩ := senderRun_queue transform calls hm newDataSender
  obtain ⟨h3, h4⟩ := h2 w hw
  rw [senderRun_append, h1]
  obtain ⟨h5, h6, h7⟩ := C69_complete_partial transform ((newDataSender ++ q).map w.read)
    (by
      intro x hx
      simp only [newDataSender, List.cons_append, List.nil_append, List.map_cons, List.mem_cons] at hx
      rcases hx with rfl | hx
      · trivial
      · exact (h3 x hx).1)
    (by
      intro x hx
      simp only [newDataSender, List.cons_append, List.nil_append, List.map_cons, List.mem_cons] at hx
      rcases hx with rfl | hx
      · trivial
      · exact (h3 x hx).2)
  refine ⟨_, ?_, ?_, h7⟩
  · simp only [senderRun, List.nil_append, List.cons.injEq, and_true]
    exact Prod.ext rfl h5
  · rw [h6]
    simp only [newDataSender, List.cons_append, List.nil_append, List.map_cons, List.filterMap_cons, SenderWorld.read, wanted]
    exact h4

/-- C101, partial: an entry that is stored in the store of its namespace after fine writes and
restarts without collisions of digests can be queued, and the messages carry the payload with which it was set, from the offset on.
Missing: as for `C52_bytes_partial` and `C101_sent_partial`. -/
theorem C101_stored_partial (env : StoreEnv) (he : EnvOk env) (hn : GoodNames env) (ops : List StoreOp)
    (hw : ∀ op ∈ ops, IsWrite op) (hts : TokensBySubspace env ops)
    (hf : ∀ op ∈ ops, FineOp env op) (hlen : ops.length < 2 ^ 64) (hc : NoCollision env.hash (ops.flatMap (bytesGiven env)))
    (st : StoreState) (h : runOps env .empty ops = .ok st) (w : SenderWorld) (hwe : w.env env.namespaceId = env)
    (hwf : w.files env.namespaceId = st.files) (transform : Bytes → Bytes)
    (a : Item) (hp : Proper env.p a) (ha : Holds env st a.pos a.val)
    (now : UInt64) (input : EntryInput) (au : Bytes) (ho : .set now input au ∈ ops) (hd : a.val.payloadDigest = env.hash input.payload)
    (hs : input.payload.length < 2 ^ 63) (handle : UInt64) (token : Bytes) (offset : UInt64) (hoff : offset.toNat < input.payload.length) :
    ∃ ms, (senderRun transform [(w, .entry (a.entry env.namespaceId) handle token offset), (w, .messages)]
        newDataSender).1 = [(ms, false)] ∧
      sections ms = [(.sendEntry (a.entry env.namespaceId) handle token offset,
        (input.payload.drop offset.toNat).flatMap fun b => transform [b])] := by
  have hb := C52_bytes_partial env he hn ops hw hts hf hlen hc st h a hp ha now input au ho hd
  have hpay : payloadOf w (a.entry env.namespaceId) = some input.payload := by
    unfold storeGetPayload at hb
    rw [ha.1] at hb
    dsimp only at hb
    rw [C24_roundtrip a.val hp.digest hp.auth] at hb
    rw [← payload_eq]
    unfold SenderWorld.payload
    simp only [Item.entry, hwe, hwf]
    exact Res.ok.inj hb
  have hask : asks w (.entry (a.entry env.namespaceId) handle token offset) =
      some (.sendEntry (a.entry env.namespaceId) handle token offset, a.entry env.namespaceId, offset) := by
    simp [asks, hpay]
  obtain ⟨ms, h1, h2, _⟩ := C101_sent_partial transform [(w, .entry (a.entry env.namespaceId) handle token offset)]
    (by simp) w (by
      intro x hx
      simp only [List.filterMap_cons, hask, List.filterMap_nil, List.mem_singleton] at hx
      subst hx
      exact ⟨_, hpay, hs, hoff⟩)
  refine ⟨ms, h1, ?_⟩
  rw [h2]
  simp only [List.filterMap_cons, hask, List.filterMap_nil, List.map_cons, List.map_nil, sentBytes, hpay, Option.getD_some]

/-- C101 is violated: making the messages a second time makes all of them again, since the queue is
never emptied. -/
theorem C101_violated_twice (transform : Bytes → Bytes) (calls : List (SenderWorld × SenderCall)) (hm : ∀ c ∈ calls, c.2 ≠ .messages)
    (w : SenderWorld) (hw : ∀ x ∈ calls.filterMap (fun c => asks c.1 c.2), Readable w x.2.1 x.2.2)
    (hne : calls.filterMap (fun c => asks c.1 c.2) ≠ []) :
    ∃ ms, (senderRun transform (calls ++ [(w, .messages), (w, .messages)]) newDataSender).1 = [(ms, false), (ms, false)] ∧ ms ≠ [] := by
  obtain ⟨ms, h1, h2, _⟩ := C101_sent_partial transform calls hm w hw
  refine ⟨ms, ?_, ?_⟩
  · rw [senderRun_append] at h1 ⊢
    obtain ⟨q, h3, _⟩ := senderRun_queue transform calls hm newDataSender
    rw [h3] at h1 ⊢
    simp only [senderRun, List.nil_append, List.cons.injEq, and_true] at h1 ⊢
    exact ⟨h1, h1⟩
  · rintro rfl
    have := congrArg List.length h2
    simp only [sections, List.length_nil, List.length_map] at this
    exact hne (List.eq_nil_of_length_eq_zero this.symm)

/-- The entry of `put`. -/
def putEntry (path : Path) (t : UInt64) (payload : Bytes) : Entry :=
  ⟨cutEnv.namespaceId, [7], path, cutEnv.hash payload, UInt64.ofNat payload.length, t⟩

/-- The payloads in the store after some calls. -/
def worldAfter (ops : List StoreOp) : SenderWorld :=
  ⟨fun _ => cutEnv, fun _ => match runOps cutEnv .empty ops with | .ok st => st.files | _ => [], .empty⟩

example : (∀ x ∈ [((3 : UInt64), putEntry [[1]] 5 [8, 9], (1 : UInt64)), (3, putEntry [[2]] 5 [4], 0)],
      Readable (worldAfter [put [[1]] 5 [8, 9], put [[2]] 5 [4]]) x.2.1 x.2.2) := by
  simp only [List.forall_mem_cons, List.not_mem_nil, false_implies, implies_true, and_true]
  exact ⟨⟨[8, 9], by decide +kernel, by decide, by decide⟩, ⟨[4], by decide +kernel, by decide, by decide⟩⟩

example : (senderRun id [(worldAfter [put [[1]] 5 [8, 9], put [[2]] 5 [4]], .entry (putEntry [[1]] 5 [8, 9]) 3 [0] 1),
      (worldAfter [put [[1]] 5 [8, 9], put [[2]] 5 [4]], .entry (putEntry [[2]] 5 [4]) 3 [0] 0),
      (worldAfter [put [[1]] 5 [8, 9], put [[2]] 5 [4]], .entry (putEntry [[2]] 5 [5]) 3 [0] 0),
      (worldAfter [put [[1]] 5 [8, 9], put [[2]] 5 [4]], .messages)] newDataSender).1 =
    [([.sendEntry (putEntry [[1]] 5 [8, 9]) 3 [0] 1, .sendPayload 1 [9], .sendEntry (putEntry [[2]] 5 [4]) 3 [0] 0, .sendPayload 1 [4]], false)] := by
  decide +kernel

/-- C101 is violated: if the payload of a queued entry is replaced before the messages are made, its
header is sent without a payload, and nothing of what was queued after it. -/
theorem C101_violated_erased : ∃ (before after : List StoreOp) (e : Entry), payloadOf (worldAfter after) e = some [4] ∧
    (senderRun id [(worldAfter before, .entry (putEntry [[1]] 5 [8, 9]) 3 [0] 0), (worldAfter before, .entry e 3 [0] 0), (worldAfter after, .messages)]
      newDataSender).1 = [([.sendEntry (putEntry [[1]] 5 [8, 9]) 3 [0] 0], true)] :=
  ⟨[put [[1]] 5 [8, 9], put [[2]] 5 [4]], [put [[1]] 5 [8, 9], put [[2]] 5 [4], put [[1]] 6 [3]], putEntry [[2]] 5 [4],
    by decide +kernel, by decide +kernel⟩

/-- C101 is violated whenever the payload of something queued is gone (or empty) when the messages are made: they end
with its header, and nothing that was queued after it is sent. -/
theorem C101_violated_gone (transform : Bytes → Bytes) (before after : List (SenderWorld × SenderCall))
    (hb : ∀ c ∈ before, c.2 ≠ .messages) (ha : ∀ c ∈ after, c.2 ≠ .messages) (w0 : SenderWorld) (c : SenderCall)
    (header : DataMsg) (e : Entry) (offset : UInt64) (hc : asks w0 c = some (header, e, offset))
    (w : SenderWorld) (hw : ∀ x ∈ before.filterMap (fun c => asks c.1 c.2), Readable w x.2.1 x.2.2)
    (hgone : payloadOf w e = none ∨ payloadOf w e = some []) :
    ∃ ms, (senderRun transform (before ++ [(w, .messages)]) newDataSender).1 = [(ms, false)] ∧
      (senderRun transform (before ++ (w0, c) :: after ++ [(w, .messages)]) newDataSender).1 = [(ms ++ [header], true)] := by
  obtain ⟨ms, h1, _, _⟩ := C101_sent_partial transform before hb w hw
  obtain ⟨q, h2, -⟩ := senderRun_queue transform before hb newDataSender
  obtain ⟨y, h3, h4⟩ := senderRun_one transform w0 c header e offset hc (newDataSender ++ q)
  obtain ⟨q', h5, -⟩ := senderRun_queue transform after ha (newDataSender ++ q ++ [y])
  refine ⟨ms, h1, ?_⟩
  rw [senderRun_append, h2] at h1
  simp only [senderRun, List.nil_append, List.cons.injEq, and_true] at h1
  have h6 := dataMessages_append transform (w.read y :: q'.map w.read) ((newDataSender ++ q).map w.read) (by rw [h1])
  rw [h4 w _ (by rcases hgone with h | h <;> rw [h] <;> rfl), h1] at h6
  rw [show before ++ (w0, c) :: after ++ [(w, SenderCall.messages)] = before ++ ([(w0, c)] ++ (after ++ [(w, SenderCall.messages)])) by simp,
    senderRun_append, h2, senderRun_append]
  dsimp only
  rw [h3]
  dsimp only
  rw [senderRun_append, h5]
  simp only [senderRun, List.nil_append, List.cons.injEq, and_true]
  rw [← h6]
  simp

example : asks (worldAfter [put [[1]] 5 [8, 9]]) (.entry (putEntry [[1]] 5 [8, 9]) 3 [0] 1) =
      some (.sendEntry (putEntry [[1]] 5 [8, 9]) 3 [0] 1, putEntry [[1]] 5 [8, 9], 1) ∧
    payloadOf (worldAfter [put [[1]] 5 [8, 9], put [[1]] 6 [3]]) (putEntry [[1]] 5 [8, 9]) = none := by
  constructor <;> decide +kernel

/-- C101 is violated: a payload request that arrives before its handle is bound is not waited for
(the code says that it should be): it is never answered. -/
theorem C101_violated_early (transform : Bytes → Bytes) (w w' : SenderWorld) (handle : UInt64) (h : w.requests.get handle = none) :
    (senderRun transform [(w, .request handle), (w', .messages)] newDataSender).1 = [([], false)] := by
  simp [senderRun, queuePayloadRequest, h, newDataSender, SenderWorld.read, dataMessages]

example : (worldAfter []).requests.get 0 = none := rfl

end Willow.Props
