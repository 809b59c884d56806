import Verif.Lemmas.PropsMessageLoop
import Verif.Spec.MessageLoop
import Verif.Props.Messages
import Verif.Props.MessagesReconciliation

/-! Properties C60, C84, C85 and C87: the message loop. -/

namespace Willow.Props

open Willow Spec

/-! ### Routing -/

/-- The messages that the loop passes to the right decoder, depending on what it expects. -/
def Routed (expectsPayload expectsEntry : Bool) : Body → Prop
  | .controlIssueGuarantee .. | .controlAbsolve .. | .controlPlead .. | .controlAnnounceDropping ..
  | .controlApologise .. | .controlFree .. | .dataReplyPayload .. | .dataBindPayloadRequest ..
  | .paiBindFragment .. | .paiReplyFragment .. | .paiRequestSubspaceCapability .. | .paiReplySubspaceCapability ..
  | .reconciliationSendFingerprint .. => True
  | .reconciliationAnnounceEntries .. => expectsPayload = false ∧ expectsEntry = false
  | .reconciliationSendEntry .. => expectsPayload = false ∧ expectsEntry = true
  | .reconciliationSendPayload .. => expectsPayload = true
  | _ => False

/-- C60, partial: these messages are passed to their own decoder. What is missing: the messages of
the theorems below. -/
theorem C60_partial (s : Schemes) (h2n : UInt64 → Bytes) (current : Entry) (t t' : Tracker) (body : Body) (ch : Channel)
    (b : UInt8) (bs : Bytes) (expectsPayload expectsEntry : Bool)
    (h : encodeMessage s h2n current t (message body) = .ok ((ch, b :: bs), t')) (hr : Routed expectsPayload expectsEntry body) :
    RoutedRight expectsPayload expectsEntry b body := by
  have hb := encodeMessage_ok.1 h
  have hm := firstByte_mem (body := body) hb.1
  unfold RoutedRight
  cases body
  case reconciliationAnnounceEntries =>
    obtain ⟨rfl, rfl⟩ := hr
    exact (by decide : ∀ b ∈ firstBytes .reconciliationAnnounceEntries,
      branch false false b = .decoder .reconciliationAnnounceEntries) b (hm (by simp [kindOf]))
  case reconciliationSendEntry =>
    obtain ⟨rfl, rfl⟩ := hr
    exact (by decide : ∀ b ∈ firstBytes .reconciliationSendEntry,
      branch false true b = .decoder .reconciliationSendEntry) b (hm (by simp [kindOf]))
  case reconciliationSendPayload =>
    obtain rfl := hr
    exact (by decide : ∀ ee, ∀ b ∈ firstBytes .reconciliationSendPayload,
      branch true ee b = .decoder .reconciliationSendPayload) _ b (hm (by simp [kindOf]))
  case dataSendEntry | dataSendPayload | dataSetMetadata | reconciliationTerminatePayload | setupBindStaticToken |
      commitmentReveal | setupBindReadCapability | setupBindAreaOfInterest => exact hr.elim
  all_goals exact routed_byte _ _ _ (by simp [kindOf]) b (hm (by simp [kindOf]))

example : encodeMessage exSchemes (fun _ => []) zeroEntry zeroTracker (message (.dataReplyPayload 300)) =
      .ok ((.data, [0x71, 1, 44]), zeroTracker) ∧
    branch false false 0x71 = .decoder .dataReplyPayload ∧ Routed false false (.dataReplyPayload 300) :=
  ⟨rfl, rfl, trivial⟩

/-- C60 is violated: send-entry, send-payload and set-metadata messages of the data channel are
passed to the decoder of fingerprint messages, whatever the loop expects. -/
theorem C60_violated_data (s : Schemes) (h2n : UInt64 → Bytes) (current : Entry) (t t' : Tracker) (body : Body) (ch : Channel)
    (b : UInt8) (bs : Bytes) (expectsPayload expectsEntry : Bool)
    (h : encodeMessage s h2n current t (message body) = .ok ((ch, b :: bs), t'))
    (hk : kindOf body = .dataSendEntry ∨ kindOf body = .dataSendPayload ∨ kindOf body = .dataSetMetadata) :
    branch expectsPayload expectsEntry b = .decoder .reconciliationSendFingerprint ∧
      ¬ RoutedRight expectsPayload expectsEntry b body := by
  have hm := firstByte_mem (body := body) (encodeMessage_ok.1 h).1 (by rcases hk with h | h | h <;> rw [h] <;> decide)
  have key : branch expectsPayload expectsEntry b = .decoder .reconciliationSendFingerprint := by
    have : ∀ (k : MsgKind), k = .dataSendEntry ∨ k = .dataSendPayload ∨ k = .dataSetMetadata → ∀ b ∈ firstBytes k,
        ∀ ep ee, branch ep ee b = .decoder .reconciliationSendFingerprint := by
      rintro k (rfl | rfl | rfl) <;> decide
    exact this _ hk b hm _ _
  refine ⟨key, fun hr => ?_⟩
  unfold RoutedRight at hr
  rw [key, Branch.decoder.injEq] at hr
  rw [← hr] at hk
  simp at hk

example : encodeMessage exSchemes (fun _ => []) zeroEntry zeroTracker (message (.dataSendPayload 2 [7, 8])) =
      .ok ((.data, [0x64, 2, 7, 8]), zeroTracker) ∧
    branch false false 0x64 = .decoder .reconciliationSendFingerprint := ⟨rfl, rfl⟩

/-- C60 is violated: the byte that is sent to terminate a payload is never taken for that; while a
payload is expected it is decoded as more payload, otherwise as an entry or an announcement. -/
theorem C60_violated_terminate (s : Schemes) (h2n : UInt64 → Bytes) (current : Entry) (t : Tracker)
    (expectsPayload expectsEntry : Bool) :
    encodeMessage s h2n current t (message .reconciliationTerminatePayload) = .ok ((.reconciliation, [0x50]), t) ∧
      branch expectsPayload expectsEntry 0x50 = .decoder (if expectsPayload then .reconciliationSendPayload else
        if expectsEntry then .reconciliationSendEntry else .reconciliationAnnounceEntries) ∧
      ¬ RoutedRight expectsPayload expectsEntry 0x50 .reconciliationTerminatePayload := by
  refine ⟨rfl, ?_, ?_⟩
  · cases expectsPayload <;> cases expectsEntry <;> decide
  · unfold RoutedRight
    cases expectsPayload <;> cases expectsEntry <;> decide

example : encodeReconciliationTerminatePayload = [0x50] := rfl

/-- C60 is violated: a static token is passed to no decoder, and read capabilities and areas of
interest are encoded to no bytes at all. -/
theorem C60_violated_setup (s : Schemes) (h2n : UInt64 → Bytes) (current : Entry) (t : Tracker)
    (expectsPayload expectsEntry : Bool) :
    (∀ token, ∃ bs, encodeMessage s h2n current t (message (.setupBindStaticToken token)) =
        .ok ((.staticToken, 0x30 :: bs), t) ∧ ¬ RoutedRight expectsPayload expectsEntry 0x30 (.setupBindStaticToken token)) ∧
      (∀ body, kindOf body = .setupBindReadCapability ∨ kindOf body = .setupBindAreaOfInterest →
        ∃ ch, encodeMessage s h2n current t (message body) = .ok ((ch, []), t)) := by
  refine ⟨fun token => ⟨_, rfl, ?_⟩, fun body hk => ?_⟩
  · unfold RoutedRight
    simp only [kindOf]
    cases expectsPayload <;> cases expectsEntry <;> decide
  · cases body <;> simp [kindOf] at hk
    · exact ⟨_, rfl⟩
    · exact ⟨_, rfl⟩

example : (message (.setupBindStaticToken [1, 2])).kind = .setupBindStaticToken := rfl

/-- C60 is violated: no first byte leads to the decoder of commitment-reveal messages, nor to those
of the three setup messages, of a payload's termination and of three data messages. -/
theorem C60_violated_unreachable (expectsPayload expectsEntry : Bool) (b : UInt8) (k : MsgKind)
    (h : branch expectsPayload expectsEntry b = .decoder k) :
    k ∉ [.commitmentReveal, .setupBindReadCapability, .setupBindAreaOfInterest, .setupBindStaticToken,
      .reconciliationTerminatePayload, .dataSendEntry, .dataSendPayload, .dataSetMetadata] := by
  have key : ∀ (ep ee : Bool) (i : Fin 256), ∀ k ∈ [MsgKind.commitmentReveal, .setupBindReadCapability,
      .setupBindAreaOfInterest, .setupBindStaticToken, .reconciliationTerminatePayload, .dataSendEntry, .dataSendPayload,
      .dataSetMetadata], branch ep ee (UInt8.ofNat i) ≠ .decoder k := by decide +kernel
  intro hk
  refine key expectsPayload expectsEntry ⟨b.toNat, b.toNat_lt⟩ k hk ?_
  simpa using h

example : branch false false 0x10 = .decoder .paiReplySubspaceCapability := by decide

/-- C60 is violated: once the loop has received one entry of a reconciliation, whatever it receives
afterwards, no first byte makes it decode an entry or an announcement of entries again. -/
theorem C60_violated_secondEntry (o : LoopOpts) (t0 t' : Tracker) (e : Entry) (available handle : UInt64) (token : Bytes)
    (n : Nat) (g g' : GB) (out : List (Option Msg))
    (h : loopRun o n (trackDecoded o t0 (message (.reconciliationSendEntry e available handle token))) g = .ok ((out, t'), g'))
    (body : Body) (hk : kindOf body = .reconciliationSendEntry ∨ kindOf body = .reconciliationAnnounceEntries) (b : UInt8) :
    ¬ RoutedRight t'.isExpectingPayloadOrTermination t'.isExpectingReconciliationSendEntry b body := by
  have ht : t'.isExpectingPayloadOrTermination = true := loopRun_awaiting (by rfl) h
  unfold RoutedRight
  rw [ht]
  have key : ∀ (ee : Bool) (i : Fin 256), ∀ k ∈ [MsgKind.reconciliationSendEntry, .reconciliationAnnounceEntries],
      branch true ee (UInt8.ofNat i) ≠ .decoder k := by decide +kernel
  have := key t'.isExpectingReconciliationSendEntry ⟨b.toNat, b.toNat_lt⟩ (kindOf body) (by rcases hk with h | h <;> simp [h])
  simpa using this

/-- The options of the examples. -/
def exLoop : LoopOpts := ⟨exSchemes, fun _ => [], fun _ _ => zeroRange3d, exAois, exRef⟩

example : loopRun exLoop 1 (trackDecoded exLoop zeroTracker (message (.reconciliationSendEntry exRef 5 5 [7])))
      ⟨[0x50, 2, 8], [[9, 0x54]], [], .exact⟩ = .ok (([some (message (.reconciliationSendPayload 2 [8, 9])), none],
        trackDecoded exLoop zeroTracker (message (.reconciliationSendEntry exRef 5 5 [7]))), ⟨[0x54], [], [], .exact⟩) ∧
    branch (trackDecoded exLoop zeroTracker (message (.reconciliationSendEntry exRef 5 5 [7]))).isExpectingPayloadOrTermination
      true 0x54 = .decoder .reconciliationSendPayload := by decide +kernel

/-! ### What the two sides remember -/

/-- C84, partial: the sender's tracker and the receiver's, equal at first, are equal after the same
messages. What is missing: the receiver does not decode against this tracker, see below. -/
theorem C84_partial (s : Schemes) (h2n : UInt64 → Bytes) (current : Entry) (o : LoopOpts) (ho : o.handleToNamespace = h2n)
    (t t' : Tracker) (ms : List Msg) (bytes : Bytes) (h : EncodesAll s h2n current t ms bytes t') :
    ms.foldl (trackDecoded o) t = t' := by
  induction h with
  | nil t => rfl
  | @cons t t' t'' m ms ch b bs h1 h2 ih =>
    rw [List.foldl_cons]
    suffices hs : trackDecoded o t m = t' by rw [hs]; exact ih
    obtain ⟨h1, -⟩ := encodeMessage_ok.1 h1
    unfold trackDecoded
    cases hb : m.body <;> rw [hb] at h1 <;> dsimp only <;> unfold encodeBody at h1 <;> dsimp only at h1
    case reconciliationSendFingerprint | reconciliationAnnounceEntries | reconciliationSendEntry | dataSendEntry |
        dataBindPayloadRequest =>
      obtain ⟨_, -, h1⟩ := Res.bind_eq_ok.1 h1
      simp only [Res.ok.injEq, Prod.mk.injEq] at h1
      obtain ⟨-, rfl⟩ := h1
      first | rfl | rw [ho]
    all_goals
      simp only [Res.ok.injEq, Prod.mk.injEq] at h1
      exact h1.2

/-- A fingerprint and an entry, in the examples. -/
def exTracker : Tracker :=
  { newTracker [3] [1] [8] with
    prevRange := exOuter, prevEntry := exRef, prevSenderHandle := 7, prevReceiverHandle := 8, prevToken := 70 }

/-- The messages of the examples. -/
def exMessages : List Msg := [message (.reconciliationSendFingerprint exRange [9, 9] 7 8 200 true),
  message (.controlAbsolve 300 .capability), message (.reconciliationSendEntry exEntry 200 70 [1, 2])]

example : ∃ bytes t', EncodesAll exSchemes (fun _ => []) zeroEntry exTracker exMessages bytes t' ∧
    t'.prevEntry = exEntry ∧ t'.isAwaitingTermination = true ∧ exMessages.foldl (trackDecoded exLoop) exTracker = t' := by
  refine ⟨_, _, .cons (ch := .reconciliation) (b := [71, 8, 200, 9, 9, 104, 192, 1, 0, 2, 0, 2, 0, 1, 17, 113])
    (t' := trackDecoded exLoop exTracker exMessages[0]) (by decide +kernel)
    (.cons (ch := .control) (b := [133, 96, 1, 44]) (t' := trackDecoded exLoop exTracker exMessages[0]) (by decide +kernel)
    (.cons (ch := .reconciliation) (b := [92, 200, 1, 2, 129, 1, 1, 1, 1, 7, 1, 1, 44, 8, 9])
    (t' := exMessages.foldl (trackDecoded exLoop) exTracker) (by decide +kernel) (.nil _))), ?_⟩
  decide +kernel

/-- C84 is violated at the start: what a new encoder remembers is a range and an entry at the empty path, to which no path
can be encoded relative. So it crashes at the first fingerprint, the first announcement of entries and the first entry,
whatever they say and whatever other messages come before. -/
theorem C84_violated_first (s : Schemes) (h2n : UInt64 → Bytes) (current : Entry) (ns sub dig : Bytes) (ms : List Msg)
    (bytes : Bytes) (t : Tracker) (h : EncodesAll s h2n current (newTracker ns sub dig) ms bytes t) :
    (∀ m ∈ ms, rangeOf m = none ∧ entryOf m = none) ∧
    ∀ m, rangeOf m ≠ none ∨ entryOf m ≠ none → encodeMessage s h2n current t m = .crash := by
  have crash : ∀ (t : Tracker) m, t.prevRange.path.start = [] → t.prevRange.path.stop = [] → t.prevEntry.path = [] →
      rangeOf m ≠ none ∨ entryOf m ≠ none → encodeMessage s h2n current t m = .crash := by
    intro t m h1 h2 h3 hm
    have k1 : ∀ r, encodeRange3dRelative s.ss s.ordS s.p r t.prevRange = .crash := fun r =>
      (C31_violated_crash s.ss s.ordS s.p r t.prevRange).2 (.inr (.inr ⟨h1, h2⟩))
    have k2 : ∀ e, encodeEntryRelativeEntry s.ns s.ss s.pd s.eqNs s.ordS s.p e t.prevEntry = .crash := fun e =>
      (C26_violated s.ns s.ss s.pd s.eqNs s.ordS s.p e t.prevEntry).2 (by simp [h3])
    unfold encodeMessage
    unfold rangeOf entryOf at hm
    cases hb : m.body <;> rw [hb] at hm <;> simp only [ne_eq, not_true_eq_false, or_self, or_false, false_or] at hm
    · simp only [encodeBody, encodeReconciliationSendFingerprint, Tracker.getPrivy, k1]; rfl
    · simp only [encodeBody, encodeReconciliationAnnounceEntries, Tracker.getPrivy, k1]; rfl
    · simp only [encodeBody, encodeReconciliationSendEntry, Tracker.getPrivy, k2]; rfl
  have keep : ∀ (t t' : Tracker) m ch b, encodeMessage s h2n current t m = .ok ((ch, b), t') → rangeOf m = none →
      entryOf m = none → t' = t := by
    intro t t' m ch b he hr hn
    obtain ⟨h1, -⟩ := encodeMessage_ok.1 he
    unfold rangeOf at hr
    unfold entryOf at hn
    cases hb : m.body <;> rw [hb] at h1 hr hn <;> unfold encodeBody at h1 <;> dsimp only at h1 hr hn
    case dataSendEntry | dataBindPayloadRequest =>
      obtain ⟨_, -, h1⟩ := Res.bind_eq_ok.1 h1
      simp only [Res.ok.injEq, Prod.mk.injEq] at h1
      exact h1.2.symm
    all_goals first
      | (simp only [Res.ok.injEq, Prod.mk.injEq] at h1; exact h1.2.symm)
      | (simp at hr; done)
      | (simp at hn; done)
  have main : ∀ (t0 t : Tracker) ms bytes, EncodesAll s h2n current t0 ms bytes t → t0.prevRange.path.start = [] →
      t0.prevRange.path.stop = [] → t0.prevEntry.path = [] → (∀ m ∈ ms, rangeOf m = none ∧ entryOf m = none) ∧ t = t0 := by
    intro t0 t ms bytes h
    induction h with
    | nil t => exact fun _ _ _ => ⟨by simp, rfl⟩
    | @cons t t' t'' m ms ch b bs h1 h2 ih =>
      intro k1 k2 k3
      have hm : rangeOf m = none ∧ entryOf m = none := by
        refine Classical.byContradiction fun hn => ?_
        have hx : rangeOf m ≠ none ∨ entryOf m ≠ none := by
          by_cases hr : rangeOf m = none
          · exact .inr fun he => hn ⟨hr, he⟩
          · exact .inl hr
        rw [crash t m k1 k2 k3 hx] at h1
        cases h1
      have := keep _ _ _ _ _ h1 hm.1 hm.2
      subst this
      obtain ⟨i1, i2⟩ := ih k1 k2 k3
      exact ⟨fun x hx => (List.mem_cons.1 hx).elim (fun e => e ▸ hm) (i1 x), i2⟩
  obtain ⟨h1, rfl⟩ := main _ _ _ _ h rfl rfl rfl
  exact ⟨h1, fun m hm => crash _ m rfl rfl rfl hm⟩

example : EncodesAll exSchemes (fun _ => []) zeroEntry (newTracker [3] [1] [8]) [message (.controlAbsolve 300 .capability)]
      [133, 96, 1, 44] (newTracker [3] [1] [8]) ∧
    rangeOf (message (.reconciliationSendFingerprint exRange [9, 9] 7 8 200 true)) ≠ none ∧
    entryOf (message (.reconciliationSendEntry exEntry 200 70 [1, 2])) ≠ none :=
  ⟨.cons (ch := .control) (b := [133, 96, 1, 44]) (by decide +kernel) (.nil _), by decide, by decide⟩

/-- C84, partial: what both remember is what the last message that had it said. What is missing:
as above. -/
theorem C84_remembered_partial (s : Schemes) (h2n : UInt64 → Bytes) (current : Entry) (t t' : Tracker) (ms : List Msg)
    (bytes : Bytes) (h : EncodesAll s h2n current t ms bytes t') :
    (t'.prevRange, t'.prevSenderHandle, t'.prevReceiverHandle) =
      (latest rangeOf ms).getD (t.prevRange, t.prevSenderHandle, t.prevReceiverHandle) ∧
    (t'.announcedRange, t'.announcedNamespace) =
      ((latest announcedOf ms).map fun x => (x.1, h2n x.2)).getD (t.announcedRange, t.announcedNamespace) ∧
    (t'.prevEntry, t'.prevToken) = (latest entryOf ms).getD (t.prevEntry, t.prevToken) := by
  rw [← C84_partial s h2n current ⟨s, h2n, fun _ _ => zeroRange3d, ⟨fun _ _ => ⟨[], false, [], ⟨0, 0, false⟩⟩, fun _ _ => []⟩,
    zeroEntry⟩ rfl t t' ms bytes h]
  exact trackDecoded_last _ t ms

example : ∃ bytes t', EncodesAll exSchemes (fun _ => []) zeroEntry exTracker exMessages bytes t' ∧
    latest rangeOf exMessages = some (exRange, 7, 8) ∧ latest entryOf exMessages = some (exEntry, 70) := by
  refine ⟨_, _, .cons (ch := .reconciliation) (b := [71, 8, 200, 9, 9, 104, 192, 1, 0, 2, 0, 2, 0, 1, 17, 113])
    (t' := trackDecoded exLoop exTracker exMessages[0]) (by decide +kernel)
    (.cons (ch := .control) (b := [133, 96, 1, 44]) (t' := trackDecoded exLoop exTracker exMessages[0]) (by decide +kernel)
    (.cons (ch := .reconciliation) (b := [92, 200, 1, 2, 129, 1, 1, 1, 1, 7, 1, 1, 44, 8, 9])
    (t' := exMessages.foldl (trackDecoded exLoop) exTracker) (by decide +kernel) (.nil _))), ?_⟩
  decide +kernel

/-- C84, partial: after an announcement of entries, both expect as many entries as were announced
and not yet sent, and a payload or its end as soon as one has been sent. What is missing: as above. -/
theorem C84_expected_partial (s : Schemes) (h2n : UInt64 → Bytes) (current : Entry) (t t' t'' : Tracker) (m : Msg)
    (range : Range3d) (count : UInt64) (wantResponse willSort doesCover : Bool) (sender receiver covers : UInt64)
    (hm : m.body = .reconciliationAnnounceEntries range count wantResponse willSort sender receiver covers doesCover)
    (b : Bytes) (ch : Channel) (h1 : encodeMessage s h2n current t m = .ok ((ch, b), t'))
    (ms : List Msg) (bytes : Bytes) (h2 : EncodesAll s h2n current t' ms bytes t'') (ha : ∀ x ∈ ms, announcedOf x = none) :
    t''.announcedEntriesRemaining = count - UInt64.ofNat (ms.countP fun x => (entryOf x).isSome) ∧
    t''.isExpectingPayloadOrTermination = (t.isExpectingPayloadOrTermination || ms.any fun x => (entryOf x).isSome) := by
  have e2 := C84_partial s h2n current ⟨s, h2n, fun _ _ => zeroRange3d,
    ⟨fun _ _ => ⟨[], false, [], ⟨0, 0, false⟩⟩, fun _ _ => []⟩, zeroEntry⟩ rfl _ _ ms bytes h2
  have e1 := C84_partial s h2n current ⟨s, h2n, fun _ _ => zeroRange3d,
    ⟨fun _ _ => ⟨[], false, [], ⟨0, 0, false⟩⟩, fun _ _ => []⟩, zeroEntry⟩ rfl _ _ [m] (b ++ []) (.cons h1 (.nil _))
  obtain ⟨q1, q2⟩ := trackDecoded_remaining _ t' ms ha
  rw [← e2, q1, q2, ← e1]
  simp [trackDecoded, hm, Tracker.onAnnounceEntries, Tracker.isExpectingPayloadOrTermination]

example : ∃ b t' bytes t'', encodeMessage exSchemes (fun _ => []) zeroEntry exTracker
      (message (.reconciliationAnnounceEntries exRange 3 true true 7 8 200 true)) = .ok ((.reconciliation, b), t') ∧
    EncodesAll exSchemes (fun _ => []) zeroEntry t' [message (.reconciliationSendEntry exEntry 200 70 [1, 2])] bytes t'' ∧
    (∀ x ∈ [message (.reconciliationSendEntry exEntry 200 70 [1, 2])], announcedOf x = none) ∧
    t''.announcedEntriesRemaining = 2 := by
  refine ⟨_, trackDecoded exLoop exTracker (message (.reconciliationAnnounceEntries exRange 3 true true 7 8 200 true)), _,
    trackDecoded exLoop (trackDecoded exLoop exTracker
      (message (.reconciliationAnnounceEntries exRange 3 true true 7 8 200 true)))
      (message (.reconciliationSendEntry exEntry 200 70 [1, 2])), rfl,
    .cons (ch := .reconciliation) (b := [92, 200, 1, 2, 129, 1, 1, 1, 1, 7, 1, 1, 44, 8, 9]) (by decide +kernel) (.nil _), ?_⟩
  decide +kernel

/-- C84 is violated: a handle that is the same as the previous one is decoded as 0. Whatever the
receiver remembers, it decodes a fingerprint whose sender handle is that of the message before as
one of handle 0. -/
theorem C84_violated_senderHandle (s : Schemes) (h2n : UInt64 → Bytes) (current : Entry) (t t' : Tracker) (range : Range3d)
    (fingerprint : Bytes) (sender receiver covers : UInt64) (doesCover : Bool) (ch : Channel) (enc : Bytes)
    (h : encodeMessage s h2n current t (message (.reconciliationSendFingerprint range fingerprint sender receiver covers doesCover)) =
      .ok ((ch, enc), t'))
    (hp : sender = t.prevSenderHandle) (o : LoopOpts) (tr tr' : Tracker) (g g' : GB) (rest : Bytes)
    (hg : g.content = enc ++ rest) (out : List (Option Msg)) (hl : loopIteration o tr g = .ok ((out, tr'), g')) :
    ∃ range' fingerprint' receiver' covers', out =
      [some (message (.reconciliationSendFingerprint range' fingerprint' 0 receiver' covers' true)), none] := by
  obtain ⟨h1, -⟩ := encodeMessage_ok.1 h
  obtain ⟨_, h2, h1⟩ := Res.bind_eq_ok.1 h1
  simp only [Res.ok.injEq, Prod.mk.injEq] at h1
  obtain ⟨rfl, -⟩ := h1
  unfold encodeReconciliationSendFingerprint at h2
  dsimp only at h2
  obtain ⟨er, -, h2⟩ := Res.bind_eq_ok.1 h2
  simp only [Res.ok.injEq] at h2
  subst h2
  have hsame : (sender == t.getPrivy.prevSenderHandle) = true := by rw [hp]; simp [Tracker.getPrivy]
  have hb : ∀ (n r ep ee : Bool), ∀ b : UInt8, b = 0x40 ||| (0x40 ||| (if n then 0x8 else 0x0) ||| 0x4 ||| 0x2 |||
      (if r then 0x1 else 0x0)) → branch ep ee b = .decoder .reconciliationSendFingerprint ∧ (b &&& 0x2 == 0x2) = true := by
    rintro n r ep ee _ rfl
    revert n r ep ee
    decide
  simp only [hsame, if_true] at hg
  have hb := hb (fingerprint == s.neutral) (receiver == t.getPrivy.prevReceiverHandle) tr.isExpectingPayloadOrTermination
    tr.isExpectingReconciliationSendEntry _ rfl
  obtain ⟨b, bs, hb', hg⟩ : ∃ b bs, (b = (0x40 ||| (0x40 ||| (if (fingerprint == s.neutral) = true then 0x8 else 0x0) ||| 0x4 ||| 0x2 |||
      (if (receiver == t.getPrivy.prevReceiverHandle) = true then 0x1 else 0x0)) : UInt8)) ∧ g.content = b :: bs :=
    ⟨_, _, rfl, hg⟩
  rw [← hb'] at hb
  clear hb'
  obtain ⟨g1, c1, e1⟩ := loopIteration_eq (o := o) (t := tr) hg
  rw [e1, hb.1] at hl
  unfold loopBranch at hl
  obtain ⟨m, g2, hm, hl⟩ := Dec.bind_ok.1 hl
  simp only [Dec.pure_apply, Res.ok.injEq, Prod.mk.injEq] at hl
  obtain ⟨⟨rfl, -⟩, -⟩ := hl
  unfold loopDecoder decodeReconciliationSendFingerprint at hm
  obtain ⟨g3, m3, c3, l3, hm⟩ := inv_next c1 hm
  rw [step_byte (b := b) c3 (by omega) rfl] at hm
  obtain ⟨b2, _, -, hm⟩ := Dec.bind_ok.1 hm
  dsimp only at hm
  obtain ⟨_, _, -, hm⟩ := Dec.bind_ok.1 hm
  obtain ⟨covers', _, -, hm⟩ := Dec.bind_ok.1 hm
  obtain ⟨sender', _, hs, hm⟩ := Dec.bind_ok.1 hm
  obtain ⟨receiver', _, -, hm⟩ := Dec.bind_ok.1 hm
  obtain ⟨fingerprint', _, -, hm⟩ := Dec.bind_ok.1 hm
  obtain ⟨range', _, -, hm⟩ := Dec.bind_ok.1 hm
  simp only [Dec.pure_apply, Res.ok.injEq, Prod.mk.injEq] at hm
  rw [hb.2] at hs
  simp only [Bool.not_true, Bool.false_eq_true, if_false, Dec.pure_apply, Res.ok.injEq, Prod.mk.injEq] at hs
  obtain ⟨rfl, -⟩ := hs
  exact ⟨range', fingerprint', receiver', covers', by rw [← hm.1]; rfl⟩

/-- A tracker that remembers another range. -/
def exTracker' : Tracker :=
  { exTracker with prevRange := ⟨⟨[1], [2], false⟩, ⟨[[5]], [[6]], false⟩, ⟨2, 10, false⟩⟩ }

example : encodeMessage exSchemes (fun _ => []) zeroEntry exTracker' (message (.reconciliationSendFingerprint
      ⟨⟨[0], [2], false⟩, ⟨[[5], [0]], [[5], [1]], false⟩, ⟨0, 0, true⟩⟩ [9, 9] 7 8 200 true)) =
      .ok ((.reconciliation, [71, 8, 200, 9, 9, 235, 136, 0, 1, 1, 1, 0, 1, 1, 1, 1, 2, 2]),
        { exTracker' with prevRange := ⟨⟨[0], [2], false⟩, ⟨[[5], [0]], [[5], [1]], false⟩, ⟨0, 0, true⟩⟩ }) ∧
    (7 : UInt64) = exTracker'.prevSenderHandle ∧
    (loopIteration exLoop exTracker' ⟨[71, 8], [[200, 9, 9, 235, 136, 0, 1, 1, 1, 0, 1, 1], [1, 1, 2, 2]], [], .exact⟩).map' (·.1.1) =
      .ok [some (message (.reconciliationSendFingerprint ⟨⟨[], [], false⟩, ⟨[[1]], [[1]], false⟩,
        ⟨18446744073709551615, 18446744073709551615, true⟩⟩ [9, 9] 0 0 200 true)), none] := by decide +kernel

/-- C84 is violated: a fingerprint on the same subspaces and handles as the message before, if there is any subspace
between the bounds, is never delivered. The receiver looks for the shared components of the path in the zero range, which
has none. -/
theorem C84_violated_sameSubspaces (s : Schemes) (vf : Bytes → Prop) (hf : s.fingerprint.Lawful vf)
    (ho : ∀ a, s.ordS a a = .eq) (h2n : UInt64 → Bytes) (current : Entry) (t t' : Tracker)
    (range : Range3d) (fingerprint : Bytes) (sender receiver covers : UInt64) (doesCover : Bool) (ch : Channel) (enc : Bytes)
    (h : encodeMessage s h2n current t (message (.reconciliationSendFingerprint range fingerprint sender receiver covers doesCover)) =
      .ok ((ch, enc), t'))
    (hs : sender = t.prevSenderHandle) (hr : receiver = t.prevReceiverHandle) (hsub : range.subspace = t.prevRange.subspace)
    (hsome : range.subspace.openEnd = true ∨ s.ordS range.subspace.stop range.subspace.start ≠ .eq)
    (hsK : sender.toNat < 2 ^ s.p.bits) (hrK : receiver.toNat < 2 ^ s.p.bits) (hcK : covers.toNat < 2 ^ s.p.bits)
    (hv : ShortPath s.p range.path.start) (hfp : fingerprint = s.neutral ∨ vf fingerprint)
    (o : LoopOpts) (hos : o.schemes = s) (tr : Tracker) (g : GB) (rest : Bytes) (hg : g.content = enc ++ rest)
    (r : (List (Option Msg) × Tracker) × GB) : loopIteration o tr g ≠ .ok r := by
  intro hl
  obtain ⟨h1, -⟩ := encodeMessage_ok.1 h
  have hmem : ∀ b bs, enc = b :: bs → branch tr.isExpectingPayloadOrTermination tr.isExpectingReconciliationSendEntry b =
      .decoder .reconciliationSendFingerprint := by
    rintro b bs rfl
    exact routed_byte _ _ _ (by simp) b (firstByte_mem (body := .reconciliationSendFingerprint ..) h1 (by simp [kindOf]))
  obtain ⟨_, h2, h1⟩ := Res.bind_eq_ok.1 h1
  simp only [Res.ok.injEq, Prod.mk.injEq] at h1
  obtain ⟨rfl, -⟩ := h1
  obtain ⟨b1, b2, er, her, rfl, ⟨f1, f2, f3, f4⟩, k1, -, -, k4⟩ := sendFingerprint_parts h2 hsK hrK hcK
  obtain ⟨g1, c1, e1⟩ := loopIteration_eq (o := o) (t := tr) hg
  rw [e1, hmem _ _ rfl] at hl
  unfold loopBranch at hl
  obtain ⟨m, g2, hd, -⟩ := Dec.bind_ok.1 hl
  have hs' : decide (sender = t.getPrivy.prevSenderHandle) = true := by rw [hs]; simp [Tracker.getPrivy]
  have hr' : decide (receiver = t.getPrivy.prevReceiverHandle) = true := by rw [hr]; simp [Tracker.getPrivy]
  rw [if_pos (of_decide_eq_true hs'), if_pos (of_decide_eq_true hr')] at c1
  unfold loopDecoder decodeReconciliationSendFingerprint at hd
  obtain ⟨g1, m1, c1, l1, hd⟩ := inv_next c1 hd
  rw [step_byte (b := b1) c1 (by omega) rfl, step_byte (b := b2) c1 (by omega) rfl] at hd
  dsimp only at hd
  rw [f1, f2, f3, f4, k1, hs', hr', hos] at hd
  obtain ⟨g2, m2, c2, hd⟩ := inv_prune (a := [b1, b2]) (b := _ ++ rest) c1 l1 rfl rfl hd
  simp only [List.append_assoc, List.nil_append] at c2
  have hfs : Steady (if decide (fingerprint = s.neutral) = true then pure s.neutral else s.fingerprint.decStream)
      (if fingerprint = s.neutral then [] else s.fingerprint.enc fingerprint) fingerprint := by
    intro g rest y g' hg h
    by_cases hp : fingerprint = s.neutral
    · simp only [hp, if_true, decide_true, List.nil_append, Dec.pure_apply, Res.ok.injEq, Prod.mk.injEq] at hg h
      obtain ⟨rfl, rfl⟩ := h
      exact ⟨hp.symm, hg, id⟩
    · simp only [hp, if_false, decide_false, Bool.false_eq_true] at hg h
      exact hf.steady (hfp.resolve_left hp) _ _ _ _ hg h
  obtain ⟨g3, m3, c3, hd⟩ := inv_steady (steady_covers k4) c2 hd
  simp only [Bool.not_true, Bool.false_eq_true, if_false, Dec.pure_bind, if_true] at hd
  obtain ⟨g4, m4, c4, hd⟩ := inv_steady hfs c3 hd
  obtain ⟨range', g7, h7, hd⟩ := Dec.bind_ok.1 hd
  exact decodeRange_zero ho hsub hsome hv her c4 h7

example : encodeMessage exSchemes (fun _ => []) zeroEntry exTracker exMessages[0] =
      .ok ((.reconciliation, [71, 8, 200, 9, 9, 104, 192, 1, 0, 2, 0, 2, 0, 1, 17, 113]),
        exTracker.onSendFingerprint exRange 7 8) ∧
    exTracker.prevSenderHandle = 7 ∧ exTracker.prevReceiverHandle = 8 ∧ exRange.subspace = exTracker.prevRange.subspace ∧
    exSchemes.ordS exRange.subspace.stop exRange.subspace.start ≠ .eq ∧
    loopIteration exLoop exTracker ⟨[71, 8, 200, 9, 9, 104, 192, 1, 0, 2, 0, 2, 0, 1, 17, 113], [], [], .exact⟩ = .crash := by
  decide +kernel

/-- C84 is violated: no entry whose static token handle is that of the entry before, or above 63, is
ever delivered. The receiver looks for the shared components of its path in the zero entry, whose path
has none. -/
theorem C84_violated_sendEntry (s : Schemes) (vn vs vp vt : Bytes → Prop) (hL : LawfulSchemes s vn vs vp vt)
    (h2n : UInt64 → Bytes) (current : Entry) (t t' : Tracker) (e : Entry) (hv : ValidEntry s vn vs vp e)
    (available handle : UInt64) (token : Bytes) (ht : vt token) (ch : Channel) (enc : Bytes)
    (h : encodeMessage s h2n current t (message (.reconciliationSendEntry e available handle token)) = .ok ((ch, enc), t'))
    (hh : handle = t.prevToken ∨ (63 < handle ∧ handle.toNat < 2 ^ s.p.bits)) (hav : available.toNat < 2 ^ s.p.bits)
    (o : LoopOpts) (hos : o.schemes = s) (tr : Tracker) (h1 : tr.isExpectingPayloadOrTermination = false)
    (h2 : tr.isExpectingReconciliationSendEntry = true) (g : GB) (rest : Bytes) (hg : g.content = enc ++ rest)
    (r : (List (Option Msg) × Tracker) × GB) : loopIteration o tr g ≠ .ok r := by
  intro hl
  obtain ⟨hb, -⟩ := encodeMessage_ok.1 h
  have hmem : ∀ b bs, enc = b :: bs → branch tr.isExpectingPayloadOrTermination tr.isExpectingReconciliationSendEntry b =
      .decoder .reconciliationSendEntry := by
    rintro b bs rfl
    exact C60_partial s h2n current t t' (.reconciliationSendEntry e available handle token) ch b bs _ _ h ⟨h1, h2⟩
  obtain ⟨_, h3, hb⟩ := Res.bind_eq_ok.1 hb
  simp only [Res.ok.injEq, Prod.mk.injEq] at hb
  obtain ⟨rfl, -⟩ := hb
  unfold encodeReconciliationSendEntry at h3
  dsimp only at h3
  obtain ⟨ee, hee, h3⟩ := Res.bind_eq_ok.1 h3
  simp only [Res.ok.injEq] at h3
  subst h3
  rw [conv_of_lt hav] at hg hmem
  have hf := firstByte_recSendEntry (handle == t.getPrivy.prevStaticTokenHandle) available.toNat _ rfl
  generalize (0x50 ||| _ ||| 0x4 ||| _ : UInt8) = b1 at hf hg hmem
  obtain ⟨f1, f2, f3⟩ := hf
  obtain ⟨g1, c1, e1⟩ := loopIteration_eq (o := o) (t := tr) (b := b1) hg
  rw [e1, hmem _ _ rfl] at hl
  unfold loopBranch at hl
  obtain ⟨m, g2, hd, -⟩ := Dec.bind_ok.1 hl
  unfold loopDecoder decodeReconciliationSendEntry at hd
  obtain ⟨g1, m1, c1, l1, hd⟩ := inv_next c1 hd
  rw [step_byte (b := b1) c1 (by omega) rfl] at hd
  dsimp only at hd
  rw [f1, f2, f3, hos] at hd
  simp only [if_true] at hd
  have fin : ∀ (x : UInt64) (g2 : GB) (r : Msg × GB),
      g2.content = encodeIntMax64 available.toNat ++ (s.dynamicToken.enc token ++ (ee ++ rest)) →
      (do
        let available ← takeCompact (getWidthMax64Int available.toNat)
        let dynamicToken ← s.dynamicToken.decStream
        let entry ← decodeStreamEntryRelativeEntry s.ns s.ss s.pd s.p zeroTracker.getPrivy.prevEntry
        return ⟨.reconciliationSendEntry, .reconciliationSendEntry entry available x dynamicToken⟩ : Dec Msg) g2 ≠ .ok r := by
    intro x g2 r c2 hd
    obtain ⟨g3, m3, c3, hd⟩ := inv_take c2 rfl hd
    obtain ⟨_, g4, h4, hd⟩ := Dec.bind_ok.1 hd
    have c4 := (hL.dynamicToken.steady ht _ _ _ _ c3 h4).2.1
    obtain ⟨_, g5, h5, -⟩ := Dec.bind_ok.1 hd
    exact decodeEntry_empty hL hv rfl hee c4 h5
  by_cases hp : handle = t.getPrivy.prevStaticTokenHandle
  · have hsame : (handle == t.getPrivy.prevStaticTokenHandle) = true := by rw [← hp]; simp
    simp only [hsame, if_true, Bool.not_true, Bool.false_eq_true, false_and, if_false] at c1 hd
    rw [Dec.bind_assoc] at hd
    obtain ⟨g2, m2, c2, hd⟩ := inv_prune (a := [b1])
      (b := encodeIntMax64 available.toNat ++ (s.dynamicToken.enc token ++ (ee ++ rest))) c1 l1 (by simp) rfl hd
    rw [Dec.pure_bind] at hd
    exact fin _ _ _ c2 hd
  · obtain ⟨h63, hK⟩ := hh.resolve_left hp
    have hbf : (handle == t.getPrivy.prevStaticTokenHandle) = false := by simpa using hp
    have hlt : ¬ handle < 63 := by
      simp only [UInt64.lt_iff_toNat_lt] at *; omega
    have hz := size_recSendEntry handle.toNat _ rfl
    simp only [hbf, Bool.false_eq_true, if_false, hlt, Bool.not_false, gt_iff_lt, h63, and_self, if_true, conv_of_lt hK] at c1 hd
    generalize widthHeader _ _ _ _ _ = b2 at hz c1
    have hlen := encodeIntMax64_length handle.toNat
    rw [Dec.bind_assoc] at hd
    obtain ⟨g2, m2, c2, l2, hd⟩ := inv_next c1 hd
    rw [Dec.bind_assoc, step_byte (b := b2) c2 (by omega) rfl, hz.1] at hd
    simp only [hz.2, if_false] at hd
    rw [Dec.bind_assoc] at hd
    obtain ⟨g3, m3, c3, l3, hd⟩ := inv_next c2 hd
    rw [Dec.bind_assoc, step_compact (i := 2) (x := handle) (a := [b1, b2])
      (b := encodeIntMax64 available.toNat ++ (s.dynamicToken.enc token ++ (ee ++ rest))) c3 (by simp) rfl rfl l3, Dec.bind_assoc] at hd
    obtain ⟨g4, m4, c4, hd⟩ := inv_prune (a := [b1, b2] ++ encodeIntMax64 handle.toNat)
      (b := encodeIntMax64 available.toNat ++ (s.dynamicToken.enc token ++ (ee ++ rest))) c3 l3 (by simp) (by simp; omega) hd
    rw [Dec.pure_bind] at hd
    exact fin _ _ _ c4 hd

example : encodeMessage exSchemes (fun _ => []) zeroEntry exTracker exMessages[2] =
      .ok ((.reconciliation, [92, 200, 1, 2, 129, 1, 1, 1, 1, 7, 1, 1, 44, 8, 9]), exTracker.onSendEntry exEntry 70) ∧
    (70 : UInt64) = exTracker.prevToken ∧ (200 : UInt64).toNat < 2 ^ exSchemes.p.bits ∧
    loopIteration exLoop { exTracker with announcedEntriesRemaining := 3 }
      ⟨[92, 200, 1, 2, 129, 1, 1, 1, 1, 7, 1, 1, 44, 8, 9], [], [], .exact⟩ = .crash := by decide +kernel

/-! ### Sequences of messages -/

/-- The messages that the loop delivers. -/
def Delivered (s : Schemes) (v : Bytes → Prop) (expectsPayload : Bool) : Body → Prop
  | .controlAbsolve _ channel | .controlPlead _ channel | .controlAnnounceDropping channel
  | .controlApologise channel => channel ≠ .control
  | .controlFree _ mine _ => mine = true
  | .dataReplyPayload _ => True
  | .paiBindFragment groupMember _ => v groupMember
  | .reconciliationSendPayload amount bytes =>
    expectsPayload = true ∧ amount.toNat = bytes.length ∧ bytes.length < 2 ^ 63 ∧ amount.toNat < 2 ^ s.p.bits
  | _ => False

theorem loopIteration_delivered {s : Schemes} {v : Bytes → Prop} (hc : s.groupMember.Lawful v) {h2n : UInt64 → Bytes}
    {current : Entry} {t t' : Tracker} {body : Body} {ch : Channel} {enc : Bytes}
    (h : encodeMessage s h2n current t (message body) = .ok ((ch, enc), t')) {o : LoopOpts} (hos : o.schemes = s) {tr : Tracker}
    (hd : Delivered s v tr.isExpectingPayloadOrTermination body) {g : GB} {rest : Bytes} (hg : g.content = enc ++ rest) :
    Gives ([some (message body), none], tr) rest (loopIteration o tr g) := by
  have hne : ∃ b bs, enc = b :: bs := by
    obtain ⟨h1, -⟩ := encodeMessage_ok.1 h
    cases body <;> first | exact hd.elim | skip
    all_goals
      simp only [message, encodeBody, Res.ok.injEq, Prod.mk.injEq] at h1
      obtain ⟨rfl, -⟩ := h1
      exact ⟨_, _, rfl⟩
  obtain ⟨b, bs, rfl⟩ := hne
  have hr : Routed tr.isExpectingPayloadOrTermination tr.isExpectingReconciliationSendEntry body := by
    cases body <;> first | exact hd.elim | exact trivial | exact hd.1
  have hrr := C60_partial s h2n current t t' body ch b bs _ _ h hr
  unfold RoutedRight at hrr
  obtain ⟨g1, c1, e1⟩ := loopIteration_eq (o := o) (t := tr) (b := b) hg
  rw [e1, hrr]
  have ht : trackDecoded o tr (message body) = tr := by
    cases body <;> first | exact hd.elim | rfl
  have hdec : RoundTrips (loopDecoder o (kindOf body)) (b :: bs) (message body) := by
    obtain ⟨h1, -⟩ := encodeMessage_ok.1 h
    cases body <;> first | exact hd.elim | skip
    all_goals
      simp only [message, encodeBody, Res.ok.injEq, Prod.mk.injEq] at h1
      rw [← h1.1]
      unfold loopDecoder kindOf
      dsimp only
    case controlAbsolve => exact C59_absolve_partial _ _ hd
    case controlPlead => exact C59_plead_partial _ _ hd
    case controlAnnounceDropping => exact C59_announceDropping_partial _ hd
    case controlApologise => exact C59_apologise_partial _ hd
    case controlFree =>
      obtain rfl := hd
      exact C59_free_partial _ _ _
    case dataReplyPayload => exact C71_replyPayload_partial _
    case paiBindFragment =>
      rw [hos]
      exact C73_bindFragment_partial s v hc _ hd _
    case reconciliationSendPayload => exact C74_sendPayload_partial s _ _ hd.2.1 hd.2.2.1 hd.2.2.2
  obtain ⟨g2, e2, c2⟩ := hdec g1 rest (by rw [c1]; rfl)
  refine ⟨g2, ?_, c2⟩
  show (loopDecoder o (kindOf body) >>= fun m => pure ([some m, none], trackDecoded o tr m)) g1 = _
  rw [Dec.bind_apply, e2]
  show Res.ok _ = _
  rw [ht]

/-- C85, partial: sequences of these messages are delivered, in order, each followed by a nil, and
exactly their bytes are consumed, however they are cut into chunks. What is missing: the other kinds
of messages, and those named in C59, C71, C73 and C74; some of them stop the loop, see below. -/
theorem C85_partial (s : Schemes) (v : Bytes → Prop) (hc : s.groupMember.Lawful v) (h2n : UInt64 → Bytes) (current : Entry)
    (o : LoopOpts) (hos : o.schemes = s) (t t' tr : Tracker) (bodies : List Body) (bytes : Bytes)
    (h : EncodesAll s h2n current t (bodies.map message) bytes t')
    (hd : ∀ body ∈ bodies, Delivered s v tr.isExpectingPayloadOrTermination body) (g : GB) (rest : Bytes)
    (hg : g.content = bytes ++ rest) :
    ∃ out, Gives (out, tr) rest (loopRun o bodies.length tr g) ∧
      received out = bodies.map message ∧ out = bodies.flatMap fun body => [some (message body), none] := by
  suffices hs : Gives (bodies.flatMap fun body => [some (message body), none], tr) rest (loopRun o bodies.length tr g) by
    refine ⟨_, hs, ?_, rfl⟩
    clear h hd hg hs
    induction bodies with
    | nil => rfl
    | cons b bs ih =>
      unfold received at ih ⊢
      simp [List.flatMap_cons, ih]
  induction bodies generalizing t bytes g with
  | nil =>
    cases h
    exact ⟨g, rfl, by simpa using hg⟩
  | cons b bs ih =>
    rw [List.map_cons] at h
    cases h with
    | cons h1 h2 =>
      rw [List.append_assoc] at hg
      obtain ⟨g1, e1, c1⟩ := loopIteration_delivered hc h1 hos (hd b (by simp)) hg
      obtain ⟨g2, e2, c2⟩ := ih _ _ h2 (fun body hb => hd body (by simp [hb])) _ c1
      refine ⟨g2, ?_, c2⟩
      rw [List.length_cons]
      unfold loopRun
      rw [Dec.bind_apply, e1]
      show (loopRun o bs.length tr >>= _) g1 = _
      rw [Dec.bind_apply, e2]
      rfl

example : EncodesAll exSchemes (fun _ => []) zeroEntry exTracker
      ([.controlAbsolve 300 .capability, .paiBindFragment [1, 2] true, .controlApologise .data].map message)
      [0x85, 0x60, 1, 44, 6, 1, 2, 0x99] exTracker ∧
    (∀ body ∈ [.controlAbsolve 300 .capability, .paiBindFragment [1, 2] true, .controlApologise .data],
      Delivered exSchemes (·.length = 2) exTracker.isExpectingPayloadOrTermination body) := by
  refine ⟨.cons (b := [0x85, 0x60, 1, 44]) rfl (.cons (b := [6, 1, 2]) rfl (.cons (b := [0x99]) rfl (.nil _))), ?_⟩
  simp [Delivered]

/-- C85 is violated: a nil that was not sent comes out in every iteration. -/
theorem C85_violated_nil (o : LoopOpts) (t t' : Tracker) (g g' : GB) (out : List (Option Msg))
    (h : loopIteration o t g = .ok ((out, t'), g')) : none ∈ out := by
  unfold loopIteration at h
  obtain ⟨_, _, -, h⟩ := Dec.bind_ok.1 h
  obtain ⟨_, _, -, h⟩ := Dec.bind_ok.1 h
  generalize branch _ _ _ = br at h
  cases br <;> unfold loopBranch at h
  · obtain ⟨m, _, -, h⟩ := Dec.bind_ok.1 h
    simp only [Dec.pure_apply, Res.ok.injEq, Prod.mk.injEq] at h
    obtain ⟨⟨rfl, -⟩, -⟩ := h
    simp
  · simp only [Dec.pure_apply, Res.ok.injEq, Prod.mk.injEq] at h
    obtain ⟨⟨rfl, -⟩, -⟩ := h
    simp
  · obtain ⟨_, _, -, h⟩ := Dec.bind_ok.1 h
    simp only [Dec.pure_apply, Res.ok.injEq, Prod.mk.injEq] at h
    obtain ⟨⟨rfl, -⟩, -⟩ := h
    simp
  · simp only [Dec.pure_apply, Res.ok.injEq, Prod.mk.injEq] at h
    obtain ⟨⟨rfl, -⟩, -⟩ := h
    simp

example : loopIteration exLoop exTracker ⟨[0x99], [], [], .exact⟩ =
    .ok (([some (message (.controlApologise .data)), none], exTracker), ⟨[], [], [], .exact⟩) := by decide +kernel

/-- C85 is violated: after a static token, and at every byte from 0 to 3, 0x20 to 0x3f, the loop
emits nil after nil and never moves on. -/
theorem C85_violated_stuck (o : LoopOpts) (t : Tracker) (b : UInt8) (bs : Bytes) (hb : b < 4 ∨ (0x20 ≤ b ∧ b < 0x40)) (n : Nat)
    (g : GB) (hg : g.content = b :: bs) :
    Gives (List.replicate n none, t) (b :: bs) (loopRun o n t g) := by
  have hbr : ∀ ep ee, (∃ k, branch ep ee b = .commentedOut k) ∨ branch ep ee b = .unknown := by
    have key : ∀ (ep ee : Bool) (i : Fin 256), (UInt8.ofNat i < 4 ∨ (0x20 ≤ UInt8.ofNat i ∧ UInt8.ofNat i < 0x40)) →
        branch ep ee (UInt8.ofNat i) ∈ [.commentedOut .commitmentReveal, .commentedOut .setupBindStaticToken,
          .commentedOut .setupBindAreaOfInterest, .commentedOut .setupBindReadCapability, .unknown] := by decide +kernel
    intro ep ee
    have := key ep ee ⟨b.toNat, b.toNat_lt⟩ (by simpa using hb)
    simp only [UInt8.ofNat_toNat, List.mem_cons, List.not_mem_nil, or_false] at this
    rcases this with h | h | h | h | h
    · exact .inl ⟨_, h⟩
    · exact .inl ⟨_, h⟩
    · exact .inl ⟨_, h⟩
    · exact .inl ⟨_, h⟩
    · exact .inr h
  induction n generalizing g with
  | zero => exact ⟨g, rfl, hg⟩
  | succ n ih =>
    obtain ⟨g1, c1, e1⟩ := loopIteration_eq (o := o) (t := t) hg
    have e2 : loopIteration o t g = .ok (([none], t), g1) := by
      rw [e1]
      rcases hbr t.isExpectingPayloadOrTermination t.isExpectingReconciliationSendEntry with ⟨k, h⟩ | h
      · rw [h]; rfl
      · rw [h]; rfl
    obtain ⟨g2, e3, c3⟩ := ih g1 c1
    refine ⟨g2, ?_, c3⟩
    unfold loopRun
    rw [Dec.bind_apply, e2]
    show (loopRun o n t >>= _) g1 = _
    rw [Dec.bind_apply, e3]
    rfl

example : ∃ bs, encodeMessage exSchemes (fun _ => []) zeroEntry exTracker (message (.setupBindStaticToken [1, 2])) =
    .ok ((.staticToken, 0x30 :: bs), exTracker) := ⟨_, rfl⟩

/-- C85 is violated: every announcement of entries crashes the receiver. -/
theorem C85_violated_announceEntries (s : Schemes) (h2n : UInt64 → Bytes) (current : Entry) (t t' : Tracker) (range : Range3d)
    (count sender receiver covers : UInt64) (wantResponse willSort doesCover : Bool) (ch : Channel) (enc : Bytes)
    (h : encodeMessage s h2n current t (message (.reconciliationAnnounceEntries range count wantResponse willSort sender receiver
      covers doesCover)) = .ok ((ch, enc), t'))
    (o : LoopOpts) (tr : Tracker) (h1 : tr.isExpectingPayloadOrTermination = false)
    (h2 : tr.isExpectingReconciliationSendEntry = false) (g : GB) (rest : Bytes) (hg : g.content = enc ++ rest) :
    loopIteration o tr g = .crash := by
  have hne : ∃ b bs, enc = b :: bs := by
    obtain ⟨hb, -⟩ := encodeMessage_ok.1 h
    obtain ⟨_, h3, hb⟩ := Res.bind_eq_ok.1 hb
    simp only [Res.ok.injEq, Prod.mk.injEq] at hb
    obtain ⟨rfl, -⟩ := hb
    unfold encodeReconciliationAnnounceEntries at h3
    dsimp only at h3
    obtain ⟨_, -, h3⟩ := Res.bind_eq_ok.1 h3
    simp only [Res.ok.injEq] at h3
    exact ⟨_, _, h3.symm⟩
  obtain ⟨b, bs, rfl⟩ := hne
  obtain ⟨g1, c1, e1⟩ := loopIteration_eq (o := o) (t := tr) (b := b) hg
  rw [e1, show branch _ _ b = _ from C60_partial s h2n current t t' (.reconciliationAnnounceEntries range count wantResponse
    willSort sender receiver covers doesCover) ch b bs _ _ h ⟨h1, h2⟩]
  rfl

example : ∃ enc t', encodeMessage exSchemes (fun _ => []) zeroEntry exTracker (message (.reconciliationAnnounceEntries exRange 3 true
      false 7 8 1 true)) = .ok ((.reconciliation, enc), t') ∧ exTracker.isExpectingPayloadOrTermination = false ∧
    exTracker.isExpectingReconciliationSendEntry = false :=
  ⟨[0x5f, 0, 3, 104, 192, 1, 0, 2, 0, 2, 0, 1, 17, 113],
    exTracker.onAnnounceEntries (fun _ => []) exRange 7 8 3, by decide +kernel⟩

/-- C85 is violated: no request for a payload is ever delivered; the loop gives its decoder no
function to decode the payload digest with. -/
theorem C85_violated_bindPayloadRequest (s : Schemes) (h2n : UInt64 → Bytes) (current : Entry) (t t' : Tracker) (e : Entry)
    (offset capability : UInt64) (ch : Channel) (enc : Bytes)
    (h : encodeMessage s h2n current t (message (.dataBindPayloadRequest e offset capability)) = .ok ((ch, enc), t'))
    (o : LoopOpts) (tr : Tracker) (g : GB) (rest : Bytes) (hg : g.content = enc ++ rest)
    (r : (List (Option Msg) × Tracker) × GB) : loopIteration o tr g ≠ .ok r := by
  intro hl
  have hne : ∃ b b2 bs, enc = b :: b2 :: bs ∧ (b2 &&& 0x10 == 0x10) = true := by
    obtain ⟨hb, -⟩ := encodeMessage_ok.1 h
    obtain ⟨_, h3, hb⟩ := Res.bind_eq_ok.1 hb
    simp only [Res.ok.injEq, Prod.mk.injEq] at hb
    obtain ⟨rfl, -⟩ := hb
    unfold encodeDataBindPayloadRequest at h3
    dsimp only at h3
    obtain ⟨_, -, h3⟩ := Res.bind_eq_ok.1 h3
    simp only [Res.ok.injEq] at h3
    exact ⟨_, _, _, h3.symm, (secondByte_bind offset _ rfl).2.1⟩
  obtain ⟨b, b2, bs, rfl, hrel⟩ := hne
  obtain ⟨g1, c1, e1⟩ := loopIteration_eq (o := o) (t := tr) (b := b) hg
  rw [e1, show branch _ _ b = _ from C60_partial s h2n current t t' (.dataBindPayloadRequest e offset capability) ch b (b2 :: bs) _ _ h
    trivial] at hl
  unfold loopBranch at hl
  obtain ⟨m, g2, hd, -⟩ := Dec.bind_ok.1 hl
  unfold loopDecoder kindOf decodeDataBindPayloadRequest at hd
  obtain ⟨g3, m3, c3, l3, hd⟩ := inv_next c1 hd
  rw [step_byte (b := b) c3 (by omega) rfl, step_byte (b := b2) c3 (by omega) rfl] at hd
  dsimp only at hd
  rw [hrel] at hd
  obtain ⟨_, _, -, hd⟩ := Dec.bind_ok.1 hd
  obtain ⟨_, _, -, hd⟩ := Dec.bind_ok.1 hd
  obtain ⟨_, _, -, hd⟩ := Dec.bind_ok.1 hd
  obtain ⟨_, _, hd, -⟩ := Dec.bind_ok.1 hd
  exact decodeDataEntry_noDigest rfl hd

example : (encodeMessage exSchemes (fun _ => []) exRef exTracker (message (.dataBindPayloadRequest exEntry 0 5))).map' (·.1.2) =
      .ok [0x6c, 0x10, 5, 129, 1, 1, 1, 1, 7, 1, 1, 44, 8, 9] ∧
    loopIteration exLoop exTracker ⟨[0x6c, 0x10, 5, 129, 1, 1, 1, 1, 7, 1, 1, 44, 8, 9], [], [], .exact⟩ = .crash := by decide +kernel

/-! ### Channels -/

/-- C87: a message that binds a handle goes over the channel of its type of handle, and no other
two types share it; the messages of reconciliation go over the channel of reconciliation, those
with data over the channel of data; the messages that manage guarantees and handles go over the
control channel, which no binding, no reconciliation and no data can block. -/
theorem C87_channels (s : Schemes) (h2n : UInt64 → Bytes) (current : Entry) (t t' : Tracker) (body : Body) (ch : Channel)
    (bs : Bytes) (h : encodeMessage s h2n current t (message body) = .ok ((ch, bs), t')) :
    (∀ ty, boundHandle body = some ty ↔ ch = bindingChannel ty ∧ ∀ handle member, body ≠ .paiReplyFragment handle member) ∧
    (Reconciles body ↔ ch = .reconciliation) ∧ (CarriesData body ↔ ch = .data) ∧ (Manages body → ch = .control) ∧
    (∀ ty ty', bindingChannel ty = bindingChannel ty' → ty = ty') := by
  obtain ⟨-, rfl⟩ := encodeMessage_ok.1 h
  refine ⟨fun ty => ?_, ?_, ?_, ?_, fun ty ty' => by cases ty <;> cases ty' <;> simp [bindingChannel]⟩
  · cases body <;> cases ty <;> simp [boundHandle, bindingChannel, msgLogicalChannel, message, kindOf]
  all_goals cases body <;> simp [Reconciles, CarriesData, Manages, msgLogicalChannel, message, kindOf]

example : encodeMessage exSchemes (fun _ => []) exRef exTracker (message (.setupBindStaticToken [3, 4])) =
      .ok ((.staticToken, [48, 3, 4]), exTracker) ∧
    boundHandle (.setupBindStaticToken [3, 4]) = some .staticToken := by decide +kernel

/-- C87: messages of the same sort go over the same channel, so that they arrive in the order in
which they were sent. -/
theorem C87_order (s : Schemes) (h2n : UInt64 → Bytes) (current current' : Entry) (t t' u u' : Tracker) (body body' : Body)
    (ch ch' : Channel) (bs bs' : Bytes) (h : encodeMessage s h2n current t (message body) = .ok ((ch, bs), t'))
    (h' : encodeMessage s h2n current' u (message body') = .ok ((ch', bs'), u'))
    (hs : (Reconciles body ∧ Reconciles body') ∨ (CarriesData body ∧ CarriesData body') ∨
      (∃ ty, boundHandle body = some ty ∧ boundHandle body' = some ty)) : ch = ch' := by
  obtain ⟨a1, a2, a3, -, -⟩ := C87_channels s h2n current t t' body ch bs h
  obtain ⟨b1, b2, b3, -, -⟩ := C87_channels s h2n current' u u' body' ch' bs' h'
  rcases hs with ⟨x, y⟩ | ⟨x, y⟩ | ⟨ty, x, y⟩
  · rw [a2.1 x, b2.1 y]
  · rw [a3.1 x, b3.1 y]
  · rw [((a1 ty).1 x).1, ((b1 ty).1 y).1]

example : Reconciles (.reconciliationSendFingerprint exRange [1] 7 8 200 true) ∧ Reconciles .reconciliationTerminatePayload ∧
    (encodeMessage exSchemes (fun _ => []) exRef exTracker (message .reconciliationTerminatePayload)).map' (·.1.1) =
      .ok .reconciliation := ⟨trivial, trivial, by decide +kernel⟩

end Willow.Props
