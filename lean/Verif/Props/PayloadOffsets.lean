import Verif.Lemmas.PayloadOffsets
import Verif.Props.DataSender

/-! C134: offsets that a peer asks for. -/

namespace Willow.Props

open Willow Spec

/-- A store with the payload `[8, 9]`, for the examples, and a request for it from `offset`. -/
def worldAsked (offset : UInt64) : SenderWorld :=
  { worldAfter [put [[1]] 5 [8, 9]] with requests := (HandleStore.empty.bind ⟨offset, putEntry [[1]] 5 [8, 9]⟩).2 }

theorem worldAsked_within (offset : UInt64) : PayloadsWithin (2 ^ 48) (worldAsked offset) := by
  have hall : ∀ x ∈ (worldAsked 0).files [], x.2.length ≤ 2 := by decide +kernel
  intro e bytes h
  unfold payloadOf at h
  split at h
  · cases h; exact Nat.zero_le _
  · exact Nat.le_trans (hall _ (KV.get_mem h)) (by decide)

/-- C134, partial: if no queued offset is far back, making the messages returns, and what it returns is what C69 and C101
speak of. Missing: offsets far back, see `C134_violated_request`. -/
theorem C134_returns_partial (most : Nat) (hm : most < 2 ^ 63) (transform : Bytes → Bytes) (w : SenderWorld)
    (hw : PayloadsWithin most w) (q : List Queued)
    (hq : ∀ x ∈ q, ∀ e offset, wantsFrom x = some (e, offset) → ¬ FarBack most w e offset) :
    messagesOf most transform w q = .ok (dataMessages transform (q.map w.read)) := by
  induction q with
  | nil => rfl
  | cons x rest ih =>
    have ih := ih fun y hy => hq y (List.mem_cons_of_mem _ hy)
    have hx := hq x List.mem_cons_self
    cases x with
    | nil => exact ih
    | entry e offset handle token =>
      have hx := hx e offset rfl
      simp only [messagesOf, List.map_cons, SenderWorld.read, dataMessages]
      rcases sendPayloadOf_cases most hm transform w hw (.sendEntry e handle token offset) e offset
        (messagesOf most transform w rest) with ⟨h1, _⟩ | ⟨_, _, bytes, h2, h3⟩ | ⟨_, _, h2, h3⟩
      · exact absurd h1 hx
      · rw [h3, h2, ih]; rfl
      · rw [h3, h2]
    | request handle offset e =>
      have hx := hx e offset rfl
      simp only [messagesOf, List.map_cons, SenderWorld.read, dataMessages]
      rcases sendPayloadOf_cases most hm transform w hw (.replyPayload handle) e offset
        (messagesOf most transform w rest) with ⟨h1, _⟩ | ⟨_, _, bytes, h2, h3⟩ | ⟨_, _, h2, h3⟩
      · exact absurd h1 hx
      · rw [h3, h2, ih]; rfl
      · rw [h3, h2]

example : messagesOf (2 ^ 48) id (worldAsked 1) [.request 0 1 (putEntry [[1]] 5 [8, 9]), .entry (putEntry [[1]] 5 [8, 9]) 7 3 [0]] =
    .ok ([.replyPayload 0, .sendPayload 1 [9], .sendEntry (putEntry [[1]] 5 [8, 9]) 3 [0] 7], true) := by
  rw [C134_returns_partial (2 ^ 48) (by decide) id _ (worldAsked_within 1)]
  · decide +kernel
  · rintro x hx e offset ho ⟨_, _, hf, _⟩
    simp only [List.mem_cons, List.not_mem_nil, or_false] at hx
    rcases hx with rfl | rfl <;> cases ho <;> exact absurd hf (by decide)

/-- C134, exact: making the messages ends the process exactly if some element of the queue asks for a payload from far back
and everything queued before it can be sent. -/
theorem C134_exact (most : Nat) (hm : most < 2 ^ 63) (transform : Bytes → Bytes) (w : SenderWorld)
    (hw : PayloadsWithin most w) (q : List Queued) :
    messagesOf most transform w q = .crash ↔
      ∃ before x after e offset, q = before ++ x :: after ∧ wantsFrom x = some (e, offset) ∧ FarBack most w e offset ∧
        ∀ y ∈ before, ∀ e offset, wantsFrom y = some (e, offset) → CanSend w e offset := by
  have step : ∀ (x : Queued) (rest : List Queued) (e : Entry) (offset : UInt64) (header : DataMsg), wantsFrom x = some (e, offset) →
      messagesOf most transform w (x :: rest) =
        sendPayloadOf most transform header (w.payload e) offset (messagesOf most transform w rest) →
      ((messagesOf most transform w rest = .crash ↔
        ∃ before x after e offset, rest = before ++ x :: after ∧ wantsFrom x = some (e, offset) ∧ FarBack most w e offset ∧
          ∀ y ∈ before, ∀ e offset, wantsFrom y = some (e, offset) → CanSend w e offset)) →
      (messagesOf most transform w (x :: rest) = .crash ↔
        ∃ before y after e offset, x :: rest = before ++ y :: after ∧ wantsFrom y = some (e, offset) ∧ FarBack most w e offset ∧
          ∀ y ∈ before, ∀ e offset, wantsFrom y = some (e, offset) → CanSend w e offset) := by
    intro x rest e offset header hx he ih
    rw [he]
    rcases sendPayloadOf_cases most hm transform w hw header e offset (messagesOf most transform w rest) with
      ⟨h1, h2⟩ | ⟨h0, h1, bytes, _, h3⟩ | ⟨h0, h1, _, h3⟩
    · rw [h2]
      exact ⟨fun _ => ⟨[], x, rest, e, offset, rfl, hx, h1, by simp⟩, fun _ => rfl⟩
    · rw [h3]
      constructor
      · intro hc
        have hr : messagesOf most transform w rest = .crash := by
          cases hr : messagesOf most transform w rest with
          | ok r => rw [hr] at hc; cases hc
          | err => rw [hr] at hc; cases hc
          | crash => rfl
          | block => rw [hr] at hc; cases hc
        obtain ⟨before, y, after, e', o', h4, h5, h6, h7⟩ := ih.mp hr
        refine ⟨x :: before, y, after, e', o', by rw [h4]; rfl, h5, h6, ?_⟩
        intro z hz e'' o'' hz'
        rcases List.mem_cons.mp hz with rfl | hz
        · rw [hx] at hz'
          cases hz'
          exact h1
        · exact h7 z hz e'' o'' hz'
      · rintro ⟨before, y, after, e', o', h4, h5, h6, h7⟩
        cases before with
        | nil =>
          cases h4
          rw [hx] at h5
          cases h5
          exact absurd h6 h0
        | cons b before =>
          cases h4
          rw [ih.mpr ⟨before, y, after, e', o', rfl, h5, h6, fun z hz => h7 z (List.mem_cons_of_mem _ hz)⟩]
          rfl
    · rw [h3]
      constructor
      · intro hc; cases hc
      · rintro ⟨before, y, after, e', o', h4, h5, h6, h7⟩
        exfalso
        cases before with
        | nil =>
          cases h4
          rw [hx] at h5
          cases h5
          exact h0 h6
        | cons b before =>
          cases h4
          exact h1 (h7 _ List.mem_cons_self e offset hx)
  induction q with
  | nil =>
    constructor
    · intro h; cases h
    · rintro ⟨before, x, after, e, offset, h, _⟩
      cases before <;> cases h
  | cons x rest ih =>
    cases x with
    | nil =>
      refine Iff.trans ih ?_
      constructor
      · rintro ⟨before, y, after, e, o, h1, h2, h3, h4⟩
        refine ⟨.nil :: before, y, after, e, o, by rw [h1]; rfl, h2, h3, ?_⟩
        intro z hz e' o' hz'
        rcases List.mem_cons.mp hz with rfl | hz
        · cases hz'
        · exact h4 z hz e' o' hz'
      · rintro ⟨before, y, after, e, o, h1, h2, h3, h4⟩
        cases before with
        | nil => cases h1; cases h2
        | cons b before =>
          cases h1
          exact ⟨before, y, after, e, o, rfl, h2, h3, fun z hz => h4 z (List.mem_cons_of_mem _ hz)⟩
    | entry e offset handle token => exact step _ rest e offset (.sendEntry e handle token offset) rfl rfl ih
    | request handle offset e => exact step _ rest e offset (.replyPayload handle) rfl rfl ih

example : ∃ before x after e offset, [Queued.entry (putEntry [[1]] 5 [8, 9]) 0 3 [0], .request 0 (2 ^ 63) (putEntry [[1]] 5 [8, 9])] =
    before ++ x :: after ∧ wantsFrom x = some (e, offset) ∧ FarBack (2 ^ 48) (worldAsked (2 ^ 63)) e offset ∧
      ∀ y ∈ before, ∀ e offset, wantsFrom y = some (e, offset) → CanSend (worldAsked (2 ^ 63)) e offset :=
  (C134_exact (2 ^ 48) (by decide) id (worldAsked (2 ^ 63)) (worldAsked_within _) _).mp (by decide +kernel)

/-- C134 violated: a peer that binds a payload request for an entry whose payload is there, with an offset that is far below
zero as a signed number, ends the process: the request is queued, and making the messages panics, for whatever was queued
before it and can be sent. (`int(msg.Offset)` is negative, so it is less than the size of the file, and the slice for "size minus
offset" bytes cannot be made.) -/
theorem C134_violated_request (most : Nat) (hm : most < 2 ^ 63) (transform : Bytes → Bytes) (w : SenderWorld)
    (hw : PayloadsWithin most w) (q : List Queued)
    (hq : ∀ x ∈ q, ∀ e offset, wantsFrom x = some (e, offset) → CanSend w e offset)
    (handle : UInt64) (r : PayloadRequest) (hr : w.requests.get handle = some r) (hf : FarBack most w r.entry r.offset) :
    ∃ q', queuePayloadRequest w q handle = some q' ∧ messagesOf most transform w q' = .crash := by
  obtain ⟨bytes, hb, _⟩ := id hf
  refine ⟨q ++ [.request handle r.offset r.entry], ?_, ?_⟩
  · unfold queuePayloadRequest
    rw [hr]
    dsimp only
    rw [show w.payload r.entry = some bytes from hb]
  · exact (C134_exact most hm transform w hw _).mpr
      ⟨q, .request handle r.offset r.entry, [], r.entry, r.offset, rfl, rfl, hf, hq⟩

example : FarBack (2 ^ 48) (worldAsked (2 ^ 63)) (putEntry [[1]] 5 [8, 9]) (2 ^ 63) :=
  ⟨[8, 9], by decide +kernel, by decide +kernel, by decide +kernel⟩

example : ∃ q', queuePayloadRequest (worldAsked (2 ^ 63)) [] 0 = some q' ∧ messagesOf (2 ^ 48) id (worldAsked (2 ^ 63)) q' = .crash :=
  C134_violated_request (2 ^ 48) (by decide) id _ (worldAsked_within _) [] (by simp) 0 ⟨2 ^ 63, putEntry [[1]] 5 [8, 9]⟩
    (by decide +kernel) ⟨[8, 9], by decide +kernel, by decide +kernel, by decide +kernel⟩

end Willow.Props
