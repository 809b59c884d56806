import Verif.Lemmas.PropsTransfer
import Verif.Spec.Wgps
import Verif.Lemmas.Prefix

/-! C68 (received payload bytes), C69 (sent payload bytes) and C70 (fragments). -/

namespace Willow.Props

open Willow Spec

/-! ## C68 -/

/-- C68 is violated, always: whatever is targeted, pushed and terminated, the store's payload
ingestion is never called, no byte counts as received, nothing is queued, and no entry is current. -/
theorem C68_violated (process : Bytes → UInt64 → Bytes) (ops : List IngesterOp) :
    ∃ s, Ingester.new.handleAll process (ops.flatMap IngesterOp.events) = .ok s ∧ s.calls = [] ∧ s.receivedLength = 0 ∧ s.fifo = [] ∧
      s.entry = none := ⟨_, handleAll_new process _, rfl, rfl, rfl, rfl⟩

example : ([IngesterOp.target ⟨[42], [7], [[1]], [1], 2, 5⟩, .push [1, 2] false, .push [3] true, .terminate].flatMap IngesterOp.events).length = 5 ∧
    Ingester.new.handleAll (fun b _ => b)
      ([IngesterOp.target ⟨[42], [7], [[1]], [1], 2, 5⟩, .push [1, 2] false, .push [3] true, .terminate].flatMap IngesterOp.events) = .ok .new :=
  ⟨rfl, rfl⟩

/-- C68 is violated in every state of the ingester, not only from the initial one: targeting an
entry and pushing bytes that are not the last change nothing. -/
theorem C68_violated_ignored (process : Bytes → UInt64 → Bytes) (s : Ingester) (op : IngesterOp)
    (hop : (∃ e, op = .target e) ∨ ∃ b, op = .push b false) : s.handleAll process op.events = .ok s := by
  rcases hop with ⟨e, rfl⟩ | ⟨b, rfl⟩ <;> rfl

example : (⟨.pending, [], 0, some ⟨[42], [7], [[1]], [1], 2, 5⟩, []⟩ : Ingester).handleAll (fun b _ => b)
    (IngesterOp.push [1, 2] false).events = .ok ⟨.pending, [], 0, some ⟨[42], [7], [[1]], [1], 2, 5⟩, []⟩ :=
  C68_violated_ignored _ _ _ (.inr ⟨_, rfl⟩)

/-- C68 is violated, were an ingestion under way: after 32 further pieces, none of which anything takes
from the queue, the next end of a payload blocks the ingester forever. -/
theorem C68_violated_blocks (process : Bytes → UInt64 → Bytes) (s : Ingester) (hk : s.kind = .active) :
    s.handleAll process IngesterOp.terminate.events = .block ↔ 32 ≤ s.fifo.length := by
  simp only [IngesterOp.events, Ingester.handleAll, Ingester.handle, Ingester.send, if_pos hk, if_true]
  by_cases h : s.fifo.length < 32
  · rw [if_pos h]
    simp [Res.ok_bind]
    omega
  · rw [if_neg h]
    simp
    omega

example : (⟨.active, List.replicate 32 ⟨none, [1], false⟩, 0, none, []⟩ : Ingester).handleAll (fun b _ => b)
    IngesterOp.terminate.events = .block ∧ ∃ s, (⟨.active, List.replicate 31 ⟨none, [1], false⟩, 0, none, []⟩ : Ingester).handleAll
      (fun b _ => b) IngesterOp.terminate.events = .ok s := ⟨rfl, _, rfl⟩

/-- C68, partial, were an ingestion under way: while there is room, the end of a payload is put behind
the pieces that are queued already, which stay, and nothing more is handed to the store. Missing: no
ingestion ever is under way (see `C68_violated`), and nothing takes from the queue. -/
theorem C68_end_partial (process : Bytes → UInt64 → Bytes) (s : Ingester) (hk : s.kind = .active)
    (hr : s.fifo.length < 32) : ∃ s', s.handleAll process IngesterOp.terminate.events = .ok s' ∧
    s'.fifo = s.fifo ++ [⟨none, [], true⟩] ∧ s'.kind = .cancelled ∧ s'.calls = s.calls ∧
    s'.receivedLength = s.receivedLength ∧ s'.entry = s.entry ∧
    ∀ ops : List IngesterOp, s'.handleAll process (ops.flatMap IngesterOp.events) = .ok s' := by
  refine ⟨{ s with fifo := s.fifo ++ [⟨none, [], true⟩], kind := .cancelled }, ?_, rfl, rfl, rfl, rfl, rfl, ?_⟩
  · simp only [IngesterOp.events, Ingester.handleAll, Ingester.handle, Ingester.send, if_pos hk, if_true,
      if_pos hr, Res.ok_bind]
  · intro ops
    exact handleAll_cancelled process _ rfl ops

example : ∃ s', (⟨.active, [⟨none, [1], false⟩], 1, none, []⟩ : Ingester).handleAll (fun b _ => b)
    IngesterOp.terminate.events = .ok s' ∧ s'.fifo = [⟨none, [1], false⟩, ⟨none, [], true⟩] := ⟨_, rfl, rfl⟩

/-! ## C69 -/

/-- The header message of an element of the queue and the payload bytes it asks for. -/
def wanted (transform : Bytes → Bytes) : SendItem → Option (DataMsg × Bytes)
  | .nil => none
  | .entry e offset s d payload => some (.sendEntry e s d offset, (payload.drop offset.toNat).flatMap fun b => transform [b])
  | .request handle offset payload => some (.replyPayload handle, (payload.drop offset.toNat).flatMap fun b => transform [b])

/-- The offset of an element lies inside its payload. -/
def Inside : SendItem → Prop
  | .nil => True
  | .entry _ offset _ _ payload => offset.toNat < payload.length
  | .request _ offset payload => offset.toNat < payload.length

/-- The payload of an element has fewer than 2^63 bytes (as every file). -/
def SmallItem : SendItem → Prop
  | .nil => True
  | .entry _ _ _ _ payload => payload.length < 2 ^ 63
  | .request _ _ payload => payload.length < 2 ^ 63

/-- C69, partial: if every offset lies inside its payload, there is no error, the messages are,
for each element of the queue in order, its header and payload messages with exactly the bytes
from the offset on, each byte transformed; and the first message is a header. Missing: offsets at
or after the end of the payload, in particular empty payloads (see `C69_violated`). -/
theorem C69_complete_partial (transform : Bytes → Bytes) (q : List SendItem) (hs : ∀ x ∈ q, SmallItem x) (hi : ∀ x ∈ q, Inside x) :
    (dataMessages transform q).2 = false ∧ sections (dataMessages transform q).1 = q.filterMap (wanted transform) ∧
    sections.following (dataMessages transform q).1 = [] := by
  refine ⟨?_, ?_, following_messages transform q⟩
  · induction q with
    | nil => rfl
    | cons x q ih =>
      have ih := ih (fun y hy => hs y (List.mem_cons_of_mem _ hy)) (fun y hy => hi y (List.mem_cons_of_mem _ hy))
      have h1 := hs x List.mem_cons_self
      have h2 := hi x List.mem_cons_self
      cases x with
      | nil => exact ih
      | entry e o s d p => unfold dataMessages; rw [bytesFrom_eq _ _ h1, if_pos (show o.toNat < p.length from h2)]; exact ih
      | request h o p => unfold dataMessages; rw [bytesFrom_eq _ _ h1, if_pos (show o.toNat < p.length from h2)]; exact ih
  · induction q with
    | nil => rfl
    | cons x q ih =>
      have ih := ih (fun y hy => hs y (List.mem_cons_of_mem _ hy)) (fun y hy => hi y (List.mem_cons_of_mem _ hy))
      have h1 := hs x List.mem_cons_self
      have h2 := hi x List.mem_cons_self
      cases x with
      | nil => exact ih
      | entry e o s d p =>
        unfold dataMessages
        rw [bytesFrom_eq _ _ h1, if_pos (show o.toNat < p.length from h2)]
        simp only [sections, following_payload, sections_payload, following_messages, List.append_nil, ih, wanted, List.filterMap_cons]
      | request h o p =>
        unfold dataMessages
        rw [bytesFrom_eq _ _ h1, if_pos (show o.toNat < p.length from h2)]
        simp only [sections, following_payload, sections_payload, following_messages, List.append_nil, ih, wanted, List.filterMap_cons]

example : (∀ x ∈ [SendItem.nil, .entry ⟨[42], [7], [[1]], [1], 3, 5⟩ 1 0 [9] [10, 11, 12], .request 4 0 [13]], SmallItem x ∧ Inside x) := by
  intro x hx
  simp only [List.mem_cons, List.not_mem_nil, or_false] at hx
  rcases hx with rfl | rfl | rfl <;> constructor <;> simp [SmallItem, Inside]

/-- C69: the amount in a payload message is the number of its bytes. -/
theorem C69_amounts (transform : Bytes → Bytes) (q : List SendItem) (n : UInt64) (b : Bytes)
    (h : .sendPayload n b ∈ (dataMessages transform q).1) : n = UInt64.ofNat b.length := by
  have hp : ∀ l : Bytes, DataMsg.sendPayload n b ∈ payloadMessages transform l → n = UInt64.ofNat b.length := by
    intro l
    induction l with
    | nil => intro h; cases h
    | cons x l ih =>
      intro h
      rcases List.mem_cons.1 h with h | h
      · cases h; rfl
      · exact ih h
  induction q with
  | nil => cases h
  | cons x q ih =>
    cases x with
    | nil => exact ih h
    | entry e o s d p =>
      unfold dataMessages at h
      cases hb : bytesFrom p o with
      | none => rw [hb] at h; simp at h
      | some bytes =>
        rw [hb] at h
        simp only [List.mem_cons, List.mem_append, reduceCtorEq, false_or] at h
        exact h.elim (hp _) ih
    | request k o p =>
      unfold dataMessages at h
      cases hb : bytesFrom p o with
      | none => rw [hb] at h; simp at h
      | some bytes =>
        rw [hb] at h
        simp only [List.mem_cons, List.mem_append, reduceCtorEq, false_or] at h
        exact h.elim (hp _) ih

example : .sendPayload 1 [12] ∈ (dataMessages id [.nil, .entry ⟨[42], [7], [[1]], [1], 3, 5⟩ 1 0 [9] [10, 11, 12]]).1 := by decide +kernel

/-- C69, partial, exact: there is an error exactly when some offset does not lie inside its
payload. -/
theorem C69_error_partial (transform : Bytes → Bytes) (q : List SendItem) (hs : ∀ x ∈ q, SmallItem x) :
    (dataMessages transform q).2 = true ↔ ∃ x ∈ q, ¬ Inside x := by
  induction q with
  | nil => simp [dataMessages]
  | cons x q ih =>
    have ih := ih fun y hy => hs y (List.mem_cons_of_mem _ hy)
    have h1 := hs x List.mem_cons_self
    have e : (∃ y ∈ x :: q, ¬ Inside y) ↔ ¬ Inside x ∨ ∃ y ∈ q, ¬ Inside y := by simp
    rw [e, ← ih]
    clear ih e
    cases x with
    | nil => simp [dataMessages, Inside]
    | entry a o s d p =>
      generalize hd : dataMessages transform q = d
      unfold dataMessages
      rw [hd, bytesFrom_eq _ _ h1]
      by_cases h : o.toNat < p.length
      · simp [h, Inside]
      · simp [h, Inside]
    | request a o p =>
      generalize hd : dataMessages transform q = d
      unfold dataMessages
      rw [hd, bytesFrom_eq _ _ h1]
      by_cases h : o.toNat < p.length
      · simp [h, Inside]
      · simp [h, Inside]

example : sections (dataMessages id [.nil, .entry ⟨[42], [7], [[1]], [1], 3, 5⟩ 1 0 [9] [10, 11, 12], .request 4 0 [13]]).1 =
    [(.sendEntry ⟨[42], [7], [[1]], [1], 3, 5⟩ 0 [9] 1, [11, 12]), (.replyPayload 4, [13])] := rfl

example : ∀ x ∈ [SendItem.nil, .entry ⟨[42], [7], [[1]], [1], 3, 5⟩ 1 0 [9] [10, 11, 12], .request 4 0 [13]], SmallItem x ∧ Inside x := by
  intro x hx
  simp only [List.mem_cons, List.not_mem_nil, or_false] at hx
  rcases hx with rfl | rfl | rfl
  · exact ⟨trivial, trivial⟩
  · exact ⟨show (3 : Nat) < 2 ^ 63 by decide, show (1 : UInt64).toNat < 3 by decide⟩
  · exact ⟨show (1 : Nat) < 2 ^ 63 by decide, show (0 : UInt64).toNat < 1 by decide⟩

/-- C69 is violated: after an entry with an empty payload nothing of the rest of the queue is
sent. -/
theorem C69_violated (e e' : Entry) (payload : Bytes) :
    dataMessages id [.entry e 0 0 [] [], .entry e' 0 0 [] payload] = ([.sendEntry e 0 [] 0], true) := rfl

/-! ## C70 -/

/-- C70: the fragments of a grant of everything are the namespace with every prefix of the path,
each once. -/
theorem C70_complete (n : Bytes) (path : Path) :
    (createFragmentSet (.complete n path)).primary = [] ∧
    (∀ m q, (m, q) ∈ (createFragmentSet (.complete n path)).secondary ↔ m = n ∧ q <+: path) ∧
    (createFragmentSet (.complete n path)).secondary.Nodup := by
  refine ⟨rfl, fun m q => ?_, map_nodup _ (fun a b h => by cases h; rfl) _ (prefixesOf_nodup path)⟩
  simp only [createFragmentSet, List.mem_map, mem_prefixesOf, Prod.mk.injEq]
  constructor
  · rintro ⟨p, h, rfl, rfl⟩; exact ⟨rfl, h⟩
  · rintro ⟨rfl, h⟩; exact ⟨q, h, rfl, rfl⟩

example : createFragmentSet (.complete [42] [[1], [2]]) = ⟨[], [([42], []), ([42], [[1]]), ([42], [[1], [2]])]⟩ := by decide

/-- C70: the fragments of a grant of one subspace are the namespace, with and without the
subspace, with every prefix of the path, each once. -/
theorem C70_selective (n s : Bytes) (path : Path) :
    (∀ m t q, (m, t, q) ∈ (createFragmentSet (.selective n s path)).primary ↔ m = n ∧ t = s ∧ q <+: path) ∧
    (createFragmentSet (.selective n s path)).primary.Nodup ∧
    (∀ m q, (m, q) ∈ (createFragmentSet (.selective n s path)).secondary ↔ m = n ∧ q <+: path) ∧
    (createFragmentSet (.selective n s path)).secondary.Nodup := by
  refine ⟨fun m t q => ?_, map_nodup _ (fun a b h => by cases h; rfl) _ (prefixesOf_nodup path), (C70_complete n path).2⟩
  simp only [createFragmentSet, List.mem_map, mem_prefixesOf, Prod.mk.injEq]
  constructor
  · rintro ⟨p, h, rfl, rfl, rfl⟩; exact ⟨rfl, rfl, h⟩
  · rintro ⟨rfl, rfl, h⟩; exact ⟨q, h, rfl, rfl, rfl⟩

example : createFragmentSet (.selective [42] [7] [[1]]) = ⟨[([42], [7], []), ([42], [7], [[1]])], [([42], []), ([42], [[1]])]⟩ := by decide

/-- C70, partial: the fragment of the whole path of one grant is among the fragments of the other,
or the other way round, exactly when the namespaces agree and one path is a prefix of the other.
Missing: for any shared fragment this is not so (see `C70_violated_share`). -/
theorem C70_match_partial (n m : Bytes) (p q : Path) :
    ((n, p) ∈ (createFragmentSet (.complete m q)).secondary ∨ (m, q) ∈ (createFragmentSet (.complete n p)).secondary) ↔
      n = m ∧ (p <+: q ∨ q <+: p) := by
  rw [(C70_complete m q).2.1, (C70_complete n p).2.1]
  constructor
  · rintro (⟨rfl, h⟩ | ⟨rfl, h⟩)
    · exact ⟨rfl, .inl h⟩
    · exact ⟨rfl, .inr h⟩
  · rintro ⟨rfl, h | h⟩
    · exact .inl ⟨rfl, h⟩
    · exact .inr ⟨rfl, h⟩

example : ([42], [[1]]) ∈ (createFragmentSet (.complete [42] [[1], [2]])).secondary ∧
    ([42], [[3]]) ∉ (createFragmentSet (.complete [42] [[1], [2]])).secondary := by decide

/-- C70 is violated: two grants of the same namespace always share a fragment, that of the empty
path, even if neither path is a prefix of the other. -/
theorem C70_violated_share (n m : Bytes) (p q : Path) :
    (∃ f, f ∈ (createFragmentSet (.complete n p)).secondary ∧ f ∈ (createFragmentSet (.complete m q)).secondary) ↔ n = m := by
  constructor
  · rintro ⟨⟨a, b⟩, h1, h2⟩
    rw [(C70_complete n p).2.1] at h1
    rw [(C70_complete m q).2.1] at h2
    rw [← h1.1, h2.1]
  · rintro rfl
    exact ⟨(n, []), ((C70_complete n p).2.1 _ _).2 ⟨rfl, List.nil_prefix⟩, ((C70_complete n q).2.1 _ _).2 ⟨rfl, List.nil_prefix⟩⟩

example : ¬ (([[1]] : Path) <+: [[2]] ∨ ([[2]] : Path) <+: [[1]]) ∧ createFragmentSet (.selective [42] [7] [[1], [2]]) =
    ⟨[([42], [7], []), ([42], [7], [[1]]), ([42], [7], [[1], [2]])], [([42], []), ([42], [[1]]), ([42], [[1], [2]])]⟩ := by
  decide

end Willow.Props
