import Verif.Lemmas.PropsMessenger
import Verif.Props.Transport
import Verif.Lemmas.PropsEntryLayout

/-! Properties C92 and C93: the handlers of the messenger. -/

namespace Willow.Props

open Willow Spec

/-! ### Reconciliation -/

/-- C92, partial: to a fingerprint that equals that of the own entries of a range, nothing is sent
and nothing else happens. Missing: every other case, see below. -/
theorem C92_equal_partial (gob : Gob) (env : StoreEnv) (fps : FpScheme) (st : StoreState) (t : Transport) (r : Range3d)
    (fp : Bytes) (he : ∀ k ∈ st.kd, InRange3d r k.pos → k.fingerprint = []) (hfp : fps.isEqual fp (fps.finalise []) = true) :
    handleReconciliationAcceptor gob env fps st t r fp = .ok t := by
  obtain ⟨n, h1, -⟩ := summarise_ok env.lib st.kd r he
  unfold handleReconciliationAcceptor messengerRespond
  rw [h1]
  simp [hfp]

example : (∀ k ∈ at_ [(1, 5), (2, 6)], InRange3d fromFive k.pos → k.fingerprint = []) ∧
    plainFps.isEqual [] (plainFps.finalise []) = true := by
  refine ⟨?_, by decide⟩
  intro k hk _
  simp only [at_, List.map_cons, List.map_nil, List.mem_cons, List.not_mem_nil, or_false] at hk
  rcases hk with rfl | rfl <;> rfl

/-- C92, partial: the answer that is worked out, before it is sent, is the one that is due: none
to an equal fingerprint, all entries of the range if there are at most eight, and otherwise two
ranges that together make up the range, with their fingerprints. -/
theorem C92_answer_partial (lib : KdLib) (fps : FpScheme) (kd : List KdKey) (r : Range3d) (fp : Bytes)
    (he : ∀ k ∈ kd, InRange3d r k.pos → k.fingerprint = []) (hn : entriesIn kd r < 2 ^ 64) :
    ∃ a, messengerRespond lib fps kd r fp = .ok a ∧
      (fps.isEqual fp (fps.finalise []) = true → a.wantResponse = false ∧ a.left = (zeroRange3d, []) ∧ a.right = (zeroRange3d, [])) ∧
      (fps.isEqual fp (fps.finalise []) = false → entriesIn kd r ≤ 8 → a.wantResponse = true ∧ a.range = r) ∧
      (fps.isEqual fp (fps.finalise []) = false → 8 < entriesIn kd r → a.wantResponse = false ∧
        (∃ f n f' n', summarise lib kd a.left.1 = .ok (f, n) ∧ a.left.2 = fps.finalise f ∧
          summarise lib kd a.right.1 = .ok (f', n') ∧ a.right.2 = fps.finalise f') ∧
        ∀ x, (InRange3d r x ↔ InRange3d a.left.1 x ∨ InRange3d a.right.1 x) ∧
          ¬ (InRange3d a.left.1 x ∧ InRange3d a.right.1 x)) := by
  obtain ⟨n, h1, h2⟩ := summarise_ok lib kd r he
  have hsize : n ≤ 8 ↔ entriesIn kd r ≤ 8 := by
    rw [UInt64.le_iff_toNat_le, h2, UInt64.toNat_ofNat', Nat.mod_eq_of_lt hn]
    rfl
  unfold messengerRespond
  rw [h1]
  simp only [Res.ok_bind]
  by_cases hq : fps.isEqual fp (fps.finalise []) = true
  · rw [if_pos hq]
    exact ⟨_, rfl, fun _ => ⟨rfl, rfl, rfl⟩, fun h => by simp [hq] at h, fun h => by simp [hq] at h⟩
  · rw [if_neg hq]
    by_cases hs : entriesIn kd r ≤ 8
    · rw [if_pos (hsize.2 hs)]
      exact ⟨_, rfl, fun h => absurd h hq, fun _ _ => ⟨rfl, rfl⟩, fun _ h => by omega⟩
    · rw [if_neg fun h => hs (hsize.1 h)]
      obtain ⟨a, b, s1, s2⟩ := C37_split lib kd r (entriesIn_pos kd r (by omega))
      obtain ⟨na, ha, -⟩ := summarise_ok lib kd a fun k hk hr => he k hk ((s2 k.pos).1.2 (.inl hr))
      obtain ⟨nb, hb, -⟩ := summarise_ok lib kd b fun k hk hr => he k hk ((s2 k.pos).1.2 (.inr hr))
      rw [s1]
      simp only [Res.ok_bind, ha, hb]
      exact ⟨_, rfl, fun h => absurd h hq, fun _ h => absurd h hs, fun _ _ => ⟨rfl, ⟨_, _, _, _, ha, rfl, hb, rfl⟩, s2⟩⟩

example : (messengerRespond listLib plainFps (at_ [(1, 5), (2, 6)]) fromFive [1]).map' (·.wantResponse) = .ok true := by
  decide +kernel

/-- C92: a length can be written exactly into slices with room for its eight bytes, which are then there with the highest
first; the rest of the slice stays as it is. -/
theorem C92_room (b : Bytes) (v : UInt64) :
    (putUint64 b v = .crash ↔ b.length < 8) ∧
    (8 ≤ b.length → ∃ b', putUint64 b v = .ok b' ∧ b'.length = b.length ∧ natBytes (b'.take 8) = inBytes 8 v.toNat ∧
      b'.drop 8 = b.drop 8) := by
  have hl : (bigIntToBytes v).length = 8 := by unfold bigIntToBytes; rw [putU64_eq, beBytes_length]
  unfold putUint64
  constructor
  · by_cases h : b.length < 8
    · simp [h]
    · simp [h]
  · intro h
    refine ⟨bigIntToBytes v ++ b.drop 8, if_neg (by omega), by rw [List.length_append, hl, List.length_drop]; omega, ?_, ?_⟩
    · rw [List.take_append_of_le_length (by omega), List.take_of_length_le (by omega), natBytes_u64]
    · rw [List.drop_append_of_le_length (by omega), List.drop_of_length_le (by omega), List.nil_append]

example : 8 ≤ ([1, 2, 3, 4, 5, 6, 7, 8, 9] : Bytes).length ∧
    putUint64 [1, 2, 3, 4, 5, 6, 7, 8, 9] 258 = .ok [0, 0, 0, 0, 0, 0, 1, 2, 9] ∧ putUint64 [] 258 = .crash := by decide

/-- C92 is violated: to a fingerprint that differs, a peer that holds entries of the range never
gives an answer: it ends the process when it writes the length of the answer into a nil slice. -/
theorem C92_violated_crash (gob : Gob) (env : StoreEnv) (fps : FpScheme) (st : StoreState) (t : Transport) (r : Range3d)
    (fp : Bytes) (hn : entriesIn st.kd r < 2 ^ 64) (hfp : fps.isEqual fp (fps.finalise []) = false)
    (hk : ∃ k ∈ st.kd, InRange3d r k.pos) : handleReconciliationAcceptor gob env fps st t r fp = .crash := by
  by_cases he : ∀ k ∈ st.kd, InRange3d r k.pos → k.fingerprint = []
  · obtain ⟨a, h1, -, h3, h4⟩ := C92_answer_partial env.lib fps st.kd r fp he hn
    unfold handleReconciliationAcceptor
    rw [h1, Res.ok_bind]
    by_cases hs : entriesIn st.kd r ≤ 8
    · obtain ⟨w, rr⟩ := h3 hfp hs
      rw [if_pos w, rr]
      split
      · rename_i es hq
        unfold entryQuery at hq
        have hlen := entryQueryLoop_length _ _ _ _ _ hq
        rw [List.length_replicate] at hlen
        obtain ⟨k, hk, hr⟩ := hk
        have := List.length_pos_of_mem ((env.lib.mem_query st.kd r k).2 ⟨hk, hr⟩)
        cases es with
        | nil => exact absurd hlen (by simp only [List.length_nil]; omega)
        | cons x rest => exact sendEntries_crash _ _ _ _ _ _
      · rfl
    · obtain ⟨w, -, hcov⟩ := h4 hfp (by omega)
      rw [if_neg (by simp [w]), if_neg, withLength_crash]
      · rfl
      · rintro ⟨hl, hr⟩
        obtain ⟨k, -, hk⟩ := hk
        rcases (hcov k.pos).1.1 hk with h | h
        · rw [hl] at h; exact zeroRange_empty _ h
        · rw [hr] at h; exact zeroRange_empty _ h
  · have : ∃ k ∈ st.kd, InRange3d r k.pos ∧ k.fingerprint ≠ [] := by
      simp only [Classical.not_forall] at he
      obtain ⟨k, a, b, c⟩ := he
      exact ⟨k, a, b, c⟩
    obtain ⟨k, hk, hr, hf⟩ := this
    unfold handleReconciliationAcceptor messengerRespond
    rw [C36_violated_crash env.lib st.kd r k hk hr hf]
    rfl

example : plainFps.isEqual [1] (plainFps.finalise []) = false ∧ (at_ [(1, 5), (2, 6)]).length = 2 := by decide

/-- C92 is violated: in no case does the accepting peer send anything. -/
theorem C92_violated_silent (gob : Gob) (env : StoreEnv) (fps : FpScheme) (st : StoreState) (t t' : Transport) (r : Range3d)
    (fp : Bytes) (h : handleReconciliationAcceptor gob env fps st t r fp = .ok t') : t' = t := by
  unfold handleReconciliationAcceptor at h
  obtain ⟨a, -, h⟩ := Res.bind_eq_ok.1 h
  split at h
  · split at h
    · rename_i es _
      cases es with
      | nil => cases h; rfl
      | cons x rest => rw [sendEntries_crash] at h; cases h
    · cases h
  · split at h
    · cases h; rfl
    · rw [withLength_crash] at h; cases h

example : handleReconciliationAcceptor ⟨fun _ => [], fun _ => zeroRange3d, fun _ _ => [], fun _ => (zeroEntry, []), []⟩
    cutEnv plainFps .empty Transport.new.accept fromFive [1] = .ok Transport.new.accept := rfl

/-- C92 is violated: the message in which the initiator should send its summary of a range is the
same for every store and every range. -/
theorem C92_violated_summary (gob : Gob) (env env' : StoreEnv) (st st' : StoreState) (t u u' : Transport) (r r' : Range3d)
    (h : handleReconciliationInitiator gob env st t r = .ok u) (h' : handleReconciliationInitiator gob env' st' t r' = .ok u') :
    u = u' := by
  obtain ⟨x, -, h⟩ := Res.bind_eq_ok.1 h
  obtain ⟨x', -, h'⟩ := Res.bind_eq_ok.1 h'
  have : Res.ok u = Res.ok u' := h.symm.trans h'
  cases this
  rfl

example : ∃ u, handleReconciliationInitiator ⟨fun _ => [], fun _ => zeroRange3d, fun _ _ => [], fun _ => (zeroEntry, []), [9]⟩
    cutEnv { StoreState.empty with kd := at_ [(1, 5)] } Transport.new.initiate fromFive = .ok u ∧
    (u.initiated .reconciliation).map (·.written) = some [0, 0, 0, 0, 0, 0, 0, 1, 1, 9] := ⟨_, rfl, rfl⟩

/-- C92 is violated: if the initiator holds an entry with a fingerprint in the range that the other peer
asks about, it ends the process. -/
theorem C92_violated_asked (gob : Gob) (env : StoreEnv) (st : StoreState) (t : Transport) (msg : Bytes) (k : KdKey)
    (hk : k ∈ st.kd) (hr : InRange3d (gob.rangeBack msg) k.pos) (hf : k.fingerprint ≠ []) :
    initiateReconciliation gob env st t msg = .crash := by
  unfold initiateReconciliation handleReconciliationInitiator
  rw [C36_violated_crash env.lib st.kd _ k hk hr hf]
  rfl

example : ∃ k ∈ [(⟨⟨[7], [[1]], 5⟩, [3]⟩ : KdKey)], InRange3d fromFive k.pos ∧ k.fingerprint ≠ [] ∧
    initiateReconciliation ⟨fun _ => [], fun _ => fromFive, fun _ _ => [], fun _ => (zeroEntry, []), [9]⟩ cutEnv
      { StoreState.empty with kd := [⟨⟨[7], [[1]], 5⟩, [3]⟩] } Transport.new.initiate [1] = .crash := by
  refine ⟨_, List.mem_singleton.2 rfl, ?_, by decide, rfl⟩
  rw [← isIncluded3d_iff decides_subspace]
  decide

/-- C92, partial: otherwise it sends one message on the reconciliation stream, if it can, and does nothing else. The
message describes the type of summaries and has no content. -/
theorem C92_asked_partial (gob : Gob) (env : StoreEnv) (st : StoreState) (t t' : Transport) (msg : Bytes)
    (h : initiateReconciliation gob env st t msg = .ok t') :
    (writable t .alfie .reconciliation = true ∧ t.send gob.typeOnly .reconciliation .alfie = .ok t') ∨
      (writable t .alfie .reconciliation = false ∧ t' = t) := by
  unfold initiateReconciliation handleReconciliationInitiator at h
  obtain ⟨x, -, h⟩ := Res.bind_eq_ok.1 h
  unfold Transport.sendIgnoring at h
  cases hw : writable t .alfie .reconciliation with
  | true =>
    obtain ⟨u, hu⟩ := (C90_writable_partial t (encodeSummary gob x (gob.rangeBack msg)) .reconciliation .alfie).2 hw
    rw [hu] at h
    exact .inl ⟨rfl, hu.trans h⟩
  | false =>
    refine .inr ⟨rfl, ?_⟩
    split at h
    · cases h; rfl
    · have := (C90_writable_partial t _ .reconciliation .alfie).1 ⟨t', h⟩
      rw [hw] at this
      cases this

example : ∃ t', initiateReconciliation ⟨fun _ => [], fun _ => fromFive, fun _ _ => [], fun _ => (zeroEntry, []), [9]⟩ cutEnv
      { StoreState.empty with kd := at_ [(1, 5)] } Transport.new.initiate [1] = .ok t' ∧
    ∃ k ∈ at_ [(1, 5)], InRange3d fromFive k.pos := by
  refine ⟨_, rfl, (at_ [(1, 5)]).head (by decide), by decide, ?_⟩
  rw [← isIncluded3d_iff decides_subspace]
  decide

/-- C92 is violated: whatever message arrives and whatever the accepting peer holds, it does
nothing. -/
theorem C92_violated_ignored (gob : Gob) (env : StoreEnv) (fps : FpScheme) (st : StoreState) (t : Transport) (msg : Bytes) :
    acceptReconciliation gob env fps st t msg = .ok t := by
  have hq : env.lib.query st.kd zeroRange3d = [] := by
    rw [List.eq_nil_iff_forall_not_mem]
    intro k hk
    exact zeroRange_empty _ ((env.lib.mem_query st.kd zeroRange3d k).1 hk).2
  unfold acceptReconciliation decodeSummary handleReconciliationAcceptor messengerRespond
  have hs : summarise env.lib st.kd zeroRange3d = .ok ([], 0) := by
    unfold summarise
    rw [hq]
    rfl
  dsimp only
  rw [hs]
  simp only [Res.ok_bind]
  split
  · rfl
  · rw [if_pos (by decide)]
    simp [entryQuery, hq, entryQueryLoop, sendEntries]

example : ∃ st : StoreState, st.kd = at_ [(1, 5), (2, 6)] := ⟨{ StoreState.empty with kd := at_ [(1, 5), (2, 6)] }, rfl⟩

/-- C92 is violated: on a closed transport, or if the stream for reconciliation is closed, the summary is
lost and nobody is told: the result is the same as if it had been sent. -/
theorem C92_violated_lost (gob : Gob) (env : StoreEnv) (st : StoreState) (t : Transport) (r : Range3d)
    (x : Bytes × UInt64) (hx : summarise env.lib st.kd r = .ok x)
    (h : t.closed = true ∨ ∃ s : StreamEnd, t.initiated .reconciliation = some s ∧ s.closed = true) :
    handleReconciliationInitiator gob env st t r = .ok t := by
  have hs : t.send (encodeSummary gob x r) .reconciliation .alfie = .err := by
    unfold Transport.send
    split
    · rfl
    · obtain ⟨s, h, hc⟩ := h.resolve_left ‹_›
      simp only [h, streamWrite, hc, if_true]
      rfl
  unfold handleReconciliationInitiator Transport.sendIgnoring
  rw [hx]
  simp only [Res.ok_bind, hs]

example : (∃ x, summarise listLib (at_ [(1, 5), (2, 6)]) zeroRange3d = .ok x) ∧
    ({ Transport.new with closed := true } : Transport).closed = true := ⟨⟨_, rfl⟩, rfl⟩

/-! ### Data -/

/-- C93 is violated whenever the entry in a message is of another namespace, or has a time of zero, or does not have the
digest and the length of the payload that comes with it: after any fine calls, what is found at its path is an entry of
the own namespace, with the digest and the length of the payload, and with the time of the receiver's clock in place of
zero. So it is found as the peer has it exactly if that changes nothing. -/
theorem C93_violated_exactly (gob : Gob) (env : StoreEnv) (he : EnvOk env) (before : List StoreOp)
    (hf : ∀ op ∈ before, FineOp env op) (st : StoreState) (hrun : runOps env .empty before = .ok st) (now : UInt64)
    (msg : Bytes) (e stored : Entry) (payload token : Bytes) (hmsg : gob.entryBack msg = (e, payload))
    (hstored : stored = ⟨env.namespaceId, e.subspaceId, e.path, env.hash payload, UInt64.ofNat payload.length,
      if e.timestamp = 0 then now else e.timestamp⟩)
    (hsame : env.nsEqual env.namespaceId env.namespaceId = true)
    (hauth : env.authorise stored e.subspaceId = some token) (htok : env.isAuthorised stored token = true)
    (hc : Comfortable env.p e.path)
    (hnew : ∀ a : Item, Proper env.p a → Holds env st a.pos a.val → a.pos.subspace = e.subspaceId → a.pos.path <+: e.path →
      a.pos.time < stored.timestamp) :
    ∃ st' authDigest, receiveData gob env st now msg = .ok st' ∧
      entryGet env st' e.subspaceId e.path = .ok (.found stored authDigest) ∧
      (stored = e ↔ e.namespaceId = env.namespaceId ∧ e.payloadDigest = env.hash payload ∧
        e.payloadLength = UInt64.ofNat payload.length ∧ (e.timestamp = 0 → now = 0)) := by
  obtain ⟨st0, h1, h2, h3⟩ := run_ok he before hf
  rw [hrun] at h1
  cases h1
  let input : EntryInput := ⟨e.subspaceId, e.path, e.timestamp, payload⟩
  have hsub : stored.subspaceId = e.subspaceId := by rw [hstored]
  have hpath : stored.path = e.path := by rw [hstored]
  have hnss : stored.namespaceId = env.namespaceId := by rw [hstored]
  have hat : attempt env (.set now input e.subspaceId) = some (stored, token) := by
    simp only [attempt, input, ← hstored, hauth, Option.map_some]
  have hfine : FineOp env (.set now input e.subspaceId) := by
    intro e' token' h'
    rw [hat] at h'
    cases h'
    exact ⟨by rw [hpath]; exact hc, by rw [hstored]; exact he.hash _⟩
  obtain ⟨r, st1, e1, e2, e3, e4⟩ := runOp_ok he h2 h3 (.set now input e.subspaceId) hfine
  have hacc : Acceptable env (specRun env [] before) stored token := by
    refine ⟨by rw [hnss]; exact hsame, htok, fun a ha hs hp => ?_⟩
    have hpr := (h2.core.fine a ha).proper
    rw [hsub] at hs
    rw [hpath] at hp
    exact hnew a hpr ((h2.holds he hpr).2 ha) hs hp
  have hmem : newItem env stored token ∈ specStep env (specRun env [] before) (.set now input e.subspaceId) := by
    unfold specStep
    rw [hat]
    dsimp only
    rw [if_pos hacc]
    exact List.mem_cons_self
  have e1' : storeSet env st now input e.subspaceId = .ok (r, st1) := e1
  have hrec : receiveData gob env st now msg = .ok st1 := by
    unfold receiveData handleData
    rw [hmsg]
    dsimp only
    rw [e1']
    rfl
  rcases e2.core.entryGet e.subspaceId e.path hc.valid (.inr hc) with ⟨_, g⟩ | ⟨a, ha, g1, g2, g3⟩
  · exact absurd ⟨hsub, hpath⟩ (g _ hmem)
  · have hae : a = newItem env stored token := by
      refine apart_unique e2.core.apart ha hmem (g1.trans hsub.symm) (g2.trans hpath.symm)
    refine ⟨st1, a.val.authDigest, hrec, ?_, ?_⟩
    · rw [g3, hae, ← hnss]
      rfl
    · obtain ⟨n, s, q, d, l, t⟩ := e
      rw [hstored]
      simp only [Entry.mk.injEq, true_and]
      by_cases ht : t = 0
      · simp only [ht, if_true, forall_const]
        exact ⟨fun ⟨a, b, c, d⟩ => ⟨a.symm, b.symm, c.symm, d⟩, fun ⟨a, b, c, d⟩ => ⟨a.symm, b.symm, c.symm, d⟩⟩
      · simp only [ht, if_false, false_implies, and_true]
        exact ⟨fun ⟨a, b, c⟩ => ⟨a.symm, b.symm, c.symm⟩, fun ⟨a, b, c⟩ => ⟨a.symm, b.symm, c.symm⟩⟩

example : cutEnv.authorise ⟨[42], [7], [[1]], [3, 5, 5, 5], 3, 99⟩ [7] = some [7] ∧
    cutEnv.isAuthorised ⟨[42], [7], [[1]], [3, 5, 5, 5], 3, 99⟩ [7] = true ∧ Comfortable cutEnv.p [[1]] ∧
    (⟨[42], [7], [[1]], [3, 5, 5, 5], 3, 99⟩ : Entry) ≠ ⟨[43], [7], [[1]], [1, 8], 1, 0⟩ :=
  ⟨by decide, by decide, cut_comfortable _ ⟨by decide, by decide, by decide⟩ (by decide) (by decide) (by decide), by decide⟩

/-- C93, partial: after any fine calls, if a message arrives that carries an entry of the
namespace with a time other than zero, which has the digest and the length of the payload that
comes with it and is newer than the entries at its path and above, then it is found afterwards as
the peer has it. Missing: everything else that a peer can send, see above and below. -/
theorem C93_stored_partial (gob : Gob) (env : StoreEnv) (he : EnvOk env) (before : List StoreOp)
    (hf : ∀ op ∈ before, FineOp env op) (st : StoreState) (hrun : runOps env .empty before = .ok st) (now : UInt64)
    (msg : Bytes) (e : Entry) (payload token : Bytes) (hmsg : gob.entryBack msg = (e, payload))
    (hns : e.namespaceId = env.namespaceId) (hnow : e.timestamp ≠ 0) (hdig : e.payloadDigest = env.hash payload)
    (hlen : e.payloadLength = UInt64.ofNat payload.length) (hsame : env.nsEqual env.namespaceId env.namespaceId = true)
    (hauth : env.authorise e e.subspaceId = some token) (htok : env.isAuthorised e token = true)
    (hc : Comfortable env.p e.path)
    (hnew : ∀ a : Item, Proper env.p a → Holds env st a.pos a.val → a.pos.subspace = e.subspaceId → a.pos.path <+: e.path →
      a.pos.time < e.timestamp) :
    ∃ st' authDigest, receiveData gob env st now msg = .ok st' ∧
      entryGet env st' e.subspaceId e.path = .ok (.found e authDigest) := by
  obtain ⟨st', ad, h1, h2, -⟩ := C93_violated_exactly gob env he before hf st hrun now msg e e payload token hmsg
    (by rw [if_neg hnow, ← hns, ← hdig, ← hlen]) hsame hauth htok hc hnew
  exact ⟨st', ad, h1, h2⟩

/-- A peer whose messages all carry the given entry and payload. -/
def exGob (e : Entry) (payload : Bytes) : Gob :=
  ⟨fun _ => [], fun _ => zeroRange3d, fun _ _ => [], fun _ => (e, payload), [9]⟩

example : ∃ (st : StoreState) (e : Entry), runOps cutEnv .empty [put [[1], [2]] 5 [9]] = .ok st ∧
    e = ⟨cutEnv.namespaceId, [7], [[1], [2]], cutEnv.hash [8], 1, 6⟩ ∧ e.timestamp ≠ 0 ∧
    cutEnv.nsEqual cutEnv.namespaceId cutEnv.namespaceId = true ∧ cutEnv.authorise e e.subspaceId = some [7] ∧
    cutEnv.isAuthorised e [7] = true ∧ Comfortable cutEnv.p e.path ∧
    (do
      let st' ← receiveData (exGob e [8]) cutEnv st 99 []
      entryGet cutEnv st' [7] [[1], [2]]) = .ok (.found e [1, 7]) :=
  ⟨_, _, rfl, rfl, by decide, by decide, rfl, by decide, cut_comfortable _ ⟨by decide, by decide, by decide⟩ (by decide)
    (by decide) (by decide), by decide +kernel⟩

/-- C93, partial: receiving data messages is the same as calling `Set` for each, with the subspace
as the authorisation, so that what is proved of sequences of calls (C47 to C57) holds. -/
theorem C93_calls_partial (gob : Gob) (env : StoreEnv) (msgs : List (UInt64 × Bytes)) : ∀ st : StoreState,
    receiveAll gob env st msgs = runOps env st (msgs.map fun m =>
      .set m.1 ⟨(gob.entryBack m.2).1.subspaceId, (gob.entryBack m.2).1.path, (gob.entryBack m.2).1.timestamp,
        (gob.entryBack m.2).2⟩ (gob.entryBack m.2).1.subspaceId) := by
  induction msgs with
  | nil => intro st; rfl
  | cons m rest ih =>
    intro st
    simp only [receiveAll, List.map_cons, runOps, runOp, receiveData, handleData]
    cases storeSet env st m.1 ⟨(gob.entryBack m.2).1.subspaceId, (gob.entryBack m.2).1.path,
      (gob.entryBack m.2).1.timestamp, (gob.entryBack m.2).2⟩ (gob.entryBack m.2).1.subspaceId with
    | ok x => exact ih x.2
    | err => rfl
    | crash => rfl
    | block => rfl

example : (receiveAll (exGob ⟨[42], [7], [[1]], [1, 8], 1, 6⟩ [8]) cutEnv .empty [(99, []), (100, [])]).map' (·.kv.length) = .ok 1 := by
  decide +kernel

/-- C93 is violated: an entry with time zero is stored with the time of the receiver's clock, so
that the two peers never agree. -/
theorem C93_violated_time : ∃ (e : Entry) (payload : Bytes) (now : UInt64) (st : StoreState),
    e.payloadDigest = cutEnv.hash payload ∧ e.timestamp ≠ now ∧ receiveData (exGob e payload) cutEnv .empty now [] = .ok st ∧
    entryGet cutEnv st e.subspaceId e.path = .ok (.found { e with timestamp := now } [1, 7]) :=
  ⟨⟨[42], [7], [[1]], [1, 8], 1, 0⟩, [8], 99, _, by decide, by decide, rfl, by decide +kernel⟩

/-- C93 is violated: an entry of another namespace is stored as one of the own namespace. -/
theorem C93_violated_namespace : ∃ (e : Entry) (payload : Bytes) (st : StoreState), e.namespaceId ≠ cutEnv.namespaceId ∧
    receiveData (exGob e payload) cutEnv .empty 99 [] = .ok st ∧
    entryGet cutEnv st e.subspaceId e.path = .ok (.found { e with namespaceId := cutEnv.namespaceId } [1, 7]) :=
  ⟨⟨[43], [7], [[1]], [1, 8], 1, 6⟩, [8], _, by decide, rfl, by decide +kernel⟩

/-- C93 is violated: a payload that is not the one of the entry is not noticed; the entry is
stored with another digest and length, under the same path and time. -/
theorem C93_violated_payload : ∃ (e : Entry) (payload : Bytes) (st : StoreState), e.payloadDigest ≠ cutEnv.hash payload ∧
    receiveData (exGob e payload) cutEnv .empty 99 [] = .ok st ∧
    entryGet cutEnv st e.subspaceId e.path =
      .ok (.found { e with payloadDigest := cutEnv.hash payload, payloadLength := 3 } [1, 7]) :=
  ⟨⟨[42], [7], [[1]], [1, 8], 1, 6⟩, [5, 5, 5], _, by decide, rfl, by decide +kernel⟩

/-- C93 is violated: in the store of the application every entry that a peer sends is taken to be
authorised, whatever its subspace and whoever the peer is; no authorisation is sent. -/
theorem C93_violated_authorised (lib : KdLib) (sha : Bytes → Bytes) (ns : Bytes) (e : Entry) (payload : Bytes) (now : UInt64) :
    ∃ e' token, attempt (appStore lib sha ns) (.set now ⟨e.subspaceId, e.path, e.timestamp, payload⟩ e.subspaceId) = some (e', token) ∧
      e'.subspaceId = e.subspaceId ∧ (appStore lib sha ns).isAuthorised e' token = true := by
  refine ⟨⟨ns, e.subspaceId, e.path, hexEncode (sha payload), UInt64.ofNat payload.length,
    if e.timestamp = 0 then now else e.timestamp⟩, e.subspaceId, by simp [attempt, appStore], rfl, ?_⟩
  simp [appStore, orderBytes_self]

example : ∃ st, receiveData (exGob ⟨[42], [7], [[1]], [1, 8], 1, 6⟩ [8]) (appStore listLib toySha [42]) .empty 99 [] = .ok st ∧
    st.kd.map (·.pos) = [⟨[7], [[1]], 6⟩] := ⟨_, rfl, by decide +kernel⟩

/-- C93 is violated: a message of a peer that carries an entry with the empty path ends the process;
so does a message that carries nothing, as it is decoded to the zero entry. -/
theorem C93_violated_crash (gob : Gob) (lib : KdLib) (sha : Bytes → Bytes) (ns : Bytes) (st : StoreState) (now : UInt64)
    (msg : Bytes) (hl : st.locked = false) (hp : (gob.entryBack msg).1.path = []) :
    receiveData gob (appStore lib sha ns) st now msg = .crash := by
  unfold receiveData handleData storeSet ingestEntry
  simp only [hp, setEntry, payloadSet, hl]
  simp [appStore, orderBytes_self, C33_violated_crash]

example : StoreState.empty.locked = false ∧ ((exGob zeroEntry []).entryBack []).1.path = [] := ⟨rfl, rfl⟩

end Willow.Props
