import Verif.Lemmas.PropsStoreKept
import Verif.Props.Content
import Verif.Props.StoreMore
import Verif.Props.FileNames

/-! C52 for stores that also receive entries. -/

namespace Willow.Props

open Willow Spec

/-! ## C52 -/

/-- C52, partial: the payload of an accepted write can be read as long as its entry is stored, after
any fine writes, received entries and restarts before and after it. Missing: entries of a subspace
with different tokens (see `C52_violated_token`), received digests with the file of another digest
(see `C52_violated_capitals`), the empty path, and paths at a limit. -/
theorem C52_written_partial (env : StoreEnv) (he : EnvOk env) (hn : GoodNames env) (before after ops : List StoreOp)
    (now : UInt64) (input : EntryInput) (au : Bytes) (hops : ops = before ++ .set now input au :: after)
    (hts : TokensAlike env ops) (hdn : DigestsNamed env ops) (hf : ∀ op ∈ ops, FineOp env op) (hlen : ops.length < 2 ^ 64) :
    ∃ st r st1 st2, runOps env .empty before = .ok st ∧ storeSet env st now input au = .ok (r, st1) ∧
      runOps env st1 after = .ok st2 ∧ (r ≠ none → ∀ v, Holds env st2 (setAt now input) v →
        ∃ b, storeGetPayload env st2 (setAt now input) = .ok (some b) ∧ env.hash b = env.hash input.payload ∧
          payloadGet env st2.files (env.hash input.payload) = some b) := by
  have hset : StoreOp.set now input au ∈ ops := by rw [hops]; simp
  have hbf : ∀ op ∈ before, op ∈ ops := fun op ho => by rw [hops]; simp [ho]
  have haf : ∀ op ∈ after, op ∈ ops := fun op ho => by rw [hops]; simp [ho]
  have hlen' : before.length + (after.length + 1) < 2 ^ 64 := by rw [hops] at hlen; simpa using hlen
  obtain ⟨st, h1, h2, h3⟩ := run_ok he before fun op ho => hf op (hbf op ho)
  have hbound : ∀ d, refsTo (specRun env [] before) d + leakRun env [] (fun _ => 0) before d ≤ before.length := by
    intro d
    have := refs_run (env := env) before [] (fun _ => 0) d
    simpa [refsTo] using this
  obtain ⟨r, st1, h4, h5, h6, h7⟩ := runOp_ok he h2 h3 _ (hf _ hset)
  have hb1 : ∀ d, refsTo (specRun env [] before) d + leakRun env [] (fun _ => 0) before d + 1 < 2 ^ 64 := fun d => by
    have := hbound d; omega
  have hbr : Allowed env ops (specRun env [] before) := brought_run before [] hbf fun a h => by simp at h
  rcases set_files he h2 h3 now input au (hf _ hset) hb1 st1 r h4 with ⟨h8, h9⟩ | ⟨e, token, hat, hacc, hdig, h8, hfi⟩
  · obtain ⟨st2, h10, _⟩ := runOps_ok he after _ _ _ h5 h6 fun op ho => hf op (haf op ho)
    refine ⟨st, r, st1, st2, h1, h4, h10, fun hr => absurd ?_ hr⟩
    unfold ResultOk at h7
    cases hat : attempt env (.set now input au) with
    | none => rw [hat] at h7; exact h7.resolve_left (by simp)
    | some et =>
      obtain ⟨e, token⟩ := et
      rw [hat] at h7
      dsimp only at h7
      by_cases hacc : Acceptable env (specRun env [] before) e token
      · have h9 : specStep env (specRun env [] before) (.set now input au) = afterInsert (specRun env [] before) (newItem env e token) := by
          unfold specStep
          rw [hat]
          dsimp only
          rw [if_pos hacc]
        rw [h8] at h9
        have hmem : newItem env e token ∈ specRun env [] before := by rw [h9]; exact List.mem_cons_self
        have := hacc.2.2 _ hmem rfl (List.prefix_refl _)
        exact absurd this (UInt64.lt_irrefl _)
      · rw [if_neg hacc] at h7; exact h7
  · have hpos : (newItem env e token).pos = setAt now input := by
      simp only [attempt, Option.map_eq_some_iff, Prod.mk.injEq] at hat
      obtain ⟨_, _, rfl, _⟩ := hat
      rfl
    have hself : newItem env e token ∈ afterInsert (specRun env [] before) (newItem env e token) := List.mem_cons_self
    have hk : Keeps env (specStep env (specRun env [] before) (.set now input au)) st1.files (newItem env e token) := by
      rw [h8]
      refine ⟨fun h => UInt64.lt_irrefl _ (h _ hself rfl (List.prefix_refl _)), fun b hb hp => ?_⟩
      constructor
      · rcases List.mem_cons.1 hb with rfl | hb
        · rfl
        · have := (List.mem_filter.1 hb).2
          rw [decide_eq_true_eq] at this
          exact absurd (.inl ⟨by rw [hp], by rw [hp]⟩) this
      · refine filed_ingest hn hts hdn hbr hset hat hacc.2.1 hfi hself ⟨input.payload, ?_, hdig.symm⟩
        have : (newItem env e token).val.payloadDigest = env.hash input.payload := hdig
        rw [this]
        exact payloadSet_get_self env st.files input.payload (hn.ne _)
    have hb2 : ∀ d, refsTo (specStep env (specRun env [] before) (.set now input au)) d +
        leakStep env (specRun env [] before) (.set now input au) (leakRun env [] (fun _ => 0) before) d + after.length < 2 ^ 64 := by
      intro d
      have h0 := hbound d
      have h1 := refs_run (env := env) [.set now input au] (specRun env [] before) (leakRun env [] (fun _ => 0) before) d
      simp only [specRun, leakRun, List.length_cons, List.length_nil] at h0 h1
      omega
    obtain ⟨st2, h10, h11, h12⟩ := keeps_run he hn hts hdn after st1 _ _ haf (fun op ho => hf op (haf op ho)) h5 h6
      (brought_step hbr hset) hk hb2
    refine ⟨st, r, st1, st2, h1, h4, h10, fun _ v hv => ?_⟩
    have hvalid := (hf _ hset e token hat).1.valid
    have hpath : e.path = (setAt now input).path := by rw [← hpos]; rfl
    obtain ⟨b, hb, hbp, hbv⟩ := h11.core.of_get he (by rw [← hpath]; exact hvalid) hv.1
    obtain ⟨rfl, x, hx1, hx2⟩ := h12.2 b hb (by rw [hbp, hpos])
    have hx3 : env.hash x = env.hash input.payload := hx2.trans hdig
    have hget : payloadGet env st2.files (env.hash input.payload) = some x := by
      rw [← hx3, hx2]
      unfold payloadGet
      dsimp only
      rw [if_neg (by rw [← hx2]; exact hn.ne x), hx1]
    refine ⟨x, ?_, hx3, hget⟩
    have hfine := h11.core.fine _ hb
    unfold storeGetPayload
    rw [hv.1, hbv]
    dsimp only
    rw [C24_roundtrip _ hfine.digest hfine.auth]
    show Res.ok (payloadGet env st2.files (newItem env e token).val.payloadDigest) = _
    rw [show (newItem env e token).val.payloadDigest = env.hash input.payload from hdig, hget]

/-- Received entries before and after a write: one with a payload that is not there, one with the
payload of the write, which is pruned. -/
def exReceived : List StoreOp :=
  [.ingest ⟨[42], [7], [[3]], [1, 2], 1, 4⟩ [7], put [[1]] 5 [9], .ingest ⟨[42], [7], [[2], [4]], [1, 9], 1, 4⟩ [7],
    .ingest ⟨[42], [7], [[2]], [1, 3], 1, 5⟩ [7], .restart]

/-- What the calls of the example try. -/
theorem exReceived_attempt : ∀ op ∈ exReceived, ∀ e t, attempt cutEnv op = some (e, t) →
    t = [7] ∧ Comfortable cutEnv.p e.path ∧ e.payloadDigest.length < 2 ^ 64 := by
  simp only [exReceived, List.forall_mem_cons, List.not_mem_nil, false_implies, implies_true, and_true]
  refine ⟨?_, ?_, ?_, ?_, ?_⟩
  all_goals
    intro e t h
    simp only [put, attempt, cutEnv, testEnv, Option.map_some, Option.some.injEq, Prod.mk.injEq, reduceCtorEq] at h
  all_goals
    obtain ⟨rfl, rfl⟩ := h
    exact ⟨rfl, cut_comfortable _ ⟨by decide, by decide, by decide⟩ (by decide) (by decide) (by decide), by decide⟩

example : TokensAlike cutEnv exReceived ∧ DigestsNamed cutEnv exReceived ∧ (∀ op ∈ exReceived, FineOp cutEnv op) ∧
    ∃ st, runOps cutEnv .empty exReceived = .ok st ∧ Holds cutEnv st (setAt 0 ⟨[7], [[1]], 5, [9]⟩) ⟨1, [1, 9], [1, 7]⟩ := by
  refine ⟨fun op ho op' ho' e t e' t' h h' _ _ _ => ?_, fun _ _ _ _ _ _ h => h, fun op ho e t h => (exReceived_attempt op ho e t h).2,
    ?_⟩
  · rw [(exReceived_attempt op ho e t h).1, (exReceived_attempt op' ho' e' t' h').1]
  · obtain ⟨st, h1, h2, k, hk, hk'⟩ := exists_ok (r := runOps cutEnv .empty exReceived)
      (P := fun st => st.kv.get (encodeKey cutEnv.p (setAt 0 ⟨[7], [[1]], 5, [9]⟩)) = some (encodeValues ⟨1, [1, 9], [1, 7]⟩) ∧
        ∃ k ∈ st.kd, k.pos = setAt 0 ⟨[7], [[1]], 5, [9]⟩) (by decide +kernel)
    exact ⟨st, h1, h2, k, hk, hk'⟩

/-- C52, partial: if no digests collide, what is read are the bytes written. Missing: as for
`C52_written_partial`. -/
theorem C52_writtenBytes_partial (env : StoreEnv) (he : EnvOk env) (hn : GoodNames env) (before after ops : List StoreOp)
    (now : UInt64) (input : EntryInput) (au : Bytes) (hops : ops = before ++ .set now input au :: after)
    (hts : TokensAlike env ops) (hdn : DigestsNamed env ops) (hf : ∀ op ∈ ops, FineOp env op) (hlen : ops.length < 2 ^ 64)
    (hc : NoCollision env.hash (ops.flatMap (bytesGiven env))) :
    ∃ st r st1 st2, runOps env .empty before = .ok st ∧ storeSet env st now input au = .ok (r, st1) ∧
      runOps env st1 after = .ok st2 ∧ (r ≠ none → ∀ v, Holds env st2 (setAt now input) v →
        storeGetPayload env st2 (setAt now input) = .ok (some input.payload)) := by
  obtain ⟨st, r, st1, st2, h1, h2, h3, h4⟩ := C52_written_partial env he hn before after ops now input au hops hts hdn hf hlen
  refine ⟨st, r, st1, st2, h1, h2, h3, fun hr v hv => ?_⟩
  obtain ⟨b, h5, h6, h7⟩ := h4 hr v hv
  have hall : runOps env .empty ops = .ok st2 := by
    rw [hops, runOps_append, h1]
    have : runOp env st (.set now input au) = .ok (r, st1) := h2
    simp only [Res.ok_bind, runOps, this, h3]
  rw [h5, C100_bytes env hn ops hc st2 hall input.payload b
    ⟨_, by rw [hops]; exact List.mem_append_right _ List.mem_cons_self, by simp [bytesGiven]⟩ h7]

example : NoCollision cutEnv.hash (exReceived.flatMap (bytesGiven cutEnv)) := by
  intro x hx y hy
  have : exReceived.flatMap (bytesGiven cutEnv) = [[7], [9], [7], [7], [7]] := by decide +kernel
  rw [this] at hx hy
  revert x y
  decide +kernel

/-- C52 for the application, partial: if no received digest has capitals and no digests collide, the
bytes of an accepted write are read as long as its entry is stored, whatever is written and received
before and after. Missing: the empty path, paths at a limit, and digests with capitals (see
`C52_violated_capitals`). -/
theorem C52_application_partial (lib : KdLib) (sha : Bytes → Bytes) (ns : Bytes) (hs : ∀ b, (sha b).length = 32)
    (before after ops : List StoreOp) (now : UInt64) (input : EntryInput) (au : Bytes)
    (hops : ops = before ++ .set now input au :: after) (hd : ∀ e t, .ingest e t ∈ ops → ∀ c ∈ e.payloadDigest, ¬ IsCapital c)
    (hf : ∀ op ∈ ops, FineOp (appStore lib sha ns) op) (hlen : ops.length < 2 ^ 64)
    (hc : NoCollision (appStore lib sha ns).hash (ops.flatMap (bytesGiven (appStore lib sha ns)))) :
    ∃ st r st1 st2, runOps (appStore lib sha ns) .empty before = .ok st ∧
      storeSet (appStore lib sha ns) st now input au = .ok (r, st1) ∧
      runOps (appStore lib sha ns) st1 after = .ok st2 ∧ (r ≠ none → ∀ v, Holds (appStore lib sha ns) st2 (setAt now input) v →
        storeGetPayload (appStore lib sha ns) st2 (setAt now input) = .ok (some input.payload)) :=
  C52_writtenBytes_partial (appStore lib sha ns) (appStore_ok lib sha ns hs) (C42_application lib sha ns hs) before after ops
    now input au hops (appStore_tokens lib sha ns ops) (appStore_digests lib sha ns hs ops hd) hf hlen hc

example : (∀ b, (toySha b).length = 32) ∧ (∀ c ∈ hexEncode (toySha [0xab]), ¬ IsCapital c) := ⟨fun b => by simp [toySha], by decide +kernel⟩

/-- C52 is violated: an entry is received whose digest is the digest of a stored payload in capitals.
The two digests are counted apart but have the same file, so when the received entry is pruned, the
payload goes, though the entry with it is still stored. -/
theorem C52_violated_capitals : ∃ (lib : KdLib) (sha : Bytes → Bytes) (st : StoreState) (v : Values),
    (∀ b, (sha b).length = 32) ∧
    runOps (appStore lib sha [110]) .empty [.set 0 ⟨[115], [[97]], 5, [0xab]⟩ [115],
      .ingest ⟨[110], [115], [[98], [99]], (hexEncode (sha [0xab])).map upperCase, 1, 5⟩ [115],
      .set 0 ⟨[115], [[98]], 6, [8]⟩ [115]] = .ok st ∧
    Holds (appStore lib sha [110]) st ⟨[115], [[97]], 5⟩ v ∧ v.payloadDigest = (appStore lib sha [110]).hash [0xab] ∧
    storeGetPayload (appStore lib sha [110]) st ⟨[115], [[97]], 5⟩ = .ok none := by
  obtain ⟨st, h1, h2, ⟨k, hk, hk'⟩, h3⟩ := exists_ok (r := runOps (appStore listLib toySha [110]) .empty
    [.set 0 ⟨[115], [[97]], 5, [0xab]⟩ [115],
      .ingest ⟨[110], [115], [[98], [99]], (hexEncode (toySha [0xab])).map upperCase, 1, 5⟩ [115],
      .set 0 ⟨[115], [[98]], 6, [8]⟩ [115]])
    (P := fun st => st.kv.get (encodeKey (appStore listLib toySha [110]).p ⟨[115], [[97]], 5⟩) =
        some (encodeValues ⟨1, hexEncode (toySha [0xab]), hexEncode (toySha [115])⟩) ∧
      (∃ k ∈ st.kd, k.pos = ⟨[115], [[97]], 5⟩) ∧
      storeGetPayload (appStore listLib toySha [110]) st ⟨[115], [[97]], 5⟩ = .ok none) (by decide +kernel)
  exact ⟨listLib, toySha, st, _, fun b => by simp [toySha], h1, ⟨h2, k, hk, hk'⟩, rfl, h3⟩

/-- C52 is violated whenever the last entry with some payload digest is pruned or replaced and another entry, with another payload
digest, has the same file (in the application: digests that differ in capitals only): the payload of the other is gone. -/
theorem C52_violated_shared (env : StoreEnv) (he : EnvOk env) (ops : List StoreOp) (hf : ∀ op ∈ ops, FineOp env op)
    (hlen : ops.length + 1 < 2 ^ 64) (st st' : StoreState) (hrun : runOps env .empty ops = .ok st) (e : Entry) (token : Bytes)
    (hfe : FineOp env (.ingest e token)) (r : List Entry) (h : ingestEntry env st e token = .ok (some r, st'))
    (a : Item) (hpr : Proper env.p a) (ha : Holds env st a.pos a.val) (hdis : Displaces e.position a.pos)
    (hlast : ∀ b : Item, Proper env.p b → Holds env st' b.pos b.val → b.val.payloadDigest ≠ a.val.payloadDigest)
    (hsur : rewrites env [] ops a.val.payloadDigest = 0) (hname : env.fileKey a.val.payloadDigest ≠ [])
    (htok : a.pos.path = e.path → env.fileKey a.val.payloadDigest ≠ env.fileKey (env.hash (env.tokenEncode token)))
    (b : Item) (hpb : Proper env.p b) (hb : Holds env st' b.pos b.val)
    (hsame : env.fileKey b.val.payloadDigest = env.fileKey a.val.payloadDigest) :
    storeGetPayload env st' b.pos = .ok none := by
  have := C80_erased_partial env he ops hf hlen st st' hrun e token hfe r h a hpr ha hdis hlast hsur hname htok
  unfold storeGetPayload
  rw [hb.1]
  dsimp only
  rw [C24_roundtrip b.val hpb.digest hpb.auth]
  show Res.ok (payloadGet env st'.files b.val.payloadDigest) = _
  unfold payloadGet at this ⊢
  rw [hsame, this]

/-- The digest that was received is in capitals; both have the file of the digest. -/
example : (do
      let st ← runOps (appStore listLib toySha [110]) .empty [.set 0 ⟨[115], [[97]], 5, [0xab]⟩ [115],
        .ingest ⟨[110], [115], [[98], [99]], (hexEncode (toySha [0xab])).map upperCase, 1, 5⟩ [115]]
      let (r, st') ← ingestEntry (appStore listLib toySha [110]) st ⟨[110], [115], [[98]], hexEncode (toySha [8]), 1, 6⟩ [115]
      Res.ok (r.isSome, st'.kd.map fun k : KdKey => k.pos)) = .ok (true, [(⟨[115], [[97]], 5⟩ : Position), ⟨[115], [[98]], 6⟩]) ∧
    Displaces ⟨[115], [[98]], 6⟩ ⟨[115], [[98], [99]], 5⟩ ∧
    appFileKey ((hexEncode (toySha [0xab])).map upperCase) = appFileKey (hexEncode (toySha [0xab])) ∧
    appFileKey (hexEncode (toySha [0xab])) ≠ [] := by
  decide +kernel

/-! ## C82 -/

/-- C82, partial: also when entries are received, `get` prints bytes with the digest of those that were
stored, and these themselves if no digests collide, after an accepted fine `set` and any later fine
writes, received entries without capitals in their digests, and restarts, none of them newer at the
path or above it. Missing: the empty path and paths at a limit (see `C82_violated`), and digests with
capitals (see `C82_violated_capitals`). -/
theorem C82_received_partial (lib : KdLib) (sha : Bytes → Bytes) (ns : Bytes) (hs : ∀ b, (sha b).length = 32)
    (before later : List StoreOp) (now : UInt64) (sub path payload : Bytes) (t : UInt64) (ops : List StoreOp)
    (hops : ops = before ++ .set now ⟨sub, splitSlash path, t, payload⟩ sub :: later)
    (hd : ∀ e tk, .ingest e tk ∈ ops → ∀ c ∈ e.payloadDigest, ¬ IsCapital c)
    (hf : ∀ op ∈ ops, FineOp (appStore lib sha ns) op) (hlen : ops.length < 2 ^ 64)
    (st st1 : StoreState) (r : List Entry) (hrun : runOps (appStore lib sha ns) .empty before = .ok st)
    (hset : storeSet (appStore lib sha ns) st now ⟨sub, splitSlash path, t, payload⟩ sub = .ok (some r, st1))
    (hno : ∀ op ∈ later, ∀ e tk, attempt (appStore lib sha ns) op = some (e, tk) → e.subspaceId = sub → e.path <+: splitSlash path →
      e.timestamp ≤ if t = 0 then now else t) :
    ∃ st2 b, runOps (appStore lib sha ns) st1 later = .ok st2 ∧ getCommand (appStore lib sha ns) st2 sub path = .ok b ∧
      sha b = sha payload ∧
      (NoCollision (appStore lib sha ns).hash (ops.flatMap (bytesGiven (appStore lib sha ns))) → b = payload) := by
  have he := appStore_ok lib sha ns hs
  have hn := C42_application lib sha ns hs
  have hsetop : StoreOp.set now ⟨sub, splitSlash path, t, payload⟩ sub ∈ ops := by rw [hops]; simp
  have hcomf : Comfortable (appStore lib sha ns).p (splitSlash path) := by
    have := hf _ hsetop _ sub (by
      simp only [attempt, appStore]
      rfl)
    exact this.1
  obtain ⟨st0, r0, st10, st2, h1, h2, h3, h4⟩ := C52_written_partial (appStore lib sha ns) he hn before later ops now
    ⟨sub, splitSlash path, t, payload⟩ sub hops (appStore_tokens lib sha ns ops) (appStore_digests lib sha ns hs ops hd) hf hlen
  rw [hrun] at h1
  cases h1
  rw [hset] at h2
  cases h2
  obtain ⟨st2', ad, h5, h6⟩ := C55_readBack_partial (appStore lib sha ns) he before later now ⟨sub, splitSlash path, t, payload⟩ sub
    (by rw [← hops]; exact hf) st st1 r hrun hset hno
  rw [h3] at h5
  cases h5
  have hall : runOps (appStore lib sha ns) .empty ops = .ok st2 := by
    rw [hops, runOps_append, hrun]
    have : runOp (appStore lib sha ns) st (.set now ⟨sub, splitSlash path, t, payload⟩ sub) = .ok (some r, st1) := hset
    simp only [Res.ok_bind, runOps, this, h3]
  obtain ⟨st', h7, h8, _⟩ := run_ok he ops hf
  rw [hall] at h7
  cases h7
  rcases h8.core.entryGet sub (splitSlash path) hcomf.valid (.inr hcomf) with ⟨hm, _⟩ | ⟨a, ha, has, hap, hg⟩
  · rw [hm] at h6; cases h6
  · rw [hg] at h6
    have htime : a.pos.time = if t = 0 then now else t := by
      have := congrArg (fun x => match x with | Res.ok (GetRes.found e _) => e.timestamp | _ => 0) h6
      exact this
    have hpd : a.val.payloadDigest = hexEncode (sha payload) := by
      have := congrArg (fun x => match x with | Res.ok (GetRes.found e _) => e.payloadDigest | _ => []) h6
      exact this
    have hpos : a.pos = setAt now ⟨sub, splitSlash path, t, payload⟩ := by
      obtain ⟨⟨s, p, tm⟩, v⟩ := a
      simp only at has hap htime
      rw [has, hap, htime]
      rfl
    have hfine := h8.core.fine a ha
    have hholds := (h8.holds he ⟨hfine.1.valid, hfine.digest, hfine.auth⟩).2 ha
    obtain ⟨b, _, h10, h11⟩ := h4 (by simp) a.val (hpos ▸ hholds)
    refine ⟨st2, b, h3, ?_, hexEncode_inj h10, fun hc => ?_⟩
    · unfold getCommand
      rw [hg]
      show (match payloadGet (appStore lib sha ns) st2.files a.val.payloadDigest with | some b => Res.ok b | none => Res.crash) = _
      rw [hpd]
      have h11' : payloadGet (appStore lib sha ns) st2.files (hexEncode (sha payload)) = some b := h11
      rw [h11']
    · exact C100_bytes _ hn ops hc st2 hall payload b ⟨_, hsetop, by simp [bytesGiven]⟩ h11

/-- A write between received entries, one of which has the same payload. -/
def exCommands : List StoreOp :=
  [.ingest ⟨[110], [115], [[98]], hexEncode (toySha [0xab]), 1, 4⟩ [115], .set 1 ⟨[115], splitSlash [97], 5, [0xab]⟩ [115],
    .ingest ⟨[110], [115], [[98]], hexEncode (toySha [8]), 1, 5⟩ [115]]

example : (∀ op ∈ exCommands, FineOp (appStore listLib toySha [110]) op) ∧
    (∀ e t, .ingest e t ∈ exCommands → ∀ c ∈ e.payloadDigest, ¬ IsCapital c) ∧
    (∀ e t, attempt (appStore listLib toySha [110]) (.ingest ⟨[110], [115], [[98]], hexEncode (toySha [8]), 1, 5⟩ [115]) = some (e, t) →
      ¬ e.path <+: splitSlash [97]) ∧
    ∃ st, runOps (appStore listLib toySha [110]) .empty exCommands = .ok st ∧
      getCommand (appStore listLib toySha [110]) st [115] [97] = .ok [0xab] := by
  refine ⟨?_, ?_, ?_, exists_ok (by decide +kernel)⟩
  · simp only [exCommands, List.forall_mem_cons, List.not_mem_nil, false_implies, implies_true, and_true]
    refine ⟨?_, ?_, ?_⟩
    all_goals
      intro e t h
      simp only [attempt, appStore, if_true, Option.map_some, Option.some.injEq, Prod.mk.injEq] at h
      obtain ⟨rfl, rfl⟩ := h
      exact ⟨.of_last ⟨by decide +kernel, by decide +kernel, by decide +kernel⟩ (by decide +kernel) (by decide +kernel)
        (by intro c hc; simp [splitSlash] at hc; subst hc; decide), by decide +kernel⟩
  · intro e t h
    simp only [exCommands, List.mem_cons, StoreOp.ingest.injEq, reduceCtorEq, List.not_mem_nil, or_false, false_or] at h
    rcases h with ⟨rfl, _⟩ | ⟨rfl, _⟩ <;> exact hexEncode_small _
  · intro e t h
    simp only [attempt, Option.some.injEq, Prod.mk.injEq] at h
    rw [← h.1]
    decide

/-- C82 is violated: after the calls of `C52_violated_capitals` the command `get` ends the process. -/
theorem C82_violated_capitals : ∃ (lib : KdLib) (sha : Bytes → Bytes) (st : StoreState),
    (∀ b, (sha b).length = 32) ∧
    runOps (appStore lib sha [110]) .empty [.set 0 ⟨[115], splitSlash [97], 5, [0xab]⟩ [115],
      .ingest ⟨[110], [115], [[98], [99]], (hexEncode (sha [0xab])).map upperCase, 1, 5⟩ [115],
      .set 0 ⟨[115], splitSlash [98], 6, [8]⟩ [115]] = .ok st ∧
    getCommand (appStore lib sha [110]) st [115] [97] = .crash := by
  obtain ⟨st, h1, h2⟩ := exists_ok (r := runOps (appStore listLib toySha [110]) .empty
    [.set 0 ⟨[115], splitSlash [97], 5, [0xab]⟩ [115],
      .ingest ⟨[110], [115], [[98], [99]], (hexEncode (toySha [0xab])).map upperCase, 1, 5⟩ [115],
      .set 0 ⟨[115], splitSlash [98], 6, [8]⟩ [115]])
    (P := fun st => getCommand (appStore listLib toySha [110]) st [115] [97] = .crash) (by decide +kernel)
  exact ⟨listLib, toySha, st, fun b => by simp [toySha], h1, h2⟩

/-- C82 is violated in the same way, after every call as in `C52_violated_shared`: `get` of the other entry ends the process. -/
theorem C82_violated_shared (lib : KdLib) (sha : Bytes → Bytes) (ns : Bytes) (hs : ∀ b, (sha b).length = 32)
    (ops : List StoreOp) (hf : ∀ op ∈ ops, FineOp (appStore lib sha ns) op)
    (hlen : ops.length + 1 < 2 ^ 64) (st st' : StoreState) (hrun : runOps (appStore lib sha ns) .empty ops = .ok st) (e : Entry) (token : Bytes)
    (hfe : FineOp (appStore lib sha ns) (.ingest e token)) (r : List Entry)
    (h : ingestEntry (appStore lib sha ns) st e token = .ok (some r, st'))
    (a : Item) (hpr : Proper (appStore lib sha ns).p a) (ha : Holds (appStore lib sha ns) st a.pos a.val) (hdis : Displaces e.position a.pos)
    (hlast : ∀ b : Item, Proper (appStore lib sha ns).p b → Holds (appStore lib sha ns) st' b.pos b.val →
      b.val.payloadDigest ≠ a.val.payloadDigest)
    (hsur : rewrites (appStore lib sha ns) [] ops a.val.payloadDigest = 0) (hname : appFileKey a.val.payloadDigest ≠ [])
    (htok : a.pos.path = e.path → appFileKey a.val.payloadDigest ≠ appFileKey (hexEncode (sha token)))
    (sub path : Bytes) (t : UInt64) (v : Values) (hpb : Proper (appStore lib sha ns).p ⟨⟨sub, splitSlash path, t⟩, v⟩)
    (hb : Holds (appStore lib sha ns) st' ⟨sub, splitSlash path, t⟩ v)
    (hsame : appFileKey v.payloadDigest = appFileKey a.val.payloadDigest) :
    getCommand (appStore lib sha ns) st' sub path = .crash := by
  have he := appStore_ok lib sha ns hs
  have hgone := C80_erased_partial (appStore lib sha ns) he ops hf hlen st st' hrun e token hfe r h a hpr ha hdis hlast hsur hname htok
  obtain ⟨st2, h7, h8, _⟩ := run_ok he (ops ++ [.ingest e token]) (fun op ho => by
    rcases List.mem_append.1 ho with ho | ho
    · exact hf op ho
    · rw [List.mem_singleton.1 ho]; exact hfe)
  have hall : runOps (appStore lib sha ns) .empty (ops ++ [.ingest e token]) = .ok st' := by
    rw [runOps_append, hrun]
    have : runOp (appStore lib sha ns) st (.ingest e token) = .ok (some r, st') := h
    simp only [Res.ok_bind, runOps, this]
  rw [hall] at h7
  cases h7
  have hm := (h8.holds he hpb).1 hb
  have hcomf := (h8.core.fine _ hm).1
  unfold getCommand
  rcases h8.core.entryGet sub (splitSlash path) hpb.valid (.inr hcomf) with ⟨_, hno⟩ | ⟨x, hx, hxs, hxp, hg⟩
  · exact absurd ⟨rfl, rfl⟩ (hno _ hm)
  · have hxe : x = ⟨⟨sub, splitSlash path, t⟩, v⟩ := by
      exact apart_unique h8.core.apart hx hm hxs hxp
    subst hxe
    rw [hg]
    show (match payloadGet (appStore lib sha ns) st'.files v.payloadDigest with | some b => Res.ok b | none => Res.crash) = _
    have hsame' : (appStore lib sha ns).fileKey v.payloadDigest = (appStore lib sha ns).fileKey a.val.payloadDigest := hsame
    have : payloadGet (appStore lib sha ns) st'.files v.payloadDigest = none := by
      unfold payloadGet at hgone ⊢
      rw [hsame']
      exact hgone
    rw [this]

example : (do
      let st ← runOps (appStore listLib toySha [110]) .empty [.set 0 ⟨[115], splitSlash [97], 5, [0xab]⟩ [115],
        .ingest ⟨[110], [115], [[98], [99]], (hexEncode (toySha [0xab])).map upperCase, 1, 5⟩ [115]]
      let (r, st') ← ingestEntry (appStore listLib toySha [110]) st ⟨[110], [115], [[98]], hexEncode (toySha [8]), 1, 6⟩ [115]
      Res.ok (r.isSome, st'.kv.get (encodeKey (appStore listLib toySha [110]).p ⟨[115], splitSlash [97], 5⟩))) =
    .ok (true, some (encodeValues ⟨1, hexEncode (toySha [0xab]), hexEncode (toySha [115])⟩)) := by
  decide +kernel

end Willow.Props
