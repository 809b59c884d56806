import Verif.Lemmas.PropsConcurrentFiles
import Verif.Props.App

/-! C110: calls under way at the same time. -/

namespace Willow.Props

open Willow Spec

/-! ## C110 -/

/-- C110, partial: whatever the schedule, the entries in the store and what the calls return are those
of the calls made one after the other, in some order of the calls that have got past their ingest. At
a later time the order is the same, with more calls at the end; as calls that have not begun are not in
it, a call that begins after another has returned comes after it. Missing: the payload files, for which
this is false (see `C110_violated_payload`, `C110_violated_erase`), and readers during an ingest (see
`C110_violated_reader`). -/
theorem C110_entries_partial (env : StoreEnv) (st0 : StoreState) (calls : List StoreCall) (schedule later : List Nat)
    (stages stages' : List CallStage) (st st' : StoreState)
    (h : runTogether env schedule (calls.map .start) st0 = .ok (stages, st))
    (h' : runTogether env later stages st = .ok (stages', st')) :
    ∃ order more, Explains env st0 calls stages st order ∧ Explains env st0 calls stages' st' (order ++ more) := by
  obtain ⟨order, rs, s, hg⟩ := (Going.begin env st0 calls).run_on schedule h
  obtain ⟨more, rs', s', hg'⟩ := hg.run_on later h'
  exact ⟨order, more, hg.explains, hg'.explains⟩

/-- Three writes: two of the same payload at different paths, and one that replaces the first. -/
def exWrites : List StoreCall :=
  [.set 0 ⟨[115], [[97]], 5, [1]⟩ [115], .set 0 ⟨[115], [[97]], 6, [2]⟩ [115], .set 0 ⟨[115], [[98]], 5, [1]⟩ [115]]

example : ∃ w, runTogether (appStore listLib toySha [110]) [0, 2, 1, 1, 0] (exWrites.map .start) .empty = .ok w ∧
    w.1 = [.done none, .ingested ((appStore listLib toySha [110]).hash [2]) [],
      .written (setEntry (appStore listLib toySha [110]) 0 ⟨[115], [[98]], 5, [1]⟩) [115]] := by
  obtain ⟨w, h1, h2⟩ := exists_ok (r := runTogether (appStore listLib toySha [110]) [0, 2, 1, 1, 0] (exWrites.map .start) .empty)
    (P := fun w => w.1 = [.done none, .ingested ((appStore listLib toySha [110]).hash [2]) [],
      .written (setEntry (appStore listLib toySha [110]) 0 ⟨[115], [[98]], 5, [1]⟩) [115]]) (by decide +kernel)
  exact ⟨w, h1, h2⟩

/-- C110, partial: fine calls on an empty store all return, whatever the schedule, if each has four
turns, and then the entries and all results are those of the calls one after the other in some order.
Missing: the payload files (see `C110_violated_payload`), the empty path and paths at a limit (see
C54). -/
theorem C110_return_partial (env : StoreEnv) (he : EnvOk env) (calls : List StoreCall) (hf : ∀ c ∈ calls, FineOp env (asOp c))
    (schedule : List Nat) (hs : ∀ i < calls.length, 4 ≤ schedule.count i) :
    ∃ stages st order, runTogether env schedule (calls.map .start) .empty = .ok (stages, st) ∧
      stages.length = calls.length ∧ (∀ x ∈ stages, ∃ r, x = .done r) ∧ st.locked = false ∧
      order.Perm (List.range calls.length) ∧ Explains env .empty calls stages st order := by
  have hst : ∀ (i : Nat) (x : CallStage), (calls.map CallStage.start)[i]? = some x → ∃ c, calls[i]? = some c ∧ x = .start c := by
    intro i x h
    rw [List.getElem?_map, Option.map_eq_some_iff] at h
    obtain ⟨c, h1, h2⟩ := h
    exact ⟨c, h1, h2.symm⟩
  have hready : Ready env (calls.map .start) .empty := by
    refine ⟨⟨_, _, abs_empty env⟩, rfl, fun i c h => ?_, fun i e t h => ?_⟩
    · obtain ⟨c', h1, h2⟩ := hst i _ h
      cases h2
      exact hf c (List.mem_of_getElem? h1)
    · obtain ⟨c', _, h2⟩ := hst i _ h
      cases h2
  have hbegin := Going.begin env .empty calls
  obtain ⟨stages, st, h1, h2, hrd, h3⟩ := hready.run_on he schedule hbegin
  obtain ⟨order, rs, s, hg⟩ := hbegin.run_on schedule h1
  rw [List.length_map] at h2
  have hdone : ∀ i < calls.length, ∃ r, stages[i]? = some (.done r) := by
    intro i hi
    obtain ⟨x', h4, h5⟩ := h3 i (.start calls[i]) (by rw [List.getElem?_map, List.getElem?_eq_getElem hi]; rfl)
    obtain ⟨r, rfl⟩ := left_zero (x := x') (by have := hs i hi; simp only [CallStage.left] at h5 ⊢; omega)
    exact ⟨r, h4⟩
  refine ⟨stages, st, order, h1, h2, fun x hx => ?_, ?_, ?_, hg.explains⟩
  · obtain ⟨i, hi, rfl⟩ := List.mem_iff_getElem.1 hx
    obtain ⟨r, hr⟩ := hdone i (by omega)
    exact ⟨r, by rw [List.getElem?_eq_getElem hi] at hr; exact Option.some.inj hr⟩
  · exact hrd.unlocked
  · refine perm_range hg.nodup hg.bound fun i hi => ?_
    obtain ⟨r, hr⟩ := hdone i hi
    obtain ⟨k, hk, _⟩ := hg.done i r hr
    exact List.mem_of_getElem? hk

example : (∀ c ∈ [StoreCall.set 0 ⟨[7], [[1]], 5, [9]⟩ [7], .set 0 ⟨[7], [[1], [2]], 4, [8]⟩ [7]], FineOp cutEnv (asOp c)) ∧
    ∀ i < 2, 4 ≤ [0, 1, 0, 1, 1, 0, 0, 1].count i := by
  refine ⟨?_, by decide⟩
  simp only [List.forall_mem_cons, List.not_mem_nil, false_implies, implies_true, and_true]
  exact ⟨cut_fine _ _ _ (cut_comfortable _ ⟨by decide, by decide, by decide⟩ (by decide) (by decide) (by decide)),
    cut_fine _ _ _ (cut_comfortable _ ⟨by decide, by decide, by decide⟩ (by decide) (by decide) (by decide))⟩

/-- One after the other, in any order, the three writes leave the payload of the third in the store. -/
theorem exWrites_order (order : List StoreCall) (h : order.Perm exWrites) :
    ∃ s, runOps (appStore listLib toySha [110]) .empty (order.map asOp) = .ok s ∧
      storeGetPayload (appStore listLib toySha [110]) s ⟨[115], [[98]], 5⟩ = .ok (some [1]) := by
  have hall : ∀ a ∈ exWrites, ∀ b ∈ exWrites, ∀ c ∈ exWrites, [a, b, c].Perm exWrites →
      (match runOps (appStore listLib toySha [110]) .empty ([a, b, c].map asOp) with
      | .ok s => decide (storeGetPayload (appStore listLib toySha [110]) s ⟨[115], [[98]], 5⟩ = .ok (some [1]))
      | _ => false) = true := by decide +kernel
  match order, h, h.length_eq with
  | [a, b, c], h, _ =>
    have := hall a (h.mem_iff.1 (by simp)) b (h.mem_iff.1 (by simp)) c (h.mem_iff.1 (by simp)) h
    cases hr : runOps (appStore listLib toySha [110]) .empty ([a, b, c].map asOp) with
    | ok s => rw [hr] at this; exact ⟨s, rfl, of_decide_eq_true this⟩
    | err => rw [hr] at this; cases this
    | crash => rw [hr] at this; cases this
    | block => rw [hr] at this; cases this

/-- C110 is violated: `Set` writes the payload before it takes the lock. If another call removes the
last entry with this payload before the ingest, the payload is erased; all calls succeed, the entry is
stored, and its payload is gone. In no order of the calls, one after the other, is it missing. -/
theorem C110_violated_payload : ∃ (lib : KdLib) (sha : Bytes → Bytes) (calls : List StoreCall) (schedule : List Nat)
    (w : List CallStage × StoreState) (pos : Position) (v : Values), (∀ b, (sha b).length = 32) ∧
    runTogether (appStore lib sha [110]) schedule (calls.map .start) .empty = .ok w ∧
    (∀ x ∈ w.1, ∃ r, x = CallStage.done (some r)) ∧ Holds (appStore lib sha [110]) w.2 pos v ∧
    storeGetPayload (appStore lib sha [110]) w.2 pos = .ok none ∧
    ∀ order : List StoreCall, order.Perm calls → ∃ s b, runOps (appStore lib sha [110]) .empty (order.map asOp) = .ok s ∧
      storeGetPayload (appStore lib sha [110]) s pos = .ok (some b) := by
  obtain ⟨w, h1, h2, h3, ⟨k, hk, hk'⟩, h4⟩ := exists_ok
    (r := runTogether (appStore listLib toySha [110]) [0, 0, 0, 2, 1, 1, 1, 2, 2] (exWrites.map .start) .empty)
    (P := fun w => w.1 = [.done (some []), .done (some []), .done (some [])] ∧
      w.2.kv.get (encodeKey (appStore listLib toySha [110]).p ⟨[115], [[98]], 5⟩) =
        some (encodeValues ⟨1, hexEncode (toySha [1]), hexEncode (toySha [115])⟩) ∧
      (∃ k ∈ w.2.kd, k.pos = ⟨[115], [[98]], 5⟩) ∧
      storeGetPayload (appStore listLib toySha [110]) w.2 ⟨[115], [[98]], 5⟩ = .ok none) (by decide +kernel)
  refine ⟨listLib, toySha, exWrites, _, w, _, _, fun b => by simp [toySha], h1, fun x hx => ?_, ⟨h3, k, hk, hk'⟩, h4, fun order ho => ?_⟩
  · rw [h2] at hx
    simp only [List.mem_cons, List.not_mem_nil, or_false, or_self] at hx
    exact ⟨_, hx⟩
  · obtain ⟨s, hs1, hs2⟩ := exWrites_order order ho
    exact ⟨s, _, hs1, hs2⟩

/-- C110 is violated: `Set` counts the references after it has let go of the lock. If its own entry has
been replaced by then, it finds none, and if another call stores an entry with the same payload before
the erasure, the payload of that entry is erased. -/
theorem C110_violated_erase : ∃ (lib : KdLib) (sha : Bytes → Bytes) (calls : List StoreCall) (schedule : List Nat)
    (w : List CallStage × StoreState) (i : Nat) (pos : Position) (v : Values), (∀ b, (sha b).length = 32) ∧
    runTogether (appStore lib sha [110]) schedule (calls.map .start) .empty = .ok w ∧
    (∃ d pruned, w.1[i]? = some (.counted d pruned)) ∧ Holds (appStore lib sha [110]) w.2 pos v ∧
    storeGetPayload (appStore lib sha [110]) w.2 pos = .ok (some [1]) ∧
    ∃ w', runTogether (appStore lib sha [110]) [i] w.1 w.2 = .ok w' ∧ (∀ x ∈ w'.1, ∃ r, x = .done (some r)) ∧
      Holds (appStore lib sha [110]) w'.2 pos v ∧ storeGetPayload (appStore lib sha [110]) w'.2 pos = .ok none := by
  obtain ⟨w, h1, h2, h3, ⟨k, hk, hk'⟩, h4⟩ := exists_ok
    (r := runTogether (appStore listLib toySha [110]) [0, 0, 1, 1, 1, 0, 2, 2, 2] (exWrites.map .start) .empty)
    (P := fun w => w.1 = [.counted (hexEncode (toySha [1])) [], .done (some []), .done (some [])] ∧
      w.2.kv.get (encodeKey (appStore listLib toySha [110]).p ⟨[115], [[98]], 5⟩) =
        some (encodeValues ⟨1, hexEncode (toySha [1]), hexEncode (toySha [115])⟩) ∧
      (∃ k ∈ w.2.kd, k.pos = ⟨[115], [[98]], 5⟩) ∧
      storeGetPayload (appStore listLib toySha [110]) w.2 ⟨[115], [[98]], 5⟩ = .ok (some [1]) ∧
      w.2.files.get ((appStore listLib toySha [110]).fileKey (hexEncode (toySha [1]))) = some [1]) (by decide +kernel)
  have hstep : runTogether (appStore listLib toySha [110]) [0] w.1 w.2 =
      .ok ([.done (some []), .done (some []), .done (some [])],
        { w.2 with files := payloadErase (appStore listLib toySha [110]) w.2.files (hexEncode (toySha [1])) }) := by
    rw [h2]; rfl
  refine ⟨listLib, toySha, exWrites, _, w, 0, _, _, fun b => by simp [toySha], h1, ⟨_, _, by rw [h2]; rfl⟩, ⟨h3, k, hk, hk'⟩, h4.1,
    _, hstep, fun x hx => ?_, ⟨h3, k, hk, hk'⟩, ?_⟩
  · simp only [List.mem_cons, List.not_mem_nil, or_false, or_self] at hx
    exact ⟨_, hx⟩
  · unfold storeGetPayload
    dsimp only
    rw [h3]
    dsimp only
    rw [show decodeValues (encodeValues ⟨1, hexEncode (toySha [1]), hexEncode (toySha [115])⟩) =
      .ok ⟨1, hexEncode (toySha [1]), hexEncode (toySha [115])⟩ by decide +kernel]
    simp only [Res.ok_bind, payloadGet]
    rw [if_neg (by decide +kernel), payloadErase_self _ _ _ (by decide +kernel)]

/-- C110 is violated by every replacement: readers take no lock, and the old entry is removed (line 130
of `store.go`) before the new one is inserted (line 151). In between, when `replaceOther` is done, a
reader finds no entry at the path, though there is one before and after. -/
theorem C110_violated_reader (env : StoreEnv) (he : EnvOk env) (ops : List StoreOp) (e : Entry) (token : Bytes) (st : StoreState)
    (other : Entry) (auth : Bytes) (hf : ∀ op ∈ ops ++ [.ingest e token], FineOp env op) (hrun : runOps env .empty ops = .ok st)
    (hget : entryGet env st e.subspaceId e.path = .ok (.found other auth)) :
    ∃ mid, replaceOther env { st with locked := true } other auth e = .ok (some (), mid) ∧
      entryGet env mid e.subspaceId e.path = .ok .missing ∧
      ∀ st' pruned, ingestEntry env st e token = .ok (some pruned, st') →
        ∃ a, entryGet env st' e.subspaceId e.path =
          .ok (.found ⟨env.namespaceId, e.subspaceId, e.path, e.payloadDigest, e.payloadLength, e.timestamp⟩ a) := by
  obtain ⟨hc, hd⟩ := hf (.ingest e token) (by simp) e token rfl
  obtain ⟨st1, h1, h2, h3⟩ := run_ok he ops fun op ho => hf op (by simp [ho])
  rw [hrun] at h1
  cases h1
  generalize leakRun env [] (fun _ => 0) ops = leak at h2
  generalize specRun env [] ops = A at h2
  rcases h2.core.entryGet e.subspaceId e.path hc.valid (.inr hc) with ⟨hm, _⟩ | ⟨a, ha, has, hap, hg⟩
  · rw [hget] at hm; cases hm
  rw [hget] at hg
  cases hg
  have hB := List.perm_cons_erase ha
  generalize A.erase a = B at hB
  have habs : Abs env { st with locked := true } (a :: B) leak := (h2.perm hB).ofSame rfl rfl rfl
  obtain ⟨mid, h4, h5, _⟩ := replaceOther_ok he habs e
  refine ⟨mid, h4, ?_, fun st' pruned hi => ?_⟩
  · rcases h5.core.entryGet e.subspaceId e.path hc.valid (.inr hc) with ⟨hm, _⟩ | ⟨b, hb, hbs, hbp, _⟩
    · exact hm
    · exact absurd ⟨has.trans hbs.symm, hap.trans hbp.symm⟩ ((List.pairwise_cons.1 habs.core.apart).1 b hb)
  · obtain ⟨r, st2, h6, h7, _, h8⟩ := ingest_ok he h2 h3 e token hc hd
    rw [hi] at h6
    cases h6
    have hacc : Acceptable env A e token := by
      unfold ResultOk at h8
      have ha : attempt env (.ingest e token) = some (e, token) := rfl
      rw [ha] at h8
      dsimp only at h8
      by_cases hac : Acceptable env A e token
      · exact hac
      · rw [if_neg hac] at h8; cases h8
    have hspec : specStep env A (.ingest e token) = afterInsert A (newItem env e token) := by
      unfold specStep
      have ha : attempt env (.ingest e token) = some (e, token) := rfl
      rw [ha]
      dsimp only
      rw [if_pos hacc]
    rw [hspec] at h7
    have hmem : newItem env e token ∈ afterInsert A (newItem env e token) := List.mem_cons_self
    rcases h7.core.entryGet e.subspaceId e.path hc.valid (.inr hc) with ⟨_, hno⟩ | ⟨b, hb, hbs, hbp, hbg⟩
    · exact absurd ⟨rfl, rfl⟩ (hno _ hmem)
    · have : b = newItem env e token := apart_unique h7.core.apart hb hmem hbs hbp
      subst this
      exact ⟨_, hbg⟩

/-- Entry received while the store has an older one at its path. -/
example : runOps cutEnv .empty [put [[1]] 5 [9]] = .ok
      ⟨[(encodeKey cutEnv.p ⟨[7], [[1]], 5⟩, encodeValues ⟨1, [1, 9], [1, 7]⟩)], [⟨⟨[7], [[1]], 5⟩, []⟩], [([1, 9], putU64 1)],
        [([1, 7], [7]), ([1, 9], [9])], [], false⟩ ∧
    entryGet cutEnv ⟨[(encodeKey cutEnv.p ⟨[7], [[1]], 5⟩, encodeValues ⟨1, [1, 9], [1, 7]⟩)], [⟨⟨[7], [[1]], 5⟩, []⟩],
      [([1, 9], putU64 1)], [([1, 7], [7]), ([1, 9], [9])], [], false⟩ [7] [[1]] =
      .ok (.found ⟨[42], [7], [[1]], [1, 9], 1, 5⟩ [1, 7]) ∧
    Comfortable cutEnv.p [[1]] := by
  refine ⟨by decide +kernel, by decide +kernel, ?_⟩
  exact cut_comfortable _ ⟨by decide, by decide, by decide⟩ (by decide) (by decide) (by decide)

/-- C110, partial: if no two writes have the same payload, and no payload is a token, then under any
schedule of fine writes the payload of every stored entry can be read, at any time. Missing: writes with
the same payload, for which this is false (see `C110_violated_payload`, `C110_violated_erase`). -/
theorem C110_payload_partial (env : StoreEnv) (he : EnvOk env) (hn : GoodNames env) (calls : List StoreCall)
    (hset : ∀ c ∈ calls, IsSet c) (hf : ∀ c ∈ calls, FineOp env (asOp c)) (hta : TokensApart env (calls.map asOp))
    (hdiff : (calls.map (digestOf env)).Nodup) (hlen : calls.length < 2 ^ 64) (schedule : List Nat) (stages : List CallStage)
    (st : StoreState) (h : runTogether env schedule (calls.map .start) .empty = .ok (stages, st)) (pos : Position) (v : Values)
    (hv : ValidPath env.p pos.path) (hh : Holds env st pos v) :
    ∃ b, storeGetPayload env st pos = .ok (some b) ∧ ∃ c ∈ calls, env.hash b = digestOf env c := by
  have hd : ∀ (j k : Nat) (c d : StoreCall), calls[j]? = some c → calls[k]? = some d → digestOf env c = digestOf env d → j = k := by
    intro j k c d hj hk hcd
    have h1 : (calls.map (digestOf env))[j]? = some (digestOf env c) := by rw [List.getElem?_map, hj]; rfl
    have h2 : (calls.map (digestOf env))[k]? = some (digestOf env c) := by rw [List.getElem?_map, hk, hcd]; rfl
    exact (List.getElem?_inj (List.getElem?_eq_some_iff.1 h1).1 hdiff).1 (h1.trans h2.symm)
  obtain ⟨A, leak, hg⟩ := (Held.begin env calls).run_on he hn hset hf hta hd hlen schedule h
  obtain ⟨a, ha, hap, hav⟩ := hg.abs.core.of_get he hv hh.1
  obtain ⟨b, hb1, hb2⟩ := hg.filed a ha
  obtain ⟨i, c, x, h1, _, _, h4⟩ := hg.origin a ha
  refine ⟨b, ?_, c, List.mem_of_getElem? h1, hb2.trans h4⟩
  have hfine := hg.abs.core.fine a ha
  unfold storeGetPayload
  rw [hh.1, hav]
  dsimp only
  rw [C24_roundtrip _ hfine.digest hfine.auth]
  simp only [Res.ok_bind, payloadGet]
  rw [if_neg (by rw [← hb2]; exact hn.ne b), hb1]

example : (∀ c ∈ [StoreCall.set 0 ⟨[7], [[1]], 5, [9]⟩ [7], .set 0 ⟨[7], [[1], [2]], 4, [8]⟩ [7]], IsSet c) ∧
    TokensApart cutEnv ([StoreCall.set 0 ⟨[7], [[1]], 5, [9]⟩ [7], .set 0 ⟨[7], [[1], [2]], 4, [8]⟩ [7]].map asOp) ∧
    ([StoreCall.set 0 ⟨[7], [[1]], 5, [9]⟩ [7], .set 0 ⟨[7], [[1], [2]], 4, [8]⟩ [7]].map (digestOf cutEnv)).Nodup ∧ GoodNames cutEnv := by
  refine ⟨?_, ?_, by decide, ⟨fun a b h => h, fun a h => by cases h⟩⟩
  · simp only [List.forall_mem_cons, List.not_mem_nil, false_implies, implies_true, and_true]
    exact ⟨⟨_, _, _, rfl⟩, ⟨_, _, _, rfl⟩⟩
  · simp only [List.map_cons, List.map_nil, asOp]
    intro op ho op' ho' e t e' t' h h'
    simp only [List.mem_cons, List.not_mem_nil, or_false] at ho ho'
    rcases ho with rfl | rfl <;> rcases ho' with rfl | rfl <;>
    · simp only [attempt, cutEnv, testEnv, Option.map_some, Option.some.injEq, Prod.mk.injEq] at h h'
      obtain ⟨_, rfl⟩ := h
      obtain ⟨rfl, _⟩ := h'
      decide

end Willow.Props
