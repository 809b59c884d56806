import Verif.Lemmas.PropsCrash
import Verif.Lemmas.PropsStoreKept
import Verif.Props.App

/-! C111: the process ends in the middle of a call, and the store is opened again. -/

namespace Willow.Props

open Willow Spec

/-! ## C111 -/

/-- C111, partial: if the process ends before the first change, the store opened again is that before the
call, and if it ends after the last change, that after the call. Missing: a process that ends in between
(see `C111_between_partial`). -/
theorem C111_ends_partial (env : StoreEnv) (st st' : StoreState) (op : StoreOp) (r : Option (List Entry))
    (h : runOp env st op = .ok (r, st')) :
    crashAfter env st op 0 = restart env (fun kv => kv) st ∧
    ∀ n, (opWrites env st op).length ≤ n → crashAfter env st op n = restart env (fun kv => kv) st' := by
  refine ⟨rfl, fun n hn => ?_⟩
  unfold crashAfter
  rw [List.take_of_length_le hn]
  exact restart_same (opWrites_all env st st' op r h)

example : ∃ w, runOp (appStore listLib toySha [110]) .empty (.set 0 ⟨[115], [[97]], 5, [1]⟩ [115]) = .ok w ∧
    (opWrites (appStore listLib toySha [110]) .empty (.set 0 ⟨[115], [[97]], 5, [1]⟩ [115])).length = 6 := by
  obtain ⟨w, h1, h2⟩ := exists_ok
    (r := runOp (appStore listLib toySha [110]) .empty (.set 0 ⟨[115], [[97]], 5, [1]⟩ [115]))
    (P := fun _ => (opWrites (appStore listLib toySha [110]) .empty (.set 0 ⟨[115], [[97]], 5, [1]⟩ [115])).length = 6)
    (by decide +kernel)
  exact ⟨w, h1, h2⟩

/-- C111, partial: after fine calls, wherever the process ends during another fine call, the store can be
opened again, the lock is free, and it holds the entries before the call, or a state between those before
and those after: entries that the new one does not displace are all there, nothing is there but them, the
new entry and entries it displaces, with at most one per path, and an entry has only been pruned if the
new one is there. Missing: that it holds the entries before or those after the call, which is false (see
`C111_violated_lost`, `C111_violated_unpruned`). -/
theorem C111_between_partial (env : StoreEnv) (he : EnvOk env) (ops : List StoreOp) (op : StoreOp) (n : Nat)
    (hf : ∀ o ∈ ops, FineOp env o) (hop : FineOp env op) :
    ∃ st st' A', runOps env .empty ops = .ok st ∧ crashAfter env st op n = .ok st' ∧ st'.locked = false ∧
      CutOff env (specRun env [] ops) A' op ∧ ∀ a : Item, Proper env.p a → (Holds env st' a.pos a.val ↔ a ∈ A') := by
  obtain ⟨st, h1, h2, h3⟩ := run_ok he ops hf
  obtain ⟨st', A', c1, c2, c3, c4, _, _⟩ := crash_ok he h2 h3 op hop n
  refine ⟨st, st', A', h1, c1, c4, c2, fun a ha => ?_⟩
  constructor
  · rintro ⟨hg, _⟩
    obtain ⟨b, hb, hbp, hbv⟩ := c3.of_get he ha.valid hg
    have hfb := c3.fine b hb
    have h4 := C24_roundtrip a.val ha.digest ha.auth
    rw [hbv, C24_roundtrip b.val hfb.digest hfb.auth] at h4
    have : b = a := by
      have h5 := Res.ok.inj h4
      cases a; cases b
      simp only at hbp h5
      rw [hbp, h5]
    rwa [this] at hb
  · intro ha'
    exact ⟨c3.get ha', c3.in_kd ha'⟩

example : (∀ o ∈ [put [[1]] 4 [9], put [[1], [2]] 5 [8]], FineOp cutEnv o) ∧ FineOp cutEnv (put [[1]] 6 [3]) ∧
    (∃ st, runOps cutEnv .empty [put [[1]] 4 [9], put [[1], [2]] 5 [8]] = .ok st ∧
      ¬ EndsInEntry ((opWrites cutEnv st (put [[1]] 6 [3])).take 3)) ∧
    CutOff cutEnv (specRun cutEnv [] [put [[1]] 4 [9], put [[1], [2]] 5 [8]])
      [⟨⟨[7], [[1], [2]], 5⟩, ⟨1, [1, 8], [1, 7]⟩⟩] (put [[1]] 6 [3]) ∧
    ¬ CutOff cutEnv (specRun cutEnv [] [put [[1]] 4 [9], put [[1], [2]] 5 [8]]) [] (put [[1]] 6 [3]) := by
  have hc1 : Comfortable cutEnv.p [[1]] := cut_comfortable _ ⟨by decide, by decide, by decide⟩ (by decide) (by decide) (by decide)
  have hc2 : Comfortable cutEnv.p [[1], [2]] := cut_comfortable _ ⟨by decide, by decide, by decide⟩ (by decide) (by decide) (by decide)
  have hspec : specRun cutEnv [] [put [[1]] 4 [9], put [[1], [2]] 5 [8]] =
      [⟨⟨[7], [[1], [2]], 5⟩, ⟨1, [1, 8], [1, 7]⟩⟩, ⟨⟨[7], [[1]], 4⟩, ⟨1, [1, 9], [1, 7]⟩⟩] := by decide +kernel
  rw [hspec]
  have hat : attempt cutEnv (put [[1]] 6 [3]) = some (⟨[42], [7], [[1]], [1, 3], 1, 6⟩, [7]) := rfl
  have hac : Acceptable cutEnv [⟨⟨[7], [[1], [2]], 5⟩, ⟨1, [1, 8], [1, 7]⟩⟩, ⟨⟨[7], [[1]], 4⟩, ⟨1, [1, 9], [1, 7]⟩⟩]
      ⟨[42], [7], [[1]], [1, 3], 1, 6⟩ [7] := by decide +kernel
  unfold CutOff
  rw [hat]
  dsimp only
  rw [if_pos hac, if_pos hac]
  refine ⟨?_, cut_fine _ _ _ hc1, ?_, ⟨by decide, by decide, by decide, ?_⟩, fun h => ?_⟩
  · simp only [List.forall_mem_cons, List.not_mem_nil, false_implies, implies_true, and_true]
    exact ⟨cut_fine _ _ _ hc1, cut_fine _ _ _ hc2⟩
  · obtain ⟨st, h1, h2⟩ := exists_ok (r := runOps cutEnv .empty [put [[1]] 4 [9], put [[1], [2]] 5 [8]])
      (P := fun st => ((opWrites cutEnv st (put [[1]] 6 [3])).take 3).getLast?.map DiskWrite.isEntry = some false) (by decide +kernel)
    refine ⟨st, h1, ?_⟩
    rintro ⟨key, value, h⟩
    rw [h] at h2
    cases h2
  · intro a ha b hb _ _
    rw [List.mem_singleton] at ha hb
    rw [ha, hb]
  · have := h.pruned ⟨⟨[7], [[1], [2]], 5⟩, ⟨1, [1, 8], [1, 7]⟩⟩ List.mem_cons_self (by decide) (by decide)
    cases this

/-- C111, partial: unless the last change made was the write of the new entry, the store opened again goes
on as a store with its entries should, whatever fine calls follow: the counts of references are not too
low. Missing: a process that ends right after the entry is written, for which this is false (see
`C111_violated_uncounted`). -/
theorem C111_goesOn_partial (env : StoreEnv) (he : EnvOk env) (ops : List StoreOp) (op : StoreOp) (n : Nat)
    (hf : ∀ o ∈ ops, FineOp env o) (hop : FineOp env op) :
    ∃ st st' A', runOps env .empty ops = .ok st ∧ crashAfter env st op n = .ok st' ∧
      CutOff env (specRun env [] ops) A' op ∧
      (¬ EndsInEntry ((opWrites env st op).take n) → ∀ later : List StoreOp, (∀ o ∈ later, FineOp env o) →
        ∃ st'', runOps env st' later = .ok st'' ∧ st''.locked = false ∧
          ∀ a : Item, Proper env.p a → (Holds env st'' a.pos a.val ↔ a ∈ specRun env A' later)) := by
  obtain ⟨st, h1, h2, h3⟩ := run_ok he ops hf
  obtain ⟨st', A', c1, c2, c3, c4, c5, _⟩ := crash_ok he h2 h3 op hop n
  refine ⟨st, st', A', h1, c1, c2, fun hne later hl => ?_⟩
  obtain ⟨leak', habs⟩ := c5 hne
  obtain ⟨st'', r1, r2, r3⟩ := runOps_ok he later st' A' leak' habs c4 hl
  exact ⟨st'', r1, r3, fun a ha => r2.holds he ha⟩

example : (∀ o ∈ [put [[1]] 5 [9]], FineOp cutEnv o) ∧ FineOp cutEnv (put [[1]] 6 [3]) ∧
    (do
      let st ← runOps cutEnv .empty [put [[1]] 5 [9]]
      let st' ← crashAfter cutEnv st (put [[1]] 6 [3]) 2
      let st'' ← runOps cutEnv st' [put [[1]] 7 [4]]
      Res.ok (((opWrites cutEnv st (put [[1]] 6 [3])).take 2).getLast?.map fun | .entrySet .. => true | _ => false, st''.kd.map fun k => k.pos)) =
        Res.ok (some false, [⟨[7], [[1]], 7⟩]) := by
  have hc : Comfortable cutEnv.p [[1]] := cut_comfortable _ ⟨by decide, by decide, by decide⟩ (by decide) (by decide) (by decide)
  refine ⟨?_, cut_fine _ _ _ hc, by decide +kernel⟩
  intro o ho
  rw [List.mem_singleton] at ho
  rw [ho]
  exact cut_fine _ _ _ hc

/-- C111, partial: wherever the process ends, the payload of an entry that the call does not displace reads
as before, if its file is not that of the payload being written, of the token, or of the token of the entry
replaced, and no other digest has the same file. Missing: another entry with the payload being written,
for which this is false (see `C111_violated_payload`). -/
theorem C111_payload_partial (env : StoreEnv) (he : EnvOk env) (ops : List StoreOp) (op : StoreOp) (n : Nat)
    (hf : ∀ o ∈ ops, FineOp env o) (hop : FineOp env op) (hlen : ops.length + 1 < 2 ^ 64) (a : Item)
    (ha : a ∈ specRun env [] ops) (hun : Unmoved env (specRun env [] ops) op a)
    (hel : Elsewhere env (specRun env [] ops) op (env.fileKey a.val.payloadDigest))
    (huniq : ∀ x ∈ specRun env [] ops, env.fileKey x.val.payloadDigest = env.fileKey a.val.payloadDigest →
      x.val.payloadDigest = a.val.payloadDigest) :
    ∃ st st', runOps env .empty ops = .ok st ∧ crashAfter env st op n = .ok st' ∧
      Holds env st' a.pos a.val ∧ storeGetPayload env st' a.pos = storeGetPayload env st a.pos := by
  obtain ⟨st, h1, h2, h3⟩ := run_ok he ops hf
  obtain ⟨st', A', c1, c2, c3, c4, c5, c6⟩ := crash_ok he h2 h3 op hop n
  have hb : ∀ d, refsTo (specRun env [] ops) d + leakRun env [] (fun _ => 0) ops d + 1 < 2 ^ 64 := by
    intro d
    have := refs_run (env := env) ops [] (fun _ => 0) d
    simp only [refsTo, List.countP_nil, Nat.zero_add] at this
    simp only [refsTo]
    omega
  have hname := c6 hb _ ⟨hel, a, ha, hun, rfl, huniq⟩
  have ha' : a ∈ A' := by
    unfold CutOff at c2
    cases hat : attempt env op with
    | none => rw [hat] at c2; rw [c2]; exact ha
    | some et =>
      obtain ⟨e, token⟩ := et
      rw [hat] at c2
      dsimp only at c2
      split at c2
      · rename_i hac
        exact c2.kept a ha (hun e token hat hac)
      · rw [c2]; exact ha
  refine ⟨st, st', h1, c1, ⟨c3.get ha', c3.in_kd ha'⟩, ?_⟩
  unfold storeGetPayload
  rw [c3.get ha', h2.core.get ha]
  dsimp only
  have hfa := h2.core.fine a ha
  rw [C24_roundtrip a.val hfa.digest hfa.auth]
  simp only [Res.ok_bind, payloadGet, hname]

example : ∃ a ∈ specRun cutEnv [] [put [[1]] 5 [9], put [[2]] 5 [8]],
    Unmoved cutEnv (specRun cutEnv [] [put [[1]] 5 [9], put [[2]] 5 [8]]) (put [[2]] 6 [3]) a ∧
    Elsewhere cutEnv (specRun cutEnv [] [put [[1]] 5 [9], put [[2]] 5 [8]]) (put [[2]] 6 [3]) (cutEnv.fileKey a.val.payloadDigest) ∧
    (∀ x ∈ specRun cutEnv [] [put [[1]] 5 [9], put [[2]] 5 [8]],
      cutEnv.fileKey x.val.payloadDigest = cutEnv.fileKey a.val.payloadDigest → x.val.payloadDigest = a.val.payloadDigest) := by
  refine ⟨⟨⟨[7], [[1]], 5⟩, ⟨1, [1, 9], [1, 7]⟩⟩, by decide +kernel, ?_, ⟨?_, ?_, ?_⟩, by decide +kernel⟩
  · intro e token h _
    cases h
    decide
  · intro now input au h
    cases h
    decide
  · intro e token h
    cases h
    decide
  · intro e token h
    cases h
    decide +kernel

/-- C111 is violated: when an entry is replaced, the old one is deleted before the new one is written. If
the process ends in between, the store opened again holds neither. -/
theorem C111_violated_lost : ∃ (lib : KdLib) (sha : Bytes → Bytes) (st st' : StoreState) (op : StoreOp) (n : Nat) (pos : Position) (v : Values),
    (∀ b, (sha b).length = 32) ∧
    runOps (appStore lib sha [110]) .empty [.set 0 ⟨[115], [[97]], 5, [1]⟩ [115]] = .ok st ∧ Holds (appStore lib sha [110]) st pos v ∧
    (∃ st1 r, runOp (appStore lib sha [110]) st op = .ok (some r, st1)) ∧
    crashAfter (appStore lib sha [110]) st op n = .ok st' ∧ ∀ pos v, ¬ Holds (appStore lib sha [110]) st' pos v := by
  obtain ⟨⟨st, st', r, st1⟩, h1, h2, h3, ⟨k, hk, hk'⟩, h4, h5⟩ := exists_ok
    (r := do
      let st ← runOps (appStore listLib toySha [110]) .empty [.set 0 ⟨[115], [[97]], 5, [1]⟩ [115]]
      let st' ← crashAfter (appStore listLib toySha [110]) st (.set 0 ⟨[115], [[97]], 6, [2]⟩ [115]) 3
      let (r, st1) ← runOp (appStore listLib toySha [110]) st (.set 0 ⟨[115], [[97]], 6, [2]⟩ [115])
      .ok (st, st', r, st1))
    (P := fun w => w.2.2.1 = some [] ∧ w.1.kv.get (encodeKey (appStore listLib toySha [110]).p ⟨[115], [[97]], 5⟩) =
        some (encodeValues ⟨1, hexEncode (toySha [1]), hexEncode (toySha [115])⟩) ∧
      (∃ k ∈ w.1.kd, k.pos = ⟨[115], [[97]], 5⟩) ∧ w.2.1.kd = [] ∧ w.2.1.kv = []) (by decide +kernel)
  obtain ⟨st_, e1, h1⟩ := Res.bind_eq_ok.1 h1
  obtain ⟨st'_, e2, h1⟩ := Res.bind_eq_ok.1 h1
  obtain ⟨⟨r_, st1_⟩, e3, h1⟩ := Res.bind_eq_ok.1 h1
  cases h1
  dsimp only at h2 h3 hk h4 h5
  subst h2
  refine ⟨listLib, toySha, st, st', _, 3, ⟨[115], [[97]], 5⟩, _, fun b => by simp [toySha], e1, ⟨h3, k, hk, hk'⟩, ⟨_, _, e3⟩, e2, ?_⟩
  rintro pos v ⟨_, k, hk, _⟩
  rw [h4] at hk
  cases hk

/-- C111 is violated: if the process ends after the new entry is written and before an entry below it is
pruned, the store opened again holds both, the older one below the newer one. -/
theorem C111_violated_unpruned : ∃ (lib : KdLib) (sha : Bytes → Bytes) (st st' : StoreState) (op : StoreOp) (n : Nat) (old new : Position) (v w : Values),
    (∀ b, (sha b).length = 32) ∧
    runOps (appStore lib sha [110]) .empty [.set 0 ⟨[115], [[97], [98]], 5, [1]⟩ [115]] = .ok st ∧
    crashAfter (appStore lib sha [110]) st op n = .ok st' ∧ Holds (appStore lib sha [110]) st' old v ∧
    Holds (appStore lib sha [110]) st' new w ∧ Prunes new old := by
  obtain ⟨⟨st, st'⟩, h1, h3, ⟨k, hk, hk'⟩, h4, l, hl, hl'⟩ := exists_ok
    (r := do
      let st ← runOps (appStore listLib toySha [110]) .empty [.set 0 ⟨[115], [[97], [98]], 5, [1]⟩ [115]]
      let st' ← crashAfter (appStore listLib toySha [110]) st (.set 0 ⟨[115], [[97]], 6, [2]⟩ [115]) 6
      .ok (st, st'))
    (P := fun w => w.2.kv.get (encodeKey (appStore listLib toySha [110]).p ⟨[115], [[97], [98]], 5⟩) =
        some (encodeValues ⟨1, hexEncode (toySha [1]), hexEncode (toySha [115])⟩) ∧
      (∃ k ∈ w.2.kd, k.pos = ⟨[115], [[97], [98]], 5⟩) ∧
      w.2.kv.get (encodeKey (appStore listLib toySha [110]).p ⟨[115], [[97]], 6⟩) =
        some (encodeValues ⟨1, hexEncode (toySha [2]), hexEncode (toySha [115])⟩) ∧
      (∃ k ∈ w.2.kd, k.pos = ⟨[115], [[97]], 6⟩)) (by decide +kernel)
  obtain ⟨st_, e1, h1⟩ := Res.bind_eq_ok.1 h1
  obtain ⟨st'_, e2, h1⟩ := Res.bind_eq_ok.1 h1
  cases h1
  exact ⟨listLib, toySha, st, st', _, 6, ⟨[115], [[97], [98]], 5⟩, ⟨[115], [[97]], 6⟩, _, _, fun b => by simp [toySha], e1, e2,
    ⟨h3, k, hk, hk'⟩, ⟨h4, l, hl, hl'⟩, by decide⟩

/-- C111 is violated: if the process ends after the new entry is written and before the reference to its
payload is counted, the store opened again holds the entry; but the write that would replace it fails, the
entry is lost without the new one being stored, and the lock stays held, so that every further call waits
for ever. -/
theorem C111_violated_uncounted : ∃ (lib : KdLib) (sha : Bytes → Bytes) (st st1 st2 : StoreState) (op : StoreOp) (n : Nat) (pos : Position) (v : Values),
    (∀ b, (sha b).length = 32) ∧ crashAfter (appStore lib sha [110]) .empty op n = .ok st ∧
    Holds (appStore lib sha [110]) st pos v ∧
    runOp (appStore lib sha [110]) st (.set 0 ⟨[115], [[97]], 6, [2]⟩ [115]) = .ok (none, st1) ∧
    (∀ pos v, ¬ Holds (appStore lib sha [110]) st1 pos v) ∧ st1.locked = true ∧
    (∀ e token, runOp (appStore lib sha [110]) st1 (.ingest e token) = .block) ∧
    -- the same write without the crash is stored
    runOps (appStore lib sha [110]) .empty [op, .set 0 ⟨[115], [[97]], 6, [2]⟩ [115]] = .ok st2 ∧
    ∃ w, Holds (appStore lib sha [110]) st2 ⟨[115], [[97]], 6⟩ w := by
  obtain ⟨⟨st, r, st1, st2⟩, h1, h2, h3, ⟨k, hk, hk'⟩, h4, h5, h6, l, hl, hl'⟩ := exists_ok
    (r := do
      let st ← crashAfter (appStore listLib toySha [110]) .empty (.set 0 ⟨[115], [[97]], 5, [1]⟩ [115]) 5
      let (r, st1) ← runOp (appStore listLib toySha [110]) st (.set 0 ⟨[115], [[97]], 6, [2]⟩ [115])
      let st2 ← runOps (appStore listLib toySha [110]) .empty [.set 0 ⟨[115], [[97]], 5, [1]⟩ [115], .set 0 ⟨[115], [[97]], 6, [2]⟩ [115]]
      .ok (st, r, st1, st2))
    (P := fun w => w.2.1 = none ∧ w.1.kv.get (encodeKey (appStore listLib toySha [110]).p ⟨[115], [[97]], 5⟩) =
        some (encodeValues ⟨1, hexEncode (toySha [1]), hexEncode (toySha [115])⟩) ∧
      (∃ k ∈ w.1.kd, k.pos = ⟨[115], [[97]], 5⟩) ∧ w.2.2.1.kd = [] ∧ w.2.2.1.locked = true ∧
      w.2.2.2.kv.get (encodeKey (appStore listLib toySha [110]).p ⟨[115], [[97]], 6⟩) =
        some (encodeValues ⟨1, hexEncode (toySha [2]), hexEncode (toySha [115])⟩) ∧
      (∃ k ∈ w.2.2.2.kd, k.pos = ⟨[115], [[97]], 6⟩)) (by decide +kernel)
  obtain ⟨st_, e1, h1⟩ := Res.bind_eq_ok.1 h1
  obtain ⟨⟨r_, st1_⟩, e2, h1⟩ := Res.bind_eq_ok.1 h1
  obtain ⟨st2_, e3, h1⟩ := Res.bind_eq_ok.1 h1
  cases h1
  dsimp only at h2 h3 hk h4 h5 h6 hl
  subst h2
  refine ⟨listLib, toySha, st, st1, st2, _, 5, ⟨[115], [[97]], 5⟩, _, fun b => by simp [toySha], e1, ⟨h3, k, hk, hk'⟩, e2, ?_, h5,
    fun e token => ?_, e3, _, h6, l, hl, hl'⟩
  · rintro pos v ⟨_, k, hk, _⟩
    rw [h4] at hk
    cases hk
  · show ingestEntry _ st1 e token = .block
    unfold ingestEntry
    rw [if_pos h5]

/-- C111 is violated: `Set` truncates the file of the payload before it writes it. If another entry has the
same payload and the process ends in between, the payload of that entry is empty. -/
theorem C111_violated_payload : ∃ (lib : KdLib) (sha : Bytes → Bytes) (st st' : StoreState) (op : StoreOp) (n : Nat) (pos : Position) (v : Values),
    (∀ b, (sha b).length = 32) ∧
    runOps (appStore lib sha [110]) .empty [.set 0 ⟨[115], [[97]], 5, [1]⟩ [115]] = .ok st ∧
    storeGetPayload (appStore lib sha [110]) st pos = .ok (some [1]) ∧
    crashAfter (appStore lib sha [110]) st op n = .ok st' ∧ Holds (appStore lib sha [110]) st' pos v ∧
    storeGetPayload (appStore lib sha [110]) st' pos = .ok (some []) := by
  obtain ⟨⟨st, st'⟩, h1, h2, h3, ⟨k, hk, hk'⟩, h4⟩ := exists_ok
    (r := do
      let st ← runOps (appStore listLib toySha [110]) .empty [.set 0 ⟨[115], [[97]], 5, [1]⟩ [115]]
      let st' ← crashAfter (appStore listLib toySha [110]) st (.set 0 ⟨[115], [[98]], 5, [1]⟩ [115]) 1
      .ok (st, st'))
    (P := fun w => storeGetPayload (appStore listLib toySha [110]) w.1 ⟨[115], [[97]], 5⟩ = .ok (some [1]) ∧
      w.2.kv.get (encodeKey (appStore listLib toySha [110]).p ⟨[115], [[97]], 5⟩) =
        some (encodeValues ⟨1, hexEncode (toySha [1]), hexEncode (toySha [115])⟩) ∧
      (∃ k ∈ w.2.kd, k.pos = ⟨[115], [[97]], 5⟩) ∧
      storeGetPayload (appStore listLib toySha [110]) w.2 ⟨[115], [[97]], 5⟩ = .ok (some [])) (by decide +kernel)
  obtain ⟨st_, e1, h1⟩ := Res.bind_eq_ok.1 h1
  obtain ⟨st'_, e2, h1⟩ := Res.bind_eq_ok.1 h1
  cases h1
  exact ⟨listLib, toySha, st, st', _, 1, ⟨[115], [[97]], 5⟩, _, fun b => by simp [toySha], e1, h2, e2, ⟨h3, k, hk, hk'⟩, h4⟩

end Willow.Props
