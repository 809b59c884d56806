import Verif.Lemmas.Turns
import Verif.Props.Concurrent
import Verif.Props.CrashAlways

/-! C110: calls that take turns within the writing of a file and within an ingest. -/

namespace Willow.Props

open Willow Spec

/-- C110, partial: as `C110_entries_partial`, for calls that take turns after every single change of what is on disk, also within the writing of
a file and within an ingest. Whatever the schedule, when nobody is within an ingest the entries in the store are those of the calls made one
after the other, in some order, and so is, at all times, what the calls have returned. At a later time the order is the same, with more calls at
the end. Missing: the payload files (see `C110_violated_payload`, `C110_violated_overwritten`), and readers during an ingest (see
`C110_violated_reader`). -/
theorem C110_turns_partial (env : StoreEnv) (st0 : StoreState) (calls : List StoreCall) (schedule later : List Nat)
    (stages stages' : List TurnStage) (st st' : StoreState)
    (h : runTurns env schedule (calls.map .start) st0 = .ok (stages, st)) (h' : runTurns env later stages st = .ok (stages', st')) :
    ∃ order more, ExplainsTurns env st0 calls stages st order ∧ ExplainsTurns env st0 calls stages' st' (order ++ more) := by
  obtain ⟨s1, c1, cst1, r1, f1⟩ := (Follows.begin env st0 calls).run schedule h
  obtain ⟨s2, c2, cst2, r2, f2⟩ := f1.run later h'
  obtain ⟨order, more, e1, e2⟩ := C110_entries_partial env st0 calls s1 s2 c1 c2 cst1 cst2 r1 r2
  exact ⟨order, more, f1.explains e1, f2.explains e2⟩

/-- Here the second call writes its payload while the first is within its ingest, and then waits for the lock. -/
example : ∃ w, runTurns (appStore listLib toySha [110]) [0, 0, 0, 0, 0, 0, 1, 1, 0, 0, 1, 1, 1] (exWrites.map .start) .empty = .ok w ∧
    w.1[1]? = some (.waiting (setEntry (appStore listLib toySha [110]) 0 ⟨[115], [[97]], 6, [2]⟩) [115] true) ∧ w.2.locked = true ∧
    (∃ ws kd l r c, w.1[0]? = some (.ingesting ws kd l r c) ∧ ws.length = 1) ∧ w.2.files.length = 3 := by
  obtain ⟨w, h1, h2⟩ := exists_ok (r := runTurns (appStore listLib toySha [110]) [0, 0, 0, 0, 0, 0, 1, 1, 0, 0, 1, 1, 1] (exWrites.map .start) .empty)
    (P := fun w => w.1[1]? = some (.waiting (setEntry (appStore listLib toySha [110]) 0 ⟨[115], [[97]], 6, [2]⟩) [115] true) ∧ w.2.locked = true ∧
      w.1[0]? = some (.ingesting [.refSet (hexEncode (toySha [1])) [0, 0, 0, 0, 0, 0, 0, 1]]
        [⟨⟨[115], [[97]], 5⟩, []⟩] false (some []) (some (hexEncode (toySha [1])))) ∧ w.2.files.length = 3)
    (by decide +kernel)
  exact ⟨w, h1, h2.1, h2.2.1, ⟨_, _, _, _, _, h2.2.2.1, rfl⟩, h2.2.2.2⟩

/-- C110, partial: a call that takes its turns alone returns what the call returns, and leaves the store, with its files, as the call leaves
it. Missing: calls at the same time (see `C110_turns_partial`). -/
theorem C110_alone_partial (env : StoreEnv) (st st' : StoreState) (call : StoreCall) (r : Option (List Entry))
    (h : runOp env st (asOp call) = .ok (r, st')) :
    ∃ n, runTurns env (List.replicate n 0) [.start call] st = .ok ([.done r], st') := by
  cases call with
  | set now input au => exact ComesTo.set h
  | ingest e token => exact ComesTo.turn rfl (ComesTo.ingest h)

example : ∃ w, runOp cutEnv .empty (put [[1]] 4 [9]) = .ok w ∧ w.1 = some [] ∧ w.2.files.length = 2 := exists_ok (by decide +kernel)

/-- C110, partial: fine calls on an empty store that take turns after every single change never get stuck: whatever the schedule has been, all of them can
still return, and then the entries and all results are those of the calls one after the other in some order. Missing: as in
`C110_turns_partial`, and the empty path and paths at a limit (see C54). -/
theorem C110_finish_partial (env : StoreEnv) (he : EnvOk env) (calls : List StoreCall) (hf : ∀ c ∈ calls, FineOp env (asOp c))
    (schedule : List Nat) :
    ∃ stages st, runTurns env schedule (calls.map .start) .empty = .ok (stages, st) ∧
      ∃ later stages' st' order, runTurns env later stages st = .ok (stages', st') ∧ stages'.length = calls.length ∧
        (∀ x ∈ stages', ∃ r, x = .done r) ∧ st'.locked = false ∧ order.Perm (List.range calls.length) ∧
        ExplainsTurns env .empty calls stages' st' order := by
  have hst : ∀ (i : Nat) (x : CallStage), (calls.map CallStage.start)[i]? = some x → ∃ c, calls[i]? = some c ∧ x = .start c := by
    intro i x h
    rw [List.getElem?_map, Option.map_eq_some_iff] at h
    obtain ⟨c, h1, h2⟩ := h
    exact ⟨c, h1, h2.symm⟩
  have hready : Ready env (calls.map .start) .empty := by
    refine ⟨⟨_, _, abs_empty env⟩, rfl, fun i c h => ?_, fun i e t h => ?_⟩
    · obtain ⟨c', h1, h2⟩ := hst i _ h
      cases h2
      exact hf c (List.mem_of_getElem? h1)
    · obtain ⟨c', _, h2⟩ := hst i _ h
      cases h2
  have hbegin : InOrder env .empty calls (calls.map .start) .empty (calls.map .start) .empty [] [] .empty :=
    ⟨Follows.begin env .empty calls, hready, Going.begin env .empty calls⟩
  obtain ⟨stages, st, calls1, cst1, order1, rs1, s1, h1, h2, h3⟩ := hbegin.run he schedule
  obtain ⟨later, stages', st', h4, h5⟩ := h3.finish he _ _ rfl rfl
  obtain ⟨stages2, st2, calls2, cst2, order2, rs2, s2, h6, h7, h8⟩ := h3.run he later
  rw [h4] at h6
  cases h6
  have hlen : stages'.length = calls.length := by rw [h7, h2, List.length_map]
  have hex : ExplainsTurns env .empty calls stages' st' order2 := h8.follows.explains h8.going.explains
  have hidle : Idle stages' := by
    intro i ws kd l r c hi
    obtain ⟨r', e⟩ := h5 _ (List.mem_of_getElem? hi)
    cases e
  refine ⟨stages, st, h1, later, stages', st', order2, h4, hlen, h5, ?_, ?_, hex⟩
  · rw [(h8.follows.idle hidle).2.2.2]
    exact h8.ready.unlocked
  · obtain ⟨e1, e2, ⟨rs, s, _, _, e3⟩, _⟩ := hex
    refine perm_range e1 e2 fun i hi => ?_
    obtain ⟨r, hr⟩ := h5 stages'[i] (List.getElem_mem _)
    obtain ⟨k, hk, _⟩ := e3 i r (by rw [List.getElem?_eq_getElem (by omega), hr])
    exact List.mem_of_getElem? hk

example : (∀ c ∈ [StoreCall.set 0 ⟨[7], [[1]], 5, [9]⟩ [7], .set 0 ⟨[7], [[1], [2]], 4, [8]⟩ [7]], FineOp cutEnv (asOp c)) ∧
    ∃ w, runTurns cutEnv [0, 1, 1, 0, 1, 1, 1, 0, 0, 0] ([StoreCall.set 0 ⟨[7], [[1]], 5, [9]⟩ [7], .set 0 ⟨[7], [[1], [2]], 4, [8]⟩ [7]].map .start)
      .empty = .ok w ∧ w.2.locked = true ∧ (∃ e t, w.1[0]? = some (.waiting e t true)) := by
  refine ⟨?_, ?_⟩
  · simp only [List.forall_mem_cons, List.not_mem_nil, false_implies, implies_true, and_true]
    exact ⟨cut_fine _ _ _ (cut_comfortable _ ⟨by decide, by decide, by decide⟩ (by decide) (by decide) (by decide)),
      cut_fine _ _ _ (cut_comfortable _ ⟨by decide, by decide, by decide⟩ (by decide) (by decide) (by decide))⟩
  · obtain ⟨w, h1, h2⟩ := exists_ok (r := runTurns cutEnv [0, 1, 1, 0, 1, 1, 1, 0, 0, 0]
        ([StoreCall.set 0 ⟨[7], [[1]], 5, [9]⟩ [7], .set 0 ⟨[7], [[1], [2]], 4, [8]⟩ [7]].map .start) .empty)
      (P := fun w => w.2.locked = true ∧ w.1[0]? = some (.waiting (setEntry cutEnv 0 ⟨[7], [[1]], 5, [9]⟩) [7] true)) (by decide +kernel)
    exact ⟨w, h1, h2.1, _, _, h2.2⟩

/-- C110 is violated by every call of `Set`, even one that will be refused, with the payload of a stored entry: the file is emptied before it is
written anew, so that a reader in between finds the entry with an empty payload, though before and after the call it has the whole. -/
theorem C110_violated_overwritten (env : StoreEnv) (he : EnvOk env) (ops : List StoreOp) (hf : ∀ o ∈ ops, FineOp env o)
    (a : Item) (ha : a ∈ specRun env [] ops) (now : UInt64) (input : EntryInput) (au : Bytes)
    (hd : a.val.payloadDigest = env.hash input.payload) (hn : env.fileKey a.val.payloadDigest ≠ []) :
    ∃ st stages st', runOps env .empty ops = .ok st ∧ Holds env st a.pos a.val ∧
      runTurns env [0, 0] [.start (.set now input au)] st = .ok (stages, st') ∧ Holds env st' a.pos a.val ∧
      storeGetPayload env st' a.pos = .ok (some []) := by
  obtain ⟨st, h1, h2, h3⟩ := run_ok he ops hf
  have hw : payloadWrites env input.payload = [.file (env.fileKey (env.hash input.payload)) [], .file (env.fileKey (env.hash input.payload)) input.payload] := by
    unfold payloadWrites
    dsimp only
    rw [if_neg (by rw [← hd]; exact hn)]
  have hh : Holds env st a.pos a.val := ⟨h2.core.get ha, h2.core.in_kd ha⟩
  have hrun : runTurns env [0, 0] [.start (.set now input au)] st =
      .ok ([.writing [.file (env.fileKey (env.hash input.payload)) input.payload] (setEntry env now input)
        (env.authorise (setEntry env now input) au)], applyWrite st (.file (env.fileKey (env.hash input.payload)) [])) := by
    simp only [runTurns, List.getElem?_cons_zero, turn, hw, Res.ok_bind, List.set_cons_zero]
  refine ⟨st, _, _, h1, hh, hrun, hh, ?_⟩
  unfold storeGetPayload
  rw [show (applyWrite st (.file (env.fileKey (env.hash input.payload)) [])).kv = st.kv from rfl, h2.core.get ha]
  dsimp only
  have hfa := h2.core.fine a ha
  rw [C24_roundtrip a.val hfa.digest hfa.auth, Res.ok_bind]
  unfold payloadGet
  rw [if_neg hn, hd]
  show Res.ok ((st.files.set _ _).get _) = _
  rw [KV.get_set, if_pos rfl]

example : ⟨⟨[7], [[1]], 4⟩, ⟨1, [1, 9], [1, 7]⟩⟩ ∈ specRun cutEnv [] [put [[1]] 4 [9]] ∧
    cutEnv.hash [9] = [1, 9] ∧ cutEnv.fileKey [1, 9] ≠ [] := by
  refine ⟨by decide +kernel, by decide, by decide⟩

end Willow.Props
