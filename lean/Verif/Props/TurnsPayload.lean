import Verif.Lemmas.TurnsFiles
import Verif.Props.Turns

/-! C110: the payloads when calls take turns within the writing of a file and within an ingest. -/

namespace Willow.Props

open Willow Spec

/-- C110, partial: as `C110_payload_partial`, for writes that take turns after every single change of what is on disk. If no two writes have the
same payload, and no payload is a token, then under any schedule of fine writes, whenever nobody is within an ingest, the payload of every stored
entry can be read. Missing: writes with the same payload, for which this is false (see `C110_violated_overwritten`), and readers during an ingest
(see `C110_violated_reader`). -/
theorem C110_turnsPayload_partial (env : StoreEnv) (he : EnvOk env) (hn : GoodNames env) (calls : List StoreCall)
    (hset : ∀ c ∈ calls, IsSet c) (hf : ∀ c ∈ calls, FineOp env (asOp c)) (hta : TokensApart env (calls.map asOp))
    (hdiff : (calls.map (digestOf env)).Nodup) (hlen : calls.length < 2 ^ 64) (schedule : List Nat) (stages : List TurnStage)
    (st : StoreState) (h : runTurns env schedule (calls.map .start) .empty = .ok (stages, st))
    (hidle : ∀ x ∈ stages, ∀ ws kd l r c, x ≠ .ingesting ws kd l r c) (pos : Position) (v : Values)
    (hv : ValidPath env.p pos.path) (hh : Holds env st pos v) :
    ∃ b, storeGetPayload env st pos = .ok (some b) ∧ ∃ c ∈ calls, env.hash b = digestOf env c := by
  have hd : ∀ (j k : Nat) (c d : StoreCall), calls[j]? = some c → calls[k]? = some d → digestOf env c = digestOf env d → j = k := by
    intro j k c d hj hk hcd
    have h1 : (calls.map (digestOf env))[j]? = some (digestOf env c) := by rw [List.getElem?_map, hj]; rfl
    have h2 : (calls.map (digestOf env))[k]? = some (digestOf env c) := by rw [List.getElem?_map, hk, hcd]; rfl
    exact (List.getElem?_inj (List.getElem?_eq_some_iff.1 h1).1 hdiff).1 (h1.trans h2.symm)
  obtain ⟨A, leak, hg⟩ := (KeptAll.begin env calls).run_on he ⟨hn, hset, hf, hta, hd, hlen⟩ schedule h
  obtain ⟨habs, _, hfiled⟩ := hg.abs st (.inl ⟨fun i ws kd l r c hi => hidle _ (List.mem_of_getElem? hi) ws kd l r c rfl, rfl⟩)
  obtain ⟨a, ha, hap, hav⟩ := habs.core.of_get he hv hh.1
  obtain ⟨b, hb1, hb2⟩ := hfiled a ha
  obtain ⟨i, c, x, h1, _, _, h4⟩ := hg.origin a ha
  refine ⟨b, ?_, c, List.mem_of_getElem? h1, hb2.trans h4⟩
  have hfine := habs.core.fine a ha
  unfold storeGetPayload
  rw [hh.1, hav]
  dsimp only
  rw [C24_roundtrip _ hfine.digest hfine.auth]
  simp only [Res.ok_bind, payloadGet]
  rw [if_neg (by rw [← hb2]; exact hn.ne b), hb1]

/-- Two writes whose turns alternate; the second has emptied its file and waits when the first is stored. -/
example : (∀ c ∈ [StoreCall.set 0 ⟨[7], [[1]], 5, [9]⟩ [7], .set 0 ⟨[7], [[1], [2]], 4, [8]⟩ [7]], IsSet c) ∧
    TokensApart cutEnv ([StoreCall.set 0 ⟨[7], [[1]], 5, [9]⟩ [7], .set 0 ⟨[7], [[1], [2]], 4, [8]⟩ [7]].map asOp) ∧
    ([StoreCall.set 0 ⟨[7], [[1]], 5, [9]⟩ [7], .set 0 ⟨[7], [[1], [2]], 4, [8]⟩ [7]].map (digestOf cutEnv)).Nodup ∧ GoodNames cutEnv ∧
    ∃ w, runTurns cutEnv [0, 1, 1, 0, 0, 0, 0, 0, 0, 0, 0, 0] ([StoreCall.set 0 ⟨[7], [[1]], 5, [9]⟩ [7], .set 0 ⟨[7], [[1], [2]], 4, [8]⟩ [7]].map .start)
      .empty = .ok w ∧ w.2.kv.length = 1 ∧ w.2.files.length = 3 ∧ w.2.files.get [1, 8] = some [] ∧ w.2.files.get [1, 9] = some [9] ∧ w.2.locked = false := by
  refine ⟨?_, ?_, by decide, ⟨fun a b h => h, fun a h => by cases h⟩, exists_ok (by decide +kernel)⟩
  · simp only [List.forall_mem_cons, List.not_mem_nil, false_implies, implies_true, and_true]
    exact ⟨⟨_, _, _, rfl⟩, ⟨_, _, _, rfl⟩⟩
  · simp only [List.map_cons, List.map_nil, asOp]
    intro op ho op' ho' e t e' t' h h'
    simp only [List.mem_cons, List.not_mem_nil, or_false] at ho ho'
    rcases ho with rfl | rfl <;> rcases ho' with rfl | rfl <;>
    · simp only [attempt, cutEnv, testEnv, Option.map_some, Option.some.injEq, Prod.mk.injEq] at h h'
      obtain ⟨_, rfl⟩ := h
      obtain ⟨rfl, _⟩ := h'
      decide

end Willow.Props
