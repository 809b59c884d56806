import Verif.Lemmas.ConcurrentAlways
import Verif.Props.Concurrent

/-! C110: two calls at the same time of which one loses its payload, always. -/

namespace Willow.Props

open Willow Spec

/-- C110 is violated by every two calls of `Set` of which one replaces the only entry with a payload and the other stores the same payload
elsewhere: under a schedule of theirs, after any fine calls, both succeed, the entry of the other is stored, and its payload is
gone. -/
theorem C110_violated_always (env : StoreEnv) (he : EnvOk env) (ops : List StoreOp) (hf : ∀ o ∈ ops, FineOp env o)
    (o : Item) (ho : o ∈ specRun env [] ops) (hname : env.fileKey o.val.payloadDigest ≠ [])
    (hcount : ∀ st, runOps env .empty ops = .ok st → refCount st.refs o.val.payloadDigest = .ok 1)
    (now0 now1 : UInt64) (in0 in1 : EntryInput) (au0 au1 : Bytes) (e0 e1 : Entry) (t0 t1 : Bytes)
    (h0 : attempt env (.set now0 in0 au0) = some (e0, t0)) (h1 : attempt env (.set now1 in1 au1) = some (e1, t1))
    (hf0 : FineOp env (.set now0 in0 au0)) (hf1 : FineOp env (.set now1 in1 au1))
    (hs : o.pos.subspace = e0.subspaceId) (hp : o.pos.path = e0.path) (hd0 : o.val.payloadDigest ≠ e0.payloadDigest)
    (hd1 : e1.payloadDigest = o.val.payloadDigest)
    (ha0 : Acceptable env (specRun env [] ops) e0 t0) (ha1 : Acceptable env (specRun env [] (ops ++ [.set now0 in0 au0])) e1 t1)
    (hn0 : env.fileKey (env.hash (env.tokenEncode t0)) ≠ env.fileKey o.val.payloadDigest)
    (hn1 : env.fileKey (env.hash (env.tokenEncode t1)) ≠ env.fileKey o.val.payloadDigest) :
    ∃ schedule st0 st p0 p1, runOps env .empty ops = .ok st0 ∧
      runTogether env schedule [.start (.set now0 in0 au0), .start (.set now1 in1 au1)] st0 = .ok ([.done (some p0), .done (some p1)], st) ∧
      Holds env st (newItem env e1 t1).pos (newItem env e1 t1).val ∧ storeGetPayload env st (newItem env e1 t1).pos = .ok none := by
  obtain ⟨st0, r1, r2, r3⟩ := run_ok he ops hf
  have auth : ∀ {now : UInt64} {inp : EntryInput} {au : Bytes} {e : Entry} {t : Bytes}, attempt env (.set now inp au) = some (e, t) →
      e = setEntry env now inp ∧ env.authorise (setEntry env now inp) au = some t := by
    intro now inp au e t h
    have h : (env.authorise (setEntry env now inp) au).map (fun token => (setEntry env now inp, token)) = some (e, t) := h
    cases hx : env.authorise (setEntry env now inp) au with
    | none => rw [hx] at h; cases h
    | some t' => rw [hx] at h; cases h; exact ⟨rfl, rfl⟩
  obtain ⟨q0, z0⟩ := auth h0
  obtain ⟨q1, z1⟩ := auth h1
  -- both calls have written their payloads
  let sa : StoreState := { st0 with files := (payloadSet env st0.files in1.payload).1 }
  let sb : StoreState := { sa with files := (payloadSet env sa.files in0.payload).1 }
  have s1 : advance env st0 (.start (.set now1 in1 au1)) = .ok (.written e1 t1, sa) := by
    simp only [advance, z1, q1]
    rfl
  have s0 : advance env sa (.start (.set now0 in0 au0)) = .ok (.written e0 t0, sb) := by
    simp only [advance, z0, q0]
    rfl
  have hb : Abs env sb (specRun env [] ops) (leakRun env [] (fun _ => 0) ops) := r2.ofSame rfl rfl rfl
  obtain ⟨c0, d0⟩ := hf0 e0 t0 h0
  obtain ⟨c1, d1⟩ := hf1 e1 t1 h1
  -- the first call to the end
  obtain ⟨p0, s3, x0, s4, i0, a1, a2, a3, hA, hl4, hfile⟩ := rest_of_call he hb r3 e0 t0 c0 d0 ha0
  have hrem := ingestWrites_removes hb.core r3 e0 t0 c0 ha0 o ho hs hp hd0 (hcount st0 r1) hname
  have gone3 : s3.files.get (env.fileKey o.val.payloadDigest) = none := by
    rw [← (ingestWrites_all env sb s3 e0 t0 _ i0).files]
    exact removed_writes _ _ hrem fun c hc => hn0 (ingestWrites_file env _ c sb e0 t0 hc).symm
  have gone4 := hfile _ gone3
  -- the second call to the end
  have hspec : specRun env [] (ops ++ [.set now0 in0 au0]) = afterInsert (specRun env [] ops) (newItem env e0 t0) := by
    rw [specRun_append]
    simp only [specRun, specStep, h0, if_pos ha0]
  rw [hspec] at ha1
  obtain ⟨p1, s5, x1, s6, i1, b1, b2, b3, hB, hl6, hfile'⟩ := rest_of_call he hA hl4 e1 t1 c1 d1 ha1
  have gone5 : s5.files.get (env.fileKey o.val.payloadDigest) = none := by
    rw [← (ingestWrites_all env s4 s5 e1 t1 _ i1).files]
    exact absent_writes _ _ gone4 fun c hc => hn1 (ingestWrites_file env _ c s4 e1 t1 hc).symm
  have gone6 := hfile' _ gone5
  have hmem : newItem env e1 t1 ∈ afterInsert (afterInsert (specRun env [] ops) (newItem env e0 t0)) (newItem env e1 t1) := List.mem_cons_self
  have hfine := hB.core.fine _ hmem
  refine ⟨[1, 0, 0, 0, 0, 1, 1, 1], st0, s6, p0, p1, r1, ?_, ⟨hB.core.get hmem, hB.core.in_kd hmem⟩, ?_⟩
  · simp only [runTogether, List.getElem?_cons_succ, List.getElem?_cons_zero, s1, s0, a1, a2, a3, b1, b2, b3, Res.ok_bind, List.set_cons_succ,
      List.set_cons_zero]
  · unfold storeGetPayload
    rw [hB.core.get hmem]
    dsimp only
    rw [C24_roundtrip _ hfine.digest hfine.auth, Res.ok_bind]
    unfold payloadGet
    show Res.ok (if env.fileKey e1.payloadDigest = [] then some [] else s6.files.get (env.fileKey e1.payloadDigest)) = _
    rw [hd1, if_neg hname, gone6]

example : (∀ o ∈ [put [[1]] 4 [9]], FineOp cutEnv o) ∧ FineOp cutEnv (put [[1]] 6 [3]) ∧ FineOp cutEnv (put [[2]] 5 [9]) ∧
    ⟨⟨[7], [[1]], 4⟩, ⟨1, [1, 9], [1, 7]⟩⟩ ∈ specRun cutEnv [] [put [[1]] 4 [9]] ∧
    (∀ st, runOps cutEnv .empty [put [[1]] 4 [9]] = .ok st → refCount st.refs [1, 9] = .ok 1) ∧
    attempt cutEnv (put [[1]] 6 [3]) = some (⟨[42], [7], [[1]], [1, 3], 1, 6⟩, [7]) ∧
    attempt cutEnv (put [[2]] 5 [9]) = some (⟨[42], [7], [[2]], [1, 9], 1, 5⟩, [7]) ∧
    Acceptable cutEnv (specRun cutEnv [] [put [[1]] 4 [9]]) ⟨[42], [7], [[1]], [1, 3], 1, 6⟩ [7] ∧
    Acceptable cutEnv (specRun cutEnv [] ([put [[1]] 4 [9]] ++ [put [[1]] 6 [3]])) ⟨[42], [7], [[2]], [1, 9], 1, 5⟩ [7] ∧
    cutEnv.fileKey (cutEnv.hash (cutEnv.tokenEncode [7])) ≠ cutEnv.fileKey [1, 9] ∧ cutEnv.fileKey [1, 9] ≠ [] := by
  have hc : ∀ x : UInt8, x = 1 ∨ x = 2 → Comfortable cutEnv.p [[x]] := by
    rintro x (rfl | rfl) <;> exact cut_comfortable _ ⟨by decide, by decide, by decide⟩ (by decide) (by decide) (by decide)
  refine ⟨?_, cut_fine _ _ _ (hc 1 (.inl rfl)), cut_fine _ _ _ (hc 2 (.inr rfl)), by decide +kernel, ?_, by decide +kernel, by decide +kernel,
    by decide +kernel, by decide +kernel, by decide +kernel, by decide +kernel⟩
  · simp only [List.forall_mem_cons, List.not_mem_nil, false_implies, implies_true, and_true]
    exact cut_fine _ _ _ (hc 1 (.inl rfl))
  · intro st h
    obtain ⟨w, h1, h2⟩ := exists_ok (r := runOps cutEnv .empty [put [[1]] 4 [9]])
      (P := fun st => refCount st.refs [1, 9] = .ok 1) (by decide +kernel)
    rw [h1] at h
    cases h
    exact h2

end Willow.Props
