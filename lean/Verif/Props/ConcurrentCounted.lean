import Verif.Props.ConcurrentAlways

/-! C110: three calls at the same time of which one erases the payload of another, always. -/

namespace Willow.Props

open Willow Spec

/-- C110 is violated by every three calls of `Set` of which one stores a payload that no entry has, another displaces its entry by one with
another payload, and the third stores the first payload again: under a schedule of theirs, after any fine calls, the first finds the
payload unused, the third succeeds, and then the first erases the payload: all three succeed, the entry of the third is stored, and its
payload is gone. -/
theorem C110_violated_counted (env : StoreEnv) (he : EnvOk env) (ops : List StoreOp) (hf : ∀ o ∈ ops, FineOp env o)
    (now0 now1 now2 : UInt64) (in0 in1 in2 : EntryInput) (au0 au1 au2 : Bytes) (e0 e1 e2 : Entry) (t0 t1 t2 : Bytes)
    (h0 : attempt env (.set now0 in0 au0) = some (e0, t0)) (h1 : attempt env (.set now1 in1 au1) = some (e1, t1))
    (h2 : attempt env (.set now2 in2 au2) = some (e2, t2))
    (hf0 : FineOp env (.set now0 in0 au0)) (hf1 : FineOp env (.set now1 in1 au1)) (hf2 : FineOp env (.set now2 in2 au2))
    (hnone : ∀ a ∈ specRun env [] ops, a.val.payloadDigest ≠ e0.payloadDigest) (hsur : rewrites env [] ops e0.payloadDigest = 0)
    (hname : env.fileKey e0.payloadDigest ≠ [])
    (hdis : Displaces (newItem env e1 t1).pos (newItem env e0 t0).pos) (hd1 : e1.payloadDigest ≠ e0.payloadDigest)
    (hd2 : e2.payloadDigest = e0.payloadDigest)
    (ha0 : Acceptable env (specRun env [] ops) e0 t0) (ha1 : Acceptable env (specRun env [] (ops ++ [.set now0 in0 au0])) e1 t1)
    (ha2 : Acceptable env (specRun env [] (ops ++ [.set now0 in0 au0, .set now1 in1 au1])) e2 t2) :
    ∃ schedule st0 st p0 p1 p2, runOps env .empty ops = .ok st0 ∧
      runTogether env schedule [.start (.set now0 in0 au0), .start (.set now1 in1 au1), .start (.set now2 in2 au2)] st0 =
        .ok ([.done (some p0), .done (some p1), .done (some p2)], st) ∧
      Holds env st (newItem env e2 t2).pos (newItem env e2 t2).val ∧ storeGetPayload env st (newItem env e2 t2).pos = .ok none := by
  obtain ⟨st0, r1, r2, r3⟩ := run_ok he ops hf
  have auth : ∀ {now : UInt64} {inp : EntryInput} {au : Bytes} {e : Entry} {t : Bytes}, attempt env (.set now inp au) = some (e, t) →
      e = setEntry env now inp ∧ env.authorise (setEntry env now inp) au = some t := by
    intro now inp au e t h
    have h : (env.authorise (setEntry env now inp) au).map (fun token => (setEntry env now inp, token)) = some (e, t) := h
    cases hx : env.authorise (setEntry env now inp) au with
    | none => rw [hx] at h; cases h
    | some t' => rw [hx] at h; cases h; exact ⟨rfl, rfl⟩
  have begins : ∀ {now : UInt64} {inp : EntryInput} {au : Bytes} {e : Entry} {t : Bytes} (s : StoreState),
      attempt env (.set now inp au) = some (e, t) →
      advance env s (.start (.set now inp au)) = .ok (.written e t, { s with files := (payloadSet env s.files inp.payload).1 }) := by
    intro now inp au e t s h
    obtain ⟨q, z⟩ := auth h
    simp only [advance, z, q]
  have hspec0 : specRun env [] (ops ++ [.set now0 in0 au0]) = afterInsert (specRun env [] ops) (newItem env e0 t0) := by
    rw [specRun_append]
    simp only [specRun, specStep, h0, if_pos ha0]
  rw [hspec0] at ha1
  have hspec1 : specRun env [] (ops ++ [.set now0 in0 au0, .set now1 in1 au1]) =
      afterInsert (afterInsert (specRun env [] ops) (newItem env e0 t0)) (newItem env e1 t1) := by
    rw [specRun_append]
    simp only [specRun, specStep, h0, h1, if_pos ha0, if_pos ha1]
  rw [hspec1] at ha2
  obtain ⟨c0, d0⟩ := hf0 e0 t0 h0
  obtain ⟨c1, d1⟩ := hf1 e1 t1 h1
  obtain ⟨c2, d2⟩ := hf2 e2 t2 h2
  -- the first call stores its entry
  have b0 := begins st0 h0
  have hb : Abs env { st0 with files := (payloadSet env st0.files in0.payload).1 } (specRun env [] ops) (leakRun env [] (fun _ => 0) ops) :=
    r2.ofSame rfl rfl rfl
  obtain ⟨B0, s0, i0, _, g0, l0, _, _⟩ := ingestEntry_accepted he hb r3 e0 t0 c0 d0 ha0.1 ha0.2.1 ha0.2.2
  have a0 : advance env { st0 with files := (payloadSet env st0.files in0.payload).1 } (.written e0 t0) =
      .ok (.ingested e0.payloadDigest (B0.map (Item.entry env.namespaceId)), s0) := by
    simp only [advance, i0]
  have k0 := counted_ingest env e0.payloadDigest i0 (.inr ⟨rfl, by simp⟩)
  -- the second displaces it
  have b1 := begins s0 h1
  have hb1 : Abs env { s0 with files := (payloadSet env s0.files in1.payload).1 } _ _ := g0.ofSame rfl rfl rfl
  obtain ⟨p1, s1, x1, s1', i1, a1, a1', a1'', g1', l1', _⟩ := rest_of_call he hb1 l0 e1 t1 c1 d1 ha1
  obtain ⟨B1, s1b, i1b, _, g1, _, _, _⟩ := ingestEntry_accepted he hb1 l0 e1 t1 c1 d1 ha1.1 ha1.2.1 ha1.2.2
  rw [i1] at i1b
  cases i1b
  obtain ⟨c, k1⟩ := counted_ingest env e0.payloadDigest i1 (.inl k0)
  -- the first finds its payload unused
  have hA0 : refsTo (afterInsert (afterInsert (specRun env [] ops) (newItem env e0 t0)) (newItem env e1 t1)) e0.payloadDigest = 0 := by
    unfold refsTo
    rw [List.countP_eq_zero]
    intro a ha
    rw [decide_eq_true_eq]
    rcases List.mem_cons.1 ha with rfl | ha
    · exact hd1
    obtain ⟨ha, hnd⟩ := List.mem_filter.1 ha
    rcases List.mem_cons.1 ha with rfl | ha
    · simp only [decide_not, Bool.not_eq_true', decide_eq_false_iff_not] at hnd
      exact absurd hdis hnd
    · exact hnone a (List.mem_filter.1 ha).1
  have hl0 : leakAfter (afterInsert (specRun env [] ops) (newItem env e0 t0)) e1
      (leakAfter (specRun env [] ops) e0 (leakRun env [] (fun _ => 0) ops)) e0.payloadDigest = 0 := by
    rw [leakAfter_eq g0.core.apart, leakAfter_eq r2.core.apart, leakRun_eq ops [] _ List.Pairwise.nil, hsur, if_neg, if_neg]
    · exact fun h => hd1 h.1
    · rintro ⟨_, a, ha, _, _, h⟩
      exact hnone a ha h
  have hc : c = 0 := by
    rcases g1.refs e0.payloadDigest with ⟨h, _⟩ | h
    · unfold refCount at k1
      rw [h] at k1
      cases k1
    · unfold refCount at k1
      rw [h, hA0, hl0] at k1
      dsimp only at k1
      have : bigEndianUint64 (putU64 (UInt64.ofNat (0 + 0)).toNat) = .ok 0 := by decide
      rw [this] at k1
      cases k1
      rfl
  have f0 : advance env s1 (.ingested e0.payloadDigest (B0.map (Item.entry env.namespaceId))) =
      .ok (.counted e0.payloadDigest (B0.map (Item.entry env.namespaceId)), s1) := by
    simp only [advance, k1, if_pos hc]
  -- the third stores the payload
  have b2 := begins s1' h2
  have hb2 : Abs env { s1' with files := (payloadSet env s1'.files in2.payload).1 } _ _ := g1'.ofSame rfl rfl rfl
  obtain ⟨p2, s2, x2, s2', i2, a2, a2', a2'', g2, l2, _⟩ := rest_of_call he hb2 l1' e2 t2 c2 d2 ha2
  -- the first erases it
  have e : advance env s2' (.counted e0.payloadDigest (B0.map (Item.entry env.namespaceId))) =
      .ok (.done (some (B0.map (Item.entry env.namespaceId))), { s2' with files := payloadErase env s2'.files e0.payloadDigest }) := rfl
  have hmem : newItem env e2 t2 ∈ afterInsert (afterInsert (afterInsert (specRun env [] ops) (newItem env e0 t0)) (newItem env e1 t1))
    (newItem env e2 t2) := List.mem_cons_self
  have hfine := g2.core.fine _ hmem
  refine ⟨[0, 0, 1, 1, 0, 1, 1, 2, 2, 2, 2, 0], st0, { s2' with files := payloadErase env s2'.files e0.payloadDigest },
    B0.map (Item.entry env.namespaceId), B1.map (Item.entry env.namespaceId), p2, r1, ?_, ⟨g2.core.get hmem, g2.core.in_kd hmem⟩, ?_⟩
  · simp only [runTogether, List.getElem?_cons_succ, List.getElem?_cons_zero, b0, a0, b1, a1, f0, a1', a1'', b2, a2, a2', a2'', e, Res.ok_bind,
      List.set_cons_succ, List.set_cons_zero]
  · unfold storeGetPayload
    dsimp only
    rw [g2.core.get hmem]
    dsimp only
    rw [C24_roundtrip _ hfine.digest hfine.auth, Res.ok_bind]
    unfold payloadGet
    show Res.ok (if env.fileKey e2.payloadDigest = [] then some [] else
      (payloadErase env s2'.files e0.payloadDigest).get (env.fileKey e2.payloadDigest)) = _
    rw [hd2, if_neg hname, payloadErase_self _ _ _ hname]

example : (∀ o ∈ [put [[3]] 4 [5]], FineOp cutEnv o) ∧ FineOp cutEnv (put [[1]] 4 [9]) ∧ FineOp cutEnv (put [[1]] 6 [3]) ∧
    FineOp cutEnv (put [[2]] 5 [9]) ∧
    attempt cutEnv (put [[1]] 4 [9]) = some (⟨[42], [7], [[1]], [1, 9], 1, 4⟩, [7]) ∧
    attempt cutEnv (put [[1]] 6 [3]) = some (⟨[42], [7], [[1]], [1, 3], 1, 6⟩, [7]) ∧
    attempt cutEnv (put [[2]] 5 [9]) = some (⟨[42], [7], [[2]], [1, 9], 1, 5⟩, [7]) ∧
    (∀ a ∈ specRun cutEnv [] [put [[3]] 4 [5]], a.val.payloadDigest ≠ [1, 9]) ∧ rewrites cutEnv [] [put [[3]] 4 [5]] [1, 9] = 0 ∧
    Displaces (newItem cutEnv ⟨[42], [7], [[1]], [1, 3], 1, 6⟩ [7]).pos (newItem cutEnv ⟨[42], [7], [[1]], [1, 9], 1, 4⟩ [7]).pos ∧
    Acceptable cutEnv (specRun cutEnv [] [put [[3]] 4 [5]]) ⟨[42], [7], [[1]], [1, 9], 1, 4⟩ [7] ∧
    Acceptable cutEnv (specRun cutEnv [] ([put [[3]] 4 [5]] ++ [put [[1]] 4 [9]])) ⟨[42], [7], [[1]], [1, 3], 1, 6⟩ [7] ∧
    Acceptable cutEnv (specRun cutEnv [] ([put [[3]] 4 [5]] ++ [put [[1]] 4 [9], put [[1]] 6 [3]])) ⟨[42], [7], [[2]], [1, 9], 1, 5⟩ [7] ∧
    cutEnv.fileKey [1, 9] ≠ [] := by
  have hc : ∀ x : UInt8, x = 1 ∨ x = 2 ∨ x = 3 → Comfortable cutEnv.p [[x]] := by
    rintro x (rfl | rfl | rfl) <;> exact cut_comfortable _ ⟨by decide, by decide, by decide⟩ (by decide) (by decide) (by decide)
  refine ⟨?_, cut_fine _ _ _ (hc 1 (.inl rfl)), cut_fine _ _ _ (hc 1 (.inl rfl)), cut_fine _ _ _ (hc 2 (.inr (.inl rfl))), by decide +kernel,
    by decide +kernel, by decide +kernel, by decide +kernel, ?_, by decide +kernel, by decide +kernel, by decide +kernel, by decide +kernel,
    by decide +kernel⟩
  · simp only [List.forall_mem_cons, List.not_mem_nil, false_implies, implies_true, and_true]
    exact cut_fine _ _ _ (hc 3 (.inr (.inr rfl)))
  · unfold rewrites
    rw [if_neg]
    · rfl
    · rintro ⟨e, t, h, _, hd, _⟩
      have : attempt cutEnv (put [[3]] 4 [5]) = some (⟨[42], [7], [[3]], [1, 5], 1, 4⟩, [7]) := by decide +kernel
      rw [this] at h
      cases h
      exact absurd hd (by decide)

end Willow.Props
