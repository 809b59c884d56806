import Verif.Lemmas.PropsLimits
import Verif.Lemmas.PropsStore

/-! Properties of the store at the limits of the path arithmetic (C47). -/

namespace Willow.Props

open Willow Spec

/-- C47, partial: fine calls do what they should: they return, the store then holds exactly the items it
should hold, and a lookup finds each of them. Missing: calls that are not fine (see
`C47_violated_limits`, no weaker condition on single paths would do). -/
theorem C47_faithful_partial (env : StoreEnv) (he : EnvOk env) (ops : List StoreOp) (hf : ∀ op ∈ ops, FineOp env op) :
    Faithful env ops := by
  obtain ⟨st, h1, h2, _⟩ := run_ok he ops hf
  refine ⟨st, h1, fun a ha => h2.holds he ha, fun a ha => ?_⟩
  have hc := (h2.core.fine a ha).path
  rcases h2.core.entryGet (env := env) a.pos.subspace a.pos.path hc.valid (.inr hc) with ⟨_, h3⟩ | ⟨b, hb, h3, h4, h5⟩
  · exact absurd ⟨rfl, rfl⟩ (h3 a ha)
  · rw [h5, apart_unique h2.core.apart hb ha h3 h4]

example : EnvOk cutEnv ∧ (∀ op ∈ exampleOps, FineOp cutEnv op) ∧ specRun cutEnv [] exampleOps ≠ [] :=
  ⟨cutEnv_ok, example_fine, by decide +kernel⟩

/-- C47, the code disagrees: for every valid path that is not comfortable there are one or two calls of
`IngestEntry`, of authorised entries at this path or at this path followed by an empty component, that do
not do what they should (a call panics, or the store holds an item it should not hold or lacks one, or a
lookup does not find one). -/
theorem C47_violated_limits (env : StoreEnv) (he : EnvOk env) (hw : NoWrap env.p) (hcl : 0 < env.p.cl)
    (hns : env.nsEqual env.namespaceId env.namespaceId = true) (s token : Bytes)
    (hauth : ∀ e : Entry, e.subspaceId = s → env.isAuthorised e token = true)
    (path : Path) (hv : ValidPath env.p path) (hn : ¬ Comfortable env.p path) :
    ∃ es : List Entry, (∀ e ∈ es, e.namespaceId = env.namespaceId ∧ e.subspaceId = s ∧ ValidPath env.p e.path ∧
        (e.path = path ∨ e.path = path ++ [[]])) ∧ es.length ≤ 2 ∧
      ¬ Faithful env (es.map fun e => .ingest e token) := by
  have hone : ∀ q t, ValidPath env.p q → (q = path ∨ q = path ++ [[]]) →
      ¬ Faithful env [.ingest (plainEntry env s q t) token] →
      ∃ es : List Entry, (∀ e ∈ es, e.namespaceId = env.namespaceId ∧ e.subspaceId = s ∧ ValidPath env.p e.path ∧
        (e.path = path ∨ e.path = path ++ [[]])) ∧ es.length ≤ 2 ∧
      ¬ Faithful env (es.map fun e => .ingest e token) := by
    intro q t hq hqp h
    refine ⟨[plainEntry env s q t], ?_, by simp, h⟩
    intro e he
    rw [List.mem_singleton] at he
    subst he
    exact ⟨rfl, rfl, hq, hqp⟩
  -- no room in the total length
  have hnoroom : ∀ q, ValidPath env.p q → (∃ pre c, q = pre ++ [c] ∧ c.length < env.p.cl ∧ pathBytes q = env.p.pl) →
      ¬ Faithful env [.ingest (plainEntry env s q 1) token] := by
    rintro q hq ⟨pre, c, hp, hc, ht⟩
    have hne : q ≠ [] := by rw [hp]; simp
    by_cases hl : q.length < env.p.cc
    · obtain ⟨r, hr, _⟩ := pointRange_short hq hl s
      obtain ⟨refs, h1, _⟩ := first_ingest (t := 1) hns hauth hq hne hr
      refine h1 ?_
      unfold belowRange
      rw [successorPath_short hq hl]
      rw [hp] at ht
      rw [hp, successorPrefix_noroom hw hc ht]
      rfl
    · have hcc : q.length = env.p.cc := by have := hq.count; omega
      refine first_lookup_crashes hns hauth hq hne ?_
      unfold pointRange
      rw [hp] at ht hcc
      rw [hp, successorPath_noroom hw hc ht hcc]
      rfl
  by_cases hne : path = []
  · exact hone [] 1 (hne ▸ hv) (.inl hne.symm) (ingest_root hns hauth)
  rcases pathKind hv with hk | hk | ⟨pre, c, hp, hc, ht⟩ | ⟨pre, post, x, b, k, hp, hb, hlen, hpost⟩
  · exact absurd hk hn
  · have hmut := successorPrefixMutated_largest hk
    by_cases hl : path.length < env.p.cc
    · have hlow := valid_snoc_nil hv hl
      have hpb : pathBytes (path ++ [[]]) = pathBytes path := by rw [pathBytes_append]; simp [pathBytes]
      by_cases ht : pathBytes path < env.p.pl
      · have hcf : Comfortable env.p (path ++ [[]]) := ⟨hlow, path, [], [], rfl, hcl, by rw [hpb]; exact ht, by simp⟩
        refine ⟨[plainEntry env s (path ++ [[]]) 1, plainEntry env s path 2], ?_, by simp, ?_⟩
        · intro e he
          simp only [List.mem_cons, List.not_mem_nil, or_false] at he
          rcases he with rfl | rfl
          · exact ⟨rfl, rfl, hlow, .inr rfl⟩
          · exact ⟨rfl, rfl, hv, .inl rfl⟩
        · obtain ⟨st, h1, h2, h3⟩ := run_ok he [.ingest (plainEntry env s (path ++ [[]]) 1) token] (by
            intro op hop e tk ha
            rw [List.mem_singleton] at hop
            subst hop
            cases ha
            exact ⟨hcf, by simp [plainEntry]⟩)
          have hspec : specRun env [] [.ingest (plainEntry env s (path ++ [[]]) 1) token] =
              [newItem env (plainEntry env s (path ++ [[]]) 1) token] := by
            rw [specRun_plain hns hauth [] (by intro a ha; simp at ha)]
            simp [afterInsert]
          rw [hspec] at h2
          have hkd : ∀ k ∈ st.kd, k.pos = ⟨s, path ++ [[]], 1⟩ := by
            intro k hk
            obtain ⟨a, ha, hak⟩ := h2.core.mem_kd hk
            rw [List.mem_singleton] at ha
            rw [← hak, ha]
            rfl
          obtain ⟨ks, hp1, hp2⟩ := driverPrefixesOf_ok env.lib env.p st.kd s path hv hne
          have hks : ks = [] := by
            rw [List.eq_nil_iff_forall_not_mem]
            intro k hk
            have := hp2.mem_iff.1 hk
            simp only [List.mem_filter, decide_eq_true_eq] at this
            rw [hkd k this.1] at this
            have := this.2.2.1.length_le
            simp at this
            omega
          rw [hks] at hp1
          have hg : entryGet env { st with locked := true } s path = .ok .missing := by
            rcases Core.entryGet (st := { st with locked := true }) h2.core s path hv (.inl hl) with ⟨h, _⟩ | ⟨a, ha, _, h, _⟩
            · exact h
            · rw [List.mem_singleton] at ha
              subst ha
              simp [newItem, plainEntry] at h
          obtain ⟨n, refs, hr, _⟩ := h2.refs.increment ⟨⟨s, path, 2⟩, ⟨0, [], []⟩⟩
          have hin := (ingest_prunes hns hauth h3 hp1 (by simp) hg (t := 2) (by
            intro k hk
            rw [hkd k hk]
            simp) hr).2 (by
              unfold prefixedBy belowRange
              rw [successorPath_short hv hl, successorPrefix_largest hk]
              simp only [Res.ok_bind, Option.getD_none]
              rw [query_nil]
              intro k _ h
              rcases h.2.1.2 with h6 | h6
              · simp at h6
              · exact lexLt_nil _ h6)
          rintro ⟨st', g1, g2, _⟩
          simp only [List.map_cons, List.map_nil] at g1 g2
          rw [show ∀ (a b : StoreOp), [a, b] = [a] ++ [b] from fun _ _ => rfl, runOps_append, h1] at g1
          simp only [Res.ok_bind, runOps_one, hin] at g1
          cases g1
          have hpr : Proper env.p (newItem env (plainEntry env s (path ++ [[]]) 1) token) :=
            ⟨hlow, by simp [newItem, plainEntry], he.hash _⟩
          have h4 := (h2.holds he hpr).2 (by simp)
          have h5 := (g2 _ hpr).1 ⟨by
            unfold inserted
            rw [KV.get_set, if_neg]
            · exact h4.1
            · intro h
              have := C23_injective_partial env.p _ _ (shortPath_of_limits he.cc he.cl hlow) (shortPath_of_limits he.cc he.cl hv) h
              simp [newItem, plainEntry] at this, by
            obtain ⟨k, hk, hkp⟩ := h4.2
            refine ⟨k, ?_, hkp⟩
            unfold inserted
            simp only [corruptKey_id hmut]
            exact List.mem_append_left _ hk⟩
          rw [show specRun env [] [.ingest (plainEntry env s (path ++ [[]]) 1) token, .ingest (plainEntry env s path 2) token] =
            specRun env (specRun env [] [.ingest (plainEntry env s (path ++ [[]]) 1) token]) [.ingest (plainEntry env s path 2) token]
            from rfl, hspec, specRun_plain hns hauth] at h5
          · unfold afterInsert at h5
            rw [List.mem_cons, List.mem_filter] at h5
            rcases h5 with h5 | h5
            · simp [newItem, plainEntry] at h5
            · have h6 := h5.2
              simp only [decide_eq_true_eq] at h6
              exact h6 (.inr ⟨rfl, by simp [newItem, plainEntry], by simp [newItem, plainEntry], by simp [newItem, plainEntry]⟩)
          · intro a ha _ hpre
            rw [List.mem_singleton] at ha
            subst ha
            have := hpre.length_le
            simp [newItem, plainEntry] at this
            omega
      · exact hone _ 1 hlow (.inr rfl) (hnoroom _ hlow ⟨path, [], rfl, hcl, by have := hv.total; omega⟩)
    · have hcc : path.length = env.p.cc := by have := hv.count; omega
      refine hone path 1 hv (.inl rfl) ?_
      rintro ⟨st, h1, _, h3⟩
      have hpr : pointRange env.p s path = .ok ⟨⟨s, successorSubspaceId s, false⟩, ⟨path, [], false⟩, ⟨0, 2, true⟩⟩ := by
        unfold pointRange
        rw [successorPath_largest hne hcc hk]
        rfl
      have h4 := h3 (newItem env (plainEntry env s path 1) token) (by
        rw [specRun_plain hns hauth [] (by intro a ha; simp at ha)]
        simp [afterInsert])
      unfold entryGet storageGet at h4
      rw [show (newItem env (plainEntry env s path 1) token).pos = ⟨s, path, 1⟩ from rfl, hpr] at h4
      simp only [Res.ok_bind] at h4
      rw [query_nil] at h4
      · simp only [Res.ok_bind] at h4
        cases h4
      · intro k _ h
        rcases h.2.1.2 with h6 | h6
        · simp at h6
        · exact lexLt_nil _ h6
  · exact hone path 1 hv (.inl rfl) (hnoroom path hv ⟨pre, c, hp, hc, ht⟩)
  · refine hone path 1 hv (.inl rfl) ?_
    have hmut : successorPrefixMutated path env.p = pre ++ (x ++ (b + 1) :: List.replicate k 255) :: post := by
      rw [hp]; exact successorPrefixMutated_full hb hlen hpost
    by_cases hl : path.length < env.p.cc
    · obtain ⟨r, hr, _⟩ := pointRange_short hv hl s
      obtain ⟨refs, _, h2⟩ := first_ingest (t := 1) hns hauth hv hne hr
      have hsp : successorPrefix path env.p = .ok (some (pre ++ [x ++ [b + 1]])) := by
        rw [hp]; exact successorPrefix_full hb hlen hpost (hp ▸ hv)
      have hbr : ∃ r, belowRange env.p s path = .ok r ∧ r.path.start = successorPrefixMutated path env.p ++ [[]] := by
        refine ⟨_, by unfold belowRange; rw [successorPath_short hv hl, hsp]; rfl, ?_⟩
        simp
      obtain ⟨r', hr', hst⟩ := hbr
      have hrun := h2 r' hr' (by
        rintro ⟨_, ⟨h, _⟩, _⟩
        apply h
        rw [hst]
        exact lexLt_append _ (by simp))
      rintro ⟨st, g1, g2, _⟩
      rw [hrun] at g1
      cases g1
      have hpr : Proper env.p (newItem env (plainEntry env s path 1) token) := ⟨hv, by simp [newItem, plainEntry], he.hash _⟩
      obtain ⟨_, k', hk', hkp⟩ := (g2 _ hpr).2 (by
        rw [specRun_plain hns hauth [] (by intro a ha; simp at ha)]
        simp [afterInsert])
      simp only [inserted, StoreState.empty, List.nil_append, corruptKey, List.map_cons, List.map_nil, if_true,
        List.mem_singleton] at hk'
      subst hk'
      have : successorPrefixMutated path env.p = path := congrArg Position.path hkp
      rw [hmut] at this
      conv at this => rhs; rw [hp]
      simp at this
    · have hcc : path.length = env.p.cc := by have := hv.count; omega
      refine first_lookup_crashes hns hauth hv hne ?_
      unfold pointRange
      rw [hp] at hcc
      rw [hp, successorPath_full hb hlen hpost hw hcc]
      rfl

example : EnvOk cutEnv ∧ NoWrap cutEnv.p ∧ 0 < cutEnv.p.cl ∧ cutEnv.nsEqual cutEnv.namespaceId cutEnv.namespaceId = true ∧
    (∀ e : Entry, e.subspaceId = [7] → cutEnv.isAuthorised e [7] = true) ∧
    ValidPath cutEnv.p [[1, 2, 3, 4]] ∧ ¬ Comfortable cutEnv.p [[1, 2, 3, 4]] ∧
    runOps cutEnv .empty [.ingest (plainEntry cutEnv [7] [[1, 2, 3, 4]] 1) [7]] ≠ .crash ∧
    ¬ Faithful cutEnv [.ingest (plainEntry cutEnv [7] [[1, 2, 3, 4]] 1) [7]] := by
  refine ⟨cutEnv_ok, ⟨by decide, by decide⟩, by decide, by decide, fun _ h => decide_eq_true h, ⟨by decide, by decide, by decide⟩, ?_,
    by decide +kernel, ?_⟩
  · rintro ⟨_, pre, c, post, h, hc, _⟩
    cases pre with
    | nil => cases h; revert hc; decide
    | cons a pre => simp at h
  · rintro ⟨st, h1, _, h3⟩
    cases h1
    have := h3 ⟨⟨[7], [[1, 2, 3, 4]], 1⟩, ⟨0, [], [1, 7]⟩⟩ (by decide +kernel)
    revert this
    decide +kernel

end Willow.Props
