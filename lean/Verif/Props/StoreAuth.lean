import Verif.Lemmas.PropsStoreAuth
import Verif.Lemmas.History
import Verif.Props.Store

/-! Properties C46 (only authorised entries of the namespace are stored) and C49 (replicas that
ingest the same entries agree). -/

namespace Willow.Props

open Willow Spec

/-! ## C46 -/

/-- C46: an entry of another namespace, or not authorised by its token, is refused and nothing
changes (not even the lock is kept). Calls on a store whose lock is held wait (see C54). -/
theorem C46_rejected (env : StoreEnv) (st : StoreState) (e : Entry) (token : Bytes) (hl : st.locked = false)
    (h : env.nsEqual env.namespaceId e.namespaceId = false ∨ env.isAuthorised e token = false) :
    ingestEntry env st e token = .ok (none, st) := by
  unfold ingestEntry
  rw [hl]
  simp only [Bool.false_eq_true, if_false]
  by_cases hn : env.nsEqual env.namespaceId e.namespaceId = true
  · rcases h with h | h
    · rw [h] at hn; cases hn
    · rw [hn, h]; rfl
  · rw [Bool.eq_false_iff.2 hn]; rfl

example : ∃ (st : StoreState) (e : Entry), st.locked = false ∧ st.kv ≠ [] ∧ cutEnv.isAuthorised e [8] = false ∧
    cutEnv.isAuthorised e [7] = true :=
  ⟨{ StoreState.empty with kv := [([1], [2])] }, ⟨[42], [7], [[1]], [1, 4], 1, 6⟩, rfl, by decide, rfl, rfl⟩

/-- C46: after any calls (fine or not), everything in the database is the encoding of an entry
of the namespace that one of the calls brought with a token that authorises it. -/
theorem C46_authorised (env : StoreEnv) (ops : List StoreOp) (st : StoreState) (h : runOps env .empty ops = .ok st)
    (k v : Bytes) (hkv : st.kv.get k = some v) :
    ∃ op ∈ ops, ∃ e token, attempt env op = some (e, token) ∧
      env.nsEqual env.namespaceId e.namespaceId = true ∧ env.isAuthorised e token = true ∧
      k = encodeKey env.p ⟨e.subspaceId, e.path, e.timestamp⟩ ∧
      v = encodeValues ⟨e.payloadLength, e.payloadDigest, env.hash (env.tokenEncode token)⟩ := by
  rcases runOps_kv env ops _ _ h _ (KV.get_mem hkv) with h | ⟨op, ho, e, token, h1, h2, h3, h4⟩
  · cases h
  · cases h2
    exact ⟨op, ho, e, token, h1, h3, h4, rfl, rfl⟩

example : ∃ st k v, runOps cutEnv .empty exampleOps = .ok st ∧ st.kv.get k = some v :=
  ⟨_, encodeKey cutEnv.p ⟨[7], [[1]], 7⟩, encodeValues ⟨1, [1, 8], [1, 7]⟩, rfl, by decide +kernel⟩

/-! ## C49 -/

/-- C49, partial: two stores that ingest the same authorised fine entries in any order (any
number of times) agree, if entries at the same path, or one above the other, with the same
timestamp are the same entry; what they hold are the entries that no other entry outdates.
Missing: ties (see `C49_violated`), the empty path, and paths at a limit. -/
theorem C49_agree_partial (env : StoreEnv) (he : EnvOk env) (xs ys : List (Entry × Bytes)) (hset : ∀ x, x ∈ xs ↔ x ∈ ys)
    (hau : ∀ x ∈ xs, env.nsEqual env.namespaceId x.1.namespaceId = true ∧ env.isAuthorised x.1 x.2 = true)
    (hf : ∀ x ∈ xs, Comfortable env.p x.1.path ∧ x.1.payloadDigest.length < 2 ^ 64) (hnt : NoTies (itemsOf env xs)) :
    ∃ st1 st2, runOps env .empty (ingests xs) = .ok st1 ∧ runOps env .empty (ingests ys) = .ok st2 ∧
      st1.kv = st2.kv ∧ (st1.kd.map (·.pos)).Perm (st2.kd.map (·.pos)) ∧
      ∀ a : Item, Proper env.p a → (Holds env st1 a.pos a.val ↔ Current (itemsOf env xs) a) := by
  have hfine : ∀ zs : List (Entry × Bytes), (∀ z ∈ zs, z ∈ xs) → ∀ op ∈ ingests zs, FineOp env op := by
    intro zs hz op ho e token ha
    obtain ⟨x, hx, rfl⟩ := List.mem_map.1 ho
    cases ha
    exact hf x (hz x hx)
  have hmem : ∀ a, a ∈ itemsOf env xs ↔ a ∈ itemsOf env ys := by
    intro a
    simp only [itemsOf, List.mem_map, hset]
  obtain ⟨st1, h1, h2, _⟩ := run_ok he (ingests xs) (hfine xs fun z hz => hz)
  obtain ⟨st2, h3, h4, _⟩ := run_ok he (ingests ys) (hfine ys fun z hz => (hset z).2 hz)
  have hnil : ∀ x, x ∈ ([] : List Item) ↔ Current [] x := fun x => by simp [Current]
  have c1 := current_run env xs [] [] hau hnil hnt
  have c2 := current_run env ys [] [] (fun x hx => hau x ((hset x).2 hx)) hnil
    (fun x hx y hy => hnt x ((hmem x).2 hx) y ((hmem y).2 hy))
  simp only [List.nil_append] at c1 c2
  have hperm : (specRun env [] (ingests xs)).Perm (specRun env [] (ingests ys)) := by
    have nd : ∀ {l : List Item}, l.Pairwise Apart → l.Nodup := fun h => h.imp fun h e => h (by rw [e]; exact ⟨rfl, rfl⟩)
    refine (List.perm_ext_iff_of_nodup (nd h2.core.apart) (nd h4.core.apart)).2 fun x => ?_
    rw [c1, c2]
    unfold Current
    simp only [hmem]
  refine ⟨st1, st2, h1, h3, ?_, ?_, fun a ha => ?_⟩
  · exact KV.eq_of_perm_sorted (h2.core.kv_perm.trans ((hperm.map _).trans h4.core.kv_perm.symm)) h2.core.sorted h4.core.sorted
  · exact h2.core.kd_perm.trans ((hperm.map _).trans h4.core.kd_perm.symm)
  · rw [h2.holds he ha, c1]

/-- C49 is violated for every two different authorised fine entries of one subspace with the same timestamp
at one path, or one above the other: if the upper one comes first, it is all that is kept; if the
lower one comes first, it is kept, with the upper one if the paths differ. -/
theorem C49_violated (env : StoreEnv) (he : EnvOk env) (a b : Entry) (ta tb : Bytes)
    (ha : env.nsEqual env.namespaceId a.namespaceId = true ∧ env.isAuthorised a ta = true)
    (hb : env.nsEqual env.namespaceId b.namespaceId = true ∧ env.isAuthorised b tb = true)
    (hfa : Comfortable env.p a.path ∧ a.payloadDigest.length < 2 ^ 64)
    (hfb : Comfortable env.p b.path ∧ b.payloadDigest.length < 2 ^ 64)
    (hs : a.subspaceId = b.subspaceId) (hp : a.path <+: b.path) (ht : a.timestamp = b.timestamp)
    (hne : newItem env a ta ≠ newItem env b tb) :
    ∃ st1 st2, runOps env .empty [.ingest a ta, .ingest b tb] = .ok st1 ∧
      runOps env .empty [.ingest b tb, .ingest a ta] = .ok st2 ∧ st1.kv ≠ st2.kv ∧
      (Holds env st1 (newItem env a ta).pos (newItem env a ta).val ∧
        ¬ Holds env st1 (newItem env b tb).pos (newItem env b tb).val) ∧
      Holds env st2 (newItem env b tb).pos (newItem env b tb).val ∧
      (Holds env st2 (newItem env a ta).pos (newItem env a ta).val ↔ a.path ≠ b.path) := by
  have hf1 : ∀ op ∈ [StoreOp.ingest a ta, .ingest b tb], FineOp env op := by
    intro op ho e token hat
    simp only [List.mem_cons, List.not_mem_nil, or_false] at ho
    rcases ho with rfl | rfl <;> cases hat
    · exact hfa
    · exact hfb
  obtain ⟨st1, h1, c1, _⟩ := run_ok he _ hf1
  obtain ⟨st2, h2, c2, _⟩ := run_ok he [StoreOp.ingest b tb, .ingest a ta] (fun op ho => hf1 op (by
    simp only [List.mem_cons, List.not_mem_nil, or_false] at ho ⊢; exact ho.symm))
  have acc0 : ∀ pos, Accepts [] pos := fun pos x hx => by cases hx
  have e1 : specRun env [] [.ingest a ta, .ingest b tb] = [newItem env a ta] := by
    have hno : ¬ Acceptable env [newItem env a ta] b tb := by
      rintro ⟨_, _, h⟩
      have := h _ (List.mem_singleton.2 rfl) hs hp
      simp [newItem, ht] at this
    have h0 : specStep env [] (.ingest a ta) = [newItem env a ta] := if_pos ⟨ha.1, ha.2, acc0 _⟩
    rw [specRun, h0]
    exact if_neg hno
  have e2 : specRun env [] [.ingest b tb, .ingest a ta] =
      if a.path = b.path then [newItem env b tb] else [newItem env a ta, newItem env b tb] := by
    have h0 : specStep env [] (.ingest b tb) = [newItem env b tb] := if_pos ⟨hb.1, hb.2, acc0 _⟩
    rw [specRun, h0]
    by_cases hpe : a.path = b.path
    · have hno : ¬ Acceptable env [newItem env b tb] a ta := by
        rintro ⟨_, _, h⟩
        have := h _ (List.mem_singleton.2 rfl) hs.symm (by rw [hpe]; exact List.prefix_refl _)
        simp [newItem, ht] at this
      rw [if_pos hpe]
      exact if_neg hno
    · have hyes : Acceptable env [newItem env b tb] a ta := by
        refine ⟨ha.1, ha.2, fun x hx _ hpx => ?_⟩
        rw [List.mem_singleton.1 hx] at hpx
        exact absurd (hp.eq_of_length_le hpx.length_le) hpe
      have hkeep : ¬ Displaces (newItem env a ta).pos (newItem env b tb).pos := by
        rintro (⟨_, h⟩ | ⟨_, _, _, h⟩)
        · exact hpe h.symm
        · simp [newItem, ht] at h
      rw [if_neg hpe]
      refine (if_pos hyes).trans ?_
      simp [afterInsert, hkeep]
  rw [e1] at c1
  rw [e2] at c2
  have ma : newItem env a ta ∈ (if a.path = b.path then [newItem env b tb] else [newItem env a ta, newItem env b tb]) ↔
      a.path ≠ b.path := by
    by_cases hpe : a.path = b.path
    · rw [if_pos hpe, List.mem_singleton]
      exact ⟨fun h => absurd h hne, fun h => absurd hpe h⟩
    · rw [if_neg hpe]
      simp [hpe]
  have mb : newItem env b tb ∈ (if a.path = b.path then [newItem env b tb] else [newItem env a ta, newItem env b tb]) := by
    split <;> simp
  have pa := (c1.core.fine _ (List.mem_singleton.2 rfl)).proper
  have pb := (c2.core.fine _ mb).proper
  refine ⟨st1, st2, h1, h2, fun hkv => ?_, ⟨(c1.holds he pa).2 (List.mem_singleton.2 rfl), fun h => ?_⟩, (c2.holds he pb).2 mb,
    (c2.holds he pa).trans ma⟩
  · have h3 := c1.core.kv_perm.symm.trans (hkv ▸ c2.core.kv_perm)
    by_cases hpe : a.path = b.path
    · rw [if_pos hpe] at h3
      have h4 := List.perm_singleton.1 h3
      simp only [List.map_cons, List.map_nil, List.cons.injEq, and_true, Item.pair, Prod.mk.injEq] at h4
      have h5 := C24_roundtrip _ pa.digest pa.auth
      rw [h4.2, C24_roundtrip _ pb.digest pb.auth] at h5
      apply hne
      have h6 : (newItem env a ta).pos = (newItem env b tb).pos := by simp [newItem, hs, hpe, ht]
      cases h7 : newItem env a ta
      cases h8 : newItem env b tb
      rw [h7, h8] at h5 h6
      simp only [Res.ok.injEq] at h5 h6
      rw [h5, h6]
    · rw [if_neg hpe] at h3
      simpa using h3.length_eq
  · exact hne (List.mem_singleton.1 ((c1.holds he pb).1 h)).symm

example : ∃ a b c : Entry, EnvOk cutEnv ∧
    (∀ e ∈ [a, b, c], cutEnv.nsEqual cutEnv.namespaceId e.namespaceId = true ∧ cutEnv.isAuthorised e [7] = true ∧
      Comfortable cutEnv.p e.path ∧ e.payloadDigest.length < 2 ^ 64) ∧
    a.path = b.path ∧ a.path <+: c.path ∧ a.path ≠ c.path ∧ a.timestamp = b.timestamp ∧ a.timestamp = c.timestamp ∧
    newItem cutEnv a [7] ≠ newItem cutEnv b [7] ∧ newItem cutEnv a [7] ≠ newItem cutEnv c [7] := by
  have h1 : Comfortable cutEnv.p [[1]] :=
    cut_comfortable _ ⟨by decide, by decide, by decide⟩ (by decide) (by decide) (by decide)
  have h2 : Comfortable cutEnv.p [[1], [2]] :=
    cut_comfortable _ ⟨by decide, by decide, by decide⟩ (by decide) (by decide) (by decide)
  refine ⟨⟨[42], [7], [[1]], [1, 4], 1, 6⟩, ⟨[42], [7], [[1]], [1, 5], 1, 6⟩, ⟨[42], [7], [[1], [2]], [1, 5], 1, 6⟩, cutEnv_ok, ?_,
    rfl, ⟨[[2]], rfl⟩, by decide, rfl, rfl, by decide, by decide⟩
  simp only [List.forall_mem_cons, List.not_mem_nil, false_implies, implies_true, and_true]
  exact ⟨⟨rfl, rfl, h1, by decide⟩, ⟨rfl, rfl, h1, by decide⟩, ⟨rfl, rfl, h2, by decide⟩⟩

example : ∃ xs ys : List (Entry × Bytes), xs ≠ ys ∧ (∀ x, x ∈ xs ↔ x ∈ ys) ∧ xs.length = 2 ∧
    (∀ x ∈ xs, cutEnv.nsEqual cutEnv.namespaceId x.1.namespaceId = true ∧ cutEnv.isAuthorised x.1 x.2 = true) ∧
    (∀ x ∈ xs, Comfortable cutEnv.p x.1.path ∧ x.1.payloadDigest.length < 2 ^ 64) ∧ NoTies (itemsOf cutEnv xs) := by
  have h1 : Comfortable cutEnv.p [[1]] :=
    cut_comfortable _ ⟨by decide, by decide, by decide⟩ (by decide) (by decide) (by decide)
  have h2 : Comfortable cutEnv.p [[1], [2]] :=
    cut_comfortable _ ⟨by decide, by decide, by decide⟩ (by decide) (by decide) (by decide)
  refine ⟨[(⟨[42], [7], [[1]], [1, 4], 1, 6⟩, [7]), (⟨[42], [7], [[1], [2]], [1, 4], 1, 5⟩, [7])],
    [(⟨[42], [7], [[1], [2]], [1, 4], 1, 5⟩, [7]), (⟨[42], [7], [[1]], [1, 4], 1, 6⟩, [7])], by decide, ?_, rfl, by decide, ?_, ?_⟩
  · intro x
    simp only [List.mem_cons, List.not_mem_nil, or_false]
    exact Or.comm
  · simp only [List.forall_mem_cons, List.not_mem_nil, false_implies, implies_true, and_true]
    exact ⟨⟨h1, by decide⟩, ⟨h2, by decide⟩⟩
  · unfold NoTies
    decide

end Willow.Props
