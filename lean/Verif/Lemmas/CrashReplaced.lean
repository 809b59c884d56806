import Verif.Lemmas.CrashAlways

/-! A call that replaces an entry, cut off right after the new entry was written. -/

namespace Willow

open Spec Props

/-- An accepted entry that replaces another is written once that one is gone. -/
theorem ingestWrites_replaced {env : StoreEnv} (he : EnvOk env) {st : StoreState} {A : List Item} {leak : Bytes → Nat} (h : Abs env st A leak)
    (hl : st.locked = false) (e : Entry) (token : Bytes) (hc : Comfortable env.p e.path) (hacc : Acceptable env A e token)
    (o : Item) (A0 : List Item) (hA0 : A.Perm (o :: A0)) (hos : o.pos.subspace = e.subspaceId) (hop : o.pos.path = e.path) :
    ∃ ws rest kd, ingestWrites env st e token = ws ++
        .entrySet (encodeKey env.p e.position) (encodeValues (newItem env e token).val) :: rest ∧
      Core env.p (applyWrites st ws).kv kd A0 := by
  have ho : o ∈ A := hA0.mem_iff.2 List.mem_cons_self
  obtain ⟨hns, hauth, hacc⟩ := hacc
  have hnacc := mt not_accepts.2 (Classical.not_not.2 hacc)
  rw [not_or] at hnacc
  unfold ingestWrites
  rw [if_neg (by simp [hl])]
  dsimp only
  rw [if_neg (by simp [hns]), if_neg (by simp [hauth])]
  obtain ⟨ks, hk1, hk2⟩ := h.core.olderPrefix (s := e.subspaceId) hc e.timestamp
  rw [hk1]
  dsimp only
  rw [if_neg (fun hc' => hnacc.1 (hk2.1 hc'))]
  have hheld : Abs env ({ st with locked := true } : StoreState) A leak := h.ofSame rfl rfl rfl
  rcases hheld.core.entryGet e.subspaceId e.path hc.valid (.inr hc) with ⟨_, h6⟩ | ⟨b, hb, hbs, hbp, h5⟩
  · exact absurd ⟨hos, hop⟩ (h6 o ho)
  · have hbo : b = o := apart_unique h.core.apart hb ho (hbs.trans hos.symm) (hbp.trans hop.symm)
    subst hbo
    rw [h5]
    dsimp only
    have hopath : (b.entry env.namespaceId).path = e.path := hop
    have hotime : ¬ (b.entry env.namespaceId).timestamp ≥ e.timestamp := fun hc' => hnacc.2 ⟨b, ho, hos, hop, hc'⟩
    rw [if_pos ((decides_path.eq_iff _ _).2 hopath), if_neg hotime]
    obtain ⟨st1, r1, r2, _⟩ := replaceOther_ok he (⟨hheld.core.perm hA0, hheld.refs.perm hA0⟩ : Abs env _ (b :: A0) leak) e
    have hall := replaceWrites_all env _ st1 _ _ e _ r1
    rw [r1]
    dsimp only
    refine ⟨replaceWrites env { st with locked := true } (b.entry env.namespaceId) b.val.authDigest e ++
      payloadWrites env (env.tokenEncode token), ?_, st1.kd, ?_, ?_⟩
    rotate_left
    · unfold insertWrites
      rw [List.append_assoc]
      rfl
    · rw [applyWrites_append, applyWrites_payload]
      have hsame : SameDisk st { st with locked := true } := ⟨rfl, rfl, rfl, rfl⟩
      have := ((hsame.writes _).trans hall).kv
      show Core env.p (applyWrites st _).kv st1.kd A0
      rw [this]
      exact r2.core

/-- Cut off right after the entry was written in place of another, the store holds it and all others but that one. -/
theorem crash_replaced {env : StoreEnv} (he : EnvOk env) {A : List Item} {leak : Bytes → Nat} {st : StoreState}
    (h : Abs env st A leak) (hl : st.locked = false) (op : StoreOp) (hf : FineOp env op) (e : Entry) (token : Bytes)
    (hat : attempt env op = some (e, token)) (hacc : Acceptable env A e token)
    (o : Item) (A0 : List Item) (hA0 : A.Perm (o :: A0)) (hos : o.pos.subspace = e.subspaceId) (hop : o.pos.path = e.path) :
    ∃ n st', crashAfter env st op n = .ok st' ∧ Core env.p st'.kv st'.kd (newItem env e token :: A0) := by
  obtain ⟨hc, hd⟩ := hf e token hat
  have hfine : Fine env.p (newItem env e token) := ⟨hc, hd, he.hash _⟩
  have hap : ∀ x ∈ A0, ¬ ((newItem env e token).pos.subspace = x.pos.subspace ∧ (newItem env e token).pos.path = x.pos.path) := by
    intro x hx hxe
    have := List.pairwise_cons.1 (h.core.perm hA0).apart
    exact this.1 x hx ⟨hos.trans hxe.1, hop.trans hxe.2⟩
  have key : ∀ (st1 : StoreState) (kd : List KdKey), Core env.p st1.kv kd A0 →
      ∃ st', restart env (fun kv => kv) (applyWrite st1 (.entrySet (encodeKey env.p e.position) (encodeValues (newItem env e token).val))) = .ok st' ∧
      Core env.p st'.kv st'.kd (newItem env e token :: A0) := by
    intro st1 kd hcore
    have hcore := hcore.insert he (newItem env e token) [] hfine hap
    have : Core env.p (applyWrite st1 (.entrySet (encodeKey env.p e.position) (encodeValues (newItem env e token).val))).kv
        (kd ++ [⟨(newItem env e token).pos, []⟩]) (newItem env e token :: A0) := hcore
    obtain ⟨st', r1, r2, _⟩ := restart_core he this
    exact ⟨st', r1, r2⟩
  cases op with
  | restart => cases hat
  | ingest e' token' =>
    cases hat
    obtain ⟨ws, rest, kd, hw, hk⟩ := ingestWrites_replaced he h hl e token hc hacc o A0 hA0 hos hop
    obtain ⟨st', k1, k2⟩ := key _ kd hk
    refine ⟨ws.length + 1, st', ?_, k2⟩
    unfold crashAfter
    rw [show opWrites env st (.ingest e token) = _ from hw, take_through, applyWrites_append]
    exact k1
  | set now input au =>
    have hset : attempt env (.set now input au) = (env.authorise (setEntry env now input) au).map fun token => (setEntry env now input, token) := rfl
    rw [hset] at hat
    cases hau : env.authorise (setEntry env now input) au with
    | none => rw [hau] at hat; cases hat
    | some token' =>
      rw [hau] at hat
      cases hat
      obtain ⟨rest, hw⟩ := opWrites_set st now input au token hau
      have h' : Abs env { st with files := (payloadSet env st.files input.payload).1 } A leak := h.ofSame rfl rfl rfl
      obtain ⟨ws, rest', kd, hw', hk⟩ := ingestWrites_replaced he h' hl _ token hc hacc o A0 hA0 hos hop
      obtain ⟨st', k1, k2⟩ := key _ kd hk
      refine ⟨(payloadWrites env input.payload ++ ws).length + 1, st', ?_, k2⟩
      unfold crashAfter
      rw [hw, hw', List.append_assoc, List.cons_append, ← List.append_assoc, take_through, applyWrites_append, applyWrites_append,
        applyWrites_payload]
      exact k1

end Willow
