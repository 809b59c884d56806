import Verif.Lemmas.PropsCrash

/-! Where exactly a call must be cut off to do harm. -/

namespace Willow

open Spec Props

/-- An accepted entry that replaces another first removes that one. -/
theorem ingestWrites_replacing {env : StoreEnv} {st : StoreState} {A : List Item} (h : Core env.p st.kv st.kd A)
    (hl : st.locked = false) (e : Entry) (token : Bytes) (hc : Comfortable env.p e.path) (hacc : Acceptable env A e token)
    (o : Item) (ho : o ∈ A) (hos : o.pos.subspace = e.subspaceId) (hop : o.pos.path = e.path) :
    ∃ rest, ingestWrites env st e token = .entryDelete (encodeKey env.p o.pos) :: rest := by
  obtain ⟨hns, hauth, hacc⟩ := hacc
  have hnacc := mt not_accepts.2 (Classical.not_not.2 hacc)
  rw [not_or] at hnacc
  unfold ingestWrites
  rw [if_neg (by simp [hl])]
  dsimp only
  rw [if_neg (by simp [hns]), if_neg (by simp [hauth])]
  obtain ⟨ks, hk1, hk2⟩ := h.olderPrefix (s := e.subspaceId) hc e.timestamp
  rw [hk1]
  dsimp only
  rw [if_neg (fun hc' => hnacc.1 (hk2.1 hc'))]
  have hh : Core env.p ({ st with locked := true } : StoreState).kv ({ st with locked := true } : StoreState).kd A := h
  rcases hh.entryGet e.subspaceId e.path hc.valid (.inr hc) with ⟨_, h6⟩ | ⟨b, hb, hbs, hbp, h5⟩
  · exact absurd ⟨hos, hop⟩ (h6 o ho)
  · have hbo : b = o := apart_unique h.apart hb ho (hbs.trans hos.symm) (hbp.trans hop.symm)
    subst hbo
    rw [h5]
    dsimp only
    have hopath : (b.entry env.namespaceId).path = e.path := hop
    have hotime : ¬ (b.entry env.namespaceId).timestamp ≥ e.timestamp := fun hc' => hnacc.2 ⟨b, ho, hos, hop, hc'⟩
    rw [if_pos ((decides_path.eq_iff _ _).2 hopath), if_neg hotime]
    unfold replaceWrites
    exact ⟨_, rfl⟩

/-- An accepted entry at a new path: its token is written, then the entry itself. -/
theorem ingestWrites_fresh {env : StoreEnv} {st : StoreState} {A : List Item} (h : Core env.p st.kv st.kd A)
    (hl : st.locked = false) (e : Entry) (token : Bytes) (hc : Comfortable env.p e.path) (hacc : Acceptable env A e token)
    (hnew : ∀ o ∈ A, ¬ (o.pos.subspace = e.subspaceId ∧ o.pos.path = e.path)) :
    ∃ rest, ingestWrites env st e token = payloadWrites env (env.tokenEncode token) ++
      .entrySet (encodeKey env.p e.position) (encodeValues (newItem env e token).val) :: rest := by
  obtain ⟨hns, hauth, hacc⟩ := hacc
  have hnacc := mt not_accepts.2 (Classical.not_not.2 hacc)
  rw [not_or] at hnacc
  unfold ingestWrites
  rw [if_neg (by simp [hl])]
  dsimp only
  rw [if_neg (by simp [hns]), if_neg (by simp [hauth])]
  obtain ⟨ks, hk1, hk2⟩ := h.olderPrefix (s := e.subspaceId) hc e.timestamp
  rw [hk1]
  dsimp only
  rw [if_neg (fun hc' => hnacc.1 (hk2.1 hc'))]
  have hh : Core env.p ({ st with locked := true } : StoreState).kv ({ st with locked := true } : StoreState).kd A := h
  rcases hh.entryGet e.subspaceId e.path hc.valid (.inr hc) with ⟨h5, _⟩ | ⟨b, hb, hbs, hbp, _⟩
  · rw [h5]
    dsimp only
    unfold insertWrites
    exact ⟨_, rfl⟩
  · exact absurd ⟨hbs, hbp⟩ (hnew b hb)

theorem take_through (xs : List α) (y : α) (zs : List α) : (xs ++ y :: zs).take (xs.length + 1) = xs ++ [y] := by
  rw [List.take_append, List.take_of_length_le (by omega)]
  simp

/-- The file of the payload is emptied first. -/
theorem opWrites_set {env : StoreEnv} (st : StoreState) (now : UInt64) (input : EntryInput) (au token : Bytes)
    (hau : env.authorise (setEntry env now input) au = some token) :
    ∃ rest, opWrites env st (.set now input au) = payloadWrites env input.payload ++
      (ingestWrites env { st with files := (payloadSet env st.files input.payload).1 } (setEntry env now input) token ++ rest) := by
  unfold opWrites setWrites
  dsimp only
  rw [hau]
  exact ⟨_, rfl⟩

/-- Cut off right after the entry to be replaced was removed, the store holds the others only. -/
theorem crash_replacing {env : StoreEnv} (he : EnvOk env) {A : List Item} {leak : Bytes → Nat} {st : StoreState}
    (h : Abs env st A leak) (hl : st.locked = false) (op : StoreOp) (hf : FineOp env op) (e : Entry) (token : Bytes)
    (hat : attempt env op = some (e, token)) (hacc : Acceptable env A e token)
    (o : Item) (ho : o ∈ A) (hos : o.pos.subspace = e.subspaceId) (hop : o.pos.path = e.path) :
    ∃ n st' A0, crashAfter env st op n = .ok st' ∧ A.Perm (o :: A0) ∧ st'.locked = false ∧
      Core env.p st'.kv st'.kd A0 := by
  obtain ⟨hc, _⟩ := hf e token hat
  obtain ⟨A0, hA0⟩ : ∃ A0, A.Perm (o :: A0) := ⟨A.erase o, List.perm_cons_erase ho⟩
  have key : ∀ (st1 : StoreState), st1.kv = st.kv → ∃ st', restart env (fun kv => kv) (applyWrite st1 (.entryDelete (encodeKey env.p o.pos))) = .ok st' ∧
      st'.locked = false ∧ Core env.p st'.kv st'.kd A0 := by
    intro st1 hkv
    have hcore := Core.delete he (h.core.perm hA0)
    have : Core env.p (applyWrite st1 (.entryDelete (encodeKey env.p o.pos))).kv (kdDelete st.kd o.pos) A0 := by
      show Core env.p (st1.kv.delete _) _ A0
      rw [hkv]
      exact hcore
    obtain ⟨st', r1, r2, r3, _⟩ := restart_core he this
    exact ⟨st', r1, r3, r2⟩
  cases op with
  | restart => cases hat
  | ingest e' token' =>
    cases hat
    obtain ⟨rest, hw⟩ := ingestWrites_replacing h.core hl e token hc hacc o ho hos hop
    obtain ⟨st', k1, k2, k3⟩ := key st rfl
    refine ⟨1, st', A0, ?_, hA0, k2, k3⟩
    unfold crashAfter
    rw [show opWrites env st (.ingest e token) = _ from hw]
    exact k1
  | set now input au =>
    have hset : attempt env (.set now input au) = (env.authorise (setEntry env now input) au).map fun token => (setEntry env now input, token) := rfl
    rw [hset] at hat
    cases hau : env.authorise (setEntry env now input) au with
    | none => rw [hau] at hat; cases hat
    | some token' =>
      rw [hau] at hat
      cases hat
      obtain ⟨rest, hw⟩ := opWrites_set st now input au token hau
      obtain ⟨rest', hw'⟩ := ingestWrites_replacing (st := { st with files := (payloadSet env st.files input.payload).1 }) h.core hl
        _ token hc hacc o ho hos hop
      obtain ⟨st', k1, k2, k3⟩ := key { st with files := (payloadSet env st.files input.payload).1 } rfl
      refine ⟨(payloadWrites env input.payload).length + 1, st', A0, ?_, hA0, k2, k3⟩
      unfold crashAfter
      rw [hw, hw', List.cons_append, take_through, applyWrites_append, applyWrites_payload]
      exact k1

/-- Cut off right after the entry was written, at a new path, the store holds it, but its payload is not
counted. -/
theorem crash_uncounted {env : StoreEnv} (he : EnvOk env) {A : List Item} {leak : Bytes → Nat} {st : StoreState}
    (h : Abs env st A leak) (hl : st.locked = false) (op : StoreOp) (hf : FineOp env op) (e : Entry) (token : Bytes)
    (hat : attempt env op = some (e, token)) (hacc : Acceptable env A e token)
    (hnew : ∀ o ∈ A, ¬ (o.pos.subspace = e.subspaceId ∧ o.pos.path = e.path)) :
    ∃ n st', crashAfter env st op n = .ok st' ∧ st'.locked = false ∧ st'.refs = st.refs ∧
      Core env.p st'.kv st'.kd (newItem env e token :: A) := by
  obtain ⟨hc, hd⟩ := hf e token hat
  have hfine : Fine env.p (newItem env e token) := ⟨hc, hd, he.hash _⟩
  have key : ∀ (st1 : StoreState), st1.kv = st.kv → st1.refs = st.refs →
      ∃ st', restart env (fun kv => kv) (applyWrite st1 (.entrySet (encodeKey env.p e.position) (encodeValues (newItem env e token).val))) = .ok st' ∧
      st'.locked = false ∧ st'.refs = st.refs ∧ Core env.p st'.kv st'.kd (newItem env e token :: A) := by
    intro st1 hkv hrefs
    have hcore := h.core.insert he (newItem env e token) [] hfine (fun x hx hxe => hnew x hx ⟨hxe.1.symm, hxe.2.symm⟩)
    have : Core env.p (applyWrite st1 (.entrySet (encodeKey env.p e.position) (encodeValues (newItem env e token).val))).kv
        (st.kd ++ [⟨(newItem env e token).pos, []⟩]) (newItem env e token :: A) := by
      show Core env.p (st1.kv.set _ _) _ _
      rw [hkv]
      exact hcore
    obtain ⟨st', r1, r2, r3, r4, _⟩ := restart_core he this
    exact ⟨st', r1, r3, r4.trans hrefs, r2⟩
  cases op with
  | restart => cases hat
  | ingest e' token' =>
    cases hat
    obtain ⟨rest, hw⟩ := ingestWrites_fresh h.core hl e token hc hacc hnew
    obtain ⟨st', k1, k2, k3, k4⟩ := key { st with files := (payloadSet env st.files (env.tokenEncode token)).1 } rfl rfl
    refine ⟨(payloadWrites env (env.tokenEncode token)).length + 1, st', ?_, k2, k3, k4⟩
    unfold crashAfter
    rw [show opWrites env st (.ingest e token) = _ from hw, take_through, applyWrites_append, applyWrites_payload]
    exact k1
  | set now input au =>
    have hset : attempt env (.set now input au) = (env.authorise (setEntry env now input) au).map fun token => (setEntry env now input, token) := rfl
    rw [hset] at hat
    cases hau : env.authorise (setEntry env now input) au with
    | none => rw [hau] at hat; cases hat
    | some token' =>
      rw [hau] at hat
      cases hat
      obtain ⟨rest, hw⟩ := opWrites_set st now input au token hau
      obtain ⟨rest', hw'⟩ := ingestWrites_fresh (st := { st with files := (payloadSet env st.files input.payload).1 }) h.core hl
        _ token hc hacc hnew
      obtain ⟨st', k1, k2, k3, k4⟩ := key { st with files := (payloadSet env (payloadSet env st.files input.payload).1
        (env.tokenEncode token)).1 } rfl rfl
      refine ⟨(payloadWrites env input.payload ++ payloadWrites env (env.tokenEncode token)).length + 1, st', ?_, k2, k3, k4⟩
      unfold crashAfter
      rw [hw, hw', List.append_assoc, List.cons_append, ← List.append_assoc, take_through, applyWrites_append, applyWrites_append,
        applyWrites_payload, applyWrites_payload]
      exact k1

/-- An entry whose payload is not counted cannot be replaced. -/
theorem ingest_uncounted {env : StoreEnv} (he : EnvOk env) {A : List Item} {st : StoreState} {o : Item}
    (h : Core env.p st.kv st.kd (o :: A)) (hl : st.locked = false) (hrefs : st.refs.get o.val.payloadDigest = none)
    (e : Entry) (token : Bytes) (hc : Comfortable env.p e.path) (hacc : Acceptable env (o :: A) e token)
    (hos : o.pos.subspace = e.subspaceId) (hop : o.pos.path = e.path) (hd : o.val.payloadDigest ≠ e.payloadDigest) :
    ∃ st', ingestEntry env st e token = .ok (none, st') ∧ st'.locked = true ∧ Core env.p st'.kv st'.kd A := by
  obtain ⟨hns, hauth, hacc⟩ := hacc
  have hnacc := mt not_accepts.2 (Classical.not_not.2 hacc)
  rw [not_or] at hnacc
  unfold ingestEntry
  rw [if_neg (by simp [hl])]
  dsimp only
  rw [if_neg (by simp [hns]), if_neg (by simp [hauth])]
  obtain ⟨ks, hk1, hk2⟩ := h.olderPrefix (s := e.subspaceId) hc e.timestamp
  rw [hk1]
  dsimp only
  rw [if_neg (fun hc' => hnacc.1 (hk2.1 hc'))]
  have hh : Core env.p ({ st with locked := true } : StoreState).kv ({ st with locked := true } : StoreState).kd (o :: A) := h
  rcases hh.entryGet e.subspaceId e.path hc.valid (.inr hc) with ⟨_, h6⟩ | ⟨b, hb, hbs, hbp, h5⟩
  · exact absurd ⟨hos, hop⟩ (h6 o List.mem_cons_self)
  · have hbo : b = o := apart_unique h.apart hb List.mem_cons_self (hbs.trans hos.symm) (hbp.trans hop.symm)
    subst hbo
    rw [h5]
    dsimp only
    have hopath : (b.entry env.namespaceId).path = e.path := hop
    have hotime : ¬ (b.entry env.namespaceId).timestamp ≥ e.timestamp := fun hc' => hnacc.2 ⟨b, List.mem_cons_self, hos, hop, hc'⟩
    rw [if_pos ((decides_path.eq_iff _ _).2 hopath), if_neg hotime]
    have hdel : entryDelete env { st with locked := true } (b.entry env.namespaceId) =
      { st with locked := true, kv := st.kv.delete (encodeKey env.p b.pos), kd := kdDelete st.kd b.pos } := rfl
    have hdig : (b.entry env.namespaceId).payloadDigest = b.val.payloadDigest := rfl
    unfold replaceOther
    rw [hdel, hdig]
    dsimp only
    rw [if_pos hd]
    unfold refDecrement
    rw [hrefs]
    exact ⟨_, rfl, rfl, Core.delete he h⟩

/-- What a core holds. -/
theorem Core.holds {env : StoreEnv} (he : EnvOk env) {st : StoreState} {A : List Item}
    (h : Core env.p st.kv st.kd A) {a : Item} (hp : Proper env.p a) : Holds env st a.pos a.val ↔ a ∈ A := by
  constructor
  · rintro ⟨h1, _⟩
    obtain ⟨b, hb, hbp, hbv⟩ := h.of_get he hp.valid h1
    have hf := h.fine b hb
    have h2 := C24_roundtrip a.val hp.digest hp.auth
    rw [hbv, C24_roundtrip b.val hf.digest hf.auth] at h2
    have : b = a := by
      have h5 := Res.ok.inj h2
      cases a; cases b
      simp only at hbp h5
      rw [hbp, h5]
    rwa [this] at hb
  · intro ha
    exact ⟨h.get ha, h.in_kd ha⟩

end Willow
