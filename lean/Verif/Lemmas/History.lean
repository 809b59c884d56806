import Verif.Lemmas.StoreRun

/-! Where the pairs of the entry database come from, for all calls. -/

namespace Willow

open Spec

theorem pruneLoop_kv (env : StoreEnv) : ∀ (l : List (Entry × Bytes)) (st st' : StoreState) (r : Option (List Entry)),
    pruneLoop env l st = .ok (r, st') → ∀ x ∈ st'.kv, x ∈ st.kv := by
  intro l
  induction l with
  | nil => intro st st' r h; simp only [pruneLoop, Res.ok.injEq, Prod.mk.injEq] at h; rw [← h.2]; exact fun _ hx => hx
  | cons ea rest ih =>
    obtain ⟨e, a⟩ := ea
    intro st st' r h x hx
    have hdel : ∀ y ∈ (entryDelete env st e).kv, y ∈ st.kv := fun y hy => (List.mem_filter.1 hy).1
    unfold pruneLoop at h
    dsimp only at h
    cases hd : refDecrement (entryDelete env st e).refs e.payloadDigest with
    | ok c =>
      obtain ⟨count, refs⟩ := c
      rw [hd] at h
      dsimp only at h
      generalize hst : (if count = 0 then
        ({ entryDelete env st e with refs := refs, files := payloadErase env (entryDelete env st e).files e.payloadDigest } : StoreState)
        else { entryDelete env st e with refs := refs }) = st1 at h
      have hkv : st1.kv = (entryDelete env st e).kv := by rw [← hst]; split <;> rfl
      split at h
      · rename_i hl
        cases h
        exact hdel x (hkv ▸ ih _ _ _ hl x hx)
      · exact hdel x (hkv ▸ ih _ _ _ h x hx)
    | err => rw [hd] at h; cases h; exact hdel x hx
    | crash => rw [hd] at h; cases h
    | block => rw [hd] at h; cases h

theorem insertEntry_kv (env : StoreEnv) (st st' : StoreState) (e : Entry) (token : Bytes) (r : Option (List Entry))
    (h : insertEntry env st e token = .ok (r, st')) :
    ∀ x ∈ st'.kv, x = Item.pair env.p (newItem env e token) ∨ x ∈ st.kv := by
  intro x hx
  have hins : ∀ y ∈ st.kv.set (encodeKey env.p e.position)
      (encodeValues ⟨e.payloadLength, e.payloadDigest, env.hash (env.tokenEncode token)⟩),
      y = Item.pair env.p (newItem env e token) ∨ y ∈ st.kv := fun y hy => KV.mem_set hy
  unfold insertEntry at h
  simp only [payloadSet, entryInsert] at h
  cases hk : kdAdd st.kd ⟨e.position, []⟩ with
  | none => rw [hk] at h; cases h; exact hins x hx
  | some kd =>
    rw [hk] at h
    dsimp only at h
    split at h
    · split at h
      · exact hins x (pruneLoop_kv env _ _ _ _ h x hx)
      · cases h; exact hins x hx
      all_goals cases h
    all_goals cases h

theorem replaceOther_kv (env : StoreEnv) (st st' : StoreState) (other e : Entry) (a : Bytes) (r : Option Unit)
    (h : replaceOther env st other a e = .ok (r, st')) : ∀ x ∈ st'.kv, x ∈ st.kv := by
  intro x hx
  have hdel : ∀ y ∈ (entryDelete env st other).kv, y ∈ st.kv := fun y hy => (List.mem_filter.1 hy).1
  unfold replaceOther at h
  dsimp only at h
  split at h
  · split at h
    · cases h
      revert hx
      split <;> exact hdel x
    · cases h; exact hdel x hx
    all_goals cases h
  · cases h; exact hdel x hx

theorem finishIngest_kv (env : StoreEnv) (st st' : StoreState) (e : Entry) (token : Bytes) (r : Option (List Entry))
    (h : finishIngest env st e token = .ok (r, st')) :
    ∀ x ∈ st'.kv, x = Item.pair env.p (newItem env e token) ∨ x ∈ st.kv := by
  unfold finishIngest at h
  split at h
  · rename_i hi
    cases h
    exact fun x hx => insertEntry_kv env _ _ _ _ _ hi x hx
  · exact insertEntry_kv env _ _ _ _ _ h

/-- Whatever an ingest adds to the database is the entry given, and then that was of the
namespace and authorised. -/
theorem ingestEntry_kv (env : StoreEnv) (st st' : StoreState) (e : Entry) (token : Bytes) (r : Option (List Entry))
    (h : ingestEntry env st e token = .ok (r, st')) :
    ∀ x ∈ st'.kv, x ∈ st.kv ∨ (x = Item.pair env.p (newItem env e token) ∧ env.nsEqual env.namespaceId e.namespaceId = true ∧
      env.isAuthorised e token = true) := by
  unfold ingestEntry at h
  split at h
  · cases h
  dsimp only at h
  split at h
  · cases h; exact fun x hx => .inl hx
  rename_i hns
  split at h
  · cases h; exact fun x hx => .inl hx
  rename_i hau
  have hns' : env.nsEqual env.namespaceId e.namespaceId = true := by simpa using hns
  have hau' : env.isAuthorised e token = true := by simpa using hau
  have key : ∀ st1 : StoreState, (∀ x ∈ st1.kv, x ∈ st.kv) → finishIngest env st1 e token = .ok (r, st') →
      ∀ x ∈ st'.kv, x ∈ st.kv ∨ (x = Item.pair env.p (newItem env e token) ∧ env.nsEqual env.namespaceId e.namespaceId = true ∧
        env.isAuthorised e token = true) := by
    intro st1 hsub hf x hx
    rcases finishIngest_kv env _ _ _ _ _ hf x hx with hx | hx
    · exact .inr ⟨hx, hns', hau'⟩
    · exact .inl (hsub x hx)
  split at h
  · split at h
    · cases h; exact fun x hx => .inl hx
    split at h
    · cases h; exact fun x hx => .inl hx
    · exact key _ (by intro x hx; exact hx) h
    · split at h
      · split at h
        · cases h; exact fun x hx => .inl hx
        split at h
        · rename_i hro
          exact key _ (fun x hx => replaceOther_kv env _ _ _ _ _ _ hro x hx) h
        · rename_i hro
          cases h
          exact fun x hx => .inl (replaceOther_kv env _ _ _ _ _ _ hro x hx)
        all_goals cases h
      · exact key _ (by intro x hx; exact hx) h
    all_goals cases h
  all_goals cases h

theorem runOp_kv (env : StoreEnv) (st st' : StoreState) (op : StoreOp) (r : Option (List Entry))
    (h : runOp env st op = .ok (r, st')) :
    ∀ x ∈ st'.kv, x ∈ st.kv ∨ ∃ e token, attempt env op = some (e, token) ∧ x = Item.pair env.p (newItem env e token) ∧
      env.nsEqual env.namespaceId e.namespaceId = true ∧ env.isAuthorised e token = true := by
  intro x hx
  cases op with
  | ingest e token =>
    rcases ingestEntry_kv env _ _ _ _ _ h x hx with h | h
    · exact .inl h
    · exact .inr ⟨e, token, rfl, h⟩
  | restart =>
    left
    unfold runOp restart at h
    cases hi : initKeys env.p st.kv with
    | ok keys =>
      rw [hi] at h
      cases h
      exact hx
    | err => rw [hi] at h; cases h
    | crash => rw [hi] at h; cases h
    | block => rw [hi] at h; cases h
  | set now input authorisation =>
    unfold runOp storeSet at h
    simp only [payloadSet] at h
    have hat : attempt env (.set now input authorisation) =
      (env.authorise (setEntry env now input) authorisation).map fun token => (setEntry env now input, token) := rfl
    cases ha : env.authorise (setEntry env now input) authorisation with
    | none => rw [ha] at h; cases h; exact .inl hx
    | some token =>
      rw [ha] at h hat
      dsimp only at h
      split at h
      · rename_i hi
        have h2 := ingestEntry_kv env _ _ _ _ _ hi
        have hx' : x ∈ st.kv ∨ (x = Item.pair env.p (newItem env (setEntry env now input) token) ∧
            env.nsEqual env.namespaceId (setEntry env now input).namespaceId = true ∧
            env.isAuthorised (setEntry env now input) token = true) := by
          split at h
          · cases h
            revert hx
            split <;> exact fun hx => h2 x hx
          · cases h; exact h2 x hx
          all_goals cases h
        rcases hx' with h | h
        · exact .inl h
        · exact .inr ⟨_, token, hat, h⟩
      · rcases ingestEntry_kv env _ _ _ _ _ h x hx with h | h
        · exact .inl h
        · exact .inr ⟨_, token, hat, h⟩

theorem runOps_kv (env : StoreEnv) : ∀ (ops : List StoreOp) (st st' : StoreState), runOps env st ops = .ok st' →
    ∀ x ∈ st'.kv, x ∈ st.kv ∨ ∃ op ∈ ops, ∃ e token, attempt env op = some (e, token) ∧ x = Item.pair env.p (newItem env e token) ∧
      env.nsEqual env.namespaceId e.namespaceId = true ∧ env.isAuthorised e token = true
  | [], st, st', h => by cases h; exact fun x hx => .inl hx
  | op :: ops, st, st', h => by
    intro x hx
    unfold runOps at h
    cases hr : runOp env st op with
    | ok p =>
      obtain ⟨r, st1⟩ := p
      rw [hr] at h
      rcases runOps_kv env ops st1 st' h x hx with h2 | ⟨o, ho, h2⟩
      · rcases runOp_kv env st st1 op r hr x h2 with h3 | h3
        · exact .inl h3
        · exact .inr ⟨op, List.mem_cons_self, h3⟩
      · exact .inr ⟨o, List.mem_cons_of_mem _ ho, h2⟩
    | err => rw [hr] at h; cases h
    | crash => rw [hr] at h; cases h
    | block => rw [hr] at h; cases h

end Willow
