import Verif.Lemmas.CrashPart
import Verif.Lemmas.CrashWithin

/-! Which files and counts an ingest changes. -/

namespace Willow

open Spec Props

/-- What a change within the ingest of an entry into these entries may be of. -/
def Within (env : StoreEnv) (A : List Item) (new : Item) : DiskWrite → Prop
  | .file n _ => n = env.fileKey new.val.authDigest
  | .remove n => (∃ o ∈ A, n = env.fileKey o.val.authDigest) ∨ ∃ b ∈ A, Displaces new.pos b.pos ∧ n = env.fileKey b.val.payloadDigest
  | .refSet d _ => d = new.val.payloadDigest ∨ ∃ b ∈ A, Displaces new.pos b.pos ∧ d = b.val.payloadDigest
  | _ => True

theorem within_erase {env : StoreEnv} {A : List Item} {new : Item} {d : Bytes}
    (h : (∃ o ∈ A, env.fileKey d = env.fileKey o.val.authDigest) ∨ ∃ b ∈ A, Displaces new.pos b.pos ∧ env.fileKey d = env.fileKey b.val.payloadDigest) :
    ∀ w ∈ eraseWrites env d, Within env A new w := by
  unfold eraseWrites
  dsimp only
  split
  · simp
  · intro w hw
    rw [List.mem_singleton] at hw
    subst hw
    exact h

theorem within_prune {env : StoreEnv} {A : List Item} {new : Item} : ∀ (B : List Item) (refs : KV), (∀ b ∈ B, b ∈ A ∧ Displaces new.pos b.pos) →
    ∀ w ∈ pruneWrites env (B.map fun b => (b.entry env.namespaceId, b.val.authDigest)) refs, Within env A new w
  | [], _, _ => by simp [pruneWrites]
  | x :: B, refs, hB => by
    rw [List.map_cons]
    unfold pruneWrites
    obtain ⟨h1, h2⟩ := hB x List.mem_cons_self
    have hdig : (x.entry env.namespaceId).payloadDigest = x.val.payloadDigest := rfl
    rw [hdig]
    intro w hw
    rcases List.mem_cons.1 hw with rfl | hw
    · trivial
    · split at hw
      · rcases List.mem_cons.1 hw with rfl | hw
        · exact .inr ⟨x, h1, h2, rfl⟩
        · rcases List.mem_append.1 hw with hw | hw
          · split at hw
            · exact within_erase (.inr ⟨x, h1, h2, rfl⟩) w hw
            · cases hw
          · exact within_prune B _ (fun b hb => hB b (List.mem_cons_of_mem _ hb)) w hw
      · cases hw

theorem within_insert {env : StoreEnv} (he : EnvOk env) {A A1 : List Item} {leak1 : Bytes → Nat} {st : StoreState} (e : Entry) (token : Bytes)
    (hf : Fine env.p (newItem env e token)) (h : Abs env st A1 leak1) (hn : ∀ x ∈ A1, Apart (newItem env e token) x) (hsub : ∀ x ∈ A1, x ∈ A) :
    ∀ w ∈ insertWrites env st e token, Within env A (newItem env e token) w := by
  unfold insertWrites
  have hauth : (payloadSet env st.files (env.tokenEncode token)).2.1 = env.hash (env.tokenEncode token) := rfl
  dsimp only
  rw [hauth]
  intro w hw
  rcases List.mem_append.1 hw with hw | hw
  · unfold payloadWrites at hw
    dsimp only at hw
    split at hw
    · cases hw
    · simp only [List.mem_cons, List.not_mem_nil, or_false] at hw
      rcases hw with rfl | rfl <;> exact rfl
  · rcases List.mem_cons.1 hw with rfl | hw
    · trivial
    · unfold entryInsert at hw
      dsimp only at hw
      have hadd : kdAdd st.kd ⟨e.position, []⟩ = some (st.kd ++ [⟨e.position, []⟩]) := by
        unfold kdAdd
        rw [if_neg]
        simp only [List.any_eq_true, decide_eq_true_eq, not_exists, not_and]
        intro k hk hkp
        obtain ⟨a, ha, hak⟩ := h.core.mem_kd hk
        exact (hn a ha).ne (hak.trans hkp).symm
      rw [hadd] at hw
      dsimp only at hw
      have hcore := h.core.insert he (newItem env e token) [] hf hn
      obtain ⟨n, refs', hr1, hr2⟩ := h.refs.increment (newItem env e token)
      have hdig : (newItem env e token).val.payloadDigest = e.payloadDigest := rfl
      rw [hdig] at hr1
      rw [hr1] at hw
      dsimp only at hw
      rcases List.mem_cons.1 hw with rfl | hw
      · exact .inl rfl
      · have hcomf : Comfortable env.p e.position.path := hf.path
        rw [corruptKey_comfortable hcomf] at hw
        obtain ⟨B, hb1, hb2⟩ := prunableEntries_ok (st := { st with
          kv := st.kv.set (encodeKey env.p e.position) (encodeValues ⟨e.payloadLength, e.payloadDigest, env.hash (env.tokenEncode token)⟩),
          kd := st.kd ++ [⟨e.position, []⟩], refs := refs', files := (payloadSet env st.files (env.tokenEncode token)).1 }) hcore e.position hcomf
        rw [hb1] at hw
        dsimp only at hw
        refine within_prune B _ (fun b hb => ?_) w hw
        obtain ⟨h1, h2⟩ := List.mem_filter.1 (hb2.mem_iff.1 hb)
        have h2 : Prunes e.position b.pos := of_decide_eq_true h2
        rcases List.mem_cons.1 h1 with rfl | h1
        · exact absurd rfl h2.2.2.1
        · exact ⟨hsub b h1, .inr h2⟩

/-- The changes within the ingest of an accepted entry. -/
theorem within_ingest {env : StoreEnv} (he : EnvOk env) {A : List Item} {leak : Bytes → Nat} {st : StoreState}
    (h : Abs env st A leak) (hl : st.locked = false) (e : Entry) (token : Bytes) (hc : Comfortable env.p e.path)
    (hd : e.payloadDigest.length < 2 ^ 64) (hacc : Acceptable env A e token) :
    ∀ w ∈ ingestWrites env st e token, Within env A (newItem env e token) w := by
  obtain ⟨hns, hauth, hacc⟩ := hacc
  have hfine : Fine env.p (newItem env e token) := ⟨hc, hd, he.hash _⟩
  have hnacc := mt not_accepts.2 (Classical.not_not.2 hacc)
  rw [not_or] at hnacc
  have hheld : Abs env { st with locked := true } A leak := ⟨h.core, h.refs⟩
  unfold ingestWrites
  rw [if_neg (by simp [hl])]
  dsimp only
  rw [if_neg (by simp [hns]), if_neg (by simp [hauth])]
  obtain ⟨ks, hk1, hk2⟩ := h.core.olderPrefix (s := e.subspaceId) hc e.timestamp
  rw [hk1]
  dsimp only
  rw [if_neg (fun hc' => hnacc.1 (hk2.1 hc'))]
  rcases hheld.core.entryGet e.subspaceId e.path hc.valid (.inr hc) with ⟨h5, h6⟩ | ⟨o, ho, hos, hop, h5⟩
  · rw [h5]
    dsimp only
    exact within_insert he e token hfine hheld (fun x hx hxe => h6 x hx ⟨hxe.1.symm, hxe.2.symm⟩) (fun _ hx => hx)
  · rw [h5]
    dsimp only
    have hopath : (o.entry env.namespaceId).path = e.path := hop
    have hotime : ¬ (o.entry env.namespaceId).timestamp ≥ e.timestamp := fun hc' => hnacc.2 ⟨o, ho, hos, hop, hc'⟩
    rw [if_pos ((decides_path.eq_iff _ _).2 hopath), if_neg hotime]
    obtain ⟨A0, hA0⟩ : ∃ A0, A.Perm (o :: A0) := ⟨A.erase o, List.perm_cons_erase ho⟩
    have habs0 : Abs env { st with locked := true } (o :: A0) leak := hheld.perm hA0
    obtain ⟨hap1, hap2⟩ := List.pairwise_cons.1 habs0.core.apart
    obtain ⟨st1, r1, r2, r3, r4, r5⟩ := replaceOther_ok he habs0 e
    rw [r1]
    dsimp only
    have hapart : ∀ x ∈ A0, Apart (newItem env e token) x := fun x hx hxe =>
      hap1 x hx ⟨hos.trans hxe.1, hop.trans hxe.2⟩
    have hdo : Displaces (newItem env e token).pos o.pos := .inl ⟨hos, hop⟩
    intro w hw
    rcases List.mem_append.1 hw with hw | hw
    · unfold replaceWrites at hw
      have hdig : (o.entry env.namespaceId).payloadDigest = o.val.payloadDigest := rfl
      rw [hdig] at hw
      rcases List.mem_cons.1 hw with rfl | hw
      · trivial
      · rcases List.mem_append.1 hw with hw | hw
        · exact within_erase (.inl ⟨o, ho, rfl⟩) w hw
        · split at hw
          · split at hw
            · rcases List.mem_cons.1 hw with rfl | hw
              · exact .inr ⟨o, ho, hdo, rfl⟩
              · split at hw
                · exact within_erase (.inr ⟨o, ho, hdo, rfl⟩) w hw
                · cases hw
            · cases hw
          · cases hw
    · exact within_insert he e token hfine r2 hapart (fun x hx => hA0.mem_iff.2 (List.mem_cons_of_mem _ hx)) w hw

end Willow
