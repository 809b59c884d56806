import Verif.Lemmas.Faults

/-! A new entry while counts of references cannot be read. -/

namespace Willow

open Spec

/-- Ingesting at a new path, with no older entries below it, while counts cannot be read. -/
theorem ingestEntryF_unreadCount {env : StoreEnv} (he : EnvOk env) {st : StoreState} {A : List Item} {leak : Bytes → Nat}
    (h : Abs env st A leak) (hl : st.locked = false) (e : Entry) (token : Bytes) (hc : Comfortable env.p e.path)
    (hd : e.payloadDigest.length < 2 ^ 64) (hacc : Acceptable env A e token)
    (hnew : ∀ o ∈ A, ¬ (o.pos.subspace = e.subspaceId ∧ o.pos.path = e.path))
    (hbelow : ∀ a ∈ A, ¬ Prunes e.position a.pos) :
    ∃ st', ingestEntryF { refRead := true } env st e token = .ok (some [], st') ∧ st'.locked = false ∧ st'.refs = st.refs ∧
      Core env.p st'.kv st'.kd (newItem env e token :: A) := by
  have hfine : Fine env.p (newItem env e token) := ⟨hc, hd, he.hash _⟩
  have hn : ∀ x ∈ A, Apart (newItem env e token) x := fun x hx hxe => hnew x hx ⟨hxe.1.symm, hxe.2.symm⟩
  obtain ⟨hns, hauth, hacc⟩ := hacc
  have hnacc := mt not_accepts.2 (Classical.not_not.2 hacc)
  rw [not_or] at hnacc
  obtain ⟨ks, hk1, hk2⟩ := h.core.olderPrefix (s := e.subspaceId) hc e.timestamp
  have hheld : Abs env { st with locked := true } A leak := ⟨h.core, h.refs⟩
  have hget : entryGet env { st with locked := true } e.subspaceId e.path = .ok .missing := by
    rcases hheld.core.entryGet e.subspaceId e.path hc.valid (.inr hc) with ⟨h5, _⟩ | ⟨b, hb, hbs, hbp, _⟩
    · exact h5
    · exact absurd ⟨hbs, hbp⟩ (hnew b hb)
  unfold ingestEntryF
  rw [if_neg (by simp [hl])]
  dsimp only
  rw [if_neg (by simp [hns]), if_neg (by simp [hauth]), hk1]
  dsimp only
  rw [if_neg (fun hc' => hnacc.1 (hk2.1 hc')), entryGetF_read rfl, hget]
  dsimp only
  unfold finishIngestF insertEntryF payloadSetF
  generalize hps : payloadSet env st.files (env.tokenEncode token) = ps
  obtain ⟨files0, authDigest, len⟩ := ps
  have hauth : authDigest = env.hash (env.tokenEncode token) := by
    unfold payloadSet at hps; simp only [Prod.mk.injEq] at hps; exact hps.2.1.symm
  subst hauth
  simp only [Bool.false_eq_true, if_false]
  unfold entryInsertF entryInsert
  simp only [Bool.false_eq_true, if_false]
  have hadd : kdAdd st.kd ⟨e.position, []⟩ = some (st.kd ++ [⟨e.position, []⟩]) := by
    unfold kdAdd
    rw [if_neg]
    simp only [List.any_eq_true, decide_eq_true_eq, not_exists, not_and]
    intro k hk hkp
    obtain ⟨a, ha, hak⟩ := h.core.mem_kd hk
    exact (hn a ha).ne (hak.trans hkp).symm
  rw [hadd]
  dsimp only
  have hcore := h.core.insert he (newItem env e token) [] hfine hn
  simp only [refIncrementF, if_true]
  have hcomf : Comfortable env.p e.position.path := hc
  rw [corruptKey_comfortable hcomf, prunableEntriesF_read rfl]
  obtain ⟨B, hb1, hb2⟩ := prunableEntries_ok (st := { st with
    kv := st.kv.set (encodeKey env.p e.position) (encodeValues ⟨e.payloadLength, e.payloadDigest, env.hash (env.tokenEncode token)⟩),
    kd := st.kd ++ [⟨e.position, []⟩], files := files0, locked := true }) hcore e.position hcomf
  rw [hb1]
  have hself : decide (Prunes e.position (newItem env e token).pos) = false := by
    rw [decide_eq_false_iff_not]
    rintro ⟨_, _, h3, _⟩
    exact h3 rfl
  rw [List.filter_cons_of_neg (by rw [hself]; simp), List.filter_eq_nil_iff.2 fun a ha => by simpa using hbelow a ha] at hb2
  cases List.perm_nil.1 hb2
  exact ⟨_, rfl, rfl, rfl, hcore⟩

end Willow
