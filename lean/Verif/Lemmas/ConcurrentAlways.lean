import Verif.Lemmas.CrashAlways
import Verif.Lemmas.CrashWithin
import Verif.Lemmas.PropsConcurrent

/-! Calls at the same time of which one takes the payload of the other. -/

namespace Willow

open Spec Props

theorem absent_write {st : StoreState} {name : Bytes} (h : st.files.get name = none) (w : DiskWrite) (hw : ∀ c, w ≠ .file name c) :
    (applyWrite st w).files.get name = none := by
  cases w with
  | file n c =>
    show (st.files.set n c).get name = none
    rw [KV.get_set, if_neg (by rintro rfl; exact hw c rfl)]
    exact h
  | remove n =>
    show (st.files.delete n).get name = none
    rw [KV.get_delete]
    split
    · rfl
    · exact h
  | _ => exact h

theorem absent_writes {name : Bytes} : ∀ (ws : List DiskWrite) (st : StoreState), st.files.get name = none → (∀ c, .file name c ∉ ws) →
    (applyWrites st ws).files.get name = none
  | [], _, h, _ => h
  | w :: ws, st, h, hw =>
    absent_writes ws _ (absent_write h w fun c e => hw c (by rw [e]; exact List.mem_cons_self)) fun c hc => hw c (List.mem_cons_of_mem _ hc)

/-- A file that is removed and not written is gone. -/
theorem removed_writes {name : Bytes} : ∀ (ws : List DiskWrite) (st : StoreState), .remove name ∈ ws → (∀ c, .file name c ∉ ws) →
    (applyWrites st ws).files.get name = none
  | w :: ws, st, h, hw => by
    rcases List.mem_cons.1 h with rfl | h
    · refine absent_writes ws _ ?_ fun c hc => hw c (List.mem_cons_of_mem _ hc)
      show (st.files.delete name).get name = none
      rw [KV.get_delete, if_pos rfl]
    · exact removed_writes ws _ h fun c hc => hw c (List.mem_cons_of_mem _ hc)

/-- An accepted entry that replaces the only one with a payload removes the payload. -/
theorem ingestWrites_removes {env : StoreEnv} {st : StoreState} {A : List Item} (h : Core env.p st.kv st.kd A)
    (hl : st.locked = false) (e : Entry) (token : Bytes) (hc : Comfortable env.p e.path) (hacc : Acceptable env A e token)
    (o : Item) (ho : o ∈ A) (hos : o.pos.subspace = e.subspaceId) (hop : o.pos.path = e.path) (hne : o.val.payloadDigest ≠ e.payloadDigest)
    (hcount : refCount st.refs o.val.payloadDigest = .ok 1) (hname : env.fileKey o.val.payloadDigest ≠ []) :
    .remove (env.fileKey o.val.payloadDigest) ∈ ingestWrites env st e token := by
  obtain ⟨hns, hauth, hacc⟩ := hacc
  have hnacc := mt not_accepts.2 (Classical.not_not.2 hacc)
  rw [not_or] at hnacc
  unfold ingestWrites
  rw [if_neg (by simp [hl])]
  dsimp only
  rw [if_neg (by simp [hns]), if_neg (by simp [hauth])]
  obtain ⟨ks, hk1, hk2⟩ := h.olderPrefix (s := e.subspaceId) hc e.timestamp
  rw [hk1]
  dsimp only
  rw [if_neg (fun hc' => hnacc.1 (hk2.1 hc'))]
  have hh : Core env.p ({ st with locked := true } : StoreState).kv ({ st with locked := true } : StoreState).kd A := h
  rcases hh.entryGet e.subspaceId e.path hc.valid (.inr hc) with ⟨_, h6⟩ | ⟨b, hb, hbs, hbp, h5⟩
  · exact absurd ⟨hos, hop⟩ (h6 o ho)
  · have hbo : b = o := apart_unique h.apart hb ho (hbs.trans hos.symm) (hbp.trans hop.symm)
    subst hbo
    rw [h5]
    dsimp only
    have hopath : (b.entry env.namespaceId).path = e.path := hop
    have hotime : ¬ (b.entry env.namespaceId).timestamp ≥ e.timestamp := fun hc' => hnacc.2 ⟨b, ho, hos, hop, hc'⟩
    rw [if_pos ((decides_path.eq_iff _ _).2 hopath), if_neg hotime]
    have hdec : ∃ refs, refDecrement st.refs b.val.payloadDigest = .ok (0, refs) := by
      unfold refCount at hcount
      unfold refDecrement
      cases hg : st.refs.get b.val.payloadDigest with
      | none => rw [hg] at hcount; cases hcount
      | some x =>
        rw [hg] at hcount
        dsimp only at hcount ⊢
        rw [hcount]
        exact ⟨_, rfl⟩
    obtain ⟨refs, hdec⟩ := hdec
    refine List.mem_append.2 (.inl ?_)
    unfold replaceWrites
    refine List.mem_cons_of_mem _ (List.mem_append.2 (.inr ?_))
    show DiskWrite.remove _ ∈ if b.val.payloadDigest ≠ e.payloadDigest then _ else _
    rw [if_pos hne]
    show DiskWrite.remove _ ∈ (match refDecrement st.refs b.val.payloadDigest with
      | .ok (count, _) => DiskWrite.refSet b.val.payloadDigest (putU64 count.toNat) :: if count = 0 then eraseWrites env b.val.payloadDigest else []
      | _ => [])
    rw [hdec]
    dsimp only
    rw [if_pos rfl]
    unfold eraseWrites
    dsimp only
    rw [if_neg hname]
    exact List.mem_cons_of_mem _ List.mem_cons_self

/-- The rest of a call whose entry is accepted: three turns; a file that is not there after the ingest is not there at the end. -/
theorem rest_of_call {env : StoreEnv} (he : EnvOk env) {st : StoreState} {A : List Item} {leak : Bytes → Nat} (h : Abs env st A leak)
    (hl : st.locked = false) (e : Entry) (token : Bytes) (hc : Comfortable env.p e.path) (hd : e.payloadDigest.length < 2 ^ 64)
    (hacc : Acceptable env A e token) :
    ∃ pruned st1 x st2, ingestEntry env st e token = .ok (some pruned, st1) ∧
      advance env st (.written e token) = .ok (.ingested e.payloadDigest pruned, st1) ∧
      advance env st1 (.ingested e.payloadDigest pruned) = .ok (x, st1) ∧ advance env st1 x = .ok (.done (some pruned), st2) ∧
      Abs env st2 (afterInsert A (newItem env e token)) (leakAfter A e leak) ∧ st2.locked = false ∧
      ∀ name, st1.files.get name = none → st2.files.get name = none := by
  obtain ⟨B, st1, h1, h2, h3, h4, _, _⟩ := ingestEntry_accepted he h hl e token hc hd hacc.1 hacc.2.1 hacc.2.2
  obtain ⟨c, hcc⟩ := counted_ingest env e.payloadDigest h1 (.inr ⟨rfl, by simp⟩)
  have a1 : advance env st (.written e token) = .ok (.ingested e.payloadDigest (B.map (Item.entry env.namespaceId)), st1) := by
    simp only [advance, h1]
  by_cases h0 : c = 0
  · refine ⟨_, st1, .counted e.payloadDigest _, { st1 with files := payloadErase env st1.files e.payloadDigest }, h1, a1, ?_, rfl,
      h3.ofSame rfl rfl rfl, h4, fun name hn => ?_⟩
    · simp only [advance, hcc, if_pos h0]
    · show (payloadErase env st1.files e.payloadDigest).get name = none
      unfold payloadErase
      dsimp only
      split
      · exact hn
      · rw [KV.get_delete]
        split
        · rfl
        · exact hn
  · exact ⟨_, st1, .done (some _), st1, h1, a1, by simp only [advance, hcc, if_neg h0], rfl, h3, h4, fun name hn => hn⟩

end Willow
