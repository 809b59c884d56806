import Verif.Lemmas.StoreRun

/-! What `Set` leaves in the payload files. -/

namespace Willow

open Spec

/-- Accepting an entry adds at most one reference. -/
theorem refs_bound {env : StoreEnv} (A : List Item) (e : Entry) (token : Bytes) (leak : Bytes → Nat) (d : Bytes) :
    refsTo (afterInsert A (newItem env e token)) d + leakAfter A e leak d ≤ refsTo A d + leak d + 1 := by
  unfold afterInsert leakAfter refsTo
  rw [List.countP_cons]
  have h7 : A.countP (fun a => decide (a.val.payloadDigest = d)) =
      (A.filter fun a => decide ¬ Displaces (newItem env e token).pos a.pos).countP (fun a => decide (a.val.payloadDigest = d)) +
      (A.filter fun a => !decide ¬ Displaces (newItem env e token).pos a.pos).countP (fun a => decide (a.val.payloadDigest = d)) := by
    rw [← List.countP_append]
    exact (filter_not_perm _ A).countP_eq _
  have h8 : (A.countP fun a => decide ((a.pos.subspace = e.subspaceId ∧ a.pos.path = e.path) ∧
      a.val.payloadDigest = e.payloadDigest ∧ d = e.payloadDigest)) ≤
      (A.filter fun a => !decide ¬ Displaces (newItem env e token).pos a.pos).countP (fun a => decide (a.val.payloadDigest = d)) := by
    rw [List.countP_filter]
    refine List.countP_mono_left fun a _ ha => ?_
    simp only [decide_eq_true_eq] at ha
    have hdis : Displaces (newItem env e token).pos a.pos := .inl ha.1
    simp [ha.2.1, ha.2.2, hdis]
  have h9 : (if decide ((newItem env e token).val.payloadDigest = d) = true then 1 else 0) ≤ 1 := by split <;> omega
  omega

theorem set_files {env : StoreEnv} (he : EnvOk env) {st : StoreState} {A : List Item} {leak : Bytes → Nat}
    (h : Abs env st A leak) (hl : st.locked = false) (now : UInt64) (input : EntryInput) (authorisation : Bytes)
    (hf : FineOp env (.set now input authorisation)) (hb : ∀ d, refsTo A d + leak d + 1 < 2 ^ 64) (st' : StoreState)
    (r : Option (List Entry)) (hrun : storeSet env st now input authorisation = .ok (r, st')) :
    (specStep env A (.set now input authorisation) = A ∧ st'.files = (payloadSet env st.files input.payload).1) ∨
    (∃ e token, attempt env (.set now input authorisation) = some (e, token) ∧ Acceptable env A e token ∧
      e.payloadDigest = env.hash input.payload ∧
      specStep env A (.set now input authorisation) = afterInsert A (newItem env e token) ∧
      FilesIngest env A (afterInsert A (newItem env e token)) (newItem env e token) (env.tokenEncode token) (leakAfter A e leak)
        (payloadSet env st.files input.payload).1 st'.files) := by
  have hset : ∀ e, setEntry env now input = e → attempt env (.set now input authorisation) =
      (env.authorise e authorisation).map fun token => (e, token) := by
    intro e he; subst he; rfl
  have hdig : (payloadSet env st.files input.payload).2.1 = (setEntry env now input).payloadDigest := rfl
  have hhash : (setEntry env now input).payloadDigest = env.hash input.payload := rfl
  unfold storeSet at hrun
  have hfiles : Abs env { st with files := (payloadSet env st.files input.payload).1 } A leak := ⟨h.core, h.refs⟩
  dsimp only at hrun
  rw [hdig] at hrun
  generalize hfs : (payloadSet env st.files input.payload).1 = files at hfiles hrun ⊢
  generalize hentry : setEntry env now input = e at hrun hhash
  specialize hset e hentry
  cases hau : env.authorise e authorisation with
  | none =>
    rw [hau] at hset hrun
    left
    cases hrun
    exact ⟨by unfold specStep; rw [hset]; rfl, rfl⟩
  | some token =>
    rw [hau] at hset hrun
    obtain ⟨hc, hd⟩ := hf e token hset
    dsimp only at hrun
    have hspec : specStep env A (.set now input authorisation) = if Acceptable env A e token then afterInsert A (newItem env e token) else A := by
      unfold specStep; rw [hset]; rfl
    by_cases hacc : Acceptable env A e token
    · rw [if_pos hacc] at hspec
      obtain ⟨B, st1, h1, h2, h3, h4, h5, h6⟩ := ingestEntry_accepted he hfiles hl e token hc hd hacc.1 hacc.2.1 hacc.2.2
      rw [h1] at hrun
      dsimp only at hrun
      right
      refine ⟨e, token, hset, hacc, hhash, hspec, ?_⟩
      have hr := h3.refs e.payloadDigest
      have hpos : 0 < refsTo (afterInsert A (newItem env e token)) e.payloadDigest := by
        unfold afterInsert
        rw [refsTo_cons]
        simp [newItem]
      have hle := refs_bound A e token (env := env) leak e.payloadDigest
      have hcount : refCount st1.refs e.payloadDigest =
          .ok (UInt64.ofNat (refsTo (afterInsert A (newItem env e token)) e.payloadDigest + leakAfter A e leak e.payloadDigest)) := by
        unfold refCount
        rcases hr with ⟨_, hr, _⟩ | hr
        · omega
        · rw [hr]
          exact bigEndianUint64_putU64 _
      rw [hcount] at hrun
      dsimp only at hrun
      have hnz : UInt64.ofNat (refsTo (afterInsert A (newItem env e token)) e.payloadDigest + leakAfter A e leak e.payloadDigest) ≠ 0 := by
        intro h0
        have := congrArg UInt64.toNat h0
        have hb' := hb e.payloadDigest
        rw [UInt64.toNat_ofNat_of_lt' (show _ < 2 ^ 64 by omega)] at this
        simp at this
        omega
      rw [if_neg hnz] at hrun
      cases hrun
      exact h6 hb
    · rw [if_neg hacc] at hspec
      rw [ingestEntry_refused hfiles.core hl e token hc hacc] at hrun
      cases hrun
      exact .inl ⟨hspec, rfl⟩

/-- Every call adds at most one reference. -/
theorem refs_run {env : StoreEnv} : ∀ (ops : List StoreOp) (A : List Item) (leak : Bytes → Nat) (d : Bytes),
    refsTo (specRun env A ops) d + leakRun env A leak ops d ≤ refsTo A d + leak d + ops.length
  | [], A, leak, d => by simp [specRun, leakRun]
  | op :: ops, A, leak, d => by
    have h := refs_run (env := env) ops (specStep env A op) (leakStep env A op leak) d
    have hstep : refsTo (specStep env A op) d + leakStep env A op leak d ≤ refsTo A d + leak d + 1 := by
      unfold specStep leakStep
      cases hat : attempt env op with
      | none => dsimp only; omega
      | some et =>
        obtain ⟨e, t⟩ := et
        dsimp only
        by_cases hacc : Acceptable env A e t
        · simp only [if_pos hacc]
          exact refs_bound A e t leak d
        · simp only [if_neg hacc]; omega
    simp only [specRun, leakRun, List.length_cons]
    omega

end Willow
