import Verif.Lemmas.Faults
import Verif.Lemmas.PropsStore
import Verif.Lemmas.PropsStoreKept

/-! `Set` of a payload that cannot be written, after any fine calls (C136). -/

namespace Willow.Props

open Willow Spec

/-- The entry is stored, and the file of its payload has none of the contents that the failed write did not leave. -/
theorem set_unwritten (partly : Option Nat) (env : StoreEnv) (he : EnvOk env) (ops : List StoreOp) (hf : ∀ o ∈ ops, FineOp env o)
    (now : UInt64) (input : EntryInput) (au : Bytes) (hop : FineOp env (.set now input au)) (e : Entry) (token : Bytes)
    (hat : attempt env (.set now input au) = some (e, token)) (hacc : Acceptable env (specRun env [] ops) e token)
    (ht : env.fileKey e.payloadDigest ≠ env.fileKey (env.hash (env.tokenEncode token))) :
    ∃ st pruned st', runOps env .empty ops = .ok st ∧
      runOpF { payloadFile := true, partly := partly } env st (.set now input au) = .ok (some pruned, st') ∧
      Holds env st' (newItem env e token).pos (newItem env e token).val ∧
      ∀ v, (failedWrite partly env st.files input.payload).get (env.fileKey e.payloadDigest) ≠ some v →
        st'.files.get (env.fileKey e.payloadDigest) ≠ some v := by
  obtain ⟨st, h1, h2, h3⟩ := run_ok he ops hf
  obtain ⟨hc, hd⟩ := hop e token hat
  obtain ⟨r, st1, r1, r2, _, r4⟩ := runOp_ok he h2 h3 (.set now input au) hop
  have hpn : Proper env.p (newItem env e token) := ⟨hc.valid, hd, he.hash _⟩
  have hsome : ∃ pruned, r = some pruned := by
    unfold ResultOk at r4
    rw [hat] at r4
    dsimp only at r4
    rw [if_pos hacc] at r4
    cases r with
    | none => simp at r4
    | some p => exact ⟨p, rfl⟩
  obtain ⟨pruned, rfl⟩ := hsome
  have hstep : specStep env (specRun env [] ops) (.set now input au) = afterInsert (specRun env [] ops) (newItem env e token) := by
    unfold specStep
    rw [hat]
    dsimp only
    rw [if_pos hacc]
  rw [hstep] at r2
  have hh : Holds env st1 (newItem env e token).pos (newItem env e token).val :=
    (r2.core.holds he hpn).2 List.mem_cons_self
  have hset : setEntry env now input = e ∧ env.authorise (setEntry env now input) au = some token := by
    have hx : (env.authorise (setEntry env now input) au).map (fun t => (setEntry env now input, t)) = some (e, token) := hat
    cases hau : env.authorise (setEntry env now input) au with
    | none => rw [hau] at hx; cases hx
    | some t => rw [hau] at hx; cases hx; exact ⟨rfl, rfl⟩
  have ha := runOpF_alike { payloadFile := true, partly := partly } rfl rfl rfl rfl rfl env st (.set now input au)
  rw [r1] at ha
  have hab := fun v hv => storeSetF_absent { payloadFile := true, partly := partly } rfl env (env.fileKey e.payloadDigest) v st now input au
    (fun t htk => by rw [hset.2] at htk; cases htk; exact ht) hv
  change ResAlike (storeSetF _ env st now input au) _ at ha
  refine ⟨st, pruned, ?_⟩
  show ∃ st', _ ∧ storeSetF _ env st now input au = _ ∧ _
  generalize storeSetF _ env st now input au = q at ha hab ⊢
  cases ha with
  | @ok _ st' _ ha =>
    refine ⟨st', h1, rfl, ?_, fun v hv => hab v hv _ _ rfl⟩
    unfold Holds
    rw [ha.1, ha.2.1]
    exact hh

/-- What is read as the payload of an item that is held. -/
theorem getPayload_held (env : StoreEnv) (st : StoreState) (a : Item) (hp : Proper env.p a) (hh : Holds env st a.pos a.val)
    (hn : env.fileKey a.val.payloadDigest ≠ []) :
    storeGetPayload env st a.pos = .ok (st.files.get (env.fileKey a.val.payloadDigest)) := by
  unfold storeGetPayload
  rw [hh.1]
  dsimp only
  rw [C24_roundtrip _ hp.digest hp.auth]
  simp only [Res.ok_bind]
  show Res.ok (payloadGet env st.files a.val.payloadDigest) = _
  unfold payloadGet
  dsimp only
  rw [if_neg hn]

end Willow.Props
