import Verif.Lemmas.PropsCrash

/-! A process that ends while a file is being written. -/

namespace Willow

open Spec

theorem eraseWrites_file (env : StoreEnv) (name c d : Bytes) : .file name c ∉ eraseWrites env d := by
  unfold eraseWrites
  dsimp only
  split <;> simp

theorem pruneWrites_file (env : StoreEnv) (name c : Bytes) : ∀ (l : List (Entry × Bytes)) (refs : KV), .file name c ∉ pruneWrites env l refs
  | [], _ => by simp [pruneWrites]
  | (e, _) :: rest, refs => by
    rw [pruneWrites]
    intro h
    rcases List.mem_cons.1 h with h | h
    · cases h
    split at h
    · rcases List.mem_cons.1 h with h | h
      · cases h
      rcases List.mem_append.1 h with h | h
      · split at h
        · exact eraseWrites_file env name c _ h
        · cases h
      · exact pruneWrites_file env name c rest _ h
    · cases h

theorem payloadWrites_file (env : StoreEnv) (name c b : Bytes) (h : .file name c ∈ payloadWrites env b) : name = env.fileKey (env.hash b) := by
  unfold payloadWrites at h
  dsimp only at h
  split at h
  · cases h
  · simp only [List.mem_cons, DiskWrite.file.injEq, List.not_mem_nil, or_false] at h
    rcases h with h | h <;> exact h.1

theorem insertWrites_file (env : StoreEnv) (name c : Bytes) (st : StoreState) (e : Entry) (token : Bytes)
    (h : .file name c ∈ insertWrites env st e token) : name = env.fileKey (env.hash (env.tokenEncode token)) := by
  unfold insertWrites at h
  dsimp only at h
  rcases List.mem_append.1 h with h | h
  · exact payloadWrites_file env name c _ h
  exfalso
  rcases List.mem_cons.1 h with h | h
  · cases h
  split at h
  · cases h
  split at h
  · rcases List.mem_cons.1 h with h | h
    · cases h
    split at h
    · exact pruneWrites_file env name c _ _ h
    · cases h
  · cases h

theorem replaceWrites_file (env : StoreEnv) (name c : Bytes) (st : StoreState) (other : Entry) (auth : Bytes) (e : Entry) :
    .file name c ∉ replaceWrites env st other auth e := by
  intro h
  unfold replaceWrites at h
  rcases List.mem_cons.1 h with h | h
  · cases h
  rcases List.mem_append.1 h with h | h
  · exact eraseWrites_file env name c _ h
  split at h
  · split at h
    · rcases List.mem_cons.1 h with h | h
      · cases h
      split at h
      · exact eraseWrites_file env name c _ h
      · cases h
    · cases h
  · cases h

theorem ingestWrites_file (env : StoreEnv) (name c : Bytes) (st : StoreState) (e : Entry) (token : Bytes)
    (h : .file name c ∈ ingestWrites env st e token) : name = env.fileKey (env.hash (env.tokenEncode token)) := by
  unfold ingestWrites at h
  dsimp only at h
  repeat' split at h
  all_goals first
    | (cases h; done)
    | exact insertWrites_file env name c _ e token h
    | (rcases List.mem_append.1 h with h | h
       · exact absurd h (replaceWrites_file env name c _ _ _ _)
       · first
         | exact insertWrites_file env name c _ e token h
         | cases h)

theorem opWrites_file (env : StoreEnv) (name c : Bytes) (st : StoreState) (op : StoreOp) (h : .file name c ∈ opWrites env st op) :
    (∃ now input au, op = .set now input au ∧ name = env.fileKey (env.hash input.payload)) ∨
    ∃ e token, attempt env op = some (e, token) ∧ name = env.fileKey (env.hash (env.tokenEncode token)) := by
  cases op with
  | restart => cases h
  | ingest e token => exact .inr ⟨e, token, rfl, ingestWrites_file env name c st e token h⟩
  | set now input au =>
    simp only [opWrites, setWrites] at h
    rcases List.mem_append.1 h with h | h
    · exact .inl ⟨now, input, au, rfl, payloadWrites_file env name c _ h⟩
    · cases hau : env.authorise (setEntry env now input) au with
      | none => rw [hau] at h; cases h
      | some token =>
        rw [hau] at h
        rcases List.mem_append.1 h with h | h
        · exact .inr ⟨setEntry env now input, token, by
            show (env.authorise (setEntry env now input) au).map (fun token => (setEntry env now input, token)) = _
            rw [hau]
            rfl, ingestWrites_file env name c _ _ token h⟩
        · exfalso
          repeat' split at h
          all_goals first
            | (cases h; done)
            | exact eraseWrites_file env name c _ h

theorem restart_files {env : StoreEnv} {st st' : StoreState} {listed : KV → List (Bytes × Bytes)} (files : KV) (h : restart env listed st = .ok st') :
    restart env listed { st with files := files } = .ok { st' with files := files } := by
  unfold restart at h ⊢
  obtain ⟨keys, hk, h⟩ := Res.bind_eq_ok.1 h
  cases h
  show (initKeys env.p (listed st.kv) >>= _) = _
  rw [hk]
  rfl

theorem crashWithin_ok {env : StoreEnv} (he : EnvOk env) {A : List Item} {leak : Bytes → Nat} {st : StoreState}
    (h : Abs env st A leak) (hl : st.locked = false) (op : StoreOp) (hf : FineOp env op) (n k : Nat) :
    ∃ st' A', crashWithin env st op n k = .ok st' ∧ CutOff env A A' op ∧ Core env.p st'.kv st'.kd A' ∧ st'.locked = false ∧
      (¬ EndsInEntry ((opWrites env st op).take n) → ∃ leak', Abs env st' A' leak') ∧
      ((∀ d, refsTo A d + leak d + 1 < 2 ^ 64) → ∀ name, Safe env A op name → st'.files.get name = st.files.get name) := by
  obtain ⟨st', A', c1, c2, c3, c4, c5, c6⟩ := crash_ok he h hl op hf n
  have same : (opWrites env st op)[n]?.toList.flatMap (partOf k) = [] → crashWithin env st op n k = .ok st' := by
    intro e
    unfold crashWithin
    rw [e, List.append_nil]
    exact c1
  cases hw : (opWrites env st op)[n]? with
  | none => exact ⟨st', A', same (by rw [hw]; rfl), c2, c3, c4, c5, c6⟩
  | some w =>
    cases w with
    | file name c =>
      have hfiles : st'.files = (applyWrites st ((opWrites env st op).take n)).files := by
        unfold crashAfter restart at c1
        obtain ⟨keys, hk, c1⟩ := Res.bind_eq_ok.1 c1
        cases c1
        rfl
      refine ⟨{ st' with files := st'.files.set name (c.take k) }, A', ?_, c2, c3, c4, fun hne => ?_, fun hb name' hs => ?_⟩
      · unfold crashWithin
        rw [hw, applyWrites_append, hfiles]
        exact restart_files _ c1
      · obtain ⟨leak', ha⟩ := c5 hne
        exact ⟨leak', ha.core, ha.refs⟩
      · have hne : name' ≠ name := by
          rintro rfl
          rcases opWrites_file env name' c st op (List.mem_of_getElem? hw) with ⟨now, input, au, e1, e2⟩ | ⟨e, token, e1, e2⟩
          · exact hs.1.payload now input au e1 e2.symm
          · exact hs.1.token e token e1 e2.symm
        show (st'.files.set name (c.take k)).get name' = _
        rw [KV.get_set, if_neg hne]
        exact c6 hb name' hs
    | _ => exact ⟨st', A', same (by rw [hw]; rfl), c2, c3, c4, c5, c6⟩

end Willow
