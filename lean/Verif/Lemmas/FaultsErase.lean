import Verif.Lemmas.FaultsFiles

/-! Files stay while none can be removed (C136). -/

namespace Willow.Props

open Willow Spec

theorem get_set_present {kv : KV} {n k v : Bytes} (h : kv.get n ≠ none) : (kv.set k v).get n ≠ none := by
  rw [KV.get_set]
  split
  · simp
  · exact h

theorem payloadSetF_present {fails : Bool} {partly : Option Nat} {env : StoreEnv} {files : KV} {b n : Bytes} (h : files.get n ≠ none) :
    (payloadSetF fails partly env files b).1.get n ≠ none := by
  unfold payloadSetF payloadSet failedWrite
  dsimp only
  split
  · split
    · exact h
    · split
      · exact h
      · exact get_set_present h
  · split
    · exact h
    · exact get_set_present h

theorem payloadEraseF_same {f : Faults} (hf : f.erase = true) (env : StoreEnv) (files : KV) (d : Bytes) : payloadEraseF f env files d = files := by
  unfold payloadEraseF
  rw [if_pos hf]

theorem entryDeleteF_files (f : Faults) (env : StoreEnv) (st : StoreState) (e : Entry) : (entryDeleteF f env st e).files = st.files := by
  unfold entryDeleteF
  split <;> rfl

theorem pruneLoopF_present {f : Faults} (hf : f.erase = true) {env : StoreEnv} {n : Bytes} : ∀ (l : List (Entry × Bytes)) {st st' : StoreState}
    {r : Option (List Entry)}, st.files.get n ≠ none → pruneLoopF f env l st = .ok (r, st') → st'.files.get n ≠ none
  | [], st, st', r, h, hr => by
    simp only [pruneLoopF] at hr
    cases hr
    exact h
  | (e, a) :: rest, st, st', r, h, hr => by
    unfold pruneLoopF at hr
    dsimp only at hr
    have h1 : (entryDeleteF f env st e).files.get n ≠ none := by rw [entryDeleteF_files]; exact h
    generalize entryDeleteF f env st e = s at h1 hr
    split at hr
    · rename_i count refs _
      rw [payloadEraseF_same hf] at hr
      have h2 : (if count = 0 then { s with refs := refs } else ({ s with refs := refs } : StoreState)).files.get n ≠ none := by
        split <;> exact h1
      change (match pruneLoopF f env rest (if count = 0 then { s with refs := refs } else { s with refs := refs }) with
        | .ok (some pruned, st) => Res.ok (some (e :: pruned), st)
        | r => r) = _ at hr
      generalize (if count = 0 then { s with refs := refs } else ({ s with refs := refs } : StoreState)) = s2 at h2 hr
      cases hp : pruneLoopF f env rest s2 with
      | ok w =>
        obtain ⟨r1, s1⟩ := w
        have := pruneLoopF_present hf rest h2 hp
        rw [hp] at hr
        cases r1 <;> cases hr <;> exact this
      | err => rw [hp] at hr; cases hr
      | crash => rw [hp] at hr; cases hr
      | block => rw [hp] at hr; cases hr
    · cases hr
      exact h1
    · cases hr
    · cases hr

theorem insertEntryF_present {f : Faults} (hf : f.erase = true) {env : StoreEnv} {n : Bytes} {st st' : StoreState} {e : Entry} {t : Bytes}
    {r : Option (List Entry)} (h : st.files.get n ≠ none) (hr : insertEntryF f env st e t = .ok (r, st')) : st'.files.get n ≠ none := by
  unfold insertEntryF at hr
  dsimp only at hr
  have h1 : (payloadSetF f.tokenFile f.partly env st.files (env.tokenEncode t)).1.get n ≠ none := payloadSetF_present h
  generalize (payloadSetF f.tokenFile f.partly env st.files (env.tokenEncode t)).1 = files at h1 hr
  have h2 : (entryInsertF f env { st with files := files } e (payloadSetF f.tokenFile f.partly env st.files (env.tokenEncode t)).2.1).2.files = files := by
    unfold entryInsertF entryInsert
    dsimp only
    repeat' split
    all_goals rfl
  generalize entryInsertF f env { st with files := files } e _ = q at h2 hr
  obtain ⟨b, s⟩ := q
  dsimp only at h2
  subst h2
  cases b with
  | false => cases hr; exact h1
  | true =>
    dsimp only at hr
    repeat' split at hr
    all_goals first
      | (cases hr; done)
      | exact pruneLoopF_present hf _ h1 hr
      | (cases hr; exact h1)
      | skip
    all_goals
      refine pruneLoopF_present hf _ ?_ hr
      exact h1

theorem finishIngestF_present {f : Faults} (hf : f.erase = true) {env : StoreEnv} {n : Bytes} {st st' : StoreState} {e : Entry} {t : Bytes}
    {r : Option (List Entry)} (h : st.files.get n ≠ none) (hr : finishIngestF f env st e t = .ok (r, st')) : st'.files.get n ≠ none := by
  unfold finishIngestF at hr
  cases hi : insertEntryF f env st e t with
  | ok w =>
    obtain ⟨r1, s1⟩ := w
    have := insertEntryF_present hf h hi
    rw [hi] at hr
    cases r1 <;> cases hr <;> exact this
  | err => rw [hi] at hr; cases hr
  | crash => rw [hi] at hr; cases hr
  | block => rw [hi] at hr; cases hr

theorem replaceOtherF_present {f : Faults} (hf : f.erase = true) {env : StoreEnv} {n : Bytes} {st st' : StoreState} {other e : Entry} {a : Bytes}
    {r : Option Unit} (h : st.files.get n ≠ none) (hr : replaceOtherF f env st other a e = .ok (r, st')) : st'.files.get n ≠ none := by
  unfold replaceOtherF at hr
  simp only [payloadEraseF_same hf] at hr
  have h1 : (entryDeleteF f env st other).files.get n ≠ none := by rw [entryDeleteF_files]; exact h
  generalize entryDeleteF f env st other = s at h1 hr
  split at hr
  · split at hr
    · cases hr
      split <;> exact h1
    · cases hr; exact h1
    · cases hr
    · cases hr
  · cases hr; exact h1

theorem ingestEntryF_present {f : Faults} (hf : f.erase = true) {env : StoreEnv} {n : Bytes} {st st' : StoreState} {e : Entry} {t : Bytes}
    {r : Option (List Entry)} (h : st.files.get n ≠ none) (hr : ingestEntryF f env st e t = .ok (r, st')) : st'.files.get n ≠ none := by
  unfold ingestEntryF at hr
  dsimp only at hr
  have hh : ({ st with locked := true } : StoreState).files.get n ≠ none := h
  repeat' split at hr
  all_goals first
    | (cases hr; done)
    | (cases hr; exact h)
    | exact finishIngestF_present hf hh hr
    | exact finishIngestF_present hf (replaceOtherF_present hf hh (by assumption)) hr
    | (cases hr; exact replaceOtherF_present hf hh (by assumption))

/-- While no file can be removed, every file stays. -/
theorem runOpF_present {f : Faults} (hf : f.erase = true) {env : StoreEnv} {n : Bytes} {st st' : StoreState} {op : StoreOp}
    {r : Option (List Entry)} (hop : op ≠ .restart) (h : st.files.get n ≠ none) (hr : runOpF f env st op = .ok (r, st')) : st'.files.get n ≠ none := by
  cases op with
  | restart => exact absurd rfl hop
  | ingest e t => exact ingestEntryF_present hf h hr
  | set now input au =>
    change storeSetF f env st now input au = _ at hr
    unfold storeSetF at hr
    simp only [payloadEraseF_same hf] at hr
    have h1 : (payloadSetF f.payloadFile f.partly env st.files input.payload).1.get n ≠ none := payloadSetF_present h
    generalize (payloadSetF f.payloadFile f.partly env st.files input.payload).1 = files at h1 hr
    have hh : ({ st with files := files } : StoreState).files.get n ≠ none := h1
    split at hr
    · cases hr; exact h1
    · rename_i t _
      cases hi : ingestEntryF f env { st with files := files } (setEntry env now input) t with
      | ok w =>
        obtain ⟨r1, s1⟩ := w
        have h2 := ingestEntryF_present hf hh hi
        rw [hi] at hr
        cases r1 with
        | none => cases hr; exact h2
        | some p =>
          dsimp only at hr
          split at hr
          · cases hr
            split <;> exact h2
          · cases hr; exact h2
          · cases hr
          · cases hr
      | err => rw [hi] at hr; cases hr
      | crash => rw [hi] at hr; cases hr
      | block => rw [hi] at hr; cases hr

end Willow.Props
