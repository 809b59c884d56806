import Verif.Model.Faults
import Verif.Lemmas.Concurrent
import Verif.Lemmas.CrashAlways

/-! Lemmas on calls during which writes fail. -/

namespace Willow

open Spec

/-! ### Reads that do not fail -/

theorem entryGetF_read {f : Faults} (h : f.entryRead = false) (env : StoreEnv) (st : StoreState) (s : Bytes) (path : Path) :
    entryGetF f env st s path = entryGet env st s path := by
  unfold entryGetF
  rw [h]
  rfl

theorem prunableLoopF_read {f : Faults} (h : f.entryRead = false) (env : StoreEnv) (st : StoreState) (time : UInt64) :
    ∀ ks, prunableLoopF f env st time ks = prunableLoop env st time ks
  | [] => rfl
  | k :: ks => by
    unfold prunableLoopF prunableLoop
    rw [entryGetF_read h, prunableLoopF_read h env st time ks]
    rfl

theorem prunableEntriesF_read {f : Faults} (h : f.entryRead = false) (env : StoreEnv) (st : StoreState) (pos : Position) :
    prunableEntriesF f env st pos = prunableEntries env st pos := by
  unfold prunableEntriesF prunableEntries
  congr 1
  funext ks
  exact prunableLoopF_read h env st pos.time ks

theorem refCountF_read {f : Faults} (h : f.refRead = false) (refs : KV) (d : Bytes) : refCountF f refs d = refCount refs d := by
  unfold refCountF
  rw [h]
  rfl

/-! ### Failures of files only -/

theorem pruneLoopF_alike (f : Faults) (hd : f.entryDelete = false) (hr : f.refSet = false)
    (hre : f.entryRead = false) (hrr : f.refRead = false) (env : StoreEnv) :
    ∀ l {s t : StoreState}, Alike s t → ResAlike (pruneLoopF f env l s) (pruneLoop env l t)
  | [], _, _, h => .ok h
  | (e, a) :: l, s, t, h => by
    obtain ⟨kv, kd, refs, files, partials, locked⟩ := s
    obtain ⟨kv', kd', refs', files', partials', locked'⟩ := t
    obtain ⟨rfl, rfl, rfl, rfl⟩ := h
    simp only [pruneLoopF, pruneLoop, entryDeleteF, entryDelete, refDecrementF, hd, hr, hrr, Bool.false_eq_true, if_false]
    cases refDecrement refs e.payloadDigest with
    | err => exact .ok ⟨rfl, rfl, rfl, rfl⟩
    | crash => exact .crash
    | block => exact .block
    | ok x =>
      obtain ⟨count, refs2⟩ := x
      dsimp only
      have hr := pruneLoopF_alike f hd hr hre hrr env l
        (s := if count = 0 then ⟨kv.delete (encodeKey env.p e.position), kdDelete kd e.position, refs2, payloadEraseF f env files e.payloadDigest, partials, locked⟩
          else ⟨kv.delete (encodeKey env.p e.position), kdDelete kd e.position, refs2, files, partials, locked⟩)
        (t := if count = 0 then ⟨kv.delete (encodeKey env.p e.position), kdDelete kd e.position, refs2, payloadErase env files' e.payloadDigest, partials', locked⟩
          else ⟨kv.delete (encodeKey env.p e.position), kdDelete kd e.position, refs2, files', partials', locked⟩)
        (by split <;> exact ⟨rfl, rfl, rfl, rfl⟩)
      generalize pruneLoopF f env l _ = x at hr ⊢
      generalize pruneLoop env l _ = y at hr ⊢
      cases hr with
      | @ok r _ _ h => cases r <;> exact .ok h
      | err => exact .err
      | crash => exact .crash
      | block => exact .block

theorem insertEntryF_alike (f : Faults) (he : f.entrySet = false) (hd : f.entryDelete = false) (hr : f.refSet = false)
    (hre : f.entryRead = false) (hrr : f.refRead = false)
    (env : StoreEnv) {s t : StoreState} (h : Alike s t) (e : Entry) (token : Bytes) :
    ResAlike (insertEntryF f env s e token) (insertEntry env t e token) := by
  obtain ⟨kv, kd, refs, files, partials, locked⟩ := s
  obtain ⟨kv', kd', refs', files', partials', locked'⟩ := t
  obtain ⟨rfl, rfl, rfl, rfl⟩ := h
  simp only [insertEntryF, insertEntry, entryInsertF, entryInsert, payloadSetF, payloadSet, refIncrementF, he, hr, hrr,
    Bool.false_eq_true, if_false]
  cases kdAdd kd ⟨e.position, []⟩ with
  | none => exact .ok ⟨rfl, rfl, rfl, rfl⟩
  | some kd2 =>
    dsimp only
    cases refIncrement refs e.payloadDigest with
    | err => exact .err
    | crash => exact .crash
    | block => exact .block
    | ok x =>
      obtain ⟨c, refs2⟩ := x
      dsimp only
      generalize hs : StoreState.mk _ _ _ _ partials locked = s
      generalize ht : StoreState.mk _ _ _ _ partials' locked = t
      have hst : Alike s t := by subst hs ht; exact ⟨rfl, rfl, rfl, rfl⟩
      rw [prunableEntriesF_read hre, prunableEntries_alike env hst]
      cases prunableEntries env t e.position with
      | err => exact .err
      | crash => exact .crash
      | block => exact .block
      | ok x =>
        cases x with
        | none => exact .ok hst
        | some l => exact pruneLoopF_alike f hd hr hre hrr env l hst

theorem replaceOtherF_alike (f : Faults) (hd : f.entryDelete = false) (hr : f.refSet = false)
    (hre : f.entryRead = false) (hrr : f.refRead = false) (env : StoreEnv)
    {s t : StoreState} (h : Alike s t) (other : Entry) (auth : Bytes) (e : Entry) :
    ResAlike (replaceOtherF f env s other auth e) (replaceOther env t other auth e) := by
  obtain ⟨kv, kd, refs, files, partials, locked⟩ := s
  obtain ⟨kv', kd', refs', files', partials', locked'⟩ := t
  obtain ⟨rfl, rfl, rfl, rfl⟩ := h
  simp only [replaceOtherF, replaceOther, entryDeleteF, entryDelete, refDecrementF, hd, hr, hrr, Bool.false_eq_true, if_false]
  split
  · cases refDecrement refs other.payloadDigest with
    | err => exact .ok ⟨rfl, rfl, rfl, rfl⟩
    | crash => exact .crash
    | block => exact .block
    | ok x => obtain ⟨c, refs2⟩ := x; dsimp only; split <;> exact .ok ⟨rfl, rfl, rfl, rfl⟩
  · exact .ok ⟨rfl, rfl, rfl, rfl⟩

theorem finishIngestF_alike (f : Faults) (hs : f.entrySet = false) (hd : f.entryDelete = false) (hr : f.refSet = false)
    (hre : f.entryRead = false) (hrr : f.refRead = false)
    (env : StoreEnv) {s t : StoreState} (h : Alike s t) (e : Entry) (token : Bytes) :
    ResAlike (finishIngestF f env s e token) (finishIngest env t e token) := by
  have hr := insertEntryF_alike f hs hd hr hre hrr env h e token
  unfold finishIngestF finishIngest
  generalize insertEntryF f env s e token = x at hr ⊢
  generalize insertEntry env t e token = y at hr ⊢
  cases hr with
  | @ok r _ _ h => cases r <;> first | exact .ok h | exact .ok ⟨h.1, h.2.1, h.2.2.1, rfl⟩
  | err => exact .err
  | crash => exact .crash
  | block => exact .block

theorem ingestEntryF_alike (f : Faults) (hs : f.entrySet = false) (hd : f.entryDelete = false) (hr : f.refSet = false)
    (hre : f.entryRead = false) (hrr : f.refRead = false)
    (env : StoreEnv) {s t : StoreState} (h : Alike s t) (e : Entry) (token : Bytes) :
    ResAlike (ingestEntryF f env s e token) (ingestEntry env t e token) := by
  have hh : Alike { s with locked := true } { t with locked := true } := ⟨h.1, h.2.1, h.2.2.1, rfl⟩
  have hg := entryGet_alike env hh e.subspaceId e.path
  unfold ingestEntryF ingestEntry
  dsimp only
  rw [entryGetF_read hre, hg, h.2.2.2, show driverPrefixesOf env.lib env.p s.kd e.subspaceId e.path = driverPrefixesOf env.lib env.p t.kd e.subspaceId e.path
    by rw [h.2.1]]
  by_cases hl : t.locked = true
  · simp only [hl, if_true]; exact .block
  simp only [hl, if_false, Bool.false_eq_true]
  split
  · exact .ok h
  split
  · exact .ok h
  cases driverPrefixesOf env.lib env.p t.kd e.subspaceId e.path with
  | err => exact .err
  | crash => exact .crash
  | block => exact .block
  | ok prefixes =>
    dsimp only
    split
    · exact .ok h
    cases entryGet env { t with locked := true } e.subspaceId e.path with
    | err => exact .err
    | crash => exact .crash
    | block => exact .block
    | ok g =>
      cases g with
      | error => exact .ok hh
      | missing => exact finishIngestF_alike f hs hd hr hre hrr env hh e token
      | found other auth =>
        dsimp only
        split
        · split
          · exact .ok h
          have hx := replaceOtherF_alike f hd hr hre hrr env hh other auth e
          generalize replaceOtherF f env _ other auth e = x at hx ⊢
          generalize replaceOther env _ other auth e = y at hx ⊢
          cases hx with
          | @ok r _ _ h => cases r <;> first | exact finishIngestF_alike f hs hd hr hre hrr env h e token | exact .ok h
          | err => exact .err
          | crash => exact .crash
          | block => exact .block
        · exact finishIngestF_alike f hs hd hr hre hrr env hh e token

/-- Failures to write or remove files do not change the outcome of a call. -/
theorem runOpF_alike (f : Faults) (hs : f.entrySet = false) (hd : f.entryDelete = false) (hr : f.refSet = false)
    (hre : f.entryRead = false) (hrr : f.refRead = false)
    (env : StoreEnv) (st : StoreState) (op : StoreOp) : ResAlike (runOpF f env st op) (runOp env st op) := by
  cases op with
  | restart =>
    show ResAlike (runOp env st .restart) (runOp env st .restart)
    cases h : runOp env st .restart with
    | ok x => exact .ok (Alike.refl _)
    | err => exact .err
    | crash => exact .crash
    | block => exact .block
  | ingest e token => exact ingestEntryF_alike f hs hd hr hre hrr env (Alike.refl st) e token
  | set now input au =>
    show ResAlike (storeSetF f env st now input au) (storeSet env st now input au)
    simp only [storeSetF, storeSet, payloadSetF]
    cases env.authorise (setEntry env now input) au with
    | none => exact .ok ⟨rfl, rfl, rfl, rfl⟩
    | some token =>
      dsimp only
      have hx := ingestEntryF_alike f hs hd hr hre hrr env
        (s := { st with files := if f.payloadFile = true then failedWrite f.partly env st.files input.payload else (payloadSet env st.files input.payload).1 })
        (t := { st with files := (payloadSet env st.files input.payload).1 }) ⟨rfl, rfl, rfl, rfl⟩
        (setEntry env now input) token
      generalize ingestEntryF f env _ (setEntry env now input) token = x at hx ⊢
      generalize ingestEntry env _ (setEntry env now input) token = y at hx ⊢
      cases hx with
      | err => exact .err
      | crash => exact .crash
      | block => exact .block
      | @ok r s t h =>
        cases r with
        | none => exact .ok h
        | some pruned =>
          dsimp only
          rw [refCountF_read hrr, h.2.2.1]
          cases refCount t.refs (payloadSet env st.files input.payload).2.1 with
          | ok c =>
            dsimp only
            split
            · exact .ok ⟨h.1, h.2.1, rfl, h.2.2.2⟩
            · exact .ok h
          | err => exact .ok h
          | crash => exact .crash
          | block => exact .block

/-! ### A file does not become right -/

/-- If a call returns, the file `n` is not `v` afterwards. -/
def Absent {α : Type} (n v : Bytes) (r : Res (α × StoreState)) : Prop := ∀ x st, r = .ok (x, st) → st.files.get n ≠ some v

theorem Absent.err {α : Type} {n v : Bytes} : Absent (α := α) n v .err := fun _ _ h => by cases h
theorem Absent.crash {α : Type} {n v : Bytes} : Absent (α := α) n v .crash := fun _ _ h => by cases h
theorem Absent.block {α : Type} {n v : Bytes} : Absent (α := α) n v .block := fun _ _ h => by cases h
theorem Absent.ok {α : Type} {n v : Bytes} {x : α} {st : StoreState} (h : st.files.get n ≠ some v) : Absent n v (.ok (x, st)) :=
  fun _ _ h' => by cases h'; exact h

theorem payloadEraseF_none (f : Faults) (env : StoreEnv) (files : KV) (d n v : Bytes) (h : files.get n ≠ some v) :
    (payloadEraseF f env files d).get n ≠ some v := by
  unfold payloadEraseF
  split
  · exact h
  · unfold payloadErase
    dsimp only
    split
    · exact h
    · rw [KV.get_delete]
      split
      · exact fun h' => by cases h'
      · exact h

theorem failedWrite_get_ne (partly : Option Nat) (env : StoreEnv) (files : KV) (x n : Bytes) (h : n ≠ env.fileKey (env.hash x)) :
    (failedWrite partly env files x).get n = files.get n := by
  unfold failedWrite
  cases partly with
  | none => rfl
  | some k =>
    dsimp only
    split
    · rfl
    · exact KV.get_set_ne _ _ h

theorem entryDeleteF_files (f : Faults) (env : StoreEnv) (st : StoreState) (e : Entry) :
    (entryDeleteF f env st e).files = st.files := by
  unfold entryDeleteF; split <;> rfl

theorem pruneLoopF_absent (f : Faults) (env : StoreEnv) (n v : Bytes) : ∀ l (st : StoreState), st.files.get n ≠ some v →
    Absent n v (pruneLoopF f env l st)
  | [], _, h => .ok h
  | (e, _) :: rest, st, h => by
    unfold pruneLoopF
    dsimp only
    cases refDecrementF f (entryDeleteF f env st e).refs e.payloadDigest with
    | err => exact .ok (by rw [entryDeleteF_files]; exact h)
    | crash => exact .crash
    | block => exact .block
    | ok x =>
      dsimp only
      have hx : (if x.1 = 0 then { ({ entryDeleteF f env st e with refs := x.2 } : StoreState) with
          files := payloadEraseF f env (entryDeleteF f env st e).files e.payloadDigest }
          else { entryDeleteF f env st e with refs := x.2 }).files.get n ≠ some v := by
        split
        · exact payloadEraseF_none f env _ _ n v (by rw [entryDeleteF_files]; exact h)
        · show (entryDeleteF f env st e).files.get n ≠ some v
          rw [entryDeleteF_files]; exact h
      have ih := pruneLoopF_absent f env n v rest _ hx
      generalize pruneLoopF f env rest _ = r at ih ⊢
      cases r with
      | err => exact .err
      | crash => exact .crash
      | block => exact .block
      | ok y =>
        obtain ⟨o, st'⟩ := y
        have := ih _ _ rfl
        cases o <;> exact .ok this

theorem insertEntryF_absent (f : Faults) (env : StoreEnv) (n v : Bytes) (st : StoreState) (e : Entry) (token : Bytes)
    (hn : n ≠ env.fileKey (env.hash (env.tokenEncode token))) (h : st.files.get n ≠ some v) :
    Absent n v (insertEntryF f env st e token) := by
  unfold insertEntryF payloadSetF
  have hfiles : (if f.tokenFile = true then failedWrite f.partly env st.files (env.tokenEncode token) else (payloadSet env st.files (env.tokenEncode token)).1).get n ≠ some v := by
    split
    · rw [failedWrite_get_ne _ env st.files (env.tokenEncode token) n hn]; exact h
    · rw [payloadSet_get_ne env st.files (env.tokenEncode token) n hn]; exact h
  dsimp only
  generalize (if f.tokenFile = true then failedWrite f.partly env st.files (env.tokenEncode token) else (payloadSet env st.files (env.tokenEncode token)).1) = files at hfiles ⊢
  have hins : ∀ d, (entryInsertF f env { st with files := files } e d).2.files = files := by
    intro d
    unfold entryInsertF entryInsert
    split
    · rfl
    · dsimp only; split <;> rfl
  specialize hins (payloadSet env st.files (env.tokenEncode token)).2.1
  generalize entryInsertF f env _ e _ = q at hins ⊢
  obtain ⟨b, st1⟩ := q
  have h1 : st1.files.get n ≠ some v := by rw [show st1.files = files from hins]; exact hfiles
  cases b with
  | false => exact .ok h1
  | true =>
    dsimp only
    cases refIncrementF f st1.refs e.payloadDigest with
    | err => exact .err
    | crash => exact .crash
    | block => exact .block
    | ok x =>
      dsimp only
      cases prunableEntriesF f env { st1 with refs := x.2, kd := corruptKey env.p st1.kd e.position } e.position with
      | err => exact .err
      | crash => exact .crash
      | block => exact .block
      | ok y => cases y with
        | none => exact .ok h1
        | some l => exact pruneLoopF_absent f env n v l _ h1

theorem finishIngestF_absent (f : Faults) (env : StoreEnv) (n v : Bytes) (st : StoreState) (e : Entry) (token : Bytes)
    (hn : n ≠ env.fileKey (env.hash (env.tokenEncode token))) (h : st.files.get n ≠ some v) :
    Absent n v (finishIngestF f env st e token) := by
  have hi := insertEntryF_absent f env n v st e token hn h
  unfold finishIngestF
  generalize insertEntryF f env st e token = r at hi ⊢
  cases r with
  | err => exact .err
  | crash => exact .crash
  | block => exact .block
  | ok y =>
    obtain ⟨o, st'⟩ := y
    have := hi _ _ rfl
    cases o <;> exact .ok this

theorem replaceOtherF_absent (f : Faults) (env : StoreEnv) (n v : Bytes) (st : StoreState) (other : Entry) (auth : Bytes) (e : Entry)
    (h : st.files.get n ≠ some v) : Absent n v (replaceOtherF f env st other auth e) := by
  unfold replaceOtherF
  dsimp only
  have h1 : (payloadEraseF f env (entryDeleteF f env st other).files auth).get n ≠ some v :=
    payloadEraseF_none f env _ _ n v (by rw [entryDeleteF_files]; exact h)
  split
  · cases refDecrementF f (entryDeleteF f env st other).refs other.payloadDigest with
    | err => exact .ok h1
    | crash => exact .crash
    | block => exact .block
    | ok x =>
      dsimp only
      split
      · exact .ok (payloadEraseF_none f env _ _ n v h1)
      · exact .ok h1
  · exact .ok h1

theorem ingestEntryF_absent (f : Faults) (env : StoreEnv) (n v : Bytes) (st : StoreState) (e : Entry) (token : Bytes)
    (hn : n ≠ env.fileKey (env.hash (env.tokenEncode token))) (h : st.files.get n ≠ some v) :
    Absent n v (ingestEntryF f env st e token) := by
  unfold ingestEntryF
  dsimp only
  split
  · exact .block
  split
  · exact .ok h
  split
  · exact .ok h
  cases driverPrefixesOf env.lib env.p st.kd e.subspaceId e.path with
  | err => exact .err
  | crash => exact .crash
  | block => exact .block
  | ok prefixes =>
    dsimp only
    split
    · exact .ok h
    cases entryGetF f env { st with locked := true } e.subspaceId e.path with
    | err => exact .err
    | crash => exact .crash
    | block => exact .block
    | ok g =>
      cases g with
      | error => exact .ok h
      | missing => exact finishIngestF_absent f env n v _ e token hn h
      | found other auth =>
        dsimp only
        split
        · split
          · exact .ok h
          have hx := replaceOtherF_absent f env n v { st with locked := true } other auth e h
          generalize replaceOtherF f env _ other auth e = r at hx ⊢
          cases r with
          | err => exact .err
          | crash => exact .crash
          | block => exact .block
          | ok y =>
            obtain ⟨o, st'⟩ := y
            have := hx _ _ rfl
            cases o with
            | none => exact .ok this
            | some u => exact finishIngestF_absent f env n v _ e token hn this
        · exact finishIngestF_absent f env n v _ e token hn h

/-- The payload that could not be written is not there after `Set`. -/
theorem storeSetF_absent (f : Faults) (hf : f.payloadFile = true) (env : StoreEnv) (n v : Bytes) (st : StoreState) (now : UInt64)
    (input : EntryInput) (au : Bytes)
    (hn : ∀ token, env.authorise (setEntry env now input) au = some token → n ≠ env.fileKey (env.hash (env.tokenEncode token)))
    (h : (failedWrite f.partly env st.files input.payload).get n ≠ some v) : Absent n v (storeSetF f env st now input au) := by
  simp only [storeSetF, payloadSetF, hf, if_true]
  cases hau : env.authorise (setEntry env now input) au with
  | none => exact .ok h
  | some token =>
    dsimp only
    have hx := ingestEntryF_absent f env n v { st with files := failedWrite f.partly env st.files input.payload } (setEntry env now input) token (hn token hau) h
    generalize ingestEntryF f env _ (setEntry env now input) token = r at hx ⊢
    cases r with
    | err => exact .err
    | crash => exact .crash
    | block => exact .block
    | ok y =>
      obtain ⟨o, st'⟩ := y
      have := hx _ _ rfl
      cases o with
      | none => exact .ok this
      | some pruned =>
        dsimp only
        cases refCountF f st'.refs (payloadSet env st.files input.payload).2.1 with
        | err => exact .ok this
        | crash => exact .crash
        | block => exact .block
        | ok c =>
          dsimp only
          split
          · exact .ok (payloadEraseF_none f env _ _ n v this)
          · exact .ok this

/-! ### The entry cannot be written -/

/-- The call does not succeed, and no entry is added. -/
def Refuses {α : Type} (kv : KV) (r : Res (Option α × StoreState)) : Prop :=
  ∀ x st, r = .ok (x, st) → x = none ∧ ∀ k v, st.kv.get k = some v → kv.get k = some v

theorem entryDeleteF_kv (f : Faults) (env : StoreEnv) (st : StoreState) (e : Entry) (k v : Bytes)
    (h : (entryDeleteF f env st e).kv.get k = some v) : st.kv.get k = some v := by
  unfold entryDeleteF at h
  split at h
  · exact h
  · simp only [entryDelete, KV.get_delete] at h
    split at h
    · cases h
    · exact h

theorem replaceOtherF_kv (f : Faults) (env : StoreEnv) (st : StoreState) (other : Entry) (auth : Bytes) (e : Entry) (x : Option Unit)
    (st' : StoreState) (h : replaceOtherF f env st other auth e = .ok (x, st')) (k v : Bytes) (hk : st'.kv.get k = some v) :
    st.kv.get k = some v := by
  have key : st'.kv = (entryDeleteF f env st other).kv := by
    unfold replaceOtherF at h
    dsimp only at h
    split at h
    · cases hd : refDecrementF f (entryDeleteF f env st other).refs other.payloadDigest with
      | err => rw [hd] at h; cases h; rfl
      | crash => rw [hd] at h; cases h
      | block => rw [hd] at h; cases h
      | ok y =>
        rw [hd] at h
        dsimp only at h
        split at h <;> (cases h; rfl)
    · cases h; rfl
  rw [key] at hk
  exact entryDeleteF_kv f env st other k v hk

theorem insertEntryF_refuses (f : Faults) (hs : f.entrySet = true) (env : StoreEnv) (st : StoreState) (e : Entry) (token : Bytes) :
    insertEntryF f env st e token =
      .ok (none, { st with files := (payloadSetF f.tokenFile f.partly env st.files (env.tokenEncode token)).1 }) := by
  unfold insertEntryF entryInsertF
  simp only [hs, if_true]

theorem finishIngestF_refuses (f : Faults) (hs : f.entrySet = true) (env : StoreEnv) (st : StoreState) (e : Entry) (token : Bytes) :
    finishIngestF f env st e token =
      .ok (none, { st with files := (payloadSetF f.tokenFile f.partly env st.files (env.tokenEncode token)).1 }) := by
  unfold finishIngestF
  rw [insertEntryF_refuses f hs]

theorem ingestEntryF_refuses (f : Faults) (hs : f.entrySet = true) (env : StoreEnv) (st : StoreState) (e : Entry) (token : Bytes) :
    Refuses st.kv (ingestEntryF f env st e token) := by
  have hok : ∀ st' : StoreState, st'.kv = st.kv → Refuses (α := List Entry) st.kv (.ok (none, st')) := by
    intro st' hkv x s h
    cases h
    exact ⟨rfl, fun k v hk => by rw [← hkv]; exact hk⟩
  unfold ingestEntryF
  dsimp only
  split
  · exact fun _ _ h => by cases h
  split
  · exact hok _ rfl
  split
  · exact hok _ rfl
  cases driverPrefixesOf env.lib env.p st.kd e.subspaceId e.path with
  | err => exact fun _ _ h => by cases h
  | crash => exact fun _ _ h => by cases h
  | block => exact fun _ _ h => by cases h
  | ok prefixes =>
    dsimp only
    split
    · exact hok _ rfl
    cases entryGetF f env { st with locked := true } e.subspaceId e.path with
    | err => exact fun _ _ h => by cases h
    | crash => exact fun _ _ h => by cases h
    | block => exact fun _ _ h => by cases h
    | ok g =>
      cases g with
      | error => exact hok _ rfl
      | missing =>
        dsimp only
        rw [finishIngestF_refuses f hs]; exact hok _ rfl
      | found other auth =>
        dsimp only
        split
        · split
          · exact hok _ rfl
          cases hx : replaceOtherF f env { st with locked := true } other auth e with
          | err => exact fun _ _ h => by cases h
          | crash => exact fun _ _ h => by cases h
          | block => exact fun _ _ h => by cases h
          | ok y =>
            obtain ⟨o, st'⟩ := y
            have hkv := replaceOtherF_kv f env _ other auth e o st' hx
            cases o with
            | none => intro x s h; cases h; exact ⟨rfl, hkv⟩
            | some u =>
              dsimp only
              rw [finishIngestF_refuses f hs]
              intro x s h; cases h; exact ⟨rfl, hkv⟩
        · rw [finishIngestF_refuses f hs]; exact hok _ rfl

/-- A call whose entry cannot be written does not succeed. -/
theorem storeSetF_refuses (f : Faults) (hs : f.entrySet = true) (env : StoreEnv) (st : StoreState) (now : UInt64)
    (input : EntryInput) (au : Bytes) : Refuses st.kv (storeSetF f env st now input au) := by
  unfold storeSetF
  generalize payloadSetF f.payloadFile f.partly env st.files input.payload = q
  obtain ⟨files, digest, len⟩ := q
  dsimp only
  cases env.authorise (setEntry env now input) au with
  | none => intro x s h; cases h; exact ⟨rfl, fun _ _ h => h⟩
  | some token =>
    dsimp only
    have hx := ingestEntryF_refuses f hs env { st with files := files } (setEntry env now input) token
    generalize ingestEntryF f env _ (setEntry env now input) token = r at hx ⊢
    cases r with
    | err => exact fun _ _ h => by cases h
    | crash => exact fun _ _ h => by cases h
    | block => exact fun _ _ h => by cases h
    | ok y =>
      obtain ⟨o, st'⟩ := y
      obtain ⟨h1, h2⟩ := hx _ _ rfl
      subst h1
      intro x s h; cases h; exact ⟨rfl, h2⟩

/-- An acceptable entry that cannot be written: the call fails with the lock held, and an entry that it would have
replaced is gone. -/
theorem ingestEntryF_stuck {env : StoreEnv} (he : EnvOk env) {st : StoreState} {A : List Item} {leak : Bytes → Nat}
    (h : Abs env st A leak) (hl : st.locked = false) (e : Entry) (token : Bytes) (hc : Comfortable env.p e.path)
    (hacc : Acceptable env A e token) :
    ∃ st', ingestEntryF { entrySet := true } env st e token = .ok (none, st') ∧ st'.locked = true ∧
      ∀ o ∈ A, o.pos.subspace = e.subspaceId → o.pos.path = e.path → ∃ A', A.Perm (o :: A') ∧ Core env.p st'.kv st'.kd A' := by
  obtain ⟨hns, hauth, hacc⟩ := hacc
  have hnacc := mt not_accepts.2 (Classical.not_not.2 hacc)
  rw [not_or] at hnacc
  unfold ingestEntryF
  rw [if_neg (by simp [hl])]
  dsimp only
  rw [if_neg (by simp [hns]), if_neg (by simp [hauth])]
  obtain ⟨ks, hk1, hk2⟩ := h.core.olderPrefix (s := e.subspaceId) hc e.timestamp
  rw [hk1]
  dsimp only
  rw [if_neg (fun hc' => hnacc.1 (hk2.1 hc'))]
  have hheld : Abs env { st with locked := true } A leak := ⟨h.core, h.refs⟩
  rw [entryGetF_read rfl]
  rcases hheld.core.entryGet e.subspaceId e.path hc.valid (.inr hc) with ⟨h5, h6⟩ | ⟨o, ho, hos, hop, h5⟩
  · rw [h5]
    dsimp only
    rw [finishIngestF_refuses _ rfl]
    exact ⟨_, rfl, rfl, fun o ho hos hop => absurd ⟨hos, hop⟩ (h6 o ho)⟩
  · rw [h5]
    dsimp only
    have hopath : (o.entry env.namespaceId).path = e.path := hop
    have hotime : ¬ (o.entry env.namespaceId).timestamp ≥ e.timestamp := fun hc' => hnacc.2 ⟨o, ho, hos, hop, hc'⟩
    rw [if_pos ((decides_path.eq_iff _ _).2 hopath), if_neg hotime]
    have hperm : A.Perm (o :: A.erase o) := List.perm_cons_erase ho
    obtain ⟨st1, r1, r2, r3, _, _⟩ := replaceOther_ok he (hheld.perm hperm) e
    have hal := replaceOtherF_alike { entrySet := true } rfl rfl rfl rfl env (Alike.refl { st with locked := true })
      (o.entry env.namespaceId) o.val.authDigest e
    rw [r1] at hal
    generalize replaceOtherF { entrySet := true } env _ (o.entry env.namespaceId) o.val.authDigest e = q at hal ⊢
    cases hal with
    | @ok _ s _ ha =>
      dsimp only
      rw [finishIngestF_refuses _ rfl]
      refine ⟨_, rfl, ?_, ?_⟩
      · show s.locked = true
        rw [ha.2.2.2, r3]
      · intro b hb hbs hbp
        have : b = o := apart_unique h.core.apart hb ho (hbs.trans hos.symm) (hbp.trans hop.symm)
        subst this
        refine ⟨_, hperm, ?_⟩
        show Core env.p s.kv s.kd _
        rw [ha.1, ha.2.1]
        exact r2.core

/-! ### Deletions and counts that cannot be written -/

theorem refDecrementF_ok (f : Faults) (hrr : f.refRead = false) (refs : KV) (d : Bytes) (c : UInt64) (h : refCount refs d = .ok c) :
    ∃ refs', refDecrementF f refs d = .ok (c - 1, refs') ∧ (f.refSet = true → refs' = refs) ∧
      ∀ d', (∃ c', refCount refs d' = .ok c') → ∃ c', refCount refs' d' = .ok c' := by
  unfold refCount at h
  unfold refDecrementF refDecrement
  simp only [hrr, Bool.false_eq_true, if_false]
  cases hg : refs.get d with
  | none => rw [hg] at h; cases h
  | some b =>
    rw [hg] at h
    dsimp only at h ⊢
    rw [h]
    simp only [Res.ok_bind]
    refine ⟨_, rfl, fun hr => by rw [if_pos hr], ?_⟩
    intro d' hd'
    split
    · exact hd'
    · unfold refCount
      by_cases hdd : d' = d
      · subst hdd
        rw [KV.get_set_self]
        exact ⟨_, bigEndianUint64_putU64 _⟩
      · rw [KV.get_set_ne _ _ hdd]
        exact hd'

/-- Pruning when deletions fail: nothing is removed. -/
theorem pruneLoopF_kept (f : Faults) (hd : f.entryDelete = true) (hrr : f.refRead = false) (env : StoreEnv) : ∀ (B : List Item) (st : StoreState),
    (∀ b ∈ B, ∃ c, refCount st.refs b.val.payloadDigest = .ok c) →
    ∃ st', pruneLoopF f env (B.map fun b => (b.entry env.namespaceId, b.val.authDigest)) st =
        .ok (some (B.map (Item.entry env.namespaceId)), st') ∧ st'.locked = st.locked ∧ (f.refSet = true → st'.refs = st.refs) ∧
      st'.kv = st.kv ∧ st'.kd = st.kd
  | [], st, _ => ⟨st, rfl, rfl, fun _ => rfl, rfl, rfl⟩
  | b :: B, st, hcount => by
    obtain ⟨c, hc⟩ := hcount b List.mem_cons_self
    obtain ⟨refs2, k1, k2, k3⟩ := refDecrementF_ok f hrr st.refs b.val.payloadDigest c hc
    have hdig : (b.entry env.namespaceId).payloadDigest = b.val.payloadDigest := rfl
    simp only [List.map_cons, pruneLoopF, entryDeleteF, hd, if_true]
    rw [hdig, k1]
    dsimp only
    generalize ht : (if c - 1 = 0 then _ else _ : StoreState) = t
    have t1 : t.kv = st.kv := by subst ht; split <;> rfl
    have t2 : t.kd = st.kd := by subst ht; split <;> rfl
    have t3 : t.refs = refs2 := by subst ht; split <;> rfl
    have t4 : t.locked = st.locked := by subst ht; split <;> rfl
    obtain ⟨st', i1, i2, i3, i4, i5⟩ := pruneLoopF_kept f hd hrr env B t (fun b'' hb'' => by
      rw [t3]; exact k3 _ (hcount b'' (List.mem_cons_of_mem _ hb'')))
    rw [i1]
    exact ⟨st', rfl, i2.trans t4, fun hr => ((i3 hr).trans t3).trans (k2 hr), i4.trans t1, i5.trans t2⟩

/-- Pruning with failing writes. -/
theorem pruneLoopF_core (f : Faults) (hd : f.entryDelete = false) (hrr : f.refRead = false) (env : StoreEnv) (he : EnvOk env) (C : List Item) :
    ∀ (B : List Item) (st : StoreState),
    Core env.p st.kv st.kd (B ++ C) → (∀ b ∈ B, ∃ c, refCount st.refs b.val.payloadDigest = .ok c) →
    ∃ st', pruneLoopF f env (B.map fun b => (b.entry env.namespaceId, b.val.authDigest)) st =
        .ok (some (B.map (Item.entry env.namespaceId)), st') ∧ st'.locked = st.locked ∧ (f.refSet = true → st'.refs = st.refs) ∧
      Core env.p st'.kv st'.kd C
  | [], st, h, _ => ⟨st, rfl, rfl, fun _ => rfl, h⟩
  | b :: B, st, h, hcount => by
    obtain ⟨c, hc⟩ := hcount b List.mem_cons_self
    obtain ⟨refs2, k1, k2, k3⟩ := refDecrementF_ok f hrr st.refs b.val.payloadDigest c hc
    have hdig : (b.entry env.namespaceId).payloadDigest = b.val.payloadDigest := rfl
    have hdel : entryDelete env st (b.entry env.namespaceId) =
      { st with kv := st.kv.delete (encodeKey env.p b.pos), kd := kdDelete st.kd b.pos } := rfl
    simp only [List.map_cons, pruneLoopF, entryDeleteF, hd, Bool.false_eq_true, if_false]
    rw [hdel, hdig, k1]
    dsimp only
    generalize ht : (if c - 1 = 0 then _ else _ : StoreState) = t
    have t1 : t.kv = st.kv.delete (encodeKey env.p b.pos) := by subst ht; split <;> rfl
    have t2 : t.kd = kdDelete st.kd b.pos := by subst ht; split <;> rfl
    have t3 : t.refs = refs2 := by subst ht; split <;> rfl
    have t4 : t.locked = st.locked := by subst ht; split <;> rfl
    obtain ⟨st', i1, i2, i3, i4⟩ := pruneLoopF_core f hd hrr env he C B t (by rw [t1, t2]; exact Core.delete he h)
      (fun b'' hb'' => by rw [t3]; exact k3 _ (hcount b'' (List.mem_cons_of_mem _ hb'')))
    rw [i1]
    exact ⟨st', rfl, i2.trans t4, fun hr => ((i3 hr).trans t3).trans (k2 hr), i4⟩

/-- Inserting at a new path with deletions or counts that cannot be written. -/
theorem insertEntryF_fresh (f : Faults) (hs : f.entrySet = false) (hre : f.entryRead = false) (hrr : f.refRead = false) {env : StoreEnv} (he : EnvOk env) {st : StoreState} {A : List Item}
    {leak : Bytes → Nat} (h : Abs env st A leak) (e : Entry) (token : Bytes) (hf : Fine env.p (newItem env e token))
    (hn : ∀ x ∈ A, Apart (newItem env e token) x) :
    ∃ (B : List Item) (st' : StoreState), insertEntryF f env st e token = .ok (some (B.map (Item.entry env.namespaceId)), st') ∧
      B.Perm (A.filter fun a => decide (Prunes e.position a.pos)) ∧ st'.locked = st.locked ∧
      (f.refSet = true → st'.refs = st.refs) ∧
      Core env.p st'.kv st'.kd (newItem env e token :: if f.entryDelete = true then A else A.filter fun a => !decide (Prunes e.position a.pos)) := by
  unfold insertEntryF payloadSetF
  generalize hps : payloadSet env st.files (env.tokenEncode token) = ps
  obtain ⟨files0, authDigest, len⟩ := ps
  have hauth : authDigest = env.hash (env.tokenEncode token) := by
    unfold payloadSet at hps; simp only [Prod.mk.injEq] at hps; exact hps.2.1.symm
  subst hauth
  dsimp only
  generalize (if f.tokenFile = true then failedWrite f.partly env st.files (env.tokenEncode token) else files0) = files
  unfold entryInsertF entryInsert
  simp only [hs, Bool.false_eq_true, if_false]
  have hadd : kdAdd st.kd ⟨e.position, []⟩ = some (st.kd ++ [⟨e.position, []⟩]) := by
    unfold kdAdd
    rw [if_neg]
    simp only [List.any_eq_true, decide_eq_true_eq, not_exists, not_and]
    intro k hk hkp
    obtain ⟨a, ha, hak⟩ := h.core.mem_kd hk
    exact (hn a ha).ne (hak.trans hkp).symm
  rw [hadd]
  dsimp only
  have hcore := h.core.insert he (newItem env e token) [] hf hn
  obtain ⟨n, refs1, hr1, hr2⟩ := h.refs.increment (newItem env e token)
  have hdig : (newItem env e token).val.payloadDigest = e.payloadDigest := rfl
  rw [hdig] at hr1
  simp only [refIncrementF, hrr, Bool.false_eq_true, if_false, hr1]
  generalize hrefs : (if f.refSet = true then st.refs else refs1) = refs'
  have hcount : ∀ a ∈ A, ∃ c, refCount refs' a.val.payloadDigest = .ok c := by
    intro a ha
    have hpos : 0 < refsTo A a.val.payloadDigest := List.countP_pos_iff.2 ⟨a, ha, by simp⟩
    unfold refCount
    subst hrefs
    by_cases hr : f.refSet = true
    · rw [if_pos hr]
      rcases h.refs a.val.payloadDigest with ⟨_, hz, _⟩ | hz
      · omega
      · rw [hz]; exact ⟨_, bigEndianUint64_putU64 _⟩
    · rw [if_neg hr]
      rcases hr2 a.val.payloadDigest with ⟨_, hz, _⟩ | hz
      · rw [refsTo_cons] at hz; omega
      · rw [hz]; exact ⟨_, bigEndianUint64_putU64 _⟩
  have hrs : f.refSet = true → refs' = st.refs := fun hr => by subst hrefs; rw [if_pos hr]
  have hcomf : Comfortable env.p e.position.path := hf.path
  rw [corruptKey_comfortable hcomf, prunableEntriesF_read hre]
  obtain ⟨B, hb1, hb2⟩ := prunableEntries_ok (st := { st with
    kv := st.kv.set (encodeKey env.p e.position) (encodeValues ⟨e.payloadLength, e.payloadDigest, env.hash (env.tokenEncode token)⟩),
    kd := st.kd ++ [⟨e.position, []⟩], refs := refs', files := files }) hcore e.position hcomf
  rw [hb1]
  dsimp only
  have hself : decide (Prunes e.position (newItem env e token).pos) = false := by
    rw [decide_eq_false_iff_not]
    rintro ⟨_, _, h3, _⟩
    exact h3 rfl
  rw [List.filter_cons_of_neg (by rw [hself]; simp)] at hb2
  have hcountB : ∀ b ∈ B, ∃ c, refCount refs' b.val.payloadDigest = .ok c := fun b hb =>
    hcount b (List.mem_filter.1 (hb2.mem_iff.1 hb)).1
  by_cases hd : f.entryDelete = true
  · obtain ⟨st', i1, i2, i3, i4, i5⟩ := pruneLoopF_kept f hd hrr env B { st with
      kv := st.kv.set (encodeKey env.p e.position) (encodeValues ⟨e.payloadLength, e.payloadDigest, env.hash (env.tokenEncode token)⟩),
      kd := st.kd ++ [⟨e.position, []⟩], refs := refs', files := files } hcountB
    refine ⟨B, st', i1, hb2, i2, fun hr => (i3 hr).trans (hrs hr), ?_⟩
    rw [if_pos hd, i4, i5]
    exact hcore
  · have hd' : f.entryDelete = false := by simpa using hd
    have hsplit : (newItem env e token :: A).Perm (B ++ (newItem env e token :: A.filter fun a => !decide (Prunes e.position a.pos))) := by
      refine ((filter_not_perm (fun a => decide (Prunes e.position a.pos)) A).cons _).trans ?_
      refine List.perm_middle.symm.trans ?_
      exact hb2.symm.append_right _
    obtain ⟨st', i1, i2, i3, i4⟩ := pruneLoopF_core f hd' hrr env he _ B { st with
      kv := st.kv.set (encodeKey env.p e.position) (encodeValues ⟨e.payloadLength, e.payloadDigest, env.hash (env.tokenEncode token)⟩),
      kd := st.kd ++ [⟨e.position, []⟩], refs := refs', files := files } (hcore.perm hsplit) hcountB
    refine ⟨B, st', i1, hb2, i2, fun hr => (i3 hr).trans (hrs hr), ?_⟩
    rw [if_neg hd]
    exact i4

/-- Ingesting at a new path with deletions or counts that cannot be written. -/
theorem ingestEntryF_fresh (f : Faults) (hs : f.entrySet = false) (hre : f.entryRead = false) (hrr : f.refRead = false) {env : StoreEnv} (he : EnvOk env) {st : StoreState} {A : List Item}
    {leak : Bytes → Nat} (h : Abs env st A leak) (hl : st.locked = false) (e : Entry) (token : Bytes)
    (hc : Comfortable env.p e.path) (hd : e.payloadDigest.length < 2 ^ 64) (hacc : Acceptable env A e token)
    (hnew : ∀ o ∈ A, ¬ (o.pos.subspace = e.subspaceId ∧ o.pos.path = e.path)) :
    ∃ (B : List Item) (st' : StoreState), ingestEntryF f env st e token = .ok (some (B.map (Item.entry env.namespaceId)), st') ∧
      B.Perm (A.filter fun a => decide (Prunes e.position a.pos)) ∧ st'.locked = false ∧
      (f.refSet = true → st'.refs = st.refs) ∧
      Core env.p st'.kv st'.kd (newItem env e token :: if f.entryDelete = true then A else A.filter fun a => !decide (Prunes e.position a.pos)) := by
  have hfine : Fine env.p (newItem env e token) := ⟨hc, hd, he.hash _⟩
  obtain ⟨hns, hauth, hacc⟩ := hacc
  have hnacc := mt not_accepts.2 (Classical.not_not.2 hacc)
  rw [not_or] at hnacc
  unfold ingestEntryF
  rw [if_neg (by simp [hl])]
  dsimp only
  rw [if_neg (by simp [hns]), if_neg (by simp [hauth])]
  obtain ⟨ks, hk1, hk2⟩ := h.core.olderPrefix (s := e.subspaceId) hc e.timestamp
  rw [hk1]
  dsimp only
  rw [if_neg (fun hc' => hnacc.1 (hk2.1 hc'))]
  have hheld : Abs env { st with locked := true } A leak := ⟨h.core, h.refs⟩
  rw [entryGetF_read hre]
  rcases hheld.core.entryGet e.subspaceId e.path hc.valid (.inr hc) with ⟨h5, h6⟩ | ⟨o, ho, hos, hop, h5⟩
  · rw [h5]
    dsimp only
    obtain ⟨B, st', i1, i2, i3, i4, i5⟩ := insertEntryF_fresh f hs hre hrr he hheld e token hfine
      (fun x hx hxe => hnew x hx ⟨hxe.1.symm, hxe.2.symm⟩)
    unfold finishIngestF
    rw [i1]
    exact ⟨B, _, rfl, i2, rfl, i4, i5⟩
  · exact absurd ⟨hos, hop⟩ (hnew o ho)

theorem prunableLoop_none (env : StoreEnv) (st : StoreState) (time : UInt64) : ∀ ks : List KdKey,
    (∀ k ∈ ks, ¬ k.pos.time < time) → prunableLoop env st time ks = .ok (some [])
  | [], _ => rfl
  | k :: ks, h => by
    unfold prunableLoop
    rw [if_neg (h k List.mem_cons_self)]
    exact prunableLoop_none env st time ks fun k' hk' => h k' (List.mem_cons_of_mem _ hk')

theorem two_le_length {α : Type} {l : List α} {a b : α} (ha : a ∈ l) (hb : b ∈ l) (hne : a ≠ b) : 2 ≤ l.length := by
  match l, ha, hb with
  | [], ha, _ => cases ha
  | [x], ha, hb => exact absurd ((List.mem_singleton.1 ha).trans (List.mem_singleton.1 hb).symm) hne
  | _ :: _ :: _, _, _ => simp

/-- Replacing an entry that cannot be deleted: both are there afterwards, and looking for either ends the process. -/
theorem ingestEntryF_both {env : StoreEnv} (he : EnvOk env) {st : StoreState} {A : List Item} {leak : Bytes → Nat}
    (h : Abs env st A leak) (hl : st.locked = false) (e : Entry) (token : Bytes) (hc : Comfortable env.p e.path)
    (hacc : Acceptable env A e token) (o : Item) (ho : o ∈ A) (hos : o.pos.subspace = e.subspaceId) (hop : o.pos.path = e.path)
    (hbelow : ∀ a ∈ A, ¬ Prunes e.position a.pos) :
    ∃ st', ingestEntryF { entryDelete := true } env st e token = .ok (some [], st') ∧ st'.locked = false ∧
      (∃ c, refCount st'.refs e.payloadDigest = .ok c) ∧
      st'.kv = st.kv.set (encodeKey env.p e.position) (encodeValues (newItem env e token).val) ∧
      st'.kd = st.kd ++ [⟨e.position, []⟩] ∧ entryGet env st' e.subspaceId e.path = .crash := by
  obtain ⟨hns, hauth, hacc⟩ := hacc
  have hnacc := mt not_accepts.2 (Classical.not_not.2 hacc)
  rw [not_or] at hnacc
  have hotime : ¬ o.pos.time ≥ e.timestamp := fun hc' => hnacc.2 ⟨o, ho, hos, hop, hc'⟩
  have hvalid : ∀ k ∈ st.kd ++ [(⟨e.position, []⟩ : KdKey)], ValidPath env.p k.pos.path := by
    intro k hk
    rcases List.mem_append.1 hk with hk | hk
    · obtain ⟨a, ha, hak⟩ := h.core.mem_kd hk
      rw [← hak]
      exact (h.core.fine a ha).path.valid
    · rw [List.mem_singleton.1 hk]; exact hc.valid
  unfold ingestEntryF
  rw [if_neg (by simp [hl])]
  dsimp only
  rw [if_neg (by simp [hns]), if_neg (by simp [hauth])]
  obtain ⟨ks, hk1, hk2⟩ := h.core.olderPrefix (s := e.subspaceId) hc e.timestamp
  rw [hk1]
  dsimp only
  rw [if_neg (fun hc' => hnacc.1 (hk2.1 hc'))]
  have hheld : Abs env { st with locked := true } A leak := ⟨h.core, h.refs⟩
  rw [entryGetF_read rfl]
  rcases hheld.core.entryGet e.subspaceId e.path hc.valid (.inr hc) with ⟨_, h6⟩ | ⟨b, hb, hbs, hbp, h5⟩
  · exact absurd ⟨hos, hop⟩ (h6 o ho)
  have hbo : b = o := apart_unique h.core.apart hb ho (hbs.trans hos.symm) (hbp.trans hop.symm)
  subst hbo
  rw [h5]
  dsimp only
  have hopath : (b.entry env.namespaceId).path = e.path := hop
  rw [if_pos ((decides_path.eq_iff _ _).2 hopath), if_neg (show ¬ (b.entry env.namespaceId).timestamp ≥ e.timestamp from hotime)]
  have hdec : ∀ d, st.refs.get d = none ∨ ∃ c, refCount st.refs d = .ok c := by
    intro d
    rcases h.refs d with hz | hz
    · exact .inl hz.1
    · exact .inr ⟨_, by unfold refCount; rw [hz]; exact bigEndianUint64_putU64 _⟩
  have hrep : ∃ s : StoreState, replaceOtherF { entryDelete := true } env { st with locked := true } (b.entry env.namespaceId) b.val.authDigest e =
      .ok (some (), s) ∧ s.kv = st.kv ∧ s.kd = st.kd ∧ ∀ d, s.refs.get d = none ∨ ∃ c, refCount s.refs d = .ok c := by
    unfold replaceOtherF entryDeleteF
    dsimp only
    rw [if_pos rfl]
    split
    · have hcnt : ∃ c, refCount st.refs b.val.payloadDigest = .ok c := by
        have hpos : 0 < refsTo A b.val.payloadDigest := List.countP_pos_iff.2 ⟨b, ho, by simp⟩
        rcases h.refs b.val.payloadDigest with ⟨_, hz, _⟩ | hz
        · omega
        · exact ⟨_, by unfold refCount; rw [hz]; exact bigEndianUint64_putU64 _⟩
      obtain ⟨c, hcnt⟩ := hcnt
      have hdig : (b.entry env.namespaceId).payloadDigest = b.val.payloadDigest := rfl
      unfold refDecrementF
      rw [if_neg (show ¬ (({ entryDelete := true } : Faults).refRead = true) by decide)]
      unfold refDecrement
      unfold refCount at hcnt
      rw [hdig]
      cases hg : st.refs.get b.val.payloadDigest with
      | none => rw [hg] at hcnt; cases hcnt
      | some bs =>
        rw [hg] at hcnt
        dsimp only at hcnt ⊢
        rw [hcnt]
        simp only [Res.ok_bind]
        have hset : ∀ d, (st.refs.set b.val.payloadDigest (putU64 (c - 1).toNat)).get d = none ∨
            ∃ c', refCount (st.refs.set b.val.payloadDigest (putU64 (c - 1).toNat)) d = .ok c' := by
          intro d
          by_cases hdd : d = b.val.payloadDigest
          · subst hdd
            exact .inr ⟨_, by unfold refCount; rw [KV.get_set_self]; exact bigEndianUint64_putU64 _⟩
          · unfold refCount
            rw [KV.get_set_ne _ _ hdd]
            exact hdec d
        split
        · exact ⟨_, rfl, rfl, rfl, by simpa using hset⟩
        · exact ⟨_, rfl, rfl, rfl, by simpa using hset⟩
    · exact ⟨_, rfl, rfl, rfl, hdec⟩
  obtain ⟨s, s1, s2, s3, s4⟩ := hrep
  rw [s1]
  dsimp only
  unfold finishIngestF insertEntryF payloadSetF entryInsertF entryInsert
  have hadd : kdAdd st.kd ⟨e.position, []⟩ = some (st.kd ++ [⟨e.position, []⟩]) := by
    unfold kdAdd
    rw [if_neg]
    simp only [List.any_eq_true, decide_eq_true_eq, not_exists, not_and]
    intro k hk hkp
    obtain ⟨a, ha, hak⟩ := h.core.mem_kd hk
    have hap : a.pos = e.position := hak.trans hkp
    have : a = b := apart_unique h.core.apart ha ho (by rw [hap]; exact hos.symm) (by rw [hap]; exact hop.symm)
    subst this
    exact hotime (by rw [hap]; exact UInt64.le_refl _)
  have hinc : ∃ c refs', refIncrement s.refs e.payloadDigest = .ok (c, refs') ∧ ∃ c', refCount refs' e.payloadDigest = .ok c' := by
    have hx : ∀ c : UInt64, ∃ c', refCount (s.refs.set e.payloadDigest (putU64 c.toNat)) e.payloadDigest = .ok c' := fun c =>
      ⟨_, by unfold refCount; rw [KV.get_set_self]; exact bigEndianUint64_putU64 _⟩
    unfold refIncrement
    rcases s4 e.payloadDigest with hz | ⟨c, hz⟩
    · rw [hz]
      exact ⟨_, _, rfl, hx 1⟩
    · unfold refCount at hz
      cases hg : s.refs.get e.payloadDigest with
      | none => rw [hg] at hz; cases hz
      | some bs =>
        rw [hg] at hz
        dsimp only at hz ⊢
        rw [hz]
        exact ⟨_, _, rfl, hx (c + 1)⟩
  obtain ⟨c, refs', hinc, hcnt⟩ := hinc
  simp only [Bool.false_eq_true, if_false, s2, s3, hadd, refIncrementF, hinc]
  rw [corruptKey_comfortable (show Comfortable env.p e.position.path from hc)]
  generalize hs' : StoreState.mk _ (st.kd ++ [⟨e.position, []⟩]) refs' _ s.partials s.locked = s'
  have k1 : s'.kd = st.kd ++ [⟨e.position, []⟩] := by subst hs'; rfl
  have k2 : s'.kv = st.kv.set (encodeKey env.p e.position) (encodeValues (newItem env e token).val) := by subst hs'; rfl
  have k3 : s'.refs = refs' := by subst hs'; rfl
  have hprune : prunableEntries env s' e.position = .ok (some []) := by
    unfold prunableEntries
    rw [k1]
    obtain ⟨ks, q1, q2⟩ := prefixedBy_ok env.lib env.p (st.kd ++ [⟨e.position, []⟩]) e.position.subspace e.position.path hc hvalid
    rw [q1]
    simp only [Res.ok_bind]
    refine prunableLoop_none env s' _ ks fun k hk => ?_
    obtain ⟨m1, m2⟩ := List.mem_filter.1 (q2.mem_iff.1 hk)
    simp only [decide_eq_true_eq] at m2
    rcases List.mem_append.1 m1 with m1 | m1
    · obtain ⟨a, ha, hak⟩ := h.core.mem_kd m1
      intro ht
      exact hbelow a ha (by rw [hak]; exact ⟨m2.1, m2.2.1, m2.2.2, ht⟩)
    · rw [List.mem_singleton.1 m1] at m2
      exact absurd rfl m2.2.2
  rw [prunableEntriesF_read rfl, hprune]
  refine ⟨{ s' with locked := false }, rfl, rfl, by rw [show ({ s' with locked := false } : StoreState).refs = refs' from k3]; exact hcnt, k2, k1, ?_⟩
  unfold entryGet
  rw [show ({ s' with locked := false } : StoreState).kd = st.kd ++ [⟨e.position, []⟩] from k1]
  obtain ⟨k, hk, hkb⟩ := h.core.in_kd ho
  rw [storageGet_several env.lib env.p _ e.subspaceId e.path hc.valid (.inr (.inl ⟨hc, hvalid⟩))
    (two_le_length (a := k) (b := ⟨e.position, []⟩)
      (List.mem_filter.2 ⟨List.mem_append_left _ hk, by rw [hkb]; simp [hos, hop]⟩)
      (List.mem_filter.2 ⟨List.mem_append_right _ (List.mem_singleton.2 rfl), by simp [Entry.position]⟩)
      (fun hc' => hotime (by
        have : k.pos = e.position := by rw [hc']
        rw [← hkb, this]; exact UInt64.le_refl _)))]
  rfl

/-! ### Reads that fail -/

/-- The entry to be replaced, or the count of its payload, cannot be read. -/
theorem ingestEntryF_unread {env : StoreEnv} (he : EnvOk env) {st : StoreState} {A : List Item} {leak : Bytes → Nat}
    (h : Abs env st A leak) (hl : st.locked = false) (e : Entry) (token : Bytes) (hc : Comfortable env.p e.path)
    (hacc : Acceptable env A e token) (o : Item) (ho : o ∈ A) (hos : o.pos.subspace = e.subspaceId) (hop : o.pos.path = e.path) :
    ingestEntryF { entryRead := true } env st e token = .ok (none, { st with locked := true }) ∧
    (o.val.payloadDigest ≠ e.payloadDigest → ∃ st' A', ingestEntryF { refRead := true } env st e token = .ok (none, st') ∧
      st'.locked = true ∧ A.Perm (o :: A') ∧ Core env.p st'.kv st'.kd A') := by
  obtain ⟨hns, hauth, hacc⟩ := hacc
  have hnacc := mt not_accepts.2 (Classical.not_not.2 hacc)
  rw [not_or] at hnacc
  have hotime : ¬ o.pos.time ≥ e.timestamp := fun hc' => hnacc.2 ⟨o, ho, hos, hop, hc'⟩
  obtain ⟨ks, hk1, hk2⟩ := h.core.olderPrefix (s := e.subspaceId) hc e.timestamp
  have hheld : Abs env { st with locked := true } A leak := ⟨h.core, h.refs⟩
  have hget : entryGet env { st with locked := true } e.subspaceId e.path = .ok (.found (o.entry env.namespaceId) o.val.authDigest) := by
    rcases hheld.core.entryGet e.subspaceId e.path hc.valid (.inr hc) with ⟨_, h6⟩ | ⟨b, hb, hbs, hbp, h5⟩
    · exact absurd ⟨hos, hop⟩ (h6 o ho)
    · have hbo : b = o := apart_unique h.core.apart hb ho (hbs.trans hos.symm) (hbp.trans hop.symm)
      rw [h5, hbo]
  constructor
  · unfold ingestEntryF
    rw [if_neg (by simp [hl])]
    dsimp only
    rw [if_neg (by simp [hns]), if_neg (by simp [hauth]), hk1]
    dsimp only
    rw [if_neg (fun hc' => hnacc.1 (hk2.1 hc'))]
    have : entryGetF { entryRead := true } env { st with locked := true } e.subspaceId e.path = .ok .error := by
      unfold entryGet at hget
      unfold entryGetF
      rw [if_pos rfl]
      cases hsg : storageGet env.lib env.p ({ st with locked := true } : StoreState).kd e.subspaceId e.path with
      | err => rw [hsg] at hget; cases hget
      | crash => rw [hsg] at hget; cases hget
      | block => rw [hsg] at hget; cases hget
      | ok x =>
        rw [hsg] at hget
        cases x with
        | none => cases hget
        | some pos => rfl
    rw [this]
  · intro hd
    unfold ingestEntryF
    rw [if_neg (by simp [hl])]
    dsimp only
    rw [if_neg (by simp [hns]), if_neg (by simp [hauth]), hk1]
    dsimp only
    rw [if_neg (fun hc' => hnacc.1 (hk2.1 hc')), entryGetF_read rfl, hget]
    dsimp only
    have hopath : (o.entry env.namespaceId).path = e.path := hop
    rw [if_pos ((decides_path.eq_iff _ _).2 hopath), if_neg (show ¬ (o.entry env.namespaceId).timestamp ≥ e.timestamp from hotime)]
    have hperm : A.Perm (o :: A.erase o) := List.perm_cons_erase ho
    unfold replaceOtherF
    dsimp only
    rw [if_pos (show (o.entry env.namespaceId).payloadDigest ≠ e.payloadDigest from hd)]
    unfold refDecrementF
    rw [if_pos rfl]
    refine ⟨_, _, rfl, rfl, hperm, ?_⟩
    exact Core.delete he (h.core.perm hperm)

theorem entryGetF_unread {f : Faults} (hf : f.entryRead = true) {env : StoreEnv} {st : StoreState} {s : Bytes} {path : Path} {r : GetRes}
    (h : entryGet env st s path = .ok r) :
    entryGetF f env st s path = .ok (match r with | .found _ _ => .error | r => r) := by
  unfold entryGet at h
  unfold entryGetF
  rw [if_pos hf]
  cases hsg : storageGet env.lib env.p st.kd s path with
  | err => rw [hsg] at h; cases h
  | crash => rw [hsg] at h; cases h
  | block => rw [hsg] at h; cases h
  | ok x =>
    rw [hsg] at h
    cases x with
    | none => cases h; rfl
    | some pos =>
      simp only [Res.ok_bind] at h
      cases hg : st.kv.get (encodeKey env.p pos) with
      | none => rw [hg] at h; cases h; rfl
      | some v =>
        rw [hg] at h
        dsimp only at h
        cases hd : decodeValues v with
        | err => rw [hd] at h; cases h
        | crash => rw [hd] at h; cases h
        | block => rw [hd] at h; cases h
        | ok y => rw [hd] at h; cases h; rfl

theorem prunableLoopF_unread {f : Faults} (hf : f.entryRead = true) {env : StoreEnv} {st : StoreState} {time : UInt64} : ∀ ks : List KdKey,
    (∀ k ∈ ks, ∃ r, entryGet env st k.pos.subspace k.pos.path = .ok r) → (∃ k ∈ ks, k.pos.time < time) →
    prunableLoopF f env st time ks = .ok none
  | [], _, h => by obtain ⟨_, hk, _⟩ := h; cases hk
  | k :: ks, hr, h => by
    unfold prunableLoopF
    by_cases ht : k.pos.time < time
    · rw [if_pos ht]
      obtain ⟨r, hk⟩ := hr k List.mem_cons_self
      rw [entryGetF_unread hf hk]
      cases r <;> rfl
    · rw [if_neg ht]
      obtain ⟨k', hk', ht'⟩ := h
      rcases List.mem_cons.1 hk' with rfl | hk'
      · exact absurd ht' ht
      · exact prunableLoopF_unread hf ks (fun k hk => hr k (List.mem_cons_of_mem _ hk)) ⟨k', hk', ht'⟩

/-- Pruning below a new entry cannot read the entries to prune. -/
theorem ingestEntryF_unreadBelow {env : StoreEnv} (he : EnvOk env) {st : StoreState} {A : List Item} {leak : Bytes → Nat}
    (h : Abs env st A leak) (hl : st.locked = false) (e : Entry) (token : Bytes) (hc : Comfortable env.p e.path)
    (hd : e.payloadDigest.length < 2 ^ 64) (hacc : Acceptable env A e token)
    (hnew : ∀ o ∈ A, ¬ (o.pos.subspace = e.subspaceId ∧ o.pos.path = e.path))
    (old : Item) (ho : old ∈ A) (hpr : Prunes e.position old.pos) :
    ∃ st', ingestEntryF { entryRead := true } env st e token = .ok (none, st') ∧ st'.locked = true ∧
      Core env.p st'.kv st'.kd (newItem env e token :: A) := by
  have hfine : Fine env.p (newItem env e token) := ⟨hc, hd, he.hash _⟩
  have hn : ∀ x ∈ A, Apart (newItem env e token) x := fun x hx hxe => hnew x hx ⟨hxe.1.symm, hxe.2.symm⟩
  obtain ⟨hns, hauth, hacc⟩ := hacc
  have hnacc := mt not_accepts.2 (Classical.not_not.2 hacc)
  rw [not_or] at hnacc
  obtain ⟨ks, hk1, hk2⟩ := h.core.olderPrefix (s := e.subspaceId) hc e.timestamp
  have hheld : Abs env { st with locked := true } A leak := ⟨h.core, h.refs⟩
  have hget : entryGet env { st with locked := true } e.subspaceId e.path = .ok .missing := by
    rcases hheld.core.entryGet e.subspaceId e.path hc.valid (.inr hc) with ⟨h5, _⟩ | ⟨b, hb, hbs, hbp, _⟩
    · exact h5
    · exact absurd ⟨hbs, hbp⟩ (hnew b hb)
  unfold ingestEntryF
  rw [if_neg (by simp [hl])]
  dsimp only
  rw [if_neg (by simp [hns]), if_neg (by simp [hauth]), hk1]
  dsimp only
  rw [if_neg (fun hc' => hnacc.1 (hk2.1 hc')), entryGetF_unread rfl hget]
  dsimp only
  unfold finishIngestF insertEntryF payloadSetF
  generalize hps : payloadSet env st.files (env.tokenEncode token) = ps
  obtain ⟨files0, authDigest, len⟩ := ps
  have hauth : authDigest = env.hash (env.tokenEncode token) := by
    unfold payloadSet at hps; simp only [Prod.mk.injEq] at hps; exact hps.2.1.symm
  subst hauth
  simp only [Bool.false_eq_true, if_false]
  unfold entryInsertF entryInsert
  simp only [Bool.false_eq_true, if_false]
  have hadd : kdAdd st.kd ⟨e.position, []⟩ = some (st.kd ++ [⟨e.position, []⟩]) := by
    unfold kdAdd
    rw [if_neg]
    simp only [List.any_eq_true, decide_eq_true_eq, not_exists, not_and]
    intro k hk hkp
    obtain ⟨a, ha, hak⟩ := h.core.mem_kd hk
    exact (hn a ha).ne (hak.trans hkp).symm
  rw [hadd]
  dsimp only
  have hcore := h.core.insert he (newItem env e token) [] hfine hn
  obtain ⟨n, refs1, hr1, hr2⟩ := h.refs.increment (newItem env e token)
  have hdig : (newItem env e token).val.payloadDigest = e.payloadDigest := rfl
  rw [hdig] at hr1
  simp only [refIncrementF, Bool.false_eq_true, if_false, hr1]
  have hcomf : Comfortable env.p e.position.path := hc
  rw [corruptKey_comfortable hcomf]
  generalize hst : ({ st with
    kv := st.kv.set (encodeKey env.p e.position) (encodeValues ⟨e.payloadLength, e.payloadDigest, env.hash (env.tokenEncode token)⟩),
    kd := st.kd ++ [⟨e.position, []⟩], refs := refs1, files := files0, locked := true } : StoreState) = st1
  have hcore1 : Core env.p st1.kv st1.kd (newItem env e token :: A) := by rw [← hst]; exact hcore
  have hpe : prunableEntriesF { entryRead := true } env st1 e.position = .ok none := by
    obtain ⟨cs, c1, c2⟩ := prefixedBy_ok env.lib env.p st1.kd e.position.subspace e.position.path hcomf (fun k hk => by
      obtain ⟨a, ha, hak⟩ := hcore1.mem_kd hk
      rw [← hak]
      exact (hcore1.fine a ha).path.valid)
    unfold prunableEntriesF
    rw [c1]
    simp only [Res.ok_bind]
    refine prunableLoopF_unread rfl cs (fun k hk => ?_) ?_
    · obtain ⟨a, ha, hak⟩ := hcore1.mem_kd (List.mem_filter.1 (c2.mem_iff.1 hk)).1
      have hp := (hcore1.fine a ha).path
      rw [← hak]
      rcases hcore1.entryGet a.pos.subspace a.pos.path hp.valid (.inr hp) with ⟨h5, _⟩ | ⟨_, _, _, _, h5⟩
      · exact ⟨_, h5⟩
      · exact ⟨_, h5⟩
    · obtain ⟨k, hk, hkp⟩ := hcore1.in_kd (List.mem_cons_of_mem _ ho)
      obtain ⟨p1, p2, p3, p4⟩ := hpr
      refine ⟨k, c2.mem_iff.2 (List.mem_filter.2 ⟨hk, ?_⟩), by rw [hkp]; exact p4⟩
      simp only [decide_eq_true_eq]
      rw [hkp]
      exact ⟨p1, p2, p3⟩
  rw [hpe]
  exact ⟨st1, rfl, by rw [← hst], hcore1⟩

/-! ### No failures -/

theorem refIncrementF_none (refs : KV) (d : Bytes) : refIncrementF {} refs d = refIncrement refs d := by
  unfold refIncrementF
  cases refIncrement refs d <;> rfl

theorem refDecrementF_none (refs : KV) (d : Bytes) : refDecrementF {} refs d = refDecrement refs d := by
  unfold refDecrementF
  cases refDecrement refs d <;> rfl

theorem pruneLoopF_none (env : StoreEnv) : ∀ l st, pruneLoopF {} env l st = pruneLoop env l st
  | [], _ => rfl
  | (e, a) :: l, st => by
    simp only [pruneLoopF, pruneLoop, refDecrementF_none, entryDeleteF, payloadEraseF, Bool.false_eq_true, if_false,
      pruneLoopF_none env l]
    rfl

theorem insertEntryF_none (env : StoreEnv) (st : StoreState) (e : Entry) (token : Bytes) :
    insertEntryF {} env st e token = insertEntry env st e token := by
  simp only [insertEntryF, insertEntry, payloadSetF, entryInsertF, refIncrementF_none, pruneLoopF_none, prunableEntriesF_read (f := {}) rfl, Bool.false_eq_true, if_false]
  rfl

theorem replaceOtherF_none (env : StoreEnv) (st : StoreState) (other : Entry) (auth : Bytes) (e : Entry) :
    replaceOtherF {} env st other auth e = replaceOther env st other auth e := by
  simp only [replaceOtherF, replaceOther, refDecrementF_none, entryDeleteF, payloadEraseF, Bool.false_eq_true, if_false]
  rfl

theorem finishIngestF_none (env : StoreEnv) (st : StoreState) (e : Entry) (token : Bytes) :
    finishIngestF {} env st e token = finishIngest env st e token := by
  simp only [finishIngestF, finishIngest, insertEntryF_none]
  rfl

theorem ingestEntryF_none (env : StoreEnv) (st : StoreState) (e : Entry) (token : Bytes) :
    ingestEntryF {} env st e token = ingestEntry env st e token := by
  simp only [ingestEntryF, ingestEntry, finishIngestF_none, replaceOtherF_none, entryGetF_read (f := {}) rfl]
  rfl

theorem runOpF_none (env : StoreEnv) (st : StoreState) (op : StoreOp) : runOpF {} env st op = runOp env st op := by
  cases op with
  | restart => rfl
  | ingest e token => exact ingestEntryF_none env st e token
  | set now input au =>
    simp only [runOpF, runOp, storeSetF, storeSet, payloadSetF, payloadEraseF, ingestEntryF_none, refCountF_read (f := {}) rfl, Bool.false_eq_true, if_false]
    rfl

end Willow
