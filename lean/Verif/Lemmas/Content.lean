import Verif.Lemmas.Ingest
import Verif.Spec.Content

/-! Where the contents of payload files come from. -/

namespace Willow

open Spec

/-- All files satisfy a condition. -/
def AllFiles (P : Bytes → Bytes → Prop) (files : KV) : Prop := ∀ name content, files.get name = some content → P name content

variable {P : Bytes → Bytes → Prop} {env : StoreEnv}

theorem allFiles_erase {files : KV} (h : AllFiles P files) (d : Bytes) : AllFiles P (payloadErase env files d) := by
  intro name content hc
  unfold payloadErase at hc
  dsimp only at hc
  split at hc
  · exact h _ _ hc
  · rw [KV.get_delete] at hc
    split at hc
    · cases hc
    · exact h _ _ hc

theorem allFiles_set {files : KV} (h : AllFiles P files) (x : Bytes) (hx : P (env.fileKey (env.hash x)) x) :
    AllFiles P (payloadSet env files x).1 := by
  intro name content hc
  unfold payloadSet at hc
  dsimp only at hc
  split at hc
  · exact h _ _ hc
  · rw [KV.get_set] at hc
    split at hc
    · cases hc
      subst name
      exact hx
    · exact h _ _ hc

theorem allFiles_entryInsert {st : StoreState} (h : AllFiles P st.files) (e : Entry) (a : Bytes) :
    AllFiles P (entryInsert env st e a).2.files := by
  unfold entryInsert
  dsimp only
  split <;> exact h

theorem allFiles_pruneLoop : ∀ (l : List (Entry × Bytes)) (st : StoreState) (r : Option (List Entry)) (st' : StoreState),
    AllFiles P st.files → pruneLoop env l st = .ok (r, st') → AllFiles P st'.files
  | [], st, r, st', h, hr => by cases hr; exact h
  | (e, a) :: rest, st, r, st', h, hr => by
    unfold pruneLoop at hr
    dsimp only at hr
    split at hr
    · rename_i count refs hd
      have h1 : AllFiles P (if count = 0 then
          { ({ entryDelete env st e with refs := refs } : StoreState) with files := payloadErase env ({ entryDelete env st e with refs := refs } : StoreState).files e.payloadDigest }
          else { entryDelete env st e with refs := refs }).files := by
        split
        · exact allFiles_erase h _
        · exact h
      have ih := fun r st' => allFiles_pruneLoop rest _ r st' h1
      split at hr
      · rename_i pr st1 hp
        cases hr
        exact ih _ _ hp
      · rename_i hp
        exact ih _ _ hr
    · cases hr; exact h
    · cases hr
    · cases hr

theorem allFiles_insertEntry {st st' : StoreState} (h : AllFiles P st.files) (e : Entry) (token : Bytes) (r : Option (List Entry))
    (ht : P (env.fileKey (env.hash (env.tokenEncode token))) (env.tokenEncode token)) (hr : insertEntry env st e token = .ok (r, st')) :
    AllFiles P st'.files := by
  unfold insertEntry at hr
  dsimp only at hr
  have h1 := allFiles_entryInsert (env := env) (st := { st with files := (payloadSet env st.files (env.tokenEncode token)).1 })
    (allFiles_set h _ ht) e (payloadSet env st.files (env.tokenEncode token)).2.1
  split at hr
  · rename_i st1 hi
    rw [hi] at h1
    cases hr
    exact h1
  · rename_i st1 hi
    rw [hi] at h1
    split at hr
    · split at hr
      · refine allFiles_pruneLoop _ _ _ _ ?_ hr
        exact h1
      · cases hr; exact h1
      · cases hr
      · cases hr
      · cases hr
    · cases hr
    · cases hr
    · cases hr

theorem allFiles_replaceOther {st st' : StoreState} (h : AllFiles P st.files) (other : Entry) (oa : Bytes) (e : Entry) (r : Option Unit)
    (hr : replaceOther env st other oa e = .ok (r, st')) : AllFiles P st'.files := by
  unfold replaceOther at hr
  dsimp only at hr
  have h1 : AllFiles P (payloadErase env (entryDelete env st other).files oa) := allFiles_erase h _
  split at hr
  · split at hr
    · cases hr
      split
      · exact allFiles_erase h1 _
      · exact h1
    · cases hr; exact h1
    · cases hr
    · cases hr
  · cases hr; exact h1

theorem allFiles_finishIngest {st st' : StoreState} (h : AllFiles P st.files) (e : Entry) (token : Bytes) (r : Option (List Entry))
    (ht : P (env.fileKey (env.hash (env.tokenEncode token))) (env.tokenEncode token)) (hr : finishIngest env st e token = .ok (r, st')) :
    AllFiles P st'.files := by
  unfold finishIngest at hr
  split at hr
  · rename_i hi
    cases hr
    have h1 := allFiles_insertEntry h e token _ ht hi
    exact h1
  · exact allFiles_insertEntry h e token _ ht hr

theorem allFiles_ingestEntry {st st' : StoreState} (h : AllFiles P st.files) (e : Entry) (token : Bytes) (r : Option (List Entry))
    (ht : P (env.fileKey (env.hash (env.tokenEncode token))) (env.tokenEncode token)) (hr : ingestEntry env st e token = .ok (r, st')) :
    AllFiles P st'.files := by
  unfold ingestEntry at hr
  dsimp only at hr
  have hfin := fun hr => allFiles_finishIngest (env := env) (st := { st with locked := true }) (st' := st') h e token r ht hr
  split at hr
  · cases hr
  split at hr
  · cases hr; exact h
  split at hr
  · cases hr; exact h
  split at hr
  · split at hr
    · cases hr; exact h
    split at hr
    · cases hr; exact h
    · exact hfin hr
    · split at hr
      · split at hr
        · cases hr; exact h
        · split at hr
          · rename_i hx
            have h1 := allFiles_replaceOther (st := { st with locked := true }) h _ _ _ _ hx
            exact allFiles_finishIngest h1 e token r ht hr
          · rename_i hx
            have h1 := allFiles_replaceOther (st := { st with locked := true }) h _ _ _ _ hx
            cases hr
            exact h1
          · cases hr
          · cases hr
          · cases hr
      · exact hfin hr
    · cases hr
    · cases hr
    · cases hr
  · cases hr
  · cases hr
  · cases hr

theorem allFiles_storeSet {st st' : StoreState} (h : AllFiles P st.files) (now : UInt64) (input : EntryInput) (au : Bytes) (r : Option (List Entry))
    (ht : ∀ x ∈ bytesGiven env (.set now input au), P (env.fileKey (env.hash x)) x) (hr : storeSet env st now input au = .ok (r, st')) :
    AllFiles P st'.files := by
  unfold storeSet at hr
  dsimp only at hr
  have h1 : AllFiles P (payloadSet env st.files input.payload).1 := allFiles_set h _ (ht _ (by simp [bytesGiven]))
  split at hr
  · cases hr; exact h1
  · rename_i token ha
    have h2 := fun r st' => allFiles_ingestEntry (env := env) (st := { st with files := (payloadSet env st.files input.payload).1 }) (st' := st') h1
      (setEntry env now input) token r (ht _ (by
        have : attempt env (.set now input au) = some (setEntry env now input, token) := by
          unfold attempt
          show Option.map _ (env.authorise (setEntry env now input) au) = _
          rw [ha]; rfl
        simp [bytesGiven, this]))
    split at hr
    · rename_i hi
      have h3 := h2 _ _ hi
      split at hr
      · cases hr
        split
        · exact allFiles_erase h3 _
        · exact h3
      · cases hr; exact h3
      · cases hr
      · cases hr
    · exact h2 _ _ hr

theorem allFiles_runOp {st st' : StoreState} (h : AllFiles P st.files) (op : StoreOp) (r : Option (List Entry))
    (ht : ∀ x ∈ bytesGiven env op, P (env.fileKey (env.hash x)) x) (hr : runOp env st op = .ok (r, st')) : AllFiles P st'.files := by
  cases op with
  | set now input au => exact allFiles_storeSet h now input au r ht hr
  | ingest e token => exact allFiles_ingestEntry h e token r (ht _ (by simp [bytesGiven, attempt])) hr
  | restart =>
    unfold runOp restart at hr
    simp only [Res.bind_eq_ok] at hr
    obtain ⟨st1, ⟨keys, _, h2⟩, h3⟩ := hr
    cases h2
    cases h3
    exact h

theorem allFiles_runOps : ∀ (ops : List StoreOp) (st st' : StoreState), AllFiles P st.files →
    (∀ op ∈ ops, ∀ x ∈ bytesGiven env op, P (env.fileKey (env.hash x)) x) → runOps env st ops = .ok st' → AllFiles P st'.files
  | [], st, st', h, _, hr => by cases hr; exact h
  | op :: ops, st, st', h, ht, hr => by
    unfold runOps at hr
    simp only [Res.bind_eq_ok] at hr
    obtain ⟨⟨r, st1⟩, h1, h2⟩ := hr
    exact allFiles_runOps ops st1 st' (allFiles_runOp h op r (ht op List.mem_cons_self) h1)
      (fun op ho => ht op (List.mem_cons_of_mem _ ho)) h2

end Willow
