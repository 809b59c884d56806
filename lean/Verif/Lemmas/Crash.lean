import Verif.Model.Crash
import Verif.Lemmas.StoreRun

/-! The writes of a call, and what they leave on disk when only the first few are made. -/

namespace Willow

open Spec Props

theorem orderBytes_self (k : Bytes) : orderBytes k k = .eq := (decides_bytes.eq_iff k k).2 rfl

theorem KV.set_set (kv : KV) (k v w : Bytes) : (kv.set k v).set k w = kv.set k w := by
  induction kv with
  | nil => simp only [KV.set, orderBytes_self]
  | cons e rest ih =>
    obtain ⟨k', v'⟩ := e
    simp only [KV.set]
    cases h : orderBytes k k' with
    | lt => simp only [KV.set, orderBytes_self]
    | eq => simp only [KV.set, orderBytes_self]
    | gt => simp only [KV.set, h, ih]

theorem applyWrites_append (st : StoreState) (xs ys : List DiskWrite) :
    applyWrites st (xs ++ ys) = applyWrites (applyWrites st xs) ys := List.foldl_append

theorem applyWrites_cons (st : StoreState) (x : DiskWrite) (ys : List DiskWrite) :
    applyWrites st (x :: ys) = applyWrites (applyWrite st x) ys := rfl

/-- The same on disk. -/
structure SameDisk (a b : StoreState) : Prop where
  kv : a.kv = b.kv
  refs : a.refs = b.refs
  files : a.files = b.files
  partials : a.partials = b.partials

theorem SameDisk.refl (a : StoreState) : SameDisk a a := ⟨rfl, rfl, rfl, rfl⟩

theorem SameDisk.trans {a b c : StoreState} (h : SameDisk a b) (h' : SameDisk b c) : SameDisk a c :=
  ⟨h.kv.trans h'.kv, h.refs.trans h'.refs, h.files.trans h'.files, h.partials.trans h'.partials⟩

theorem SameDisk.symm {a b : StoreState} (h : SameDisk a b) : SameDisk b a :=
  ⟨h.kv.symm, h.refs.symm, h.files.symm, h.partials.symm⟩

theorem SameDisk.write {a b : StoreState} (h : SameDisk a b) (w : DiskWrite) : SameDisk (applyWrite a w) (applyWrite b w) := by
  obtain ⟨h1, h2, h3, h4⟩ := h
  cases w <;> constructor <;> simp [applyWrite, *]

theorem SameDisk.writes {a b : StoreState} (h : SameDisk a b) (ws : List DiskWrite) :
    SameDisk (applyWrites a ws) (applyWrites b ws) := by
  induction ws generalizing a b with
  | nil => exact h
  | cons w ws ih => exact ih (h.write w)

theorem applyWrites_payload (env : StoreEnv) (st : StoreState) (payload : Bytes) :
    applyWrites st (payloadWrites env payload) = { st with files := (payloadSet env st.files payload).1 } := by
  unfold payloadWrites payloadSet
  dsimp only
  split
  · rfl
  · simp only [applyWrites, List.foldl, applyWrite, KV.set_set]

theorem applyWrites_erase (env : StoreEnv) (st : StoreState) (d : Bytes) :
    applyWrites st (eraseWrites env d) = { st with files := payloadErase env st.files d } := by
  unfold eraseWrites payloadErase
  dsimp only
  split <;> rfl

theorem refDecrement_set {refs refs' : KV} {d : Bytes} {c : UInt64} (h : refDecrement refs d = .ok (c, refs')) :
    refs' = refs.set d (putU64 c.toNat) := by
  unfold refDecrement at h
  split at h
  · cases h
  · obtain ⟨x, _, h2⟩ := Res.bind_eq_ok.1 h
    cases h2
    rfl

theorem refIncrement_set {refs refs' : KV} {d : Bytes} {c : UInt64} (h : refIncrement refs d = .ok (c, refs')) :
    refs' = refs.set d (putU64 c.toNat) := by
  unfold refIncrement at h
  obtain ⟨x, _, h2⟩ := Res.bind_eq_ok.1 h
  cases h2
  rfl

/-! ### All writes -/

theorem pruneWrites_all (env : StoreEnv) : ∀ (l : List (Entry × Bytes)) (st st' : StoreState) (r : Option (List Entry)),
    pruneLoop env l st = .ok (r, st') → SameDisk (applyWrites st (pruneWrites env l st.refs)) st'
  | [], st, st', r, h => by
    unfold pruneLoop at h
    cases h
    exact .refl _
  | (e, a) :: rest, st, st', r, h => by
    unfold pruneLoop at h
    unfold pruneWrites
    dsimp only at h
    have hrefs : (entryDelete env st e).refs = st.refs := rfl
    rw [hrefs] at h
    rw [applyWrites_cons]
    cases hd : refDecrement st.refs e.payloadDigest with
    | ok cr =>
      obtain ⟨c, refs'⟩ := cr
      rw [hd] at h
      dsimp only at h ⊢
      have hset := refDecrement_set hd
      rw [applyWrites_cons, applyWrites_append]
      have hgo : ∀ st1 : StoreState, st1.refs = refs' →
          SameDisk (applyWrites (applyWrite (applyWrite st (.entryDelete (encodeKey env.p e.position))) (.refSet e.payloadDigest (putU64 c.toNat)))
            (if c = 0 then eraseWrites env e.payloadDigest else [])) st1 →
          (match pruneLoop env rest st1 with
            | .ok (some pruned, st) => Res.ok (some (e :: pruned), st)
            | r => r) = .ok (r, st') →
          SameDisk (applyWrites (applyWrites (applyWrite (applyWrite st (.entryDelete (encodeKey env.p e.position)))
            (.refSet e.payloadDigest (putU64 c.toNat))) (if c = 0 then eraseWrites env e.payloadDigest else []))
            (pruneWrites env rest refs')) st' := by
        intro st1 h1 h2 h3
        refine (h2.writes _).trans ?_
        rw [← h1]
        cases hp : pruneLoop env rest st1 with
        | ok w =>
          obtain ⟨r1, s1⟩ := w
          rw [hp] at h3
          have := pruneWrites_all env rest st1 s1 r1 hp
          cases r1 with
          | none => cases h3; exact this
          | some x => cases h3; exact this
        | err => rw [hp] at h3; cases h3
        | crash => rw [hp] at h3; cases h3
        | block => rw [hp] at h3; cases h3
      refine hgo _ ?_ ?_ h
      · split <;> rfl
      · split
        · rw [applyWrites_erase]
          exact ⟨rfl, hset.symm, rfl, rfl⟩
        · exact ⟨rfl, hset.symm, rfl, rfl⟩
    | err =>
      rw [hd] at h
      cases h
      exact ⟨rfl, rfl, rfl, rfl⟩
    | crash => rw [hd] at h; cases h
    | block => rw [hd] at h; cases h

theorem insertWrites_all (env : StoreEnv) (st st' : StoreState) (e : Entry) (token : Bytes) (r : Option (List Entry))
    (h : insertEntry env st e token = .ok (r, st')) : SameDisk (applyWrites st (insertWrites env st e token)) st' := by
  unfold insertEntry at h
  unfold insertWrites
  dsimp only at h ⊢
  rw [applyWrites_append, applyWrites_payload, applyWrites_cons]
  unfold entryInsert at h ⊢
  dsimp only at h ⊢
  cases hk : kdAdd st.kd ⟨e.position, []⟩ with
  | none =>
    rw [hk] at h
    cases h
    exact .refl _
  | some kd =>
    rw [hk] at h
    dsimp only at h ⊢
    cases hi : refIncrement st.refs e.payloadDigest with
    | ok cr =>
      obtain ⟨c, refs'⟩ := cr
      rw [hi] at h
      dsimp only at h ⊢
      rw [applyWrites_cons]
      have hset := refIncrement_set hi
      generalize hs : ({ st with kv := _, kd := _, refs := refs', files := _ } : StoreState) = s at h ⊢
      have hsame : SameDisk (applyWrite (applyWrite { st with files := (payloadSet env st.files (env.tokenEncode token)).1 }
          (.entrySet (encodeKey env.p e.position) (encodeValues ⟨e.payloadLength, e.payloadDigest,
            (payloadSet env st.files (env.tokenEncode token)).2.1⟩))) (.refSet e.payloadDigest (putU64 c.toNat))) s := by
        subst hs
        exact ⟨rfl, hset.symm, rfl, rfl⟩
      have href : s.refs = refs' := by subst hs; rfl
      refine (hsame.writes _).trans ?_
      cases hp : prunableEntries env s e.position with
      | ok o =>
        rw [hp] at h
        cases o with
        | none => cases h; exact .refl _
        | some l =>
          dsimp only at h ⊢
          rw [← href]
          exact pruneWrites_all env l s st' r h
      | err => rw [hp] at h; cases h
      | crash => rw [hp] at h; cases h
      | block => rw [hp] at h; cases h
    | err => rw [hi] at h; cases h
    | crash => rw [hi] at h; cases h
    | block => rw [hi] at h; cases h

theorem replaceWrites_all (env : StoreEnv) (st st' : StoreState) (other : Entry) (auth : Bytes) (e : Entry) (r : Option Unit)
    (h : replaceOther env st other auth e = .ok (r, st')) : SameDisk (applyWrites st (replaceWrites env st other auth e)) st' := by
  unfold replaceOther at h
  unfold replaceWrites
  dsimp only at h
  rw [applyWrites_cons, applyWrites_append, applyWrites_erase]
  have href : (entryDelete env st other).refs = st.refs := rfl
  split at h
  · rename_i hne
    rw [if_pos hne]
    rw [href] at h
    cases hd : refDecrement st.refs other.payloadDigest with
    | ok cr =>
      obtain ⟨c, refs'⟩ := cr
      rw [hd] at h
      have hset := refDecrement_set hd
      dsimp only at h ⊢
      rw [applyWrites_cons]
      cases h
      split
      · rw [applyWrites_erase]
        exact ⟨rfl, hset.symm, rfl, rfl⟩
      · exact ⟨rfl, hset.symm, rfl, rfl⟩
    | err => rw [hd] at h; cases h; exact ⟨rfl, rfl, rfl, rfl⟩
    | crash => rw [hd] at h; cases h
    | block => rw [hd] at h; cases h
  · rename_i hne
    rw [if_neg hne]
    cases h
    exact ⟨rfl, rfl, rfl, rfl⟩

theorem finishWrites_all (env : StoreEnv) (st st' : StoreState) (e : Entry) (token : Bytes) (r : Option (List Entry))
    (h : finishIngest env st e token = .ok (r, st')) : SameDisk (applyWrites st (insertWrites env st e token)) st' := by
  unfold finishIngest at h
  cases hi : insertEntry env st e token with
  | ok w =>
    obtain ⟨r1, s1⟩ := w
    have := insertWrites_all env st s1 e token r1 hi
    rw [hi] at h
    cases r1 with
    | none => cases h; exact this
    | some x => cases h; exact this.trans ⟨rfl, rfl, rfl, rfl⟩
  | err => rw [hi] at h; cases h
  | crash => rw [hi] at h; cases h
  | block => rw [hi] at h; cases h

theorem ingestWrites_all (env : StoreEnv) (st st' : StoreState) (e : Entry) (token : Bytes) (r : Option (List Entry))
    (h : ingestEntry env st e token = .ok (r, st')) : SameDisk (applyWrites st (ingestWrites env st e token)) st' := by
  have hheld : SameDisk st { st with locked := true } := ⟨rfl, rfl, rfl, rfl⟩
  unfold ingestEntry at h
  unfold ingestWrites
  dsimp only at h ⊢
  split at h
  · cases h
  rename_i h1
  rw [if_neg h1]
  split at h
  · rename_i h2; rw [if_pos h2]; cases h; exact .refl _
  rename_i h2
  rw [if_neg h2]
  split at h
  · rename_i h3; rw [if_pos h3]; cases h; exact .refl _
  rename_i h3
  rw [if_neg h3]
  cases hp : driverPrefixesOf env.lib env.p st.kd e.subspaceId e.path with
  | ok prefixes =>
    rw [hp] at h
    dsimp only at h ⊢
    split at h
    · rename_i h4; rw [if_pos h4]; cases h; exact .refl _
    rename_i h4
    rw [if_neg h4]
    cases hg : entryGet env { st with locked := true } e.subspaceId e.path with
    | ok g =>
      rw [hg] at h
      cases g with
      | error => cases h; exact hheld
      | missing => exact (hheld.writes _).trans (finishWrites_all env _ st' e token r h)
      | found other auth =>
        dsimp only at h ⊢
        split at h
        · rename_i h5
          rw [if_pos h5]
          split at h
          · rename_i h6; rw [if_pos h6]; cases h; exact .refl _
          rename_i h6
          rw [if_neg h6]
          rw [applyWrites_append]
          cases hr : replaceOther env { st with locked := true } other auth e with
          | ok w =>
            obtain ⟨o, s1⟩ := w
            rw [hr] at h
            have h7 := (hheld.writes _).trans (replaceWrites_all env _ s1 other auth e o hr)
            cases o with
            | none => cases h; exact h7
            | some u => exact (h7.writes _).trans (finishWrites_all env s1 st' e token r h)
          | err => rw [hr] at h; cases h
          | crash => rw [hr] at h; cases h
          | block => rw [hr] at h; cases h
        · rename_i h5
          rw [if_neg h5]
          exact (hheld.writes _).trans (finishWrites_all env _ st' e token r h)
    | err => rw [hg] at h; cases h
    | crash => rw [hg] at h; cases h
    | block => rw [hg] at h; cases h
  | err => rw [hp] at h; cases h
  | crash => rw [hp] at h; cases h
  | block => rw [hp] at h; cases h

theorem setWrites_all (env : StoreEnv) (st st' : StoreState) (now : UInt64) (input : EntryInput) (au : Bytes) (r : Option (List Entry))
    (h : storeSet env st now input au = .ok (r, st')) : SameDisk (applyWrites st (setWrites env st now input au)) st' := by
  unfold storeSet at h
  unfold setWrites
  dsimp only at h ⊢
  rw [applyWrites_append, applyWrites_payload]
  cases ha : env.authorise (setEntry env now input) au with
  | none => rw [ha] at h; cases h; exact .refl _
  | some token =>
    rw [ha] at h
    dsimp only at h ⊢
    rw [applyWrites_append]
    generalize hs : ({ st with files := (payloadSet env st.files input.payload).1 } : StoreState) = s at h ⊢
    cases hi : ingestEntry env s (setEntry env now input) token with
    | ok w =>
      obtain ⟨r1, s1⟩ := w
      have h1 := ingestWrites_all env s s1 _ token r1 hi
      rw [hi] at h
      refine (h1.writes _).trans ?_
      cases r1 with
      | none => cases h; exact .refl _
      | some pruned =>
        dsimp only at h ⊢
        cases hc : refCount s1.refs (payloadSet env st.files input.payload).2.1 with
        | ok c =>
          rw [hc] at h
          cases h
          dsimp only
          split
          · rw [applyWrites_erase]; exact .refl _
          · exact .refl _
        | err => rw [hc] at h; cases h; exact .refl _
        | crash => rw [hc] at h; cases h
        | block => rw [hc] at h; cases h
    | err => rw [hi] at h; cases h
    | crash => rw [hi] at h; cases h
    | block => rw [hi] at h; cases h

theorem opWrites_all (env : StoreEnv) (st st' : StoreState) (op : StoreOp) (r : Option (List Entry))
    (h : runOp env st op = .ok (r, st')) : SameDisk (applyWrites st (opWrites env st op)) st' := by
  cases op with
  | set now input au => exact setWrites_all env st st' now input au r h
  | ingest e token => exact ingestWrites_all env st st' e token r h
  | restart =>
    unfold runOp at h
    obtain ⟨s, h1, h2⟩ := Res.bind_eq_ok.1 h
    cases h2
    unfold restart at h1
    obtain ⟨ks, _, h3⟩ := Res.bind_eq_ok.1 h1
    cases h3
    exact ⟨rfl, rfl, rfl, rfl⟩

theorem restart_same {env : StoreEnv} {a b : StoreState} (h : SameDisk a b) :
    restart env (fun kv => kv) a = restart env (fun kv => kv) b := by
  unfold restart
  rw [h.kv]
  cases a; cases b
  obtain ⟨h1, h2, h3, h4⟩ := h
  dsimp only at h1 h2 h3 h4
  subst h1 h2 h3 h4
  rfl

end Willow
