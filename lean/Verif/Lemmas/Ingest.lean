import Verif.Lemmas.Store
import Verif.Spec.StoreOps

/-! What one ingest does to the items a store stands for. -/

namespace Willow

open Spec Props

/-! ### Pruning -/

theorem payloadErase_get (env : StoreEnv) (files : KV) (d name : Bytes) (h : env.fileKey d ≠ name) :
    (payloadErase env files d).get name = files.get name := by
  unfold payloadErase
  dsimp only
  split
  · rfl
  · rw [KV.get_delete, if_neg (fun e => h e.symm)]

theorem payloadErase_none (env : StoreEnv) (files : KV) (d name : Bytes) (h : files.get name = none) :
    (payloadErase env files d).get name = none := by
  unfold payloadErase
  dsimp only
  split
  · exact h
  · rw [KV.get_delete, h, ite_self]

theorem payloadErase_self (env : StoreEnv) (files : KV) (d : Bytes) (h : env.fileKey d ≠ []) :
    (payloadErase env files d).get (env.fileKey d) = none := by
  unfold payloadErase
  dsimp only
  rw [if_neg h, KV.get_delete, if_pos rfl]

/-- The files after some items were removed: a file disappears only if it belongs to the digest of a
removed item and the digest has no references left; and then it does. -/
structure FilesAfter (env : StoreEnv) (B C : List Item) (leak : Bytes → Nat) (files files' : KV) : Prop where
  kept : ∀ name, (∀ b ∈ B, refsTo C b.val.payloadDigest + leak b.val.payloadDigest = 0 → env.fileKey b.val.payloadDigest ≠ name) →
    files'.get name = files.get name
  gone : ∀ b ∈ B, refsTo C b.val.payloadDigest + leak b.val.payloadDigest = 0 → env.fileKey b.val.payloadDigest ≠ [] →
    files'.get (env.fileKey b.val.payloadDigest) = none
  none : ∀ name, files.get name = none → files'.get name = none

theorem refsTo_append (B C : List Item) (d : Bytes) : refsTo (B ++ C) d = refsTo B d + refsTo C d := by
  unfold refsTo; rw [List.countP_append]

theorem pruneLoop_ok (env : StoreEnv) (he : EnvOk env) (C : List Item) (leak : Bytes → Nat) : ∀ (B : List Item) (st : StoreState),
    Abs env st (B ++ C) leak →
    ∃ st', pruneLoop env (B.map fun b => (b.entry env.namespaceId, b.val.authDigest)) st =
        .ok (some (B.map (Item.entry env.namespaceId)), st') ∧
      Abs env st' C leak ∧ st'.locked = st.locked ∧ st'.partials = st.partials ∧
      ((∀ d, refsTo (B ++ C) d + leak d < 2 ^ 64) → FilesAfter env B C leak st.files st'.files) := by
  intro B
  induction B with
  | nil =>
    intro st h
    exact ⟨st, rfl, h, rfl, rfl, fun _ => ⟨fun _ _ => rfl, fun b hb => by simp at hb, fun _ h => h⟩⟩
  | cons b B ih =>
    intro st h
    rw [List.cons_append] at h
    have hcore := Core.delete he h.core
    obtain ⟨refs', hr1, hr2⟩ := h.refs.decrement
    rw [List.map_cons]
    unfold pruneLoop
    dsimp only
    have hdel : entryDelete env st (b.entry env.namespaceId) =
        { st with kv := st.kv.delete (encodeKey env.p b.pos), kd := kdDelete st.kd b.pos } := rfl
    rw [hdel]
    have hdig : (b.entry env.namespaceId).payloadDigest = b.val.payloadDigest := rfl
    rw [hdig]
    dsimp only
    rw [hr1]
    dsimp only
    generalize hst : (if UInt64.ofNat (refsTo (B ++ C) b.val.payloadDigest + leak b.val.payloadDigest) = 0 then
      ({ kv := st.kv.delete (encodeKey env.p b.pos), kd := kdDelete st.kd b.pos, refs := refs',
         files := payloadErase env st.files b.val.payloadDigest, partials := st.partials, locked := st.locked } : StoreState)
      else { kv := st.kv.delete (encodeKey env.p b.pos), kd := kdDelete st.kd b.pos, refs := refs',
             files := st.files, partials := st.partials, locked := st.locked }) = st1
    have h1 : Abs env st1 (B ++ C) leak ∧ st1.locked = st.locked ∧ st1.partials = st.partials ∧
        st1.files = if UInt64.ofNat (refsTo (B ++ C) b.val.payloadDigest + leak b.val.payloadDigest) = 0 then
          payloadErase env st.files b.val.payloadDigest else st.files := by
      subst hst
      split
      · exact ⟨⟨hcore, hr2⟩, rfl, rfl, rfl⟩
      · exact ⟨⟨hcore, hr2⟩, rfl, rfl, rfl⟩
    obtain ⟨habs, hlock, hpart, hfiles⟩ := h1
    obtain ⟨st', e1, e2, e3, e4, e5⟩ := ih st1 habs
    rw [e1]
    refine ⟨st', rfl, e2, e3.trans hlock, e4.trans hpart, fun hb => ?_⟩
    have hb' : ∀ d, refsTo (B ++ C) d + leak d < 2 ^ 64 := by
      intro d
      have := hb d
      rw [List.cons_append, refsTo_cons] at this
      omega
    obtain ⟨f1, f2, f3⟩ := e5 hb'
    have hzero : UInt64.ofNat (refsTo (B ++ C) b.val.payloadDigest + leak b.val.payloadDigest) = 0 ↔
        refsTo (B ++ C) b.val.payloadDigest + leak b.val.payloadDigest = 0 := by
      rw [← UInt64.toNat_inj]
      have := hb' b.val.payloadDigest
      rw [UInt64.toNat_ofNat_of_lt' this]
      rfl
    refine ⟨fun name hname => ?_, fun x hx hz hne => ?_, fun name hn => ?_⟩
    · rw [f1 name fun x hx => hname x (List.mem_cons_of_mem _ hx), hfiles]
      split
      · rename_i hz
        rw [hzero, refsTo_append] at hz
        exact payloadErase_get env _ _ _ (hname b List.mem_cons_self (by omega))
      · rfl
    · rcases List.mem_cons.1 hx with rfl | hx
      · by_cases hB : ∃ y ∈ B, y.val.payloadDigest = x.val.payloadDigest
        · obtain ⟨y, hy, hyd⟩ := hB
          have := f2 y hy (by rw [hyd]; exact hz) (by rw [hyd]; exact hne)
          rwa [hyd] at this
        · apply f3
          have hBz : refsTo B x.val.payloadDigest = 0 := by
            unfold refsTo
            rw [List.countP_eq_zero]
            intro y hy hc
            exact hB ⟨y, hy, by simpa using hc⟩
          rw [hfiles, if_pos (hzero.2 (by rw [refsTo_append]; omega))]
          exact payloadErase_self env _ _ hne
      · exact f2 x hx hz hne
    · apply f3
      rw [hfiles]
      split
      · exact payloadErase_none env _ _ _ hn
      · exact hn

/-! ### Finding what to prune -/

theorem exists_val {A : List Item} (h : A.Pairwise Apart) : ∃ val : Position → Values, ∀ a ∈ A, (⟨a.pos, val a.pos⟩ : Item) = a := by
  refine ⟨fun q => ((A.find? fun a => decide (a.pos = q)).map (·.val)).getD ⟨0, [], []⟩, fun a ha => ?_⟩
  cases hf : A.find? fun x => decide (x.pos = a.pos) with
  | none =>
    rw [List.find?_eq_none] at hf
    simpa using hf a ha
  | some b =>
    have hb := List.mem_of_find?_eq_some hf
    have hbp : b.pos = a.pos := by simpa using List.find?_some hf
    have := apart_unique h hb ha (by rw [hbp]) (by rw [hbp])
    subst this
    dsimp only
    rw [hf]
    rfl

theorem prunableLoop_ok {env : StoreEnv} {st : StoreState} {A : List Item} (h : Core env.p st.kv st.kd A)
    (val : Position → Values) (hval : ∀ a ∈ A, (⟨a.pos, val a.pos⟩ : Item) = a) (t : UInt64) : ∀ ks : List KdKey, (∀ k ∈ ks, k ∈ st.kd) →
    prunableLoop env st t ks = .ok (some ((ks.filter fun k => decide (k.pos.time < t)).map fun k =>
      ((⟨k.pos, val k.pos⟩ : Item).entry env.namespaceId, (val k.pos).authDigest)))
  | [], _ => rfl
  | k :: ks, hk => by
    have ih := prunableLoop_ok h val hval t ks fun x hx => hk x (List.mem_cons_of_mem _ hx)
    unfold prunableLoop
    split
    · rename_i ht
      obtain ⟨a, ha, hak⟩ := h.mem_kd (hk k List.mem_cons_self)
      have hc := (h.fine a ha).path
      rw [hak] at hc
      rcases h.entryGet k.pos.subspace k.pos.path hc.valid (.inr hc) with ⟨_, h2⟩ | ⟨b, hb, h1, h2, h3⟩
      · exact absurd ⟨by rw [hak], by rw [hak]⟩ (h2 a ha)
      · have : b = a := apart_unique h.apart hb ha (by rw [h1, hak]) (by rw [h2, hak])
        subst this
        rw [h3]
        simp only [Res.ok_bind, ih]
        rw [List.filter_cons_of_pos (by simpa using ht)]
        have hb' := hval b hb
        rw [hak] at hb'
        have hb2 : val k.pos = b.val := by rw [← hb']
        simp only [List.map_cons, Option.map_some, hb2]
        have hbi : (⟨k.pos, b.val⟩ : Item) = b := by rw [← hb2]; exact hb'
        rw [hbi]
    · rename_i ht
      rw [List.filter_cons_of_neg (by simpa using ht)]
      exact ih

theorem prunableEntries_ok {env : StoreEnv} {st : StoreState} {A : List Item} (h : Core env.p st.kv st.kd A)
    (pos : Position) (hc : Comfortable env.p pos.path) :
    ∃ B : List Item, prunableEntries env st pos = .ok (some (B.map fun b => (b.entry env.namespaceId, b.val.authDigest))) ∧
      B.Perm (A.filter fun a => decide (Prunes pos a.pos)) := by
  obtain ⟨val, hval⟩ := exists_val h.apart
  obtain ⟨ks, h1, h2⟩ := prefixedBy_ok env.lib env.p st.kd pos.subspace pos.path hc (fun k hk => by
    obtain ⟨a, ha, hak⟩ := h.mem_kd hk
    rw [← hak]
    exact (h.fine a ha).path.valid)
  have hmem : ∀ k ∈ ks, k ∈ st.kd := fun k hk => (List.mem_filter.1 (h2.mem_iff.1 hk)).1
  refine ⟨(ks.filter fun k => decide (k.pos.time < pos.time)).map fun k => ⟨k.pos, val k.pos⟩, ?_, ?_⟩
  · unfold prunableEntries
    rw [h1]
    simp only [Res.ok_bind, prunableLoop_ok h val hval pos.time ks hmem, List.map_map]
    rfl
  · have e1 : (ks.filter fun k => decide (k.pos.time < pos.time)).Perm (st.kd.filter fun k => decide (Prunes pos k.pos)) := by
      refine (h2.filter _).trans ?_
      rw [List.filter_filter]
      apply List.Perm.of_eq
      apply List.filter_congr
      intro k _
      rw [Bool.eq_iff_iff, Bool.and_eq_true, decide_eq_true_eq, decide_eq_true_eq, decide_eq_true_eq]
      unfold Prunes
      constructor
      · rintro ⟨a, b, c, d⟩; exact ⟨b, c, d, a⟩
      · rintro ⟨b, c, d, a⟩; exact ⟨a, b, c, d⟩
    have e2 := (h.kd_perm.filter fun q => decide (Prunes pos q)).map fun q => (⟨q, val q⟩ : Item)
    rw [List.filter_map, List.filter_map, List.map_map, List.map_map] at e2
    refine (e1.map _).trans (e2.trans ?_)
    apply List.Perm.of_eq
    conv => rhs; rw [← List.map_id (A.filter fun a => decide (Prunes pos a.pos))]
    apply List.map_congr_left
    intro a ha
    exact hval a (List.mem_filter.1 ha).1

/-! ### Inserting -/

theorem corruptKey_comfortable {p : PathParams} {pos : Position} (hc : Comfortable p pos.path) (kd : List KdKey) :
    corruptKey p kd pos = kd := by
  unfold corruptKey
  conv => rhs; rw [← List.map_id kd]
  apply List.map_congr_left
  intro k _
  split
  · rename_i hk
    obtain ⟨pre, c, post, hp, hcl, _, hpost⟩ := hc.room
    have hm : successorPrefixMutated pos.path p = pos.path := by
      rw [hp]; exact successorPrefixMutated_room hcl hpost
    rw [hm, ← hk]
    rfl
  · rfl

theorem filter_not_perm {α : Type} (P : α → Bool) (l : List α) : l.Perm (l.filter P ++ l.filter fun a => !P a) := by
  induction l with
  | nil => simp
  | cons x xs ih =>
    cases hx : P x
    · rw [List.filter_cons_of_neg (by simp [hx]), List.filter_cons_of_pos (by simp [hx])]
      exact (ih.cons x).trans List.perm_middle.symm
    · rw [List.filter_cons_of_pos (by simp [hx]), List.filter_cons_of_neg (by simp [hx])]
      exact ih.cons x

theorem insertEntry_ok {env : StoreEnv} (he : EnvOk env) {st : StoreState} {A : List Item} {leak : Bytes → Nat}
    (h : Abs env st A leak) (e : Entry) (token : Bytes) (hf : Fine env.p (newItem env e token))
    (hn : ∀ x ∈ A, Apart (newItem env e token) x) :
    ∃ B st', insertEntry env st e token = .ok (some (B.map (Item.entry env.namespaceId)), st') ∧
      B.Perm (A.filter fun a => decide (Prunes e.position a.pos)) ∧
      Abs env st' (newItem env e token :: A.filter fun a => !decide (Prunes e.position a.pos)) leak ∧
      st'.locked = st.locked ∧ st'.partials = st.partials ∧
      ((∀ d, refsTo (newItem env e token :: A) d + leak d < 2 ^ 64) →
        FilesAfter env B (newItem env e token :: A.filter fun a => !decide (Prunes e.position a.pos)) leak
          (payloadSet env st.files (env.tokenEncode token)).1 st'.files) := by
  unfold insertEntry
  generalize hps : payloadSet env st.files (env.tokenEncode token) = ps
  obtain ⟨files, authDigest, len⟩ := ps
  have hauth : authDigest = env.hash (env.tokenEncode token) := by
    unfold payloadSet at hps; simp only [Prod.mk.injEq] at hps; exact hps.2.1.symm
  subst hauth
  dsimp only
  unfold entryInsert
  dsimp only
  have hadd : kdAdd st.kd ⟨e.position, []⟩ = some (st.kd ++ [⟨e.position, []⟩]) := by
    unfold kdAdd
    rw [if_neg]
    simp only [List.any_eq_true, decide_eq_true_eq, not_exists, not_and]
    intro k hk hkp
    obtain ⟨a, ha, hak⟩ := h.core.mem_kd hk
    exact (hn a ha).ne (hak.trans hkp).symm
  rw [hadd]
  dsimp only
  have hcore := h.core.insert he (newItem env e token) [] hf hn
  obtain ⟨n, refs', hr1, hr2⟩ := h.refs.increment (newItem env e token)
  have hdig : (newItem env e token).val.payloadDigest = e.payloadDigest := rfl
  rw [hdig] at hr1
  rw [hr1]
  dsimp only
  have hcomf : Comfortable env.p e.position.path := hf.path
  rw [corruptKey_comfortable hcomf]
  obtain ⟨B, hb1, hb2⟩ := prunableEntries_ok (st := { st with
    kv := st.kv.set (encodeKey env.p e.position) (encodeValues ⟨e.payloadLength, e.payloadDigest, env.hash (env.tokenEncode token)⟩),
    kd := st.kd ++ [⟨e.position, []⟩], refs := refs', files := files }) hcore e.position hcomf
  rw [hb1]
  dsimp only
  have hself : decide (Prunes e.position (newItem env e token).pos) = false := by
    rw [decide_eq_false_iff_not]
    rintro ⟨_, _, h3, _⟩
    exact h3 rfl
  rw [List.filter_cons_of_neg (by rw [hself]; simp)] at hb2
  have hsplit : (newItem env e token :: A).Perm (B ++ (newItem env e token :: A.filter fun a => !decide (Prunes e.position a.pos))) := by
    refine ((filter_not_perm (fun a => decide (Prunes e.position a.pos)) A).cons _).trans ?_
    refine List.perm_middle.symm.trans ?_
    exact hb2.symm.append_right _
  have habs : Abs env { st with
      kv := st.kv.set (encodeKey env.p e.position) (encodeValues ⟨e.payloadLength, e.payloadDigest, env.hash (env.tokenEncode token)⟩),
      kd := st.kd ++ [⟨e.position, []⟩], refs := refs', files := files }
      (B ++ (newItem env e token :: A.filter fun a => !decide (Prunes e.position a.pos))) leak :=
    Abs.perm ⟨hcore, hr2⟩ hsplit
  obtain ⟨st', p1, p2, p3, p4, p5⟩ := pruneLoop_ok env he _ leak B _ habs
  refine ⟨B, st', p1, hb2, p2, p3, p4, fun hb => p5 fun d => ?_⟩
  rw [← refsTo_perm hsplit d]
  exact hb d

/-! ### Replacing -/

/-- The surplus after an ingest: one more for the digest of a replaced entry with the same
payload. -/
def leakAfter (A : List Item) (e : Entry) (leak : Bytes → Nat) (d : Bytes) : Nat :=
  leak d + A.countP fun a => decide ((a.pos.subspace = e.subspaceId ∧ a.pos.path = e.path) ∧
    a.val.payloadDigest = e.payloadDigest ∧ d = e.payloadDigest)

theorem replaceOther_ok {env : StoreEnv} (he : EnvOk env) {st : StoreState} {o : Item} {A : List Item} {leak : Bytes → Nat}
    (h : Abs env st (o :: A) leak) (e : Entry) :
    ∃ st', replaceOther env st (o.entry env.namespaceId) o.val.authDigest e = .ok (some (), st') ∧
      Abs env st' A (fun d => leak d + if o.val.payloadDigest = e.payloadDigest ∧ d = e.payloadDigest then 1 else 0) ∧
      st'.locked = st.locked ∧ st'.partials = st.partials ∧
      st'.files = if o.val.payloadDigest ≠ e.payloadDigest ∧
          UInt64.ofNat (refsTo A o.val.payloadDigest + leak o.val.payloadDigest) = 0 then
        payloadErase env (payloadErase env st.files o.val.authDigest) o.val.payloadDigest
      else payloadErase env st.files o.val.authDigest := by
  have hcore := Core.delete he h.core
  unfold replaceOther
  have hdel : entryDelete env st (o.entry env.namespaceId) =
      { st with kv := st.kv.delete (encodeKey env.p o.pos), kd := kdDelete st.kd o.pos } := rfl
  have hdig : (o.entry env.namespaceId).payloadDigest = o.val.payloadDigest := rfl
  rw [hdel, hdig]
  dsimp only
  by_cases hd : o.val.payloadDigest = e.payloadDigest
  · rw [if_neg (by simpa using hd), if_neg (by simp [hd])]
    refine ⟨_, rfl, ⟨hcore, fun d => ?_⟩, rfl, rfl, rfl⟩
    dsimp only
    have h1 := h.refs d
    rw [refsTo_cons] at h1
    by_cases hdd : d = e.payloadDigest
    · rw [if_pos (hd.trans hdd.symm)] at h1
      rw [if_pos ⟨hd, hdd⟩]
      rcases h1 with ⟨_, h2, _⟩ | h1
      · omega
      · right
        rw [h1, show ∀ x y : Nat, x + 1 + y = x + (y + 1) from fun x y => by omega]
    · rw [if_neg (fun hc => hdd (hc.symm.trans hd))] at h1
      rw [if_neg (fun hc => hdd hc.2)]
      exact h1
  · rw [if_pos (by simpa using hd)]
    obtain ⟨refs', hr1, hr2⟩ := h.refs.decrement
    rw [hr1]
    dsimp only
    have hleak : (fun d => leak d + if o.val.payloadDigest = e.payloadDigest ∧ d = e.payloadDigest then 1 else 0) = leak := by
      funext d
      rw [if_neg (fun hc => hd hc.1)]
      rfl
    rw [hleak]
    split
    · rename_i hz
      rw [if_pos ⟨hd, hz⟩]
      exact ⟨_, rfl, ⟨hcore, hr2⟩, rfl, rfl, rfl⟩
    · rename_i hz
      rw [if_neg (fun hc => hz hc.2)]
      exact ⟨_, rfl, ⟨hcore, hr2⟩, rfl, rfl, rfl⟩

/-! ### The whole ingest -/

theorem Core.olderPrefix {env : StoreEnv} {st : StoreState} {A : List Item} (h : Core env.p st.kv st.kd A) {s : Bytes} {path : Path}
    (hc : Comfortable env.p path) (t : UInt64) :
    ∃ ks, driverPrefixesOf env.lib env.p st.kd s path = .ok ks ∧
      (ks.any (fun k => decide (k.pos.time ≥ t)) = true ↔
        ∃ a ∈ A, a.pos.subspace = s ∧ a.pos.path <+: path ∧ a.pos.path ≠ path ∧ t ≤ a.pos.time) := by
  obtain ⟨ks, h1, h2⟩ := driverPrefixesOf_ok env.lib env.p st.kd s path hc.valid hc.ne
  refine ⟨ks, h1, ?_⟩
  simp only [List.any_eq_true, h2.mem_iff, List.mem_filter, decide_eq_true_eq]
  constructor
  · rintro ⟨k, ⟨hk, hs, hp, _, hq⟩, ht⟩
    obtain ⟨a, ha, hak⟩ := h.mem_kd hk
    rw [← hak] at hs hp hq ht
    exact ⟨a, ha, hs, hp, hq, ht⟩
  · rintro ⟨a, ha, hs, hp, hq, ht⟩
    obtain ⟨k, hk, hka⟩ := h.in_kd ha
    exact ⟨k, ⟨hk, by rw [hka]; exact ⟨hs, hp, (h.fine a ha).path.ne, hq⟩⟩, by rw [hka]; exact ht⟩

theorem not_accepts {A : List Item} {pos : Position} :
    ¬ Accepts A pos ↔ (∃ a ∈ A, a.pos.subspace = pos.subspace ∧ a.pos.path <+: pos.path ∧ a.pos.path ≠ pos.path ∧ pos.time ≤ a.pos.time) ∨
      ∃ a ∈ A, a.pos.subspace = pos.subspace ∧ a.pos.path = pos.path ∧ pos.time ≤ a.pos.time := by
  unfold Accepts
  constructor
  · intro h
    simp only [Classical.not_forall] at h
    obtain ⟨a, ha, hs, hp, ht⟩ := h
    rw [UInt64.not_lt] at ht
    by_cases hq : a.pos.path = pos.path
    · exact .inr ⟨a, ha, hs, hq, ht⟩
    · exact .inl ⟨a, ha, hs, hp, hq, ht⟩
  · rintro (⟨a, ha, hs, hp, _, ht⟩ | ⟨a, ha, hs, hq, ht⟩) hc
    · exact absurd (hc a ha hs hp) (UInt64.not_lt.2 ht)
    · exact absurd (hc a ha hs (by rw [hq]; exact List.prefix_refl _)) (UInt64.not_lt.2 ht)

/-- An ingest that is not acceptable is refused and changes nothing. -/
theorem ingestEntry_refused {env : StoreEnv} {st : StoreState} {A : List Item} (h : Core env.p st.kv st.kd A)
    (hl : st.locked = false) (e : Entry) (token : Bytes) (hc : Comfortable env.p e.path)
    (hno : ¬ (env.nsEqual env.namespaceId e.namespaceId = true ∧ env.isAuthorised e token = true ∧ Accepts A e.position)) :
    ingestEntry env st e token = .ok (none, st) := by
  unfold ingestEntry
  rw [if_neg (by simp [hl])]
  dsimp only
  split
  · rfl
  · rename_i h1
    split
    · rfl
    · rename_i h2
      have hno : ¬ Accepts A e.position := fun ha => hno ⟨by simpa using h1, by simpa using h2, ha⟩
      obtain ⟨ks, hk1, hk2⟩ := h.olderPrefix (s := e.subspaceId) hc e.timestamp
      rw [hk1]
      dsimp only
      split
      · rfl
      · rename_i h3
        rw [hk2] at h3
        rcases not_accepts.1 hno with h4 | ⟨a, ha, hs, hq, ht⟩
        · exact absurd h4 h3
        · have hh : Core env.p ({ st with locked := true } : StoreState).kv ({ st with locked := true } : StoreState).kd A := h
          rcases hh.entryGet e.subspaceId e.path hc.valid (.inr hc) with ⟨_, h5⟩ | ⟨b, hb, hbs, hbq, h5⟩
          · exact absurd ⟨hs, hq⟩ (h5 a ha)
          · rw [h5]
            dsimp only
            have hba : b = a := apart_unique h.apart hb ha (hbs.trans hs.symm) (hbq.trans hq.symm)
            subst hba
            have hbe : (b.entry env.namespaceId).path = e.path := hbq
            rw [if_pos ((decides_path.eq_iff _ _).2 hbe), if_pos]
            exact ht

/-- The files after an ingest. -/
structure FilesIngest (env : StoreEnv) (A A' : List Item) (new : Item) (token : Bytes) (leak' : Bytes → Nat) (files files' : KV) : Prop where
  /-- The file of the token is there, unless it is also the file of a payload given up. -/
  token : env.fileKey new.val.authDigest ≠ [] →
    (∀ b ∈ A, Displaces new.pos b.pos → refsTo A' b.val.payloadDigest + leak' b.val.payloadDigest = 0 →
      env.fileKey b.val.payloadDigest ≠ env.fileKey new.val.authDigest) →
    files'.get (env.fileKey new.val.authDigest) = some token
  /-- A file changes only if it is that of the token, or of the token of the replaced entry, or of
  the payload of a displaced entry to which no reference is left. -/
  kept : ∀ name, name ≠ env.fileKey new.val.authDigest →
    (∀ o ∈ A, o.pos.subspace = new.pos.subspace → o.pos.path = new.pos.path → env.fileKey o.val.authDigest ≠ name) →
    (∀ b ∈ A, Displaces new.pos b.pos → refsTo A' b.val.payloadDigest + leak' b.val.payloadDigest = 0 →
      env.fileKey b.val.payloadDigest ≠ name) →
    files'.get name = files.get name
  /-- The payload of a displaced entry to which no reference is left is erased (and not written again as the token). -/
  gone : ∀ b ∈ A, Displaces new.pos b.pos → refsTo A' b.val.payloadDigest + leak' b.val.payloadDigest = 0 →
    env.fileKey b.val.payloadDigest ≠ [] →
    (b.pos.path = new.pos.path → env.fileKey b.val.payloadDigest ≠ env.fileKey new.val.authDigest) →
    files'.get (env.fileKey b.val.payloadDigest) = none
  /-- The file of the token of the replaced entry is erased, unless it is also that of the new token. -/
  forgotten : ∀ o ∈ A, o.pos.subspace = new.pos.subspace → o.pos.path = new.pos.path →
    env.fileKey o.val.authDigest ≠ [] → env.fileKey o.val.authDigest ≠ env.fileKey new.val.authDigest →
    files'.get (env.fileKey o.val.authDigest) = none

theorem payloadSet_get_ne (env : StoreEnv) (files : KV) (x name : Bytes) (h : name ≠ env.fileKey (env.hash x)) :
    (payloadSet env files x).1.get name = files.get name := by
  unfold payloadSet
  dsimp only
  split
  · rfl
  · exact KV.get_set_ne _ _ h

theorem payloadSet_get_self (env : StoreEnv) (files : KV) (x : Bytes) (h : env.fileKey (env.hash x) ≠ []) :
    (payloadSet env files x).1.get (env.fileKey (env.hash x)) = some x := by
  unfold payloadSet
  dsimp only
  rw [if_neg h, KV.get_set_self]

theorem refsTo_le_of_perm {A B C : List Item} (h : A.Perm (B ++ C)) (d : Bytes) : refsTo C d ≤ refsTo A d := by
  rw [refsTo_perm h, refsTo_append]; omega

/-- An acceptable ingest stores the entry, removes exactly the displaced ones and returns the
pruned ones. -/
theorem ingestEntry_accepted {env : StoreEnv} (he : EnvOk env) {st : StoreState} {A : List Item} {leak : Bytes → Nat}
    (h : Abs env st A leak) (hl : st.locked = false) (e : Entry) (token : Bytes) (hc : Comfortable env.p e.path)
    (hd : e.payloadDigest.length < 2 ^ 64)
    (hns : env.nsEqual env.namespaceId e.namespaceId = true) (hauth : env.isAuthorised e token = true)
    (hacc : Accepts A e.position) :
    ∃ (B : List Item) (st' : StoreState), ingestEntry env st e token = .ok (some (B.map (Item.entry env.namespaceId)), st') ∧
      B.Perm (A.filter fun a => decide (Prunes e.position a.pos)) ∧
      Abs env st' (afterInsert A (newItem env e token)) (leakAfter A e leak) ∧
      st'.locked = false ∧ st'.partials = st.partials ∧
      ((∀ d, refsTo A d + leak d + 1 < 2 ^ 64) →
        FilesIngest env A (afterInsert A (newItem env e token)) (newItem env e token) (env.tokenEncode token) (leakAfter A e leak)
          st.files st'.files) := by
  have hfine : Fine env.p (newItem env e token) := ⟨hc, hd, he.hash _⟩
  have hnacc := mt not_accepts.2 (Classical.not_not.2 hacc)
  rw [not_or] at hnacc
  unfold ingestEntry
  rw [if_neg (by simp [hl])]
  dsimp only
  rw [if_neg (by simp [hns]), if_neg (by simp [hauth])]
  obtain ⟨ks, hk1, hk2⟩ := h.core.olderPrefix (s := e.subspaceId) hc e.timestamp
  rw [hk1]
  dsimp only
  rw [if_neg (fun hc' => hnacc.1 (hk2.1 hc'))]
  have hheld : Abs env { st with locked := true } A leak := ⟨h.core, h.refs⟩
  rcases hheld.core.entryGet e.subspaceId e.path hc.valid (.inr hc) with ⟨h5, h6⟩ | ⟨o, ho, hos, hop, h5⟩
  · -- no entry at this path
    rw [h5]
    dsimp only
    have hapart : ∀ x ∈ A, Apart (newItem env e token) x := fun x hx hxe => h6 x hx ⟨hxe.1.symm, hxe.2.symm⟩
    obtain ⟨B, st', i1, i2, i3, i4, i5, i6⟩ := insertEntry_ok he hheld e token hfine hapart
    have hafter : afterInsert A (newItem env e token) =
        newItem env e token :: A.filter fun a => !decide (Prunes e.position a.pos) := by
      unfold afterInsert
      congr 1
      apply List.filter_congr
      intro a ha
      have : Displaces (newItem env e token).pos a.pos ↔ Prunes e.position a.pos := by
        unfold Displaces
        exact ⟨fun h => h.resolve_left fun hc' => h6 a ha hc', .inr⟩
      simp [this]
    have hleak : leakAfter A e leak = leak := by
      funext d
      unfold leakAfter
      rw [List.countP_eq_zero.2]
      · rfl
      · intro a ha hc'
        rw [decide_eq_true_eq] at hc'
        exact h6 a ha hc'.1
    rw [hafter, hleak]
    refine ⟨B, { st' with locked := false }, by unfold finishIngest; rw [i1], i2, ⟨i3.core, i3.refs⟩, rfl, i5, fun hb => ?_⟩
    obtain ⟨f1, f2, f3⟩ := i6 fun d => by rw [refsTo_cons]; have := hb d; split <;> omega
    have hB : ∀ b, b ∈ B ↔ b ∈ A ∧ Prunes e.position b.pos := by
      intro b; rw [i2.mem_iff, List.mem_filter, decide_eq_true_eq]
    refine ⟨fun hne hcl => ?_, fun name h1 h2 h3 => ?_, fun b hb hdis hz hne hne2 => ?_, fun o ho hos hop => absurd ⟨hos, hop⟩ (h6 o ho)⟩
    · rw [f1 _ fun b hb hz => hcl b ((hB b).1 hb).1 (.inr ((hB b).1 hb).2) hz]
      exact payloadSet_get_self env st.files _ hne
    · rw [f1 _ fun b hb hz => h3 b ((hB b).1 hb).1 (.inr ((hB b).1 hb).2) hz]
      exact payloadSet_get_ne env st.files _ _ h1
    · exact f2 b ((hB b).2 ⟨hb, hdis.resolve_left fun hc' => h6 b hb hc'⟩) hz hne
  · -- an older entry is replaced
    rw [h5]
    dsimp only
    have hopath : (o.entry env.namespaceId).path = e.path := hop
    have hotime : ¬ (o.entry env.namespaceId).timestamp ≥ e.timestamp := fun hc' => hnacc.2 ⟨o, ho, hos, hop, hc'⟩
    rw [if_pos ((decides_path.eq_iff _ _).2 hopath), if_neg hotime]
    obtain ⟨A0, hA0⟩ : ∃ A0, A.Perm (o :: A0) := ⟨A.erase o, List.perm_cons_erase ho⟩
    have habs0 : Abs env { st with locked := true } (o :: A0) leak := hheld.perm hA0
    obtain ⟨hap1, hap2⟩ := List.pairwise_cons.1 habs0.core.apart
    obtain ⟨st1, r1, r2, r3, r4, r5⟩ := replaceOther_ok he habs0 e
    rw [r1]
    dsimp only
    have hapart : ∀ x ∈ A0, Apart (newItem env e token) x := fun x hx hxe =>
      hap1 x hx ⟨hos.trans hxe.1, hop.trans hxe.2⟩
    have hleak : leakAfter A e leak =
        fun d => leak d + if o.val.payloadDigest = e.payloadDigest ∧ d = e.payloadDigest then 1 else 0 := by
      funext d
      unfold leakAfter
      rw [hA0.countP_eq, List.countP_cons, List.countP_eq_zero.2]
      · simp [hos, hop]
      · intro a ha hc'
        rw [decide_eq_true_eq] at hc'
        exact hapart a ha ⟨hc'.1.1.symm, hc'.1.2.symm⟩
    obtain ⟨B, st', i1, i2, i3, i4, i5, i6⟩ := insertEntry_ok he r2 e token hfine hapart
    have hoprune : ¬ Prunes e.position o.pos := fun hp => hp.2.2.1 hop
    have hprune : (A.filter fun a => decide (Prunes e.position a.pos)).Perm (A0.filter fun a => decide (Prunes e.position a.pos)) := by
      refine (hA0.filter _).trans ?_
      rw [List.filter_cons_of_neg (by simp [hoprune])]
    have hafter : (newItem env e token :: A0.filter fun a => !decide (Prunes e.position a.pos)).Perm
        (afterInsert A (newItem env e token)) := by
      unfold afterInsert
      refine List.Perm.cons _ ?_
      refine List.Perm.symm ((hA0.filter _).trans ?_)
      have hod : Displaces (newItem env e token).pos o.pos := .inl ⟨hos, hop⟩
      rw [List.filter_cons_of_neg (by simp [hod])]
      apply List.Perm.of_eq
      apply List.filter_congr
      intro a ha
      have : Displaces (newItem env e token).pos a.pos ↔ Prunes e.position a.pos := by
        unfold Displaces
        exact ⟨fun h => h.resolve_left fun hc' => hapart a ha ⟨hc'.1.symm, hc'.2.symm⟩, .inr⟩
      simp [this]
    refine ⟨B, { st' with locked := false }, by unfold finishIngest; rw [i1], i2.trans hprune.symm, ?_, rfl, ?_, fun hb => ?_⟩
    · rw [hleak]
      exact ⟨(i3.perm hafter).core, (i3.perm hafter).refs⟩
    · exact i5.trans r4
    · have hb0 : ∀ d, refsTo A0 d + leak d + 1 < 2 ^ 64 := by
        intro d
        have := hb d
        rw [refsTo_perm hA0, refsTo_cons] at this
        omega
      have hbleak : ∀ d, refsTo (newItem env e token :: A0) d +
          (leak d + if o.val.payloadDigest = e.payloadDigest ∧ d = e.payloadDigest then 1 else 0) < 2 ^ 64 := by
        intro d
        have := hb d
        rw [refsTo_perm hA0, refsTo_cons] at this
        rw [refsTo_cons]
        have hnd : (newItem env e token).val.payloadDigest = e.payloadDigest := rfl
        rw [hnd]
        by_cases h1 : e.payloadDigest = d
        · by_cases h2 : o.val.payloadDigest = e.payloadDigest
          · rw [if_pos (h2.trans h1)] at this
            rw [if_pos h1, if_pos ⟨h2, h1.symm⟩]
            omega
          · rw [if_pos h1, if_neg (fun hc' => h2 hc'.1)]
            split at this <;> omega
        · rw [if_neg h1, if_neg (fun hc' => h1 hc'.2.symm)]
          split at this <;> omega
      obtain ⟨f1, f2, f3⟩ := i6 hbleak
      have hrefs : ∀ d, refsTo (afterInsert A (newItem env e token)) d =
          refsTo (newItem env e token :: A0.filter fun a => !decide (Prunes e.position a.pos)) d :=
        fun d => (refsTo_perm hafter d).symm
      have hB : ∀ b, b ∈ B ↔ b ∈ A0 ∧ Prunes e.position b.pos := by
        intro b; rw [i2.mem_iff, List.mem_filter, decide_eq_true_eq]
      have hBA : ∀ b, b ∈ B → b ∈ A ∧ Displaces (newItem env e token).pos b.pos :=
        fun b hb => ⟨hA0.mem_iff.2 (List.mem_cons_of_mem _ ((hB b).1 hb).1), .inr ((hB b).1 hb).2⟩
      have hodis : Displaces (newItem env e token).pos o.pos := .inl ⟨hos, hop⟩
      have hsub : ∀ d, refsTo (A0.filter fun a => !decide (Prunes e.position a.pos)) d ≤ refsTo A0 d :=
        fun d => refsTo_le_of_perm (filter_not_perm (fun a => decide (Prunes e.position a.pos)) A0) d
      -- when the payload of the replaced entry is erased, no reference is left
      have hozero : o.val.payloadDigest ≠ e.payloadDigest →
          UInt64.ofNat (refsTo A0 o.val.payloadDigest + leak o.val.payloadDigest) = 0 →
          refsTo (afterInsert A (newItem env e token)) o.val.payloadDigest + leakAfter A e leak o.val.payloadDigest = 0 := by
        intro h1 h2
        rw [← UInt64.toNat_inj, UInt64.toNat_ofNat_of_lt' (by have := hb0 o.val.payloadDigest; show _ < 2 ^ 64; omega)] at h2
        have h2 : refsTo A0 o.val.payloadDigest + leak o.val.payloadDigest = 0 := h2
        rw [hleak, hrefs, refsTo_cons]
        dsimp only
        have hnd : (newItem env e token).val.payloadDigest = e.payloadDigest := rfl
        rw [hnd, if_neg (fun hc' => h1 hc'.symm), if_neg (fun hc' => h1 hc'.1)]
        have := hsub o.val.payloadDigest
        omega
      have hst1 : ∀ name, env.fileKey o.val.authDigest ≠ name →
          (refsTo (afterInsert A (newItem env e token)) o.val.payloadDigest + leakAfter A e leak o.val.payloadDigest = 0 →
            env.fileKey o.val.payloadDigest ≠ name) → st1.files.get name = st.files.get name := by
        intro name h1 h2
        rw [r5]
        split
        · rename_i hz
          rw [payloadErase_get env _ _ _ (h2 (hozero hz.1 hz.2)), payloadErase_get env _ _ _ h1]
        · rw [payloadErase_get env _ _ _ h1]
      refine ⟨fun hne hcl => ?_, fun name h1 h2 h3 => ?_, fun b hbA hdis hz hne hne2 => ?_, fun o' ho' hos' hop' hne hne2 => ?_⟩
      · rw [f1 _ fun b hb hz => hcl b (hBA b hb).1 (hBA b hb).2 (by rw [hleak, hrefs]; exact hz)]
        exact payloadSet_get_self env st1.files _ hne
      · rw [f1 _ fun b hb hz => h3 b (hBA b hb).1 (hBA b hb).2 (by rw [hleak, hrefs]; exact hz)]
        refine (payloadSet_get_ne env st1.files _ _ h1).trans ?_
        exact hst1 name (h2 o ho hos hop) (h3 o ho hodis)
      · rcases List.mem_cons.1 (hA0.mem_iff.1 hbA) with rfl | hb0'
        · have hbe : b.val.payloadDigest ≠ e.payloadDigest := by
            intro hbe
            rw [hrefs, refsTo_cons] at hz
            have hnd : (newItem env e token).val.payloadDigest = e.payloadDigest := rfl
            rw [hnd, if_pos hbe.symm] at hz
            omega
          have hz' := hz
          rw [hleak, hrefs] at hz'
          by_cases hBy : ∃ y ∈ B, y.val.payloadDigest = b.val.payloadDigest
          · obtain ⟨y, hy, hyd⟩ := hBy
            have := f2 y hy (by rw [hyd]; exact hz') (by rw [hyd]; exact hne)
            rwa [hyd] at this
          · apply f3
            rw [payloadSet_get_ne env st1.files _ _ (hne2 hop), r5, if_pos]
            · exact payloadErase_self env _ _ hne
            · refine ⟨hbe, ?_⟩
              have hBz : refsTo (A0.filter fun a => decide (Prunes e.position a.pos)) b.val.payloadDigest = 0 := by
                unfold refsTo
                rw [List.countP_eq_zero]
                intro y hy hc'
                exact hBy ⟨y, i2.mem_iff.2 hy, by simpa using hc'⟩
              have h1 := refsTo_perm (filter_not_perm (fun a => decide (Prunes e.position a.pos)) A0) b.val.payloadDigest
              rw [refsTo_append] at h1
              rw [refsTo_cons] at hz'
              dsimp only at hz'
              have h2 : refsTo A0 b.val.payloadDigest + leak b.val.payloadDigest = 0 := by omega
              rw [h2]
              rfl
        · have hpr := hdis.resolve_left fun hc' => hapart b hb0' ⟨hc'.1.symm, hc'.2.symm⟩
          exact f2 b ((hB b).2 ⟨hb0', hpr⟩) (by rw [hleak, hrefs] at hz; exact hz) hne
      · obtain rfl : o' = o := by
          rcases List.mem_cons.1 (hA0.mem_iff.1 ho') with h | h
          · exact h
          · exact absurd ⟨hos'.symm, hop'.symm⟩ (hapart o' h)
        apply f3
        rw [payloadSet_get_ne env st1.files _ _ hne2, r5]
        split
        · exact payloadErase_none env _ _ _ (payloadErase_self env _ _ hne)
        · exact payloadErase_self env _ _ hne

end Willow
