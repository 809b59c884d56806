import Verif.Lemmas.Crash
import Verif.Spec.Crash

/-! What the first few writes of a call leave in a store. -/

namespace Willow

open Spec Props

/-- Is it the write of an entry? -/
def DiskWrite.isEntry : DiskWrite → Bool
  | .entrySet _ _ => true
  | _ => false

/-- `P` holds before the first write, between any two, and after the last; it is told whether the last
write was that of an entry. -/
def Throughout (P : Bool → StoreState → Prop) : Bool → StoreState → List DiskWrite → Prop
  | b, st, [] => P b st
  | b, st, w :: ws => P b st ∧ Throughout P w.isEntry (applyWrite st w) ws

theorem Throughout.start {P : Bool → StoreState → Prop} {b : Bool} {st : StoreState} {ws : List DiskWrite}
    (h : Throughout P b st ws) : P b st := by
  cases ws with
  | nil => exact h
  | cons w ws => exact h.1

theorem Throughout.append {P : Bool → StoreState → Prop} (hP : ∀ st, P false st → P true st) : ∀ (xs ys : List DiskWrite) (b : Bool) (st : StoreState),
    Throughout P b st xs → Throughout P false (applyWrites st xs) ys → (xs = [] → P b st) → Throughout P b st (xs ++ ys)
  | [], ys, b, st, h, h', h0 => by
    cases ys with
    | nil => exact h0 rfl
    | cons y ys => exact ⟨h0 rfl, h'.2⟩
  | [x], ys, b, st, h, h', h0 => by
    refine ⟨h.1, ?_⟩
    cases ys with
    | nil => exact h.2
    | cons y ys => exact ⟨h.2, h'.2⟩
  | x :: x' :: xs, ys, b, st, h, h', h0 => by
    exact ⟨h.1, Throughout.append hP (x' :: xs) ys _ _ h.2 h' (fun hc => by cases hc)⟩

theorem Throughout.take {P : Bool → StoreState → Prop} : ∀ (ws : List DiskWrite) (b : Bool) (st : StoreState) (n : Nat),
    Throughout P b st ws → ∃ b', P b' (applyWrites st (ws.take n)) ∧ (b' = true → b = true ∧ ws.take n = [] ∨ EndsInEntry (ws.take n))
  | [], b, st, n, h => ⟨b, by rw [List.take_nil]; exact h, fun hb => .inl ⟨hb, List.take_nil⟩⟩
  | w :: ws, b, st, 0, h => ⟨b, h.1, fun hb => .inl ⟨hb, rfl⟩⟩
  | w :: ws, b, st, n + 1, h => by
    obtain ⟨b', h1, h2⟩ := Throughout.take ws w.isEntry (applyWrite st w) n h.2
    refine ⟨b', h1, fun hb => .inr ?_⟩
    rw [List.take_succ_cons]
    rcases h2 hb with ⟨h3, h4⟩ | ⟨k, v, h3⟩
    · rw [h4]
      cases w with
      | entrySet k v => exact ⟨k, v, rfl⟩
      | file _ _ => cases h3
      | remove _ => cases h3
      | entryDelete _ => cases h3
      | refSet _ _ => cases h3
    · refine ⟨k, v, ?_⟩
      rw [List.getLast?_cons, h3]
      rfl

/-- A file that an acceptable ingest should leave alone: the payload of an entry that is not displaced,
if no other digest has the same file, and the file is not that of a token written or removed, nor `sf`. -/
structure Protected (env : StoreEnv) (sf : Option Bytes) (A : List Item) (new : Item) (name : Bytes) : Prop where
  owner : ∃ a ∈ A, ¬ Displaces new.pos a.pos ∧ env.fileKey a.val.payloadDigest = name ∧
    ∀ x ∈ A, env.fileKey x.val.payloadDigest = name → x.val.payloadDigest = a.val.payloadDigest
  token : name ≠ env.fileKey new.val.authDigest
  tokens : ∀ o ∈ A, o.pos.subspace = new.pos.subspace → o.pos.path = new.pos.path → env.fileKey o.val.authDigest ≠ name
  other : sf ≠ some name

/-- What holds throughout an acceptable ingest. -/
def During (env : StoreEnv) (sf : Option Bytes) (A : List Item) (leak : Bytes → Nat) (new : Item) (st0 : StoreState) (b : Bool) (st : StoreState) : Prop :=
  st.partials = st0.partials ∧
  ∃ kd A' leak', Core env.p st.kv kd A' ∧ PartWay A A' new ∧ (b = false → RefsOk st.refs A' leak') ∧
    ((∀ d, refsTo A d + leak d + 1 < 2 ^ 64) → ∀ name, Protected env sf A new name → st.files.get name = st0.files.get name)

theorem During.same {env : StoreEnv} {sf : Option Bytes} {A : List Item} {leak : Bytes → Nat} {new : Item} {st0 : StoreState} {b : Bool} {s s' : StoreState}
    (hs : SameDisk s s') (h : During env sf A leak new st0 b s) : During env sf A leak new st0 b s' := by
  obtain ⟨h1, h2, h3, h4⟩ := hs
  obtain ⟨h5, kd, A', l, h6, h7, h8, h9⟩ := h
  exact ⟨h4 ▸ h5, kd, A', l, h1 ▸ h6, h7, fun hb => h2 ▸ h8 hb, fun hb n hn => h3 ▸ h9 hb n hn⟩

theorem Throughout.same {env : StoreEnv} {sf : Option Bytes} {A : List Item} {leak : Bytes → Nat} {new : Item} {st0 : StoreState} :
    ∀ (ws : List DiskWrite) (b : Bool) (s s' : StoreState), SameDisk s s' →
    Throughout (During env sf A leak new st0) b s ws → Throughout (During env sf A leak new st0) b s' ws
  | [], _, _, _, hs, hw => During.same hs hw
  | w :: ws, _, _, _, hs, hw => ⟨During.same hs hw.1, Throughout.same ws _ _ _ (hs.write w) hw.2⟩

theorem OnePerPath.of_apart {A : List Item} (h : A.Pairwise Apart) : OnePerPath A :=
  fun _ ha _ hb hs hp => apart_unique h ha hb hs hp

theorem During.weaken {env : StoreEnv} {sf : Option Bytes} {A : List Item} {leak : Bytes → Nat} {new : Item} {st0 st : StoreState}
    (h : During env sf A leak new st0 false st) : During env sf A leak new st0 true st := by
  obtain ⟨h0, kd, A', leak', h1, h2, _, h4⟩ := h
  exact ⟨h0, kd, A', leak', h1, h2, (fun hc => by cases hc), h4⟩

theorem RefsOk.surplus {refs : KV} {a : Item} {A : List Item} {leak : Bytes → Nat} (h : RefsOk refs (a :: A) leak) :
    RefsOk refs A fun d => leak d + if a.val.payloadDigest = d then 1 else 0 := by
  intro d
  have := h d
  rw [refsTo_cons] at this
  rcases this with ⟨h1, h2, h3⟩ | h1
  · refine .inl ⟨h1, by omega, ?_⟩
    split at h2
    · omega
    · rename_i hne; simp [h3, hne]
  · right
    rw [h1, Nat.add_assoc, Nat.add_comm (ite _ _ _) (leak d)]

/-- Erasing a file while the references are exact, and no entry that stays has the digest. -/
theorem throughout_erase {env : StoreEnv} {sf : Option Bytes} {A : List Item} {leak : Bytes → Nat} {new : Item} {st0 st : StoreState} {b : Bool}
    (h : During env sf A leak new st0 b st) (h' : During env sf A leak new st0 false st) (d : Bytes)
    (hd : (∀ d, refsTo A d + leak d + 1 < 2 ^ 64) → ∀ name, Protected env sf A new name → env.fileKey d ≠ name) :
    Throughout (During env sf A leak new st0) b st (eraseWrites env d) := by
  unfold eraseWrites
  dsimp only
  split
  · exact h
  · refine ⟨h, ?_⟩
    obtain ⟨h0, kd, A', leak', h1, h2, h3, h4⟩ := h'
    refine ⟨h0, kd, A', leak', h1, h2, fun _ => h3 rfl, fun hb name hn => ?_⟩
    rw [← h4 hb name hn]
    show (st.files.delete _).get name = _
    rw [KV.get_delete, if_neg (fun hc => hd hb name hn hc.symm)]

theorem throughout_payload {env : StoreEnv} {sf : Option Bytes} {A : List Item} {leak : Bytes → Nat} {new : Item} {st0 st : StoreState} {b : Bool}
    (h : During env sf A leak new st0 b st) (h' : During env sf A leak new st0 false st) (payload : Bytes)
    (hd : (∀ d, refsTo A d + leak d + 1 < 2 ^ 64) → ∀ name, Protected env sf A new name → env.fileKey (env.hash payload) ≠ name) :
    Throughout (During env sf A leak new st0) b st (payloadWrites env payload) := by
  unfold payloadWrites
  dsimp only
  split
  · exact h
  · obtain ⟨h0, kd, A', leak', h1, h2, h3, h4⟩ := h'
    refine ⟨h, ⟨h0, kd, A', leak', h1, h2, fun _ => h3 rfl, fun hb name hn => ?_⟩,
      ⟨h0, kd, A', leak', h1, h2, fun _ => h3 rfl, fun hb name hn => ?_⟩⟩
    · rw [← h4 hb name hn]
      show (st.files.set _ _).get name = _
      rw [KV.get_set, if_neg (fun hc => hd hb name hn hc.symm)]
    · rw [← h4 hb name hn]
      show ((st.files.set _ _).set _ _).get name = _
      rw [KV.get_set, if_neg (fun hc => hd hb name hn hc.symm), KV.get_set, if_neg (fun hc => hd hb name hn hc.symm)]

theorem refsTo_pos {A : List Item} {a : Item} (ha : a ∈ A) : 0 < refsTo A a.val.payloadDigest :=
  List.countP_pos_iff.2 ⟨a, ha, by simp⟩

theorem ofNat_eq_zero {n : Nat} (h : n < 2 ^ 64) (h0 : UInt64.ofNat n = 0) : n = 0 := by
  have := congrArg UInt64.toNat h0
  rwa [UInt64.toNat_ofNat_of_lt' h] at this

/-! ### Pruning -/

theorem throughout_prune {env : StoreEnv} {sf : Option Bytes} (he : EnvOk env) {A : List Item} {leak : Bytes → Nat} {new : Item} {st0 : StoreState}
    (C : List Item) (leak' : Bytes → Nat) : ∀ (B : List Item) (st : StoreState) (kd : List KdKey) (b : Bool),
    Core env.p st.kv kd (B ++ C) → RefsOk st.refs (B ++ C) leak' → st.partials = st0.partials →
    (∀ B', B' <:+ B → PartWay A (B' ++ C) new) →
    (∀ x ∈ B, x ∈ A) → (∀ a ∈ A, ¬ Displaces new.pos a.pos → a ∈ C) →
    ((∀ d, refsTo A d + leak d + 1 < 2 ^ 64) → ∀ d, refsTo (B ++ C) d + leak' d < 2 ^ 64) →
    ((∀ d, refsTo A d + leak d + 1 < 2 ^ 64) → ∀ name, Protected env sf A new name → st.files.get name = st0.files.get name) →
    Throughout (During env sf A leak new st0) b st (pruneWrites env (B.map fun b => (b.entry env.namespaceId, b.val.authDigest)) st.refs)
  | [], st, kd, b, h1, h2, h0, h3, _, _, _, h4 => ⟨h0, kd, C, leak', h1, h3 [] (List.suffix_refl _), fun _ => h2, h4⟩
  | x :: B, st, kd, b, h1, h2, h0, h3, hBA, hkeep, hbound, h4 => by
    rw [List.map_cons]
    unfold pruneWrites
    have hdig : (x.entry env.namespaceId).payloadDigest = x.val.payloadDigest := rfl
    rw [hdig]
    obtain ⟨refs', hr1, hr2⟩ := RefsOk.decrement (a := x) (A := B ++ C) h2
    rw [hr1]
    dsimp only
    have hset := refDecrement_set hr1
    have hc1 := Core.delete he (st := { st with kd := kd }) (a := x) (A := B ++ C) h1
    have hB : B <:+ x :: B := List.suffix_cons _ _
    have hpw := h3 B hB
    refine ⟨⟨h0, kd, _, leak', h1, h3 _ (List.suffix_refl _), fun _ => h2, h4⟩,
      ⟨h0, _, _, _, hc1, hpw, fun _ => RefsOk.surplus h2, h4⟩, ?_⟩
    have hr2' : RefsOk (st.refs.set x.val.payloadDigest (putU64 (UInt64.ofNat (refsTo (B ++ C) x.val.payloadDigest + leak' x.val.payloadDigest)).toNat))
        (B ++ C) leak' := by rw [← hset]; exact hr2
    have hdur : During env sf A leak new st0 false (applyWrite (applyWrite st (.entryDelete (encodeKey env.p (x.entry env.namespaceId).position)))
        (.refSet x.val.payloadDigest (putU64 (UInt64.ofNat (refsTo (B ++ C) x.val.payloadDigest + leak' x.val.payloadDigest)).toNat))) :=
      ⟨h0, _, _, leak', hc1, hpw, fun _ => hr2', h4⟩
    have hbound' : (∀ d, refsTo A d + leak d + 1 < 2 ^ 64) → ∀ d, refsTo (B ++ C) d + leak' d < 2 ^ 64 := by
      intro hb d
      have := hbound hb d
      rw [List.cons_append, refsTo_cons] at this
      omega
    have hsafe : UInt64.ofNat (refsTo (B ++ C) x.val.payloadDigest + leak' x.val.payloadDigest) = 0 →
        (∀ d, refsTo A d + leak d + 1 < 2 ^ 64) → ∀ name, Protected env sf A new name → env.fileKey x.val.payloadDigest ≠ name := by
      intro hz hb name hn hc
      obtain ⟨a, ha, hda, hna, huniq⟩ := hn.owner
      have hxa := huniq x (hBA x List.mem_cons_self) hc
      have := refsTo_pos (List.mem_append_right B (hkeep a ha hda))
      have hz' := ofNat_eq_zero (hbound' hb _) hz
      rw [hxa] at hz'
      omega
    refine Throughout.append (fun _ => During.weaken) _ _ _ _ ?_ ?_ (fun _ => hdur)
    · split
      · rename_i hz
        exact throughout_erase hdur hdur _ (hsafe hz)
      · exact hdur
    · generalize hs : applyWrites _ (if UInt64.ofNat (refsTo (B ++ C) x.val.payloadDigest + leak' x.val.payloadDigest) = 0 then
        eraseWrites env x.val.payloadDigest else []) = s
      have hsr : s.kv = st.kv.delete (encodeKey env.p x.pos) ∧ s.refs = refs' ∧ s.partials = st.partials ∧
          s.files = (if UInt64.ofNat (refsTo (B ++ C) x.val.payloadDigest + leak' x.val.payloadDigest) = 0 then
            payloadErase env st.files x.val.payloadDigest else st.files) := by
        subst hs
        split
        · rw [applyWrites_erase]; exact ⟨rfl, hset.symm, rfl, rfl⟩
        · exact ⟨rfl, hset.symm, rfl, rfl⟩
      obtain ⟨hs1, hs2, hs3, hs4⟩ := hsr
      rw [← hs2]
      refine throughout_prune he C leak' B s _ _ (by rw [hs1]; exact hc1) (by rw [hs2]; exact hr2) (hs3.trans h0)
        (fun B' hB' => h3 B' (hB'.trans hB)) (fun y hy => hBA y (List.mem_cons_of_mem _ hy)) hkeep hbound' ?_
      intro hb name hn
      rw [← h4 hb name hn, hs4]
      split
      · rename_i hz
        exact payloadErase_get env _ _ _ (hsafe hz hb name hn)
      · rfl

/-! ### Inserting -/

theorem throughout_insert {env : StoreEnv} {sf : Option Bytes} (he : EnvOk env) {A A1 : List Item} {leak leak1 : Bytes → Nat} {st0 st : StoreState}
    (b : Bool) (e : Entry) (token : Bytes) (hf : Fine env.p (newItem env e token))
    (h : Abs env st A1 leak1) (h0 : st.partials = st0.partials)
    (hn : ∀ x ∈ A1, Apart (newItem env e token) x) (hsub : ∀ x ∈ A1, x ∈ A)
    (hkeep : ∀ a ∈ A, ¬ Displaces (newItem env e token).pos a.pos → a ∈ A1)
    (hprune : ∀ a ∈ A, Prunes (newItem env e token).pos a.pos → a ∈ A1)
    (hle : ∀ d, refsTo A1 d + leak1 d ≤ refsTo A d + leak d)
    (hfiles : (∀ d, refsTo A d + leak d + 1 < 2 ^ 64) → ∀ name, Protected env sf A (newItem env e token) name →
      st.files.get name = st0.files.get name) :
    Throughout (During env sf A leak (newItem env e token) st0) b st (insertWrites env st e token) := by
  have hpw1 : PartWay A A1 (newItem env e token) :=
    ⟨hkeep, fun a ha => .inr (hsub a ha), fun a ha hp hna => absurd (hprune a ha hp) hna, OnePerPath.of_apart h.core.apart⟩
  have hdur : ∀ b, During env sf A leak (newItem env e token) st0 b st :=
    fun b => ⟨h0, st.kd, A1, leak1, h.core, hpw1, fun _ => h.refs, hfiles⟩
  have htok : (∀ d, refsTo A d + leak d + 1 < 2 ^ 64) → ∀ name, Protected env sf A (newItem env e token) name →
      env.fileKey (env.hash (env.tokenEncode token)) ≠ name := fun _ name hp hc => hp.token hc.symm
  unfold insertWrites
  have hauth : (payloadSet env st.files (env.tokenEncode token)).2.1 = env.hash (env.tokenEncode token) := rfl
  dsimp only
  rw [hauth]
  refine Throughout.append (fun _ => During.weaken) _ _ _ _ (throughout_payload (hdur b) (hdur false) _ htok) ?_ (fun _ => hdur b)
  rw [applyWrites_payload]
  have hfiles' : (∀ d, refsTo A d + leak d + 1 < 2 ^ 64) → ∀ name, Protected env sf A (newItem env e token) name →
      (payloadSet env st.files (env.tokenEncode token)).1.get name = st0.files.get name := by
    intro hb name hp
    rw [payloadSet_get_ne env st.files _ _ (fun hc => htok hb name hp hc.symm)]
    exact hfiles hb name hp
  refine ⟨⟨h0, st.kd, A1, leak1, h.core, hpw1, fun _ => h.refs, hfiles'⟩, ?_⟩
  unfold entryInsert
  dsimp only
  have hadd : kdAdd st.kd ⟨e.position, []⟩ = some (st.kd ++ [⟨e.position, []⟩]) := by
    unfold kdAdd
    rw [if_neg]
    simp only [List.any_eq_true, decide_eq_true_eq, not_exists, not_and]
    intro k hk hkp
    obtain ⟨a, ha, hak⟩ := h.core.mem_kd hk
    exact (hn a ha).ne (hak.trans hkp).symm
  rw [hadd]
  dsimp only
  have hcore := h.core.insert he (newItem env e token) [] hf hn
  obtain ⟨n, refs', hr1, hr2⟩ := h.refs.increment (newItem env e token)
  have hdig : (newItem env e token).val.payloadDigest = e.payloadDigest := rfl
  rw [hdig] at hr1
  rw [hr1]
  dsimp only
  have hset := refIncrement_set hr1
  have hcomf : Comfortable env.p e.position.path := hf.path
  rw [corruptKey_comfortable hcomf]
  obtain ⟨B, hb1, hb2⟩ := prunableEntries_ok (st := { st with
    kv := st.kv.set (encodeKey env.p e.position) (encodeValues ⟨e.payloadLength, e.payloadDigest, env.hash (env.tokenEncode token)⟩),
    kd := st.kd ++ [⟨e.position, []⟩], refs := refs', files := (payloadSet env st.files (env.tokenEncode token)).1 }) hcore e.position hcomf
  rw [hb1]
  dsimp only
  have hself : decide (Prunes e.position (newItem env e token).pos) = false := by
    rw [decide_eq_false_iff_not]
    rintro ⟨_, _, h3, _⟩
    exact h3 rfl
  rw [List.filter_cons_of_neg (by rw [hself]; simp)] at hb2
  have hsplit : (newItem env e token :: A1).Perm (B ++ (newItem env e token :: A1.filter fun a => !decide (Prunes e.position a.pos))) := by
    refine ((filter_not_perm (fun a => decide (Prunes e.position a.pos)) A1).cons _).trans ?_
    refine List.perm_middle.symm.trans ?_
    exact hb2.symm.append_right _
  have hpw2 : PartWay A (newItem env e token :: A1) (newItem env e token) :=
    ⟨fun a ha hd => List.mem_cons_of_mem _ (hkeep a ha hd), fun a ha => (List.mem_cons.1 ha).imp_right (hsub a),
      fun _ _ _ _ => List.mem_cons_self, OnePerPath.of_apart hcore.apart⟩
  have hBA : ∀ x ∈ B, x ∈ A1 := fun x hx => (List.mem_filter.1 (hb2.mem_iff.1 hx)).1
  have hkeep2 : ∀ a ∈ A, ¬ Displaces (newItem env e token).pos a.pos →
      a ∈ newItem env e token :: A1.filter fun a => !decide (Prunes e.position a.pos) := by
    intro a ha hd
    refine List.mem_cons_of_mem _ (List.mem_filter.2 ⟨hkeep a ha hd, ?_⟩)
    rw [Bool.not_eq_true', decide_eq_false_iff_not]
    exact fun hp => hd (.inr hp)
  refine ⟨⟨h0, _, _, leak1, hcore, hpw2, (fun hc => by cases hc), hfiles'⟩, ?_⟩
  have hgo := throughout_prune he (A := A) (leak := leak) (new := newItem env e token) (st0 := st0)
    (newItem env e token :: A1.filter fun a => !decide (Prunes e.position a.pos)) leak1 B
    { st with
      kv := st.kv.set (encodeKey env.p e.position) (encodeValues ⟨e.payloadLength, e.payloadDigest, env.hash (env.tokenEncode token)⟩),
      refs := refs', files := (payloadSet env st.files (env.tokenEncode token)).1 }
    _ false (hcore.perm hsplit) (hr2.perm hsplit) h0
    (fun B' hB' => ⟨fun a ha hd => List.mem_append_right _ (hkeep2 a ha hd), fun a ha => ?_,
      fun _ _ _ _ => List.mem_append_right _ List.mem_cons_self, OnePerPath.of_apart ?_⟩)
    (fun x hx => hsub x (hBA x hx)) hkeep2 ?_ hfiles'
  · rw [hset] at hgo
    rw [hset]
    exact hgo
  · rcases List.mem_append.1 ha with ha | ha
    · exact .inr (hsub a (hBA a (hB'.subset ha)))
    · rcases List.mem_cons.1 ha with rfl | ha
      · exact .inl rfl
      · exact .inr (hsub a (List.mem_filter.1 ha).1)
  · exact ((hcore.perm hsplit).apart).sublist (hB'.sublist.append_right _)
  · intro hb d
    rw [← refsTo_perm hsplit d, refsTo_cons]
    have h1 := hb d
    have h2 := hle d
    split <;> omega

/-! ### The whole ingest -/

theorem ingestWrites_refused {env : StoreEnv} {st : StoreState} {A : List Item} (h : Core env.p st.kv st.kd A)
    (e : Entry) (token : Bytes) (hc : Comfortable env.p e.path)
    (hno : ¬ (env.nsEqual env.namespaceId e.namespaceId = true ∧ env.isAuthorised e token = true ∧ Accepts A e.position)) :
    ingestWrites env st e token = [] := by
  unfold ingestWrites
  dsimp only
  split
  · rfl
  split
  · rfl
  · rename_i h1
    split
    · rfl
    · rename_i h2
      have hno : ¬ Accepts A e.position := fun ha => hno ⟨by simpa using h1, by simpa using h2, ha⟩
      obtain ⟨ks, hk1, hk2⟩ := h.olderPrefix (s := e.subspaceId) hc e.timestamp
      rw [hk1]
      dsimp only
      split
      · rfl
      · rename_i h3
        rw [hk2] at h3
        rcases not_accepts.1 hno with h4 | ⟨a, ha, hs, hq, ht⟩
        · exact absurd h4 h3
        · have hh : Core env.p ({ st with locked := true } : StoreState).kv ({ st with locked := true } : StoreState).kd A := h
          rcases hh.entryGet e.subspaceId e.path hc.valid (.inr hc) with ⟨_, h5⟩ | ⟨b, hb, hbs, hbq, h5⟩
          · exact absurd ⟨hs, hq⟩ (h5 a ha)
          · rw [h5]
            dsimp only
            have hba : b = a := apart_unique h.apart hb ha (hbs.trans hs.symm) (hbq.trans hq.symm)
            subst hba
            have hbe : (b.entry env.namespaceId).path = e.path := hbq
            rw [if_pos ((decides_path.eq_iff _ _).2 hbe), if_pos]
            exact ht

theorem throughout_replace {env : StoreEnv} {sf : Option Bytes} (he : EnvOk env) {A A0 : List Item} {leak : Bytes → Nat} {st0 st : StoreState} {o : Item}
    (e : Entry) (token : Bytes) (h : Abs env st A leak) (hA0 : A.Perm (o :: A0)) (hos : o.pos.subspace = e.subspaceId)
    (hop : o.pos.path = e.path) (h0 : st.partials = st0.partials)
    (hfiles : (∀ d, refsTo A d + leak d + 1 < 2 ^ 64) → ∀ name, Protected env sf A (newItem env e token) name →
      st.files.get name = st0.files.get name) :
    Throughout (During env sf A leak (newItem env e token) st0) false st
      (replaceWrites env st (o.entry env.namespaceId) o.val.authDigest e) := by
  have h' : Abs env st (o :: A0) leak := h.perm hA0
  have hcore := Core.delete he h'.core
  have hoA : o ∈ A := hA0.mem_iff.2 List.mem_cons_self
  have hdo : Displaces (newItem env e token).pos o.pos := .inl ⟨hos, hop⟩
  have hA0A : ∀ x ∈ A0, x ∈ A := fun x hx => hA0.mem_iff.2 (List.mem_cons_of_mem _ hx)
  have hA0' : ∀ x ∈ A, x ≠ o → x ∈ A0 := fun x hx hne => (List.mem_cons.1 (hA0.mem_iff.1 hx)).resolve_left hne
  have hpw : PartWay A A (newItem env e token) :=
    ⟨fun _ h _ => h, fun _ h => .inr h, fun _ h _ hc => absurd h hc, OnePerPath.of_apart h.core.apart⟩
  have hpw0 : PartWay A A0 (newItem env e token) :=
    ⟨fun a ha hd => hA0' a ha fun hc => hd (hc ▸ hdo), fun a ha => .inr (hA0A a ha),
      fun a ha hp hna => absurd (hA0' a ha fun hc => hp.2.2.1 (by rw [hc]; exact hop)) hna, OnePerPath.of_apart hcore.apart⟩
  unfold replaceWrites
  have hdig : (o.entry env.namespaceId).payloadDigest = o.val.payloadDigest := rfl
  rw [hdig]
  refine ⟨⟨h0, st.kd, A, leak, h.core, hpw, fun _ => h.refs, hfiles⟩, ?_⟩
  have hs1 : During env sf A leak (newItem env e token) st0 false (applyWrite st (.entryDelete (encodeKey env.p (o.entry env.namespaceId).position))) :=
    ⟨h0, _, A0, _, hcore, hpw0, fun _ => RefsOk.surplus h'.refs, hfiles⟩
  have htok : (∀ d, refsTo A d + leak d + 1 < 2 ^ 64) → ∀ name, Protected env sf A (newItem env e token) name →
      env.fileKey o.val.authDigest ≠ name := fun _ name hp => hp.tokens o hoA hos hop
  have hfiles1 : (∀ d, refsTo A d + leak d + 1 < 2 ^ 64) → ∀ name, Protected env sf A (newItem env e token) name →
      (payloadErase env st.files o.val.authDigest).get name = st0.files.get name := by
    intro hb name hp
    rw [payloadErase_get env _ _ _ (htok hb name hp)]
    exact hfiles hb name hp
  refine Throughout.append (fun _ => During.weaken) _ _ _ _ (throughout_erase hs1 hs1 _ htok) ?_ (fun _ => hs1)
  rw [applyWrites_erase]
  have hs2 : During env sf A leak (newItem env e token) st0 false { applyWrite st (.entryDelete (encodeKey env.p (o.entry env.namespaceId).position)) with
      files := payloadErase env (applyWrite st (.entryDelete (encodeKey env.p (o.entry env.namespaceId).position))).files o.val.authDigest } :=
    ⟨h0, _, A0, _, hcore, hpw0, fun _ => RefsOk.surplus h'.refs, hfiles1⟩
  split
  · obtain ⟨refs', hr1, hr2⟩ := h'.refs.decrement
    rw [hr1]
    dsimp only
    have hset := refDecrement_set hr1
    refine ⟨hs2, ?_⟩
    have hr2' : RefsOk (st.refs.set o.val.payloadDigest (putU64 (UInt64.ofNat (refsTo A0 o.val.payloadDigest + leak o.val.payloadDigest)).toNat))
        A0 leak := by rw [← hset]; exact hr2
    have hs3 : During env sf A leak (newItem env e token) st0 false (applyWrite { applyWrite st (.entryDelete (encodeKey env.p (o.entry env.namespaceId).position)) with
        files := payloadErase env (applyWrite st (.entryDelete (encodeKey env.p (o.entry env.namespaceId).position))).files o.val.authDigest }
        (.refSet o.val.payloadDigest (putU64 (UInt64.ofNat (refsTo A0 o.val.payloadDigest + leak o.val.payloadDigest)).toNat))) :=
      ⟨h0, _, A0, leak, hcore, hpw0, fun _ => hr2', hfiles1⟩
    split
    · rename_i hz
      refine throughout_erase hs3 hs3 _ fun hb name hn hc => ?_
      obtain ⟨a, ha, hda, hna, huniq⟩ := hn.owner
      have hxa := huniq o hoA hc
      have := refsTo_pos (hA0' a ha fun hc => hda (hc ▸ hdo))
      have hlt : refsTo A0 o.val.payloadDigest + leak o.val.payloadDigest < 2 ^ 64 := by
        have := hb o.val.payloadDigest
        rw [refsTo_perm hA0, refsTo_cons, if_pos rfl] at this
        omega
      have hz' := ofNat_eq_zero hlt hz
      rw [hxa] at hz'
      omega
    · exact hs3
  · exact hs2

theorem throughout_ingest {env : StoreEnv} {sf : Option Bytes} (he : EnvOk env) {A : List Item} {leak : Bytes → Nat} {st : StoreState} (st0 : StoreState)
    (h : Abs env st A leak) (hl : st.locked = false) (e : Entry) (token : Bytes) (hc : Comfortable env.p e.path)
    (hd : e.payloadDigest.length < 2 ^ 64) (hacc : Acceptable env A e token) (h0 : st.partials = st0.partials)
    (hfiles : (∀ d, refsTo A d + leak d + 1 < 2 ^ 64) → ∀ name, Protected env sf A (newItem env e token) name →
      st.files.get name = st0.files.get name) :
    Throughout (During env sf A leak (newItem env e token) st0) false st (ingestWrites env st e token) := by
  obtain ⟨hns, hauth, hacc⟩ := hacc
  have hfine : Fine env.p (newItem env e token) := ⟨hc, hd, he.hash _⟩
  have hnacc := mt not_accepts.2 (Classical.not_not.2 hacc)
  rw [not_or] at hnacc
  have hheld : Abs env { st with locked := true } A leak := ⟨h.core, h.refs⟩
  have hgen : ∀ ws : List DiskWrite, Throughout (During env sf A leak (newItem env e token) st0) false { st with locked := true } ws →
      Throughout (During env sf A leak (newItem env e token) st0) false st ws := by
    exact fun ws => Throughout.same ws false _ _ ⟨rfl, rfl, rfl, rfl⟩
  unfold ingestWrites
  rw [if_neg (by simp [hl])]
  dsimp only
  rw [if_neg (by simp [hns]), if_neg (by simp [hauth])]
  obtain ⟨ks, hk1, hk2⟩ := h.core.olderPrefix (s := e.subspaceId) hc e.timestamp
  rw [hk1]
  dsimp only
  rw [if_neg (fun hc' => hnacc.1 (hk2.1 hc'))]
  rcases hheld.core.entryGet e.subspaceId e.path hc.valid (.inr hc) with ⟨h5, h6⟩ | ⟨o, ho, hos, hop, h5⟩
  · rw [h5]
    dsimp only
    exact hgen _ (throughout_insert he false e token hfine hheld h0 (fun x hx hxe => h6 x hx ⟨hxe.1.symm, hxe.2.symm⟩)
      (fun _ hx => hx) (fun _ ha _ => ha) (fun _ ha _ => ha) (fun _ => Nat.le_refl _) hfiles)
  · rw [h5]
    dsimp only
    have hopath : (o.entry env.namespaceId).path = e.path := hop
    have hotime : ¬ (o.entry env.namespaceId).timestamp ≥ e.timestamp := fun hc' => hnacc.2 ⟨o, ho, hos, hop, hc'⟩
    rw [if_pos ((decides_path.eq_iff _ _).2 hopath), if_neg hotime]
    obtain ⟨A0, hA0⟩ : ∃ A0, A.Perm (o :: A0) := ⟨A.erase o, List.perm_cons_erase ho⟩
    have habs0 : Abs env { st with locked := true } (o :: A0) leak := hheld.perm hA0
    obtain ⟨hap1, hap2⟩ := List.pairwise_cons.1 habs0.core.apart
    obtain ⟨st1, r1, r2, r3, r4, r5⟩ := replaceOther_ok he habs0 e
    rw [r1]
    dsimp only
    have hapart : ∀ x ∈ A0, Apart (newItem env e token) x := fun x hx hxe =>
      hap1 x hx ⟨hos.trans hxe.1, hop.trans hxe.2⟩
    have hdo : Displaces (newItem env e token).pos o.pos := .inl ⟨hos, hop⟩
    have hA0' : ∀ x ∈ A, x ≠ o → x ∈ A0 := fun x hx hne => (List.mem_cons.1 (hA0.mem_iff.1 hx)).resolve_left hne
    have hrep := throughout_replace he (st0 := st0) e token hheld hA0 hos hop h0 hfiles
    have hall := replaceWrites_all env _ st1 _ _ e _ r1
    refine hgen _ (Throughout.append (fun _ => During.weaken) _ _ _ _ hrep ?_ (fun _ => hrep.start))
    have hins := throughout_insert he (A := A) (leak := leak) (st0 := st0) false e token hfine r2 (r4.trans h0) hapart
      (fun x hx => hA0.mem_iff.2 (List.mem_cons_of_mem _ hx))
      (fun a ha hda => hA0' a ha fun hc => hda (hc ▸ hdo))
      (fun a ha hp => hA0' a ha fun hc => hp.2.2.1 (by rw [hc]; exact hop))
      (fun d => by
        rw [refsTo_perm hA0, refsTo_cons]
        grind)
      (fun hb name hn => by
        have h7 := (Throughout.take _ _ _ (replaceWrites env { st with locked := true } (o.entry env.namespaceId) o.val.authDigest e).length hrep)
        rw [List.take_length] at h7
        obtain ⟨b', ⟨_, _, _, _, _, _, _, h8⟩, _⟩ := h7
        rw [← hall.files]
        exact h8 hb name hn)
    exact Throughout.same _ _ _ _ hall.symm hins

end Willow
